{"id": "C01", "title": "M1 wire round trip", "statement": "An M1Packet built through the API with any 32-bit time, any 32-byte client encryption key and an optional 32-byte server signing key serialises to exactly 'SCv2',1,flag,time(LE32),key[,server key] and parsing those bytes yields the same time, keys and flag.", "quantifier": "all times < 2^32, all 32-byte keys, with and without a server key", "why_tests_cant": "Round trip is over 2^544 field values; tests use two dumps.", "anchors": ["saltchannel/v2/packets.py:M1Packet", "saltchannel/util/packets.py:Packet.from_bytes"]}
{"id": "C02", "title": "M2 wire round trip, NoSuchServer implies LastFlag", "statement": "An M2Packet serialises to 2,flags,time(LE32),server key (38 bytes) and parses back to the same fields; whenever NoSuchServer is set the serialised form has LastFlag set, otherwise LastFlag is as the caller left it.", "quantifier": "all times, keys, and both flag settings", "why_tests_cant": "All field values, all flag combinations.", "anchors": ["saltchannel/v2/packets.py:M2Packet.__bytes__"]}
{"id": "C03", "title": "M3 and M4 wire round trip", "statement": "M3Packet/M4Packet with any 32-bit time, 32-byte key and 64-byte signature serialise to 102 bytes type,0,time(LE32),key,signature and parse back to the same fields.", "quantifier": "all times, keys, signatures", "why_tests_cant": "All field values.", "anchors": ["saltchannel/v2/packets.py:M3Packet", "saltchannel/v2/packets.py:M4Packet"]}
{"id": "C04", "title": "EncryptedPacket round trip and acceptance", "statement": "EncryptedPacket(bytes) accepts a non-empty byte string exactly when it is at least 18 bytes long and its first byte is 6; it then yields the body (everything after byte 2) and the last flag (bit 7 of byte 1). Wrapping any body of at least 16 bytes and unwrapping it gives the same body and flag. Every other non-empty input raises BadPeer.", "quantifier": "all byte strings; all bodies; both flags", "why_tests_cant": "Inputs of unbounded length.", "anchors": ["saltchannel/v2/packets.py:EncryptedPacket", "saltchannel/v2/encrypted_channel_v2.py:wrap", "saltchannel/v2/encrypted_channel_v2.py:unwrap"]}
{"id": "C05", "title": "AppPacket round trip", "statement": "For every payload (including empty) and 32-bit time, an AppPacket serialises to 5,0,time(LE32),payload and parses back to the same time and payload.", "quantifier": "all payloads of any length, all times", "why_tests_cant": "Unbounded payloads.", "anchors": ["saltchannel/v2/packets.py:AppPacket"]}
{"id": "C06", "title": "MultiAppPacket round trip", "statement": "For every list of 1 to 65535 messages each at most 65535 bytes, a MultiAppPacket serialises to 11,0,time(LE32),count(LE16),(len(LE16),bytes)* and parses back to exactly the same messages in order.", "quantifier": "all message lists within the limits", "why_tests_cant": "Unbounded product space of lists.", "anchors": ["saltchannel/v2/packets.py:MultiAppPacket"]}
{"id": "C07", "title": "MultiAppPacket acceptance", "statement": "MultiAppPacket accepts only byte strings holding Count complete length-prefixed messages. (The code violates this: a last message shorter than its length prefix is accepted truncated and trailing bytes are ignored; the exact accepted language is proved instead.)", "quantifier": "all byte strings", "why_tests_cant": "Acceptance over all inputs.", "anchors": ["saltchannel/v2/packets.py:MultiAppPacket.from_bytes", "saltchannel/v2/packets.py:_MultiAppPacketBodyOpt.from_bytes"]}
{"id": "C08", "title": "A1 acceptance set", "statement": "A1Packet accepts a byte string of length at least 5 exactly when it is 8,x,0,0,0 or 8,x,1,32,0 followed by exactly 32 bytes (x any byte), and then the parsed address type and address are those; every other such input raises BadPeer.", "quantifier": "all byte strings of length >= 5", "why_tests_cant": "Acceptance over all inputs.", "anchors": ["saltchannel/a1a2/packets.py:A1Packet.validate"]}
{"id": "C09", "title": "A2 acceptance set", "statement": "A2Packet accepts a byte string of length at least 3 only if type is 9, LastFlag set, Count in 0..127, Count (P1,P2) pairs of 10 bytes are present (fewer than 20 bytes after the last pair are ignored), NoSuchServer implies Count = 0, and every P string matches the protocol-name pattern; every other decodable input raises BadPeer; and every A2 built from valid pairs round-trips. A2Packet(case=A2_NO_SUCH_SERVER) is the A2 that says NoSuchServer and lists nothing, A2Packet(case=A2_DEFAUT) the one with the single pair SCv2------, ----------.", "quantifier": "all byte strings, all lists of up to 127 pairs", "why_tests_cant": "Acceptance over all inputs.", "anchors": ["saltchannel/a1a2/packets.py:A2Packet.validate", "saltchannel/a1a2/packets.py:_A2Prot.validate", "saltchannel/a1a2/packets.py:A2Packet.__init__"]}
{"id": "C10", "title": "Packet types are never confused", "statement": "No non-empty byte string is accepted by two different packet classes among M2, M3, M4, Encrypted, App, MultiApp, A1, A2 (M1 carries its type at a different offset: an M1 that is complete enough to carry its indicator is never accepted as any of these).", "quantifier": "all byte strings, all pairs of classes", "why_tests_cant": "Requires ranging over all inputs.", "anchors": ["saltchannel/util/packets.py:Packet.validate", "saltchannel/util/packets.py:PacketType"]}
{"id": "C11", "title": "Fixed-size packets are accepted only when complete", "statement": "Parsing M1/M2/M3/M4 from fewer bytes than the fixed size is rejected. (Violated: missing bytes are silently taken from the fresh packet, i.e. zero keys; the exact accepted set is proved and the zero-filled value characterised.)", "quantifier": "all byte strings shorter than the packet", "why_tests_cant": "All truncations of all packets.", "anchors": ["saltchannel/util/packets.py:SmartStructure.from_bytes"]}
{"id": "C12", "title": "Malformed input surfaces as BadPeer", "statement": "For each packet class, the exceptions that construction from an arbitrary byte string can raise. BadPeer is the documented one; M1..M4, Encrypted and App packets raise nothing else, MultiApp can raise ValueError, A1 ValueError (short input), A2 ValueError (short) or UnicodeDecodeError.", "quantifier": "all byte strings", "why_tests_cant": "Exhaustive exception behaviour.", "anchors": ["saltchannel/v2/packets.py", "saltchannel/a1a2/packets.py", "saltchannel/util/packets.py"]}
{"id": "C13", "title": "size equals serialised length", "statement": "For every packet object reachable by construction, field assignment or parsing, .size equals len(bytes(packet)).", "quantifier": "all reachable packet objects", "why_tests_cant": "All object states.", "anchors": ["saltchannel/util/packets.py:Packet.size", "saltchannel/v2/packets.py:M1Packet.size"]}
{"id": "C14", "title": "Re-serialisation is the identity", "statement": "For every accepted byte string of the exact packet length, bytes(parse(x)) == x, including reserved bits (M2 with NoSuchServer but no LastFlag gets LastFlag set, the only exception).", "quantifier": "all accepted byte strings", "why_tests_cant": "All inputs, including reserved bits.", "anchors": ["saltchannel/util/packets.py:Packet.__bytes__", "saltchannel/v2/packets.py:M2Packet.__bytes__"]}
{"id": "C15", "title": "Socket framing is independent of TCP segmentation", "statement": "Whatever list of messages (each < 2^31 bytes) one side writes with write_sync/write, and however the transport splits the byte stream into recv chunks, the other side's read_sync calls return exactly those messages in order.", "quantifier": "all message lists, all groupings into write calls, all recv segmentations", "why_tests_cant": "Segmentations are unbounded and timing dependent.", "anchors": ["saltchannel/channel.py:SocketChannel"]}
{"id": "C16", "title": "Socket reads never return partial messages and only raise ComException", "statement": "For any byte stream and any segmentation, ending in EOF at any point, read_sync either returns a message exactly as long as its length prefix or raises ComException; it never returns a truncated message, never raises another exception. Negative lengths raise ComException.", "quantifier": "all byte streams, segmentations and EOF points", "why_tests_cant": "All crash points of the peer.", "anchors": ["saltchannel/channel.py:SocketChannel.read_sync", "saltchannel/channel.py:SocketChannel.recvall"]}
{"id": "C17", "title": "Framing is unambiguous", "statement": "Two different message sequences (each message < 2^31 bytes) never produce the same byte stream, and one write of several messages produces the same bytes as successive writes; a message of 2^31 bytes or more raises ComException and sends nothing.", "quantifier": "all message sequences", "why_tests_cant": "Injectivity over all lists.", "anchors": ["saltchannel/channel.py:SocketChannel.write_sync"]}
{"id": "C18", "title": "Asyncio streams and sockets interoperate", "statement": "AsyncioChannel/SaltChannelStreamWriter produce the same byte stream as SocketChannel for the same messages and the stream reader returns the written messages for any segmentation.", "quantifier": "all message lists, all segmentations", "why_tests_cant": "Timing dependent.", "anchors": ["saltchannel/channel.py:AsyncioChannel", "saltchannel/dev/client_server_a.py:SaltChannelStreamReader.read_msg"]}
{"id": "C19", "title": "No nonce is ever used twice in a session", "statement": "In any session, over every interleaving of writes by client and server (including the M3/M4 handshake messages), all encryptions performed by both sides under the session key use pairwise distinct 24-byte nonces.", "quantifier": "all sequences of operations by both sides, any length", "why_tests_cant": "Nonce misuse depends on unbounded histories.", "anchors": ["saltchannel/v2/encrypted_channel_v2.py:Nonce", "saltchannel/v2/encrypted_channel_v2.py:EncryptedChannelV2.write", "saltchannel/v2/salt_server_session.py:do_m3"]}
{"id": "C20", "title": "Nonce encoding never wraps", "statement": "The nonce is the 8-byte little-endian counter, the 8-byte session nonce and 8 zero bytes (24 bytes); distinct counters below 2^64 give distinct nonces; at 2^64 encryption raises (OverflowError) instead of reusing a nonce.", "quantifier": "all counters", "why_tests_cant": "2^64 counters.", "anchors": ["saltchannel/v2/encrypted_channel_v2.py:Nonce.__bytes__", "saltchannel/v2/encrypted_channel_v2.py:Nonce.advance"]}
{"id": "C21", "title": "Encrypted channel delivers in order in both directions", "statement": "For a client and a server encrypted channel sharing a key over reliable FIFO links, for every interleaving of write and read calls of both sides, each read returns exactly the next message the peer wrote (no loss, duplication, reordering or alteration) and the pair behaves like two FIFO queues.", "quantifier": "all interleavings and message contents", "why_tests_cant": "Unbounded interleavings.", "anchors": ["saltchannel/v2/encrypted_channel_v2.py"]}
{"id": "C22", "title": "Adversarial network: received is a prefix of sent", "statement": "If ciphertexts that open under the session key are only those produced by the two endpoints (ciphertext integrity), then whatever bytes the network delivers (drop, replay, reorder, reflect, inject, truncate), the sequence of messages successfully read by one side is a prefix of the sequence written by the other.", "quantifier": "all delivered byte sequences, all interleavings", "why_tests_cant": "Adversarial behaviour cannot be enumerated.", "anchors": ["saltchannel/v2/encrypted_channel_v2.py:EncryptedChannelV2.read", "saltchannel/v2/encrypted_channel_v2.py:decrypt"]}
{"id": "C23", "title": "A rejected packet leaves the channel usable", "statement": "A read that raises leaves the read counter unchanged, so after any number of rejected injected packets the next authentic packet is still accepted and returned.", "quantifier": "all sequences of rejected packets", "why_tests_cant": "Unbounded injections.", "anchors": ["saltchannel/v2/encrypted_channel_v2.py:EncryptedChannelV2.read"]}
{"id": "C24", "title": "Last flag marks exactly the last message of a closing write", "statement": "When write(m1..mn, is_last=b) is called, the last-flag bit on the wire is set on the n-th packet iff b and on no other packet; after the peer reads a packet, its last indication equals that packet's bit.", "quantifier": "all message lists, both flags", "why_tests_cant": "All lists.", "anchors": ["saltchannel/v2/encrypted_channel_v2.py:EncryptedChannelV2.write", "saltchannel/v2/encrypted_channel_v2.py:unwrap", "saltchannel/v2/app_channel_v2.py:last"]}
{"id": "C25", "title": "The last flag is authentic", "statement": "A reader sees last=True only if the peer set it. (Violated: the flag is outside the authenticated ciphertext; a network attacker can set or clear it on any packet and the read still succeeds.)", "quantifier": "all packets", "why_tests_cant": "Adversarial.", "anchors": ["saltchannel/v2/encrypted_channel_v2.py:unwrap"]}
{"id": "C26", "title": "Accepted packets are bound to key, position and content", "statement": "If read returns message m from packet p, then p's body is exactly the encryption of m under the session key and the nonce of the current read position, and reading costs exactly one packet; a message of n bytes travels in a packet of n+18 bytes.", "quantifier": "all states, packets and messages", "why_tests_cant": "All states and inputs.", "anchors": ["saltchannel/v2/encrypted_channel_v2.py"]}
{"id": "C27", "title": "App channel is a FIFO of messages", "statement": "For every sequence of write calls (any grouping of at most 65535 messages per call, any sizes), successive read calls of the peer return exactly the flattened sequence of messages in order, one per call, whether they travelled as AppPacket or MultiAppPacket.", "quantifier": "all sequences of write calls", "why_tests_cant": "Unbounded sequences.", "anchors": ["saltchannel/v2/app_channel_v2.py"]}
{"id": "C28", "title": "When multi packets are used", "statement": "A write call sends one MultiAppPacket iff it carries at least two messages all of length at most 65535; otherwise one AppPacket per message.", "quantifier": "all message lists", "why_tests_cant": "All lists.", "anchors": ["saltchannel/v2/packets.py:MultiAppPacket.should_use", "saltchannel/v2/app_channel_v2.py:write"]}
{"id": "C29", "title": "Every message passed to write is delivered or the call fails", "statement": "(Violated for 65536 or more short messages in one call: the 16-bit count wraps; with 65537 messages the peer reads one message and the other 65536 are lost without any error.) Proved up to 65535 messages per call.", "quantifier": "all message lists", "why_tests_cant": "Needs lists beyond any practical test size.", "anchors": ["saltchannel/v2/app_channel_v2.py:write", "saltchannel/v2/packets.py:MultiAppPacket"]}
{"id": "C30", "title": "A buffered M4 is sent exactly once and first", "statement": "When M4 is buffered, it is sent in the first application write, as the packet preceding the application data and in the same channel write, stamped with that write's time, and never again.", "quantifier": "all sequences of writes", "why_tests_cant": "All histories.", "anchors": ["saltchannel/v2/app_channel_v2.py:write", "saltchannel/v2/salt_client_session.py:do_m4"]}
{"id": "C31", "title": "Queued messages are served before the network", "statement": "After a MultiAppPacket of n messages was read, the next n-1 reads return the remaining ones in order without touching the underlying channel.", "quantifier": "all n, all messages", "why_tests_cant": "All n.", "anchors": ["saltchannel/v2/app_channel_v2.py:read"]}
{"id": "C32", "title": "A failed app read does not disturb state", "statement": "If an app read raises, messages already queued are unchanged, and no message is partially delivered: later reads behave as if the failed packet had never been queued.", "quantifier": "all states and inputs", "why_tests_cant": "All histories.", "anchors": ["saltchannel/v2/app_channel_v2.py:read"]}
{"id": "C33", "title": "Honest handshake completes and agrees", "statement": "Over a reliable FIFO link, for all key pairs, time keepers producing valid first times, and both settings of M2 and M4 buffering, and for every schedule of the two parties, the handshake terminates, both sides derive the same session key, the client learns the server's signing key and the server the client's, and both hash the same M1 and M2.", "quantifier": "all keys, times, buffering flags, schedules", "why_tests_cant": "All schedules and keys.", "anchors": ["saltchannel/v2/salt_client_session.py:handshake", "saltchannel/v2/salt_server_session.py:handshake"]}
{"id": "C34", "title": "Client completion implies server authentication check", "statement": "Whatever the network delivers, if the client handshake returns normally then the M3 it decrypted carried a signature accepted under the reported server key over 'SC-SIG01' + SHA512(M1 sent) + SHA512(M2 received).", "quantifier": "all network inputs", "why_tests_cant": "Adversarial inputs.", "anchors": ["saltchannel/v2/salt_client_session.py:validate_signature1"]}
{"id": "C35", "title": "Server completion implies client authentication check", "statement": "Whatever the network delivers, if the server handshake returns normally (not the A1/A2 path) then the decrypted M4 carried a signature accepted under the reported client key over 'SC-SIG02' + SHA512(M1 received) + SHA512(M2 sent).", "quantifier": "all network inputs", "why_tests_cant": "Adversarial inputs.", "anchors": ["saltchannel/v2/salt_server_session.py:validate_signature2"]}
{"id": "C36", "title": "Matching transcripts", "statement": "If the peer's signing key only signs through this protocol and the hash does not collide on the transcripts involved, then a completed client (server) handshake implies the peer ran with exactly the same M1 and M2 bytes: any in-flight modification of M1 or M2 prevents completion.", "quantifier": "all network inputs", "why_tests_cant": "Adversarial inputs.", "anchors": ["saltchannel/v2/salt_client_session.py", "saltchannel/v2/salt_server_session.py"]}
{"id": "C37", "title": "Client and server signatures cannot be swapped", "statement": "A signature issued as Signature2 is never accepted where Signature1 is expected and vice versa, even when one signing key is used in both roles, for any handshake transcripts.", "quantifier": "all transcripts", "why_tests_cant": "All transcripts.", "anchors": ["saltchannel/v2/packets.py:SIG1_PREFIX", "saltchannel/v2/packets.py:SIG2_PREFIX"]}
{"id": "C38", "title": "Client identity is sent only after server verification", "statement": "Along every execution, the client writes nothing depending on its signing key before Signature1 has been verified; on any failure it has written only M1.", "quantifier": "all executions", "why_tests_cant": "All crash points.", "anchors": ["saltchannel/v2/salt_client_session.py:handshake"]}
{"id": "C39", "title": "Clear-text messages do not depend on signing keys", "statement": "The bytes of M1 and M2 (the only clear handshake messages of a successful run) are the same for any two signing identities.", "quantifier": "all pairs of signing key pairs, all inputs", "why_tests_cant": "Two-run property.", "anchors": ["saltchannel/v2/salt_client_session.py:do_m1", "saltchannel/v2/salt_server_session.py:do_m2"]}
{"id": "C40", "title": "NoSuchServer", "statement": "If a received M1 names a server key different from the server's, the server writes exactly one message, an M2 with NoSuchServer and LastFlag set and a zero key, and raises NoSuchServerException; a client receiving such an M2 raises NoSuchServerException; if the named key matches, or none is named, the handshake proceeds.", "quantifier": "all M1s and keys", "why_tests_cant": "All inputs.", "anchors": ["saltchannel/v2/salt_server_session.py:do_m1", "saltchannel/v2/salt_client_session.py:do_m2"]}
{"id": "C41", "title": "A1 requests are answered and end the session", "statement": "If the first message is not an M1 but a valid A1, the server writes exactly one A2 (marked last), the one injected by the application or the default one, marks the session done and never starts a handshake; if it is neither, nothing is written and an exception is raised.", "quantifier": "all first messages", "why_tests_cant": "All inputs.", "anchors": ["saltchannel/v2/salt_server_session.py:handshake", "saltchannel/v2/salt_server_session.py:do_a2"]}
{"id": "C42", "title": "A1 addressed to another key gets NoSuchServer", "statement": "A server whose first message is a valid A1 addressed to a public key other than its own answers with the A2 that says NoSuchServer, not with its protocol list. (The code violates this: the comparison of the address type is always false, so every A1 gets the injected or default A2.)", "quantifier": "all A1 addresses and server keys", "why_tests_cant": "All addresses.", "anchors": ["saltchannel/v2/salt_server_session.py:do_a2", "saltchannel/util/packets.py:Packet.__getattr__"]}
{"id": "C43", "title": "Handshake needs an encryption key pair", "statement": "Without enc_keypair the handshake raises ValueError and performs no I/O, on both sides.", "quantifier": "all sessions without key pair", "why_tests_cant": "All states.", "anchors": ["saltchannel/v2/salt_client_session.py:validate", "saltchannel/v2/salt_server_session.py:validate"]}
{"id": "C44", "title": "A client handshake returns normally only with a usable channel", "statement": "Along every execution the client handshake either raises or returns with an application channel set up under the session key; it never returns silently without one.", "quantifier": "all network inputs", "why_tests_cant": "All inputs.", "anchors": ["saltchannel/v2/salt_client_session.py:handshake", "saltchannel/v2/salt_client_session.py:do_m2"]}
{"id": "C45", "title": "Wanted server key is enforced", "statement": "A client with wanted_server_sig_key set completes only with that server. (Violated: the attribute is never read; any server with a valid signature is accepted.)", "quantifier": "all servers", "why_tests_cant": "Adversarial.", "anchors": ["saltchannel/v2/salt_client_session.py:wanted_server_sig_key"]}
{"id": "C46", "title": "First-message time must be 0 or 1", "statement": "With the default time checker a handshake whose peer's first time is neither 0 nor 1 never completes. (The documented BadPeer is not what is raised: building its message raises TypeError.)", "quantifier": "all 32-bit times", "why_tests_cant": "2^32 values in every context.", "anchors": ["saltchannel/util/time.py:NullTimeChecker", "saltchannel/v2/salt_client_session.py:do_m2", "saltchannel/v2/salt_server_session.py:do_m1"]}
{"id": "C47", "title": "End-to-end session", "statement": "After an honest handshake (any buffering flags), for every interleaving of application writes and reads on both sides over a reliable FIFO link, each side reads exactly what the other wrote, in order; both sides have the session key that the library makes from the encryption keys, the hashes of the M1 and M2 that were sent, and the signing key of the other.", "quantifier": "all interleavings, messages, keys", "why_tests_cant": "Unbounded interleavings.", "anchors": ["saltchannel/v2/salt_client_session.py", "saltchannel/v2/salt_server_session.py", "saltchannel/v2/app_channel_v2.py", "saltchannel/v2/encrypted_channel_v2.py"]}
{"id": "C48", "title": "Keys and nonces are not reused across sessions", "statement": "No two different sessions ever encrypt two different messages under the same key and nonce. (The code violates this: nothing enforces fresh encryption keys, and two sessions run with the same key pairs use the same key with the same nonces. What holds: the key and the sequence of nonces of a session are determined by the two encryption key pairs, and within one key pair choice nothing repeats.)", "quantifier": "all pairs of sessions", "why_tests_cant": "Two-run property.", "anchors": ["saltchannel/v2/salt_client_session.py:create_encrypted_channel", "saltchannel/v2/salt_server_session.py:create_encrypted_channel"]}
{"id": "C49", "title": "An empty or truncated first message is not a valid M1", "statement": "A first message that is not a complete M1 (empty, or a proper prefix of an M1) is never answered with an M2. (The code violates this: an empty message, or any proper prefix of a valid M1, is processed as an M1 whose missing fields are zero and answered with an M2. What holds: messages that differ from an M1 in header are not.)", "quantifier": "all truncations", "why_tests_cant": "All truncations.", "anchors": ["saltchannel/v2/salt_server_session.py:do_m1", "saltchannel/v2/packets.py:M1Packet.__init__"]}
{"id": "C50", "title": "Crypto library selection", "statement": "SaltLib.getLib returns the most preferred available library. (Violated: only the first one is ever considered, and an explicitly requested type yields None.)", "quantifier": "all availability combinations and requested types", "why_tests_cant": "Depends on installation state.", "anchors": ["saltchannel/saltlib/saltlib.py:getLib"]}
{"id": "C51", "title": "Shared key inputs are length checked", "statement": "compute_shared_key raises ValueError unless both keys are 32 bytes, otherwise calls the backend with (peer public, own secret).", "quantifier": "all byte strings", "why_tests_cant": "All lengths.", "anchors": ["saltchannel/saltlib/saltlib.py:compute_shared_key"]}
{"id": "C52", "title": "Native wrapper padding is right", "statement": "Given a libsodium box with NaCl's zero-padding convention, the native backend's crypto_box_afternm/crypto_box_open_afternm form an unpadded box: ciphertext is 16 bytes longer than the message and opening returns the message.", "quantifier": "all messages, nonces, keys", "why_tests_cant": "All lengths.", "anchors": ["saltchannel/saltlib/saltlib_native.py"]}
{"id": "C53", "title": "Singletons", "statement": "Repeated construction of a singleton class returns the first instance, ignoring later arguments; time keepers are therefore shared by all sessions of a process.", "quantifier": "all construction sequences", "why_tests_cant": "All histories.", "anchors": ["saltchannel/util/__init__.py:Singleton", "saltchannel/util/__init__.py:SingletonABCMeta"]}
{"id": "C54", "title": "Sync variants", "statement": "For a class using Syncizer every coroutine method defined in the class body gets a _sync variant that runs the (dynamically looked up) coroutine; no other attribute is added or changed except an existing attribute of that very name.", "quantifier": "all class bodies", "why_tests_cant": "All class definitions.", "anchors": ["saltchannel/util/__init__.py:Syncizer"]}
{"id": "C55", "title": "MitmChannel is transparent and counts correctly", "statement": "Wrapping a channel in MitmChannel changes nothing in what is read and written, and its counters equal the total number of bytes successfully read/written.", "quantifier": "all operation sequences, all underlying channels", "why_tests_cant": "All histories.", "anchors": ["saltchannel/dev/mitm_channel.py"]}
{"id": "C56", "title": "Tunnel delivers messages", "statement": "A message written to one end of Tunnel is read at the other end in order. (Violated: write concatenates bytes with a tuple and raises TypeError for every bytes message.)", "quantifier": "all messages", "why_tests_cant": "All inputs.", "anchors": ["saltchannel/dev/tunnel.py"]}
{"id": "C57", "title": "Channel stack over any transport segmentation", "statement": "A client and a server session running over SocketChannels behave, for any TCP segmentation, exactly as over an ideal message FIFO.", "quantifier": "all programs, all segmentations", "why_tests_cant": "Timing dependent.", "anchors": ["saltchannel/channel.py", "saltchannel/v2/salt_client_session.py", "saltchannel/v2/salt_server_session.py"]}
{"id": "C58", "title": "App channel over a hostile network", "statement": "Two application channels share a key; the network may drop, reorder, replay, modify and inject packets. Provided no ciphertext is accepted that was not produced by one of the two for that nonce, the messages each side has read are always a prefix of those the other side has written.", "quantifier": "all call sequences on both sides, all network behaviours", "why_tests_cant": "Adversarial interleavings are unbounded.", "anchors": ["saltchannel/v2/app_channel_v2.py", "saltchannel/v2/encrypted_channel_v2.py"]}
{"id": "C59", "title": "Exceptions a handshake can raise", "statement": "Whatever the network delivers, a handshake of a properly configured session fails only with an exception of the package (BadPeer, NoSuchServer, a time, signature or encryption error) or one raised by the channel, the time objects or the crypto library. (The code violates this: an empty encrypted packet raises AttributeError and an M3 of the wrong length AssertionError; the exact sets are proved.)", "quantifier": "all network inputs", "why_tests_cant": "Adversarial inputs.", "anchors": ["saltchannel/v2/salt_client_session.py:handshake", "saltchannel/v2/salt_server_session.py:handshake"]}
{"id": "C60", "title": "Buffering M4 is transparent", "statement": "Whether the client buffers M4 until its first application write makes no difference to the outcome of a session over a reliable link. (The code violates this: the server's handshake waits for M4, so a client whose first call is a read and its server wait for each other for ever; it holds for clients that write first.)", "quantifier": "all application programs on both sides, all schedules", "why_tests_cant": "All programs and schedules.", "anchors": ["saltchannel/v2/salt_client_session.py:do_m4", "saltchannel/v2/app_channel_v2.py:write"]}
{"id": "C61", "title": "Failed verification and decryption raise the documented exceptions", "statement": "Whatever libsodium or the pynacl bindings answer, a failed signature verification raises BadSignatureException and a failed decryption BadEncryptedDataException in both usable backends, and the native backend raises nothing else than these and ValueError.", "quantifier": "all inputs, all behaviours of the foreign library", "why_tests_cant": "Failures inside a foreign library.", "anchors": ["saltchannel/saltlib/saltlib_native.py", "saltchannel/saltlib/saltlib_pynacl.py"]}
{"id": "C62", "title": "Key pairs made from secrets", "statement": "createSigKeysFromSec uses exactly the first 32 bytes of the secret and raises ValueError for fewer; createEncKeysFromSec takes exactly 32 bytes, which become the secret key, and raises ValueError otherwise.", "quantifier": "all secrets of any length", "why_tests_cant": "All lengths.", "anchors": ["saltchannel/saltlib/saltlib.py:createSigKeysFromSec", "saltchannel/saltlib/saltlib.py:createEncKeysFromSec"]}
{"id": "C63", "title": "MitmChannel logs every message once", "statement": "With a log and no buffering, MitmChannel gives the log one record per message successfully read or written, in order and with the message's bytes; without a log it logs nothing.", "quantifier": "all programs on the channel, all behaviours of the channel below", "why_tests_cant": "All histories.", "anchors": ["saltchannel/dev/mitm_channel.py:MitmChannel._log_event"]}
{"id": "C64", "title": "MitmChannel buffers its log without loss", "statement": "With log_buffering set, the records of everything done on the channel reach the log when flush_log_buffer is called. (The code violates this: the branch that fills the queue is not reached when buffering, so the records are lost.)", "quantifier": "all programs on the channel", "why_tests_cant": "All histories.", "anchors": ["saltchannel/dev/mitm_channel.py:MitmChannel.flush_log_buffer", "saltchannel/dev/mitm_channel.py:MitmChannel._log_event"]}
{"id": "C65", "title": "Times are checked before anything is accepted", "statement": "Whatever the network delivers, a client handshake returns normally only after the time of the received M2 was reported to the time checker and accepted, and the time of M3 was checked immediately before its signature; a server handshake likewise with the times of M1 and M4; and an application read that fetches a packet returns a message only after the time of that packet was checked.", "quantifier": "all network inputs, all time checkers", "why_tests_cant": "Adversarial inputs.", "anchors": ["saltchannel/v2/salt_client_session.py:do_m2", "saltchannel/v2/salt_client_session.py:do_m3", "saltchannel/v2/salt_server_session.py:do_m1", "saltchannel/v2/salt_server_session.py:do_m4", "saltchannel/v2/app_channel_v2.py:read"]}
{"id": "C66", "title": "Assigning a packet field changes that field only", "statement": "For every packet of every class, assigning an integer field stores the value modulo the width of the field, assigning a flag stores the lowest bit, and assigning a key or signature stores exactly those bytes or raises TypeError when the length is not the declared one; no other bit of the packet changes. The optional key of M1 can be assigned only if it is announced.", "quantifier": "all packets, all values", "why_tests_cant": "2^32 values on arbitrary packet contents.", "anchors": ["saltchannel/util/packets.py:Packet.__setattr__", "saltchannel/v2/packets.py"]}
{"id": "C67", "title": "Only complete M3 and M4 complete a handshake", "statement": "A handshake returns normally only if the decrypted M3 (M4) was exactly 102 bytes long. (The code violates this for M4: the server checks no length, so an M4 with trailing bytes is accepted. It holds for the client.)", "quantifier": "all network inputs", "why_tests_cant": "Adversarial inputs.", "anchors": ["saltchannel/v2/salt_client_session.py:do_m3", "saltchannel/v2/salt_server_session.py:do_m4"]}
{"id": "C68", "title": "SaltLib encrypts, signs and hashes through its backend", "statement": "SaltLib.encrypt followed by decrypt under the same key and nonce returns the message, whatever does not decrypt raises BadEncryptedDataException and whatever decrypts is the encryption of the result; what sign produced opens under the matching public key and gives the message; sha512 hashes the whole message.", "quantifier": "all messages, keys and nonces, all backends obeying the box and signature laws", "why_tests_cant": "All byte strings.", "anchors": ["saltchannel/saltlib/saltlib.py:encrypt", "saltchannel/saltlib/saltlib.py:decrypt", "saltchannel/saltlib/saltlib.py:sign", "saltchannel/saltlib/saltlib.py:sign_open", "saltchannel/saltlib/saltlib.py:sha512"]}
{"id": "C69", "title": "An A1 client request", "statement": "do_a1a2 writes the A1 packet in one call and then reads once; it returns normally exactly if the reply is accepted as an A2 packet, which is then stored; otherwise it raises what the channel raised, BadPeer, ValueError or UnicodeDecodeError, and stores nothing.", "quantifier": "all replies, all channels", "why_tests_cant": "Adversarial replies.", "anchors": ["saltchannel/a1a2/a1_client_session.py:A1ClientSession.do_a1a2", "saltchannel/a1a2/packets.py"]}
{"id": "C70", "title": "An A1 client accepts only A2 packets", "statement": "Whatever the network delivers, do_a1a2 returns normally only if the reply starts with a well-formed A2 marked as last. (The code violates this: an empty reply is accepted and taken as a default A2.)", "quantifier": "all replies", "why_tests_cant": "Adversarial replies.", "anchors": ["saltchannel/a1a2/a1_client_session.py:A1ClientSession.do_a1a2", "saltchannel/a1a2/packets.py:A2Packet.__init__"]}
{"id": "C71", "title": "A1/A2 session over a reliable link", "statement": "For every A1 the client may send and every A2 injected into the server (or the default one), over a reliable link and under every schedule, the client ends up with exactly the protocols the server answers with and the server session is done.", "quantifier": "all A1s, A2s, schedules", "why_tests_cant": "All schedules.", "anchors": ["saltchannel/a1a2/a1_client_session.py", "saltchannel/v2/salt_server_session.py:do_a2", "saltchannel/dev/example_session2.py"]}
{"id": "C72", "title": "Default time handling accepts itself and every conforming keeper", "statement": "The default time checker accepts the times of every time keeper whose first time is 0 or 1, in particular those of the default time keeper, which always tells 0.", "quantifier": "all time keepers", "why_tests_cant": "All sequences of times.", "anchors": ["saltchannel/util/time.py:NullTimeKeeper", "saltchannel/util/time.py:NullTimeChecker"]}
{"id": "C73", "title": "The example sessions 1 and 3 complete", "statement": "For all keys, requests and buffering flags, over a reliable link and under every schedule, both sides of example sessions 1 and 3 end normally; no comparison of a response with its request fails.", "quantifier": "all keys, requests, schedules", "why_tests_cant": "All schedules.", "anchors": ["saltchannel/dev/example_session1.py", "saltchannel/dev/example_session3.py"]}
{"id": "C74", "title": "The simple echo session", "statement": "For every non-empty message and every number of rounds, over a reliable link the client gets its message back in every round; on any channel the server answers each message with itself before reading the next, until it gets an empty message (which it does not answer) or the channel raises, where ComException (or a subclass: BadPeer, TimeException, NoSuchServerException) is a normal end and everything else is passed on.", "quantifier": "all messages, all numbers of rounds", "why_tests_cant": "Unbounded rounds.", "anchors": ["saltchannel/dev/simple_echo_session.py"]}
{"id": "C75", "title": "Each side of example session 3 counts its own packets", "statement": "Of two OneTwoThreeTimeKeeper objects made in a process, however the calls of the two sides interleave, each side gets the times 1, 2, 3, .... (The code violates this: time keepers are singletons, so both sides share one counter, and the documented times 1,1,2,2,3,3,4,4 come out as 1,1,2,3,4,5,6,7.)", "quantifier": "all interleavings, all numbers of calls", "why_tests_cant": "All interleavings.", "anchors": ["saltchannel/dev/example_session3.py:OneTwoThreeTimeKeeper", "saltchannel/util/__init__.py:SingletonABCMeta"]}
{"id": "C76", "title": "The last flag tells that nothing follows", "statement": "After a read on an application channel, 'last' is true exactly if the message returned is the final message of a write marked as last. (The code violates this: with a write of several messages it becomes true already after the first of them. What holds: it is the flag of the packet the message came in.)", "quantifier": "all states, all network inputs", "why_tests_cant": "All histories.", "anchors": ["saltchannel/v2/app_channel_v2.py:last", "saltchannel/v2/app_channel_v2.py:read"]}
{"id": "C77", "title": "Pushed back packets and bad keys of an encrypted channel", "statement": "A packet that was pushed back is processed by the next read exactly as if it had just been received, once, and without touching the network; an encrypted channel can be made only with a 32-byte key.", "quantifier": "all states, packets and keys", "why_tests_cant": "All histories.", "anchors": ["saltchannel/v2/encrypted_channel_v2.py:read", "saltchannel/v2/encrypted_channel_v2.py:pushback", "saltchannel/v2/encrypted_channel_v2.py:__init__"]}
{"id": "C78", "title": "Pure Python encryption is XSalsa20-Poly1305", "statement": "SaltLibPure.crypto_box_afternm returns the XSalsa20-Poly1305 secret box of the message (authenticator followed by ciphertext) as specified by NaCl. (The code violates this from 16417 bytes of message on: a carry is counted repeatedly and the 258th block of the key stream uses the wrong counter.)", "quantifier": "all messages of any length, all 32-byte keys and 24-byte nonces, any platform width of unsigned long from 32 bits", "why_tests_cant": "Messages of every length; carries in the authenticator that occur with negligible probability in random tests.", "anchors": ["saltchannel/saltlib/saltlib_pure.py:crypto_box_afternm", "saltchannel/saltlib/pure_pynacl/tweetnacl.py:crypto_secretbox_xsalsa20poly1305_tweet", "saltchannel/saltlib/pure_pynacl/tweetnacl.py:crypto_onetimeauth_poly1305_tweet", "saltchannel/saltlib/pure_pynacl/tweetnacl.py:core"]}
{"id": "C79", "title": "Pure Python decryption inverts encryption and rejects everything else", "statement": "SaltLibPure.crypto_box_open_afternm returns the message of every XSalsa20-Poly1305 box and raises BadEncryptedDataException on every other byte string. (The code violates both parts: the empty byte string is returned for every box, and the exception raised is NameError; it distinguishes boxes from other byte strings correctly. Besides, SaltLibPure cannot be instantiated.)", "quantifier": "all byte strings, all 32-byte keys and 24-byte nonces", "why_tests_cant": "All byte strings; forged authenticators.", "anchors": ["saltchannel/saltlib/saltlib_pure.py:crypto_box_open_afternm", "saltchannel/saltlib/pure_pynacl/tweetnacl.py:crypto_secretbox_xsalsa20poly1305_tweet_open", "saltchannel/saltlib/pure_pynacl/tweetnacl.py:vn"]}
{"id": "C80", "title": "Pure Python hashing is SHA-512", "statement": "SaltLibPure.crypto_hash(m) is the SHA-512 hash of m as specified by FIPS 180-4, 64 bytes; None raises ValueError.", "quantifier": "all byte strings of any length", "why_tests_cant": "All lengths, in particular around block boundaries; the constants are checked against their definition.", "anchors": ["saltchannel/saltlib/saltlib_pure.py:crypto_hash", "saltchannel/saltlib/pure_pynacl/tweetnacl.py:crypto_hash_sha512_tweet", "saltchannel/saltlib/pure_pynacl/tweetnacl.py:crypto_hashblocks_sha512_tweet"]}
{"id": "C81", "title": "Pure Python box key pairs are X25519 key pairs", "statement": "SaltLibPure.crypto_box_keypair_not_random(sk) returns the pair of X25519(sk, 9) as specified by RFC 7748 and sk itself, for every secret key of 32 bytes; any other length raises ValueError.", "quantifier": "all byte strings", "why_tests_cant": "2^256 secret keys; carries in the field arithmetic that occur with negligible probability in random tests.", "anchors": ["saltchannel/saltlib/saltlib_pure.py:crypto_box_keypair_not_random", "saltchannel/saltlib/pure_pynacl/tweetnacl.py:crypto_scalarmult_curve25519_tweet"]}
{"id": "C82", "title": "Pure Python shared keys are those of NaCl", "statement": "SaltLibPure.crypto_box_beforenm(pk, sk) returns HSalsa20 of the shared secret X25519(sk, pk) of RFC 7748 and 16 zero bytes, for every public key (canonical or not, on the curve or its twist, of any order) and every secret key.", "quantifier": "all 32-byte keys", "why_tests_cant": "2^512 pairs of keys; carries in the field arithmetic that occur with negligible probability in random tests.", "anchors": ["saltchannel/saltlib/saltlib_pure.py:crypto_box_beforenm", "saltchannel/saltlib/pure_pynacl/tweetnacl.py:crypto_box_curve25519xsalsa20poly1305_tweet_beforenm", "saltchannel/saltlib/pure_pynacl/tweetnacl.py:crypto_scalarmult_curve25519_tweet"]}
{"id": "C83", "title": "Pure Python signature key pairs are Ed25519 key pairs", "statement": "SaltLibPure.crypto_sign_keypair_not_random(seed) returns the Ed25519 public key of the seed as specified by RFC 8032 and, as the secret key, the seed followed by the public key, for every seed of 32 bytes; any other length raises ValueError.", "quantifier": "all byte strings", "why_tests_cant": "2^256 seeds; carries in the field arithmetic that occur with negligible probability in random tests.", "anchors": ["saltchannel/saltlib/saltlib_pure.py:crypto_sign_keypair_not_random", "saltchannel/saltlib/pure_pynacl/tweetnacl.py:scalarbase", "saltchannel/saltlib/pure_pynacl/tweetnacl.py:scalarmult", "saltchannel/saltlib/pure_pynacl/tweetnacl.py:add", "saltchannel/saltlib/pure_pynacl/tweetnacl.py:pack"]}
{"id": "C84", "title": "Pure Python signatures are Ed25519 signatures", "statement": "SaltLibPure.crypto_sign(m, sk) returns the Ed25519 signature of m as specified by RFC 8032, followed by m, for every message and every secret key of 64 bytes, whether or not its second half is the public key of the first.", "quantifier": "all messages of any length, all 64-byte secret keys", "why_tests_cant": "2^512 keys, all messages; carries in the arithmetic modulo the group order that occur with negligible probability in random tests.", "anchors": ["saltchannel/saltlib/saltlib_pure.py:crypto_sign", "saltchannel/saltlib/pure_pynacl/tweetnacl.py:crypto_sign_ed25519_tweet", "saltchannel/saltlib/pure_pynacl/tweetnacl.py:modL", "saltchannel/saltlib/pure_pynacl/tweetnacl.py:reduce"]}
{"id": "C85", "title": "Pure Python signatures can be verified", "statement": "What SaltLibPure.crypto_sign makes of a message and a secret key from crypto_sign_keypair_not_random is opened by crypto_sign_open with the public key, which returns the message; and the signature is valid under RFC 8032.", "quantifier": "all messages of any length, all 32-byte seeds", "why_tests_cant": "2^256 seeds, all messages.", "anchors": ["saltchannel/saltlib/saltlib_pure.py:crypto_sign", "saltchannel/saltlib/saltlib_pure.py:crypto_sign_open", "saltchannel/saltlib/pure_pynacl/tweetnacl.py:crypto_sign_ed25519_tweet_open"]}
{"id": "C86", "title": "Pure Python verification accepts exactly the valid Ed25519 signatures", "statement": "SaltLibPure.crypto_sign_open(sm, pk) returns the message exactly if the first 64 bytes are a valid Ed25519 signature of it under RFC 8032, and raises BadSignatureException otherwise. (The code violates this: signatures whose second half is not below the group order are accepted, so that every signature can be changed into others of the same message; public keys that RFC 8032 says do not decode are accepted; and the exception is NameError. It holds for keys from crypto_sign_keypair_not_random and second halves below the order; for every properly encoded key what is accepted satisfies the verification equation.)", "quantifier": "all byte strings, all 32-byte public keys", "why_tests_cant": "Forged and changed signatures, keys of small order, non-canonical encodings.", "anchors": ["saltchannel/saltlib/saltlib_pure.py:crypto_sign_open", "saltchannel/saltlib/pure_pynacl/tweetnacl.py:crypto_sign_ed25519_tweet_open", "saltchannel/saltlib/pure_pynacl/tweetnacl.py:unpackneg"]}
{"id": "C87", "title": "Pure Python key agreement agrees", "statement": "Two parties with key pairs from SaltLibPure.crypto_box_keypair_not_random get the same 32-byte key from crypto_box_beforenm, each from its own secret key and the other's public key; X25519 commutes on every u-coordinate, on the curve or its twist.", "quantifier": "all pairs of 32-byte secret keys; all u-coordinates", "why_tests_cant": "2^512 pairs of keys; needs the group law of the curve.", "anchors": ["saltchannel/saltlib/saltlib_pure.py:crypto_box_keypair_not_random", "saltchannel/saltlib/saltlib_pure.py:crypto_box_beforenm", "saltchannel/saltlib/pure_pynacl/tweetnacl.py:crypto_scalarmult_curve25519_tweet"]}
{"id": "C88", "title": "Public keys that make the shared key a constant", "statement": "The shared secret behind SaltLibPure.crypto_box_beforenm is zero, and so the key a constant that does not depend on the secret key, exactly if the public key encodes one of the five u-coordinates of small order; nothing is raised then. No public key from crypto_box_keypair_not_random is of this kind; two of them are equal exactly if the scalars of the secret keys are equal or add up to 8 times the order of the base point.", "quantifier": "all 32-byte keys", "why_tests_cant": "2^512 pairs of keys; needs the orders of the curve and of its twist.", "anchors": ["saltchannel/saltlib/saltlib_pure.py:crypto_box_beforenm", "saltchannel/saltlib/saltlib_pure.py:crypto_box_keypair_not_random"]}
{"id": "C89", "title": "Sessions work with the standard algorithms", "statement": "If libsodium computes XSalsa20-Poly1305, X25519, Ed25519 and SHA-512 as specified, then key pairs made by SaltLib from any secrets of 32 bytes satisfy, with the native backend, everything the session theorems ask of a library; two such parties complete their session over a reliable link under every schedule, with the same key.", "quantifier": "all secrets of 32 bytes, all programs, all schedules; cofactored verification or not; with or without a check for zero secrets", "why_tests_cant": "All keys and all schedules.", "anchors": ["saltchannel/saltlib/saltlib_native.py", "saltchannel/saltlib/saltlib.py", "saltchannel/v2/salt_client_session.py", "saltchannel/v2/salt_server_session.py"]}
{"id": "C90", "title": "Public keys that make the session key a constant are refused", "statement": "No handshake completes, and no encrypted packet is ever sent or accepted, with a peer whose encryption key is one of the public keys that make the shared key a constant known to everybody. (The code leaves this to the crypto library: with one that checks for zero secrets, as libsodium does, ValueError is raised after M2 and nothing encrypted is sent or opened; with one that does not, as TweetNaCl, the session runs to its end under a key everybody knows. An empty first message is such a peer.)", "quantifier": "all network inputs, all 32-byte keys", "why_tests_cant": "Adversarial inputs.", "anchors": ["saltchannel/v2/salt_client_session.py:create_encrypted_channel", "saltchannel/v2/salt_server_session.py:create_encrypted_channel", "saltchannel/saltlib/saltlib.py:compute_shared_key", "saltchannel/saltlib/saltlib_native.py:crypto_box_beforenm"]}
{"id": "C91", "title": "Tasks sharing a session", "statement": "On an established session, asyncio tasks on both sides may call read and write on the same application channel at the same time: whatever the schedule, every task gets the result it would get in some schedule of the same tasks exchanging plain messages directly, none waits for a message that has arrived, and everything comes to an end. (The code violates this when two tasks of one side read: if both wait when a packet with several messages arrives, one of them gets the first message and the other waits although the second message is in the channel's queue; this is for a lower channel that lets several tasks wait, for AsyncioChannel see C92. With any number of writing tasks and one reading task per side the claim holds.)", "quantifier": "all numbers of tasks, all programs, all schedules, all messages", "why_tests_cant": "Schedules cannot be enumerated, and the failing ones need two tasks waiting at the right moment.", "anchors": ["saltchannel/v2/app_channel_v2.py:read", "saltchannel/v2/app_channel_v2.py:write", "saltchannel/v2/encrypted_channel_v2.py:read", "saltchannel/v2/encrypted_channel_v2.py:write", "saltchannel/channel.py:AsyncioChannel"]}
{"id": "C92", "title": "Tasks sharing an AsyncioChannel", "statement": "asyncio tasks may call read and write on the same AsyncioChannel at the same time: whatever the schedule and the pieces in which the bytes of the stream arrive, every task gets the result it would get in some schedule of the same tasks exchanging messages directly, none waits for a message that has arrived, and everything comes to an end. (The code violates this when two tasks read: while one waits, the other gets a RuntimeError from the StreamReader; or, after one has read the length of a message, the other takes the first bytes of the message for a length and returns a message that nobody has sent. With any number of writing tasks and one reading task per side the claim holds for messages of less than 2^31 bytes.)", "quantifier": "all numbers of tasks, all programs, all schedules, all ways of cutting the stream into pieces, all messages", "why_tests_cant": "Schedules and segmentations cannot be enumerated; the failing ones need a task to run between the arrival of data and the wakeup of the waiting task.", "anchors": ["saltchannel/channel.py:AsyncioChannel.read", "saltchannel/channel.py:AsyncioChannel.write"]}
{"id": "C93", "title": "Tasks sharing a session over asyncio streams", "statement": "On two matching application channels over AsyncioChannels, tasks may call read and write at the same time: whatever the schedule and the pieces in which the bytes arrive, every task gets the result it would get in some schedule of the same tasks exchanging messages directly, none waits for a message that has arrived, and everything comes to an end. In particular, if on both sides one task writes and one reads, both readers end with exactly the messages the other side has written, in order. (The code violates the first sentence when two tasks of one side read. With any number of writing tasks and one reading task per side it holds, for write calls of up to 65535 messages that fit into a frame.)", "quantifier": "all numbers of tasks, all programs, all schedules, all ways of cutting the stream into pieces, all messages, all points of a session between messages", "why_tests_cant": "Schedules and segmentations cannot be enumerated.", "anchors": ["saltchannel/v2/app_channel_v2.py:read", "saltchannel/v2/app_channel_v2.py:write", "saltchannel/v2/encrypted_channel_v2.py:read", "saltchannel/v2/encrypted_channel_v2.py:write", "saltchannel/channel.py:AsyncioChannel"]}
{"id": "C94", "title": "Tasks after a handshake", "statement": "When two honest parties run their handshakes and the client does not buffer M4, both handshakes end normally whatever the schedule, nothing is left in flight, and the two application channels match (same key, each side's next write nonce is the other side's next read nonce, nothing queued); any number of writing tasks and one reading task per side can then use them over AsyncioChannels at the same time as if they exchanged messages directly.", "quantifier": "all honest key pairs, clocks that accept each other, schedules, task programs", "why_tests_cant": "The agreement of all attributes of the two channels after every possible schedule is not observable from outside.", "anchors": ["saltchannel/v2/salt_client_session.py:handshake", "saltchannel/v2/salt_server_session.py:handshake", "saltchannel/v2/app_channel_v2.py:read", "saltchannel/v2/app_channel_v2.py:write", "saltchannel/channel.py:AsyncioChannel"]}
{"id": "C95", "title": "Attributes of packet objects", "statement": "For every packet of every class, packet.F is the value of the field F; assigning bytes to a byte array field makes it read as assigned and changes exactly its bytes of the serialised packet, or raises TypeError when the length is another; assigning anything else, or to a name that is not a field, raises. An optional part (ServerSigKey, Body, Data, Address) raises AttributeError before it exists and afterwards reads as assigned. (The code violates this: integer fields read as that number of zero bytes, so no comparison with an integer holds, and assigning bytes to a name that is not a field is accepted without effect on the packet.)", "quantifier": "all packets, fields, values and names", "why_tests_cant": "All contents and all names.", "anchors": ["saltchannel/util/packets.py:Packet.__getattr__", "saltchannel/util/packets.py:Packet.__setattr__", "saltchannel/v2/packets.py", "saltchannel/a1a2/packets.py"]}
{"id": "C96", "title": "Assigning the protocols of an A2", "statement": "Assigning protocols to A2Packet.Prot makes the packet offer them. (The code violates this: every call of the factory makes new ctypes classes, so the assignment of protocols raises TypeError or RuntimeError, and the protocols the packet had are replaced by zeros. Filling in the names entry by entry after create_opt_fields works: the packet then serialises to the A2 that offers them.)", "quantifier": "all values assigned, all lists of protocol names", "why_tests_cant": "All values.", "anchors": ["saltchannel/a1a2/packets.py:A2Packet.Prot", "saltchannel/a1a2/packets.py:A2Packet._opt_factory"]}
{"id": "C97", "title": "Sessions on asyncio streams", "statement": "A client and a server session, each a coroutine on an AsyncioChannel on one end of a connection, behave, whatever the schedule and the pieces in which the bytes arrive, exactly as if their programs were directly connected: each side returns what its program returns there, or waits if it waits there. If both programs return and both sides close the channel unless an exception was raised, both come to an end with these results and close the connection, nothing is left unread, and neither side closes while something is still to be received.", "quantifier": "all honest key pairs, clocks that accept each other, programs, schedules and ways of cutting the stream into pieces, for calls that fit into a frame", "why_tests_cant": "Schedules and segmentations cannot be enumerated.", "anchors": ["saltchannel/channel.py:AsyncioChannel", "saltchannel/v2/salt_client_session.py:handshake", "saltchannel/v2/salt_server_session.py:handshake", "saltchannel/v2/app_channel_v2.py:read", "saltchannel/v2/app_channel_v2.py:write"]}
{"id": "C98", "title": "Example sessions with coroutines", "statement": "simple_echo_session_a and example sessions 1, 2 and 3 with coroutines: whatever the schedule and the pieces in which the bytes arrive, both sides end without exception and close the connection; the responses are the requests, the A1 client holds the A2 of the server, and no comparison at the end of example 3 fails.", "quantifier": "all keys, requests (non-empty in the simple echo session), A1s and A2s, numbers of rounds, schedules and segmentations", "why_tests_cant": "Schedules and segmentations cannot be enumerated.", "anchors": ["saltchannel/dev/simple_echo_session_a.py", "saltchannel/dev/example_session1_a.py", "saltchannel/dev/example_session2_a.py", "saltchannel/dev/example_session3_a.py"]}
{"id": "C99", "title": "What an application reads comes from the peer the session reports", "statement": "Any number of client and server sessions of honest parties take place, with any calls by their applications, on a network controlled by an attacker. If a handshake returns and reports a peer key whose secret key only honest sessions use, then one of these sessions is its partner: it plays the other role, signs with this secret key, has the same M1 and M2 and the same session key; and everything the application has read was passed by the partner's application to its write calls, in the same order, nothing added, changed or repeated, and nothing left out in between unless a time check failed or a write call raised. If the partner's handshake returned too, it reports this session's key and its application has read only what this application has written, in the same way. Sessions with encryption keys of their own have one partner each.", "quantifier": "all numbers of sessions, all configurations, all programs of the applications, all behaviours of the network, sessions that are still in progress or failed included; assuming that signatures and boxes cannot be forged without the keys, hashes do not collide, and key agreement agrees", "why_tests_cant": "Attacks are schedules and inputs chosen by an adversary across many sessions; tests cannot enumerate them.", "anchors": ["saltchannel/v2/salt_client_session.py:handshake", "saltchannel/v2/salt_server_session.py:handshake", "saltchannel/v2/app_channel_v2.py:read", "saltchannel/v2/app_channel_v2.py:write", "saltchannel/v2/encrypted_channel_v2.py:read", "saltchannel/v2/encrypted_channel_v2.py:write"]}
{"id": "C100", "title": "Interrupted calls can be repeated", "statement": "A call on a session that was interrupted before it finished (a socket timeout, or the cancellation of a coroutine, as asyncio.wait_for does) loses, changes and repeats nothing: afterwards reads return the messages that were sent, in order and without a gap, and an interrupted write may be repeated. (The code violates this. A read that is interrupted when it has received a part of a message forgets this part, and the next read takes what follows for the length of a message: it can return bytes chosen by the author of the first message as a message that nobody has sent. An interrupted AsyncioChannel.write has already written everything, so repeating it sends all messages twice. An interrupted write of the application leaves the session as if it had succeeded: nonces used, a buffered M4 gone. What holds: reads interrupted before anything of a message was received lose nothing, and leave an application channel unchanged.)", "quantifier": "all messages, all sequences of calls, all points of interruption, all segmentations", "why_tests_cant": "The failing interruptions need a timeout between two pieces of one message.", "anchors": ["saltchannel/channel.py:SocketChannel.read_sync", "saltchannel/channel.py:SocketChannel.recvall", "saltchannel/channel.py:AsyncioChannel.read", "saltchannel/channel.py:AsyncioChannel.write", "saltchannel/v2/encrypted_channel_v2.py:write", "saltchannel/v2/app_channel_v2.py:write", "saltchannel/v2/app_channel_v2.py:read"]}
{"id": "C101", "title": "Sessions in threads", "statement": "Session and channel objects can be made in any thread, and their _sync methods can be called wherever a blocking call can be made, whatever other threads do with other objects. (The code violates this in four ways. SaltClientSession and A1ClientSession cannot be made in a thread without event loop, that is, other than the main one, or in the main one after asyncio.run: RuntimeError; servers and channels can. While a call runs, calls in other threads on any object with the same event loop, for instance all those made by one thread, raise RuntimeError. Calls made in a coroutine raise RuntimeError, and so do later calls on objects made inside of asyncio.run. What holds: as long as every object is used in the thread that made it, servers and channels can always be made, clients in threads with an event loop, and all calls outside of coroutines can run.)", "quantifier": "all numbers of threads and objects, all orders of their actions", "why_tests_cant": "Schedules cannot be enumerated.", "anchors": ["saltchannel/util/__init__.py:force_event_loop", "saltchannel/util/__init__.py:Syncizer.sync_maker", "saltchannel/v2/salt_client_session.py:__init__", "saltchannel/v2/salt_server_session.py:__init__", "saltchannel/channel.py:ByteChannel.__init__", "saltchannel/a1a2/a1_client_session.py:A1ClientSession.__init__"]}
{"id": "C102", "title": "Every client of the example server is served", "statement": "MpClientServerPair.run_sessions(n) with one of the example sessions, or with any session whose client and server routines end when they have a TCP connection of their own: whatever the order in which the threads run, everything ends, every client thread returns and closes its socket, every connection is handled once, client and handler of each connection have the results they would have alone (the echoes of the requests in examples 1 and 3, the protocols in example 2, the data in every round of the echo session), and is_session_active is false. A server routine that waits for another session on the same connection ends when the client closes it. In the threads of the clients the MitmChannel and the sessions can be made.", "quantifier": "all numbers of clients, all interleavings of client threads, server thread and network, all partitions of the byte streams, connection resets when an end is closed", "why_tests_cant": "Numbers of clients and interleavings are unbounded.", "anchors": ["saltchannel/dev/client_server.py:MpClientServerPair", "saltchannel/dev/client_server.py:run_sessions", "saltchannel/dev/client_server.py:_run_session", "saltchannel/dev/client_server.py:_server_handler_factory", "saltchannel/dev/example_session1.py:server_session", "saltchannel/dev/example_session2.py:server_session", "saltchannel/dev/example_session3.py:server_session", "saltchannel/dev/simple_echo_session.py:server_session"]}
{"id": "C103", "title": "Clients of the example server do not depend on each other", "statement": "A client that would be served if it were alone is served, whatever the other clients do. (The code violates this: the server handles one connection at a time, without timeout. A client that connects and sends nothing keeps all clients that connect after it waiting forever. What holds: accepted connections end as they would alone, and a connection waits forever only if the handler of another one does.)", "quantifier": "all clients, all interleavings", "why_tests_cant": "Adversarial clients; a wait that never ends cannot be tested.", "anchors": ["saltchannel/dev/client_server.py:MpClientServerPair.TestTCPServer", "saltchannel/dev/client_server.py:_server_handler_factory"]}
{"id": "C104", "title": "is_session_active", "statement": "is_session_active is true exactly while a client has a connection. (The code violates this: with two clients the one that leaves first sets it to false. What holds: if it is true some client has a connection, and with one client it is exact.)", "quantifier": "all numbers of clients, all interleavings", "why_tests_cant": "Interleavings of threads.", "anchors": ["saltchannel/dev/client_server.py:_run_session"]}
{"id": "C105", "title": "Every client of the asyncio example server is served", "statement": "ClientServerPairA.run_sessions with one of the _a example sessions, or with any coroutines that finish on a connection of their own: whatever the order in which the event loops do things and the pieces in which bytes arrive, run_sessions returns, every client has returned the result it would have alone, and so has every task of the server that has ended. Clients do not depend on each other: whatever the other clients do, a client that would finish alone finishes, with the same result.", "quantifier": "all numbers of clients, all interleavings of the event loops, all partitions of the byte streams", "why_tests_cant": "Numbers of clients and interleavings are unbounded.", "anchors": ["saltchannel/dev/client_server_a.py:ClientServerPairA", "saltchannel/dev/client_server_a.py:run_sessions", "saltchannel/dev/client_server_a.py:spawn_clients_and_wait", "saltchannel/dev/client_server_a.py:SaltChannelStreamReaderProtocol.connection_made"]}
{"id": "C106", "title": "Server sessions have ended when run_sessions returns", "statement": "When ClientServerPairA.run_sessions has returned, all clients and all server sessions have ended, if they would end alone. (The code violates this: run_sessions waits for the clients only, and then the event loop of the server stops; a server session may not even have begun. It holds for the clients.)", "quantifier": "all numbers of clients, all interleavings", "why_tests_cant": "Interleavings of event loops in several processes.", "anchors": ["saltchannel/dev/client_server_a.py:run_sessions", "saltchannel/dev/client_server_a.py:spawn_clients_and_wait"]}
{"id": "C107", "title": "Random keys and boxes of the pure Python library", "statement": "With key pairs that two parties make with crypto_box_keypair of pure_pynacl from any random bytes, what one puts into a box with crypto_box the other gets out with crypto_box_open, and anything else is refused; the key pairs are those of the functions that take the random bytes as argument, also those of crypto_sign_keypair. (The code violates this: crypto_box_open accepts exactly the boxes, but overwrites the message by 32 zeros; and crypto_box gives the box of NaCl only for messages of up to 16416 bytes.)", "quantifier": "all random bytes, messages, nonces and byte strings, all widths of C's long", "why_tests_cant": "All 32-byte keys and messages of any length.", "anchors": ["saltchannel/saltlib/pure_pynacl/tweetnacl.py:crypto_box_curve25519xsalsa20poly1305_tweet_keypair", "saltchannel/saltlib/pure_pynacl/tweetnacl.py:crypto_box_curve25519xsalsa20poly1305_tweet", "saltchannel/saltlib/pure_pynacl/tweetnacl.py:crypto_box_curve25519xsalsa20poly1305_tweet_open", "saltchannel/saltlib/pure_pynacl/tweetnacl.py:crypto_sign_ed25519_tweet_keypair", "saltchannel/saltlib/pure_pynacl/tweetnacl.py:randombytes"]}
{"id": "C108", "title": "Key and nonce lengths in the pure Python backend", "statement": "The methods of SaltLibPure never read behind the end of a key or nonce of the documented length, whatever the other arguments are: crypto_box_afternm succeeds on messages of every length and makes a box 16 bytes longer. A shorter key or nonce is never padded: crypto_box_afternm, crypto_box_beforenm, crypto_sign and crypto_sign_open raise IndexError and crypto_box_open_afternm raises NameError. Of a longer one only the documented number of first bytes is used.", "quantifier": "all byte strings as messages, keys and nonces, all widths of C's long", "why_tests_cant": "Every length of every argument and every message.", "anchors": ["saltchannel/saltlib/saltlib_pure.py:SaltLibPure.crypto_box_afternm", "saltchannel/saltlib/saltlib_pure.py:SaltLibPure.crypto_box_open_afternm", "saltchannel/saltlib/saltlib_pure.py:SaltLibPure.crypto_box_beforenm", "saltchannel/saltlib/saltlib_pure.py:SaltLibPure.crypto_sign", "saltchannel/saltlib/saltlib_pure.py:SaltLibPure.crypto_sign_open", "saltchannel/saltlib/pure_pynacl/tweetnacl.py:core", "saltchannel/saltlib/pure_pynacl/tweetnacl.py:crypto_scalarmult_curve25519_tweet"]}
{"id": "C109", "title": "The key stream of a box is not used twice", "statement": "Within one box of SaltLibPure.crypto_box_afternm no two 64-byte blocks of the message are always encrypted with the same part of the key stream: the XOR of two ciphertext blocks is not, for every key and nonce, the XOR of the two plaintext blocks. (The code violates this: the places of the block counter are not cut to bytes, and with an unsigned long of 64 bits the blocks 385020 and 589820 - messages of 37.7 MB - get the same counter, with 32 bits the blocks 522614 and 523638. The exact counter of every block is given.)", "quantifier": "all messages of any length, all 32-byte keys and 24-byte nonces, all pairs of blocks", "why_tests_cant": "Takes hundreds of thousands of blocks to show and must be shown for every key and nonce.", "anchors": ["saltchannel/saltlib/saltlib_pure.py:crypto_box_afternm", "saltchannel/saltlib/pure_pynacl/tweetnacl.py:crypto_stream_salsa20_tweet_xor", "saltchannel/saltlib/pure_pynacl/tweetnacl.py:ld32", "saltchannel/saltlib/pure_pynacl/tweetnacl.py:core"]}
{"id": "C110", "title": "The example keys are key pairs, and the examples print the documented session key", "statement": "Every KeyPair in CryptoTestData is a key pair: SaltLib.create_sig_keys_from_sec and create_enc_keys_from_sec give back the same pair from its secret key (and SaltLibPure makes the same pairs). The session key of the example sessions, with these keys and the standard algorithms, is 1b27556473e985d462cd51197a9a46c76009549eac6474f206c4ee0844f68389 on both sides, whatever the schedule, the segmentation of the streams, the number of clients, the buffering and the messages.", "quantifier": "all key pairs of CryptoTestData; all schedules, segmentations, numbers of clients, buffering flags, messages", "why_tests_cant": "The tests check two of the eight pairs, and run no session over a network.", "anchors": ["saltchannel/util/crypto_test_data.py:CryptoTestData", "saltchannel/dev/example_session1.py:ExampleSession", "saltchannel/dev/example_session3.py:ExampleSession", "saltchannel/dev/example_session1_a.py:ExampleSessionA", "saltchannel/saltlib/saltlib.py:SaltLib"]}
{"id": "C111", "title": "What sessions send", "statement": "What two honest parties send during a session is determined by the write calls of the applications, whatever the schedule: the client sends M1 and then, encrypted under the session key with the nonces 1, 3, 5, ..., M4 and one packet (or several) per write call; the server sends M2 and then, with the nonces 2, 4, 6, ..., M3 and its packets. Times are the readings of the time keepers at these calls, the last flag is set on the last packet of a call with is_last and on no other, and M4 sent with the first packets has the time of that call. The client sends 162 bytes for the handshake and the server 158; a write call takes 24 bytes more than each message, or 26 and 2 per message if it sends one MultiAppPacket. An unfinished session has sent a prefix. In particular the packets of example session 3 have the times that it prints if each side has a time keeper of its own (that is, if they are not threads of one process, see C75 and C134).", "quantifier": "all honest key pairs, application programs, buffering options, clocks that accept each other, and schedules", "why_tests_cant": "The whole transcript for all programs and schedules, including which packet has which nonce, flag and time.", "anchors": ["saltchannel/v2/salt_client_session.py", "saltchannel/v2/salt_server_session.py", "saltchannel/v2/app_channel_v2.py", "saltchannel/v2/encrypted_channel_v2.py", "saltchannel/dev/example_session3.py"]}
{"id": "C112", "title": "Byte counts of the examples", "statement": "The counters of the MitmChannel show the client of the example sessions, after the handshake, the bytes of M1 and M4 written and those of M2 and M3 read, 320 in all, and in the end those and the bytes of the application packets. (The code violates the first part when M4 is buffered, as in example_session1.py: M4 has not been written then, and it prints 200 HANDSHAKE BYTES. It holds without buffering; the total, 380 in example 1 and 458 in example 3, is always right.)", "quantifier": "all honest key pairs, application programs, buffering options, clocks and schedules", "why_tests_cant": "All programs and schedules.", "anchors": ["saltchannel/dev/example_session1.py", "saltchannel/dev/example_session3.py", "saltchannel/dev/mitm_channel.py"]}
{"id": "C113", "title": "What sessions ask of the crypto library", "statement": "Whatever the peer sends and whatever the crypto library and the time objects answer, a session calls the library only with arguments of the documented lengths: signatures are verified with a public key of 32 bytes, over 64 bytes of signature followed by the right prefix (SC-SIG01 in clients, SC-SIG02 in servers) and the hashes; crypto_box_beforenm gets a public key of 32 bytes, which was in the first message read (the M1, or an M2 that does not say that there is no such server), and the session's own secret key, which has 32 bytes; boxes are made and opened with nonces of 24 bytes and keys of 32 bytes; crypto_sign is called only with the session's own signing key and for messages that begin with the prefix of its own role.", "quantifier": "all peers, networks, library and clock answers, configurations and applications", "why_tests_cant": "SaltLibNative hands its arguments to C functions that do not check lengths; a test can only try some answers of the peer.", "anchors": ["saltchannel/saltlib/saltlib_native.py:crypto_box_beforenm", "saltchannel/saltlib/saltlib.py", "saltchannel/v2/salt_client_session.py", "saltchannel/v2/salt_server_session.py"]}
{"id": "C114", "title": "The backends interoperate", "statement": "A client and a server with different backends (SaltLibNative on libsodium, SaltLibPyNaCl, SaltLibTweetNaClExt) complete their session over a reliable link under every schedule, with the same key and hashes, and the right peer keys, if both backends compute the standard algorithms for arguments of the documented lengths; the key pairs may be made by each side with its own backend from any secrets.", "quantifier": "all secrets of 32 bytes with different encryption secrets, all pairs of backends (verification with or without cofactor), all programs, all schedules", "why_tests_cant": "All keys, schedules and programs; also the libraries are not at hand.", "anchors": ["saltchannel/saltlib/saltlib_native.py", "saltchannel/saltlib/saltlib_pynacl.py", "saltchannel/saltlib/saltlib_tweetnaclext.py", "saltchannel/saltlib/saltlib.py", "saltchannel/v2/salt_client_session.py", "saltchannel/v2/salt_server_session.py"]}
{"id": "C115", "title": "The backend makes no difference", "statement": "Two backends that compute the standard algorithms, with the same rule for signatures, can be exchanged: whatever the network does, a session with the one can exchange the same messages and end in the same way as with the other. (The code violates this: a public key of small order in M1 or M2 makes the session fail with the one and succeed with the other, depending on whether crypto_box_beforenm checks the shared secret; nothing in the sessions does. It holds for all other keys.)", "quantifier": "all networks, all backends with the standard algorithms, all configurations and applications", "why_tests_cant": "All behaviours of the network.", "anchors": ["saltchannel/saltlib/saltlib_native.py", "saltchannel/saltlib/saltlib_pynacl.py", "saltchannel/saltlib/saltlib_tweetnaclext.py", "saltchannel/v2/salt_client_session.py", "saltchannel/v2/salt_server_session.py"]}
{"id": "C116", "title": "stop_server ends the server after all sessions have been served", "statement": "A main program that calls start_server, run_sessions and stop_server of MpClientServerPair ends, whatever the schedule of its threads, if every client session together with its handler would: stop_server returns, the server thread has left serve_forever, all client threads have ended, and every connection has been served, with the results that client and handler would get alone. (The code violates the last part: run_sessions waits for the clients only, and after shutdown nothing is accepted, so a client that ends without waiting for the server may never be served. It holds if every client waits for an answer, as the clients of all example sessions do.)", "quantifier": "all schedules of threads, all numbers of clients, all sessions that would end alone; all requests for the example sessions", "why_tests_cant": "All interleavings of threads.", "anchors": ["saltchannel/dev/client_server.py", "saltchannel/dev/run_session.py", "saltchannel/dev/example_session1.py", "saltchannel/dev/example_session2.py", "saltchannel/dev/example_session3.py"]}
{"id": "C117", "title": "Sessions reveal messages and signing keys only inside boxes", "statement": "Take two client sessions, or two server sessions, with the same encryption keys but any two signing key pairs (with public keys of the same length), and with application programs that behave alike except for the contents of messages (given messages of equal length they read and write at the same points, messages of equal lengths, with the same is_last). Whatever the peer, the time objects and the library answer, the two sessions make the same calls in the same order, with the same arguments except for the clear texts given to crypto_box_afternm (of equal length), the secret keys given to crypto_sign and the keys and signatures given to crypto_sign_open; they write the same bytes to the network as long as the boxes are the same, and end with the same exception or without one. For two servers this holds unless the first packet is an M1 that asks for the signing key of exactly one of them (then the answers do differ, and this is proved too).", "quantifier": "all signing key pairs, all application programs, all answers of the peer, the time objects and the library, including failures", "why_tests_cant": "A test compares single runs; that nothing else depends on a secret is a statement about all pairs of runs.", "anchors": ["saltchannel/v2/salt_client_session.py", "saltchannel/v2/salt_server_session.py", "saltchannel/v2/encrypted_channel_v2.py", "saltchannel/v2/app_channel_v2.py", "saltchannel/v2/packets.py"]}
{"id": "C118", "title": "A packet object can be read into again", "statement": "Reading bytes into a packet object that has been used before (from_bytes) has the same outcome as reading them into a new object: the same packet, or the same exception. (The code violates this for M2, M3, M4: a source shorter than the packet is accepted and leaves the old key and signature in place, where a new object would have zeros. It holds for all other classes and all sources, up to which exception a multi packet shorter than its fixed part raises, and for M1 to M4 if the source covers the fixed part.)", "quantifier": "all packet classes, all previous contents, all sources", "why_tests_cant": "Previous contents and lengths of sources are unbounded.", "anchors": ["saltchannel/util/packets.py:35-37", "saltchannel/util/packets.py:71-76", "saltchannel/v2/packets.py", "saltchannel/a1a2/packets.py", "tests/a1a2/test_packets.py:23-37"]}
{"id": "C119", "title": "The size of the socket buffers makes no difference", "statement": "Two programs, each on a SocketChannel at one end of a connection, end as if the buffers of the connection were unlimited: with the same results, whatever the size of the buffers. (The code violates this: write waits in sendall until everything has been handed over and nothing is read in the meantime. If both sides write a message at least as long as the buffers and then read, both can wait forever, also in a session after the handshake; and who writes such a message to a side that has returned without reading waits forever. What holds: programs that take turns and read everything end as with unlimited buffers, however small the buffers are, so do the sessions of such programs, in particular example sessions 1 and 3 and the simple echo session; a side that returns always has the right result; and if all stops with neither side in sendall, it stops as with unlimited buffers.)", "quantifier": "all sizes of buffers of at least one byte, all programs, all messages shorter than 2^31 bytes, all schedules, all segmentations", "why_tests_cant": "Tests with a loopback connection and short messages never fill the buffers; schedules and sizes cannot be enumerated.", "anchors": ["saltchannel/channel.py:SocketChannel.write_sync", "saltchannel/channel.py:SocketChannel.read_sync", "saltchannel/channel.py:SocketChannel.recvall", "saltchannel/dev/example_session1.py", "saltchannel/dev/example_session3.py", "saltchannel/dev/simple_echo_session.py"]}
{"id": "C120", "title": "The flow control of asyncio makes no difference", "statement": "Two coroutines, each on an AsyncioChannel at one end of a connection, end as if they were connected by message links, whatever the water marks of the write buffers, the limits of the StreamReaders and the size of the socket buffers. (The code violates this: write ends with 'await writer.drain()', which waits while the write buffer of the transport is above the high water mark, and nothing is read in the meantime. If both sides write a message longer than all the buffers on the way and then read, neither ever returns, whatever the schedule; and who writes such a message to a side that has returned without reading stays in drain. What holds: coroutines that take turns and read everything end as with message links, with nobody in drain and nothing left unsent, however small the limits are; so do the sessions of such programs, in particular the asyncio example sessions 1, 2 and 3 and the asyncio simple echo session, which also close the connection; a coroutine that returns always has the right result; and if all stops with nobody in drain, it stops as with message links.)", "quantifier": "all limits with low <= high water mark and socket buffers of at least one byte, all programs, all messages shorter than 2^31 bytes, all schedules, all segmentations", "why_tests_cant": "Tests with a loopback connection and short messages never reach the high water mark; schedules and sizes cannot be enumerated.", "anchors": ["saltchannel/channel.py:AsyncioChannel.write", "saltchannel/channel.py:AsyncioChannel.read", "saltchannel/channel.py:AsyncioChannel.close", "saltchannel/dev/example_session1_a.py", "saltchannel/dev/example_session2_a.py", "saltchannel/dev/example_session3_a.py", "saltchannel/dev/simple_echo_session_a.py"]}
{"id": "C121", "title": "Reading in a task of its own avoids the deadlocks of flow control", "statement": "If on each side of a connection at most one task reads and does not write, and any number of tasks write and do not read, on one AsyncioChannel or on the channel of a session over it, and everything written is read, then all tasks end as if they were directly connected, whatever the water marks of the write buffers, the limits of the StreamReaders and the size of the socket buffers: nobody stays in drain, and nothing is left unsent or unread. In particular two sides that write to each other at the same time, each with one task that writes and one that reads, both get all messages of the other one, in order, however long these are.", "quantifier": "all limits with low <= high water mark and socket buffers of at least one byte, all families of tasks of this kind, all messages within the size limits, all schedules, all segmentations", "why_tests_cant": "Schedules, sizes and limits cannot be enumerated; deadlocks show only with messages longer than all the buffers.", "anchors": ["saltchannel/channel.py:AsyncioChannel.write", "saltchannel/channel.py:AsyncioChannel.read", "saltchannel/v2/app_channel_v2.py:AppChannelV2.write", "saltchannel/v2/app_channel_v2.py:AppChannelV2.read", "saltchannel/v2/encrypted_channel_v2.py:EncryptedChannelV2.write", "saltchannel/v2/encrypted_channel_v2.py:EncryptedChannelV2.read"]}
{"id": "C122", "title": "A session object can be used for another handshake", "statement": "Whatever happened on a session object before (handshakes that returned or raised, use of its channel), handshake() makes the same calls, given the same answers, and returns or raises as on a new object. If a client handshake returns normally, all attributes are as on a new object: nothing of earlier sessions is left. The full claim is the same for the server; there it fails: client_sig_key is assigned before the signature of M4 is checked, and attributes are not reset, so after an M4 with a wrong signature (BadPeer) an A1 on the same object makes handshake() return normally with client_sig_key set to the key nobody has proved to own, and app_channel the channel of whoever sent it; and is_done stays True after the first A1. Shown for the server: the same calls and results; after serving a client all attributes but is_done are as on a new object; after a handshake that raises each attribute is as on a new object or was not assigned. End to end: an honest client and an honest server object with arbitrary old attributes, connected with each other, end under every schedule with the results, keys and hashes of new objects (C47); only is_done keeps its value.", "quantifier": "all configurations, all attributes before the call, all answers of the environment", "why_tests_cant": "Tests use a new object for each session; which attribute survives depends on where an earlier handshake stopped.", "anchors": ["saltchannel/v2/salt_client_session.py:SaltClientSession.handshake", "saltchannel/v2/salt_server_session.py:SaltServerSession.handshake", "saltchannel/v2/salt_server_session.py:SaltServerSession.do_m4", "saltchannel/v2/salt_server_session.py:SaltServerSession.validate_signature2", "saltchannel/v2/salt_server_session.py:SaltServerSession.do_a2"]}
{"id": "C123", "title": "A handshake that raises leaves no channel and no key of a peer", "statement": "The full claim: when handshake() raises on a new session object, app_channel and client_sig_key are None. It fails on both sides. Client: if the signature of M3 is wrong, handshake() raises BadPeer, but app_channel is there, and a message written to it is encrypted for and sent to the peer that has not proved its identity. Server: if the signature of M4 is wrong, handshake() raises BadPeer and all attributes, app_channel and client_sig_key included, are exactly as if it had been right. Shown instead: whether handshake() returns or raises, a channel is there only if its session key was computed from the key in the M1 or M2 received first; client_sig_key is set only if an M4 with this key was decrypted with the session key and its time was accepted; and a handshake that raises leaves it set only if the very same handshake would have returned normally had the signature been accepted.", "quantifier": "all configurations, all answers of the environment, all points at which a handshake can stop", "why_tests_cant": "Tests look at the exception, not at what is left; where a handshake can stop depends on every single answer of the peer, the library and the clock.", "anchors": ["saltchannel/v2/salt_client_session.py:SaltClientSession.handshake", "saltchannel/v2/salt_client_session.py:SaltClientSession.validate_signature1", "saltchannel/v2/salt_client_session.py:SaltClientSession.create_encrypted_channel", "saltchannel/v2/salt_server_session.py:SaltServerSession.handshake", "saltchannel/v2/salt_server_session.py:SaltServerSession.do_m4", "saltchannel/v2/salt_server_session.py:SaltServerSession.validate_signature2", "saltchannel/v2/salt_server_session.py:SaltServerSession.create_encrypted_channel"]}
{"id": "C124", "title": "A broken connection ends both sessions, with the exceptions of the byte channel", "statement": "A client and a server session run over a connection that breaks at some moment, be it during a handshake or in the middle of a write call; of the messages in flight the first ones may still arrive. Then both sides come to an end, whatever the schedule. A handshake() that does not succeed raises what the byte channel raised (ComException for sockets, IncompleteReadError or the connection's error for asyncio streams), never BadPeer or anything else that blames the peer; after a successful handshake the calls of the program that fail raise what the byte channel raised, and the messages it reads are the first ones that the other program has written, in order and unchanged. In particular, a program reads nothing if the other side's handshake failed.", "quantifier": "all honest key pairs, clocks and buffering options, all application programs, all moments and schedules", "why_tests_cant": "When a connection breaks cannot be controlled; with the two links there are very many cases.", "anchors": ["saltchannel/v2/salt_client_session.py:handshake", "saltchannel/v2/salt_server_session.py:handshake", "saltchannel/v2/encrypted_channel_v2.py:read", "saltchannel/v2/encrypted_channel_v2.py:write", "saltchannel/v2/app_channel_v2.py:read", "saltchannel/v2/app_channel_v2.py:write"]}
{"id": "C125", "title": "run_sessions tells whether the client sessions have succeeded", "statement": "run_sessions returns normally only if all client sessions have returned normally; if some have raised, it raises one of their exceptions, after all of them have ended; and stop_server is called in any case. (The code violates this. MpClientServerPair: exceptions of client threads are caught, so run_sessions returns although sessions have failed; they are logged instead, each one exactly once, and every client thread closes its socket and leaves is_session_active false, also if connect fails. ClientServerPairA: the first two parts hold, but when run_sessions raises, the main program ends without stop_server.)", "quantifier": "all numbers of clients, all client and server programs, all schedules, all orders in which results are looked at", "why_tests_cant": "Interleavings of threads and processes; the order of a set of futures.", "anchors": ["saltchannel/dev/client_server.py:run_sessions", "saltchannel/dev/client_server.py:_run_session", "saltchannel/dev/client_server_a.py:run_sessions", "saltchannel/dev/client_server_a.py:spawn_clients_and_wait", "saltchannel/dev/run_session.py:main", "saltchannel/dev/run_session_a.py:main"]}
{"id": "C126", "title": "A connection that breaks ends its own session only", "statement": "The example server with any number of client threads, on TCP connections any of which may break at any moment (before they are accepted, during a handshake, in the middle of a call). Whatever breaks and whatever the schedule of all threads, run_sessions returns, then stop_server and serve_forever; no client thread and no handler stays behind, and is_session_active is false in the end. Every client whose connection has not broken is served and gets the results it would get if no connection broke, in example sessions 1 and 3 and in the simple echo session as in any others. This also holds beside clients that hang or behave in any other way, given that connections of clients that hang are broken in the end.", "quantifier": "all numbers of clients, all client and handler programs that end on connections that do not break, all moments at which connections break, all schedules, all segmentations", "why_tests_cant": "Losing connections at chosen moments, in every combination, while other clients are being served.", "anchors": ["saltchannel/dev/client_server.py:run_sessions", "saltchannel/dev/client_server.py:_run_session", "saltchannel/dev/client_server.py:stop_server", "saltchannel/channel.py:SocketChannel"]}
{"id": "C127", "title": "stop_server of the asyncio server lets the server sessions end", "statement": "If every client and its server session would finish alone, then after start_server, run_sessions and stop_server of ClientServerPairA all client and server sessions have ended. (The code violates this: stop_server closes the listening socket and the event loop without waiting for the tasks of the server, which are then abandoned for good. What holds: stop_server always returns, all clients have returned with the results they would get alone, and no server session has ended with another result than it would have alone.)", "quantifier": "all numbers of clients, all client and server programs, all schedules of the event loops", "why_tests_cant": "Whether a server task is finished when the loop is closed depends on the scheduling of several processes.", "anchors": ["saltchannel/dev/client_server_a.py:stop_server", "saltchannel/dev/client_server_a.py:run_sessions", "saltchannel/dev/client_server_a.py:start_server"]}
{"id": "C128", "title": "What the byte channels make of any stream of bytes", "statement": "Whatever bytes arrive on a connection, in whatever pieces, until it ends: successive calls of AsyncioChannel.read return the complete messages at the beginning of the stream, never a part of one, and return the same messages in the same places as SocketChannel.read_sync; in all other cases ComException is raised. (The code violates the last part: AsyncioChannel.read raises IncompleteReadError if the stream ends within a message and ValueError if the length is negative, exactly where SocketChannel raises ComException; the next call goes on behind the negative length.)", "quantifier": "all byte streams, all segmentations, all numbers of calls", "why_tests_cant": "Streams that are cut or malformed at any place.", "anchors": ["saltchannel/channel.py:AsyncioChannel.read", "saltchannel/dev/client_server_a.py:SaltChannelStreamReader.read_msg", "saltchannel/channel.py:SocketChannel.read_sync"]}
{"id": "C129", "title": "A write of a message that is too long writes nothing", "statement": "A call of write of a byte channel that is given, among others, a message of 2^31 bytes or more raises and writes nothing. (The code violates this for AsyncioChannel: the messages before it are already written when struct.error is raised. It holds for SocketChannel, which raises ComException; and of the long message and those after it nothing is written.)", "quantifier": "all lists of messages", "why_tests_cant": "A message of 2 GB.", "anchors": ["saltchannel/channel.py:AsyncioChannel.write", "saltchannel/dev/client_server_a.py:SaltChannelStreamWriter.write_msg", "saltchannel/channel.py:SocketChannel.write_sync"]}
{"id": "C130", "title": "A connection that breaks ends its own session only, with coroutines", "statement": "run_sessions of the asyncio example server with any number of client coroutines, on connections any of which may break at any moment; some clients may hang or behave in any other way, given that their connections are broken in the end. Whatever breaks and whatever the schedule, every client coroutine ends and run_sessions returns or raises; every client that would finish alone and whose connection has not broken gets the results it would get if no connection broke, in example sessions 1 and 3 and in the simple echo session as in any others; run_sessions returns normally if and only if all client coroutines have, and otherwise raises what one of them has raised. If all clients would finish alone, this one is on a connection that has broken.", "quantifier": "all numbers of clients, all client and handler coroutines, all moments at which connections break, all schedules, all segmentations", "why_tests_cant": "Losing connections at chosen moments, in every combination, while other clients are being served by the same event loop.", "anchors": ["saltchannel/dev/client_server_a.py:run_sessions", "saltchannel/dev/client_server_a.py:spawn_clients_and_wait", "saltchannel/channel.py:AsyncioChannel"]}
{"id": "C131", "title": "What the clients of the example servers print", "statement": "However many clients of example sessions 1 or 3 run against the example server, as threads over TCP or as coroutines, with whatever requests that fit into a packet (in session 3 up to 65535 bytes each for the two that are sent together) and whatever the schedule: every client has counted, when the handshake is over, 158 bytes read and 42 written if M4 is buffered, 162 otherwise, and in the end 182 bytes read and 186 written besides the request in session 1, 212 and 216 besides the requests in session 3; the same numbers for every client. The same is true of any other program of a client and a server that only write and read so that all of it fits, with the sizes of its own packets.", "quantifier": "all honest key pairs, numbers of clients, requests, buffering options, clocks, schedules and pieces in which bytes arrive", "why_tests_cant": "All requests, numbers of clients and schedules.", "anchors": ["saltchannel/dev/example_session1.py", "saltchannel/dev/example_session3.py", "saltchannel/dev/example_session1_a.py", "saltchannel/dev/example_session3_a.py", "saltchannel/dev/mitm_channel.py", "saltchannel/dev/client_server.py", "saltchannel/dev/client_server_a.py"]}
{"id": "C132", "title": "SaltLib uses the library and the random numbers that were asked for", "statement": "SaltLib(lib_type, rand_type) is an object that uses the library of that type, for LIB_TYPE_BEST the most preferred one that is available, and random_bytes takes its random numbers from the generator of that type afterwards, whatever has been done with the class before in the process. (The code violates this. All that counts is the first object that is made: later constructions return it whatever their arguments, and only lib_type changes, by calls of getLib. An object for an explicitly requested library has no library, so that after that no session of the process works; with rand_type RNG_IMPL its constructor raises AttributeError. With RNG_IMPL and libsodium random_bytes calls a C function with the number of bytes as the address of the buffer. Before the first object random_bytes raises AttributeError.) It holds in a process with libsodium in which all objects are made by default, as sessions and encrypted channels do.", "quantifier": "all sequences of constructions, calls of getLib and of random_bytes", "why_tests_cant": "All sequences of operations of a process; state of classes that tests share.", "anchors": ["saltchannel/saltlib/saltlib.py:SaltLib.__init__", "saltchannel/saltlib/saltlib.py:SaltLib.getLib", "saltchannel/saltlib/saltlib.py:SaltLib.random_bytes", "saltchannel/util/__init__.py:Singleton.__call__", "saltchannel/saltlib/saltlib_native.py:SaltLibNative.randombytes", "saltchannel/v2/encrypted_channel_v2.py:EncryptedChannelV2.__init__"]}
{"id": "C133", "title": "Key pairs as text", "statement": "str of a KeyPair is the secret key in hexadecimal digits, a comma, a space and a new line, and the public key in hexadecimal digits; the key pair can be read back from it, and different key pairs are printed differently, whatever the lengths of the keys.", "quantifier": "all byte strings as keys", "why_tests_cant": "All keys of all lengths.", "anchors": ["saltchannel/util/key_pair.py:KeyPair.__str__"]}
{"id": "C134", "title": "Client and server with common time objects", "statement": "Time keepers and time checkers are singletons, so a client and a server in one process (as MpClientServerPair runs them) have the same objects, and a call by the one changes the times of the other. If the checker accepts every time that the keeper can give, this makes no difference to the session: whatever the schedule of the threads, a session with common time objects ends, both sides return what their programs return when directly connected, with the same key and hashes, and what is sent is what is sent with time objects of their own that give some times of the common keeper. In particular example session 3 ends without exception on both sides, whatever the schedule.", "quantifier": "all time objects that accept their own times, all honest key pairs, application programs, buffering options, and schedules", "why_tests_cant": "All interleavings of calls to the common objects.", "anchors": ["saltchannel/util/__init__.py:SingletonABCMeta", "saltchannel/util/time.py", "saltchannel/dev/example_session3.py", "saltchannel/v2/salt_client_session.py", "saltchannel/v2/salt_server_session.py"]}
{"id": "C135", "title": "The times that example session 3 prints", "statement": "The packets of example session 3 have the times that the program prints: 1 in M1 and M2, 2 in M3 and M4, 3 in the app packets and 4 in the multi app packets. (The code violates this: MpClientServerPair runs both sides in one process, where they have the same OneTwoThreeTimeKeeper. Whatever the schedule, the times are then 1 in M1 and M2, 2 in M3, 3 in M4, 4 and 5 in the app packets and 6 and 7 in the multi app packets. The claim holds if each side has a time keeper of its own.)", "quantifier": "all honest key pairs, requests and schedules, whatever the keeper has counted before", "why_tests_cant": "All interleavings of the calls of two threads.", "anchors": ["saltchannel/dev/example_session3.py", "saltchannel/util/__init__.py:SingletonABCMeta", "saltchannel/dev/client_server.py"]}
{"id": "C136", "title": "Any number of sessions with common time objects", "statement": "All sessions of a process, clients and servers (as MpClientServerPair.run_sessions runs them), have the same time keeper and the same time checker. If the checker accepts every time that the keeper can give, then whatever the number of sessions and the schedule of all threads, everything comes to an end, and both sides of each session return what their programs return when directly connected, with the same session key and hashes; a server thread that serves one connection after the other serves them all. In particular any number of example sessions 3 in one process end without exception.", "quantifier": "all time objects that accept their own times, all lists of sessions with honest key pairs and application programs, and all schedules of all threads", "why_tests_cant": "All interleavings of the calls of any number of sessions to the common objects.", "anchors": ["saltchannel/util/__init__.py:SingletonABCMeta", "saltchannel/util/time.py", "saltchannel/dev/client_server.py:MpClientServerPair", "saltchannel/dev/example_session3.py"]}
{"id": "C137", "title": "The example server over TCP with common time objects", "statement": "The main programs of the examples with MpClientServerPair: any number of client threads and the handlers of the server, over TCP, whose sessions all have the same time keeper and the same time checker. If the checker accepts every time that the keeper can give, then whatever the schedule of all threads and however the streams are cut into pieces, everything comes to an end: in example session 1 every client gets its request back, in example session 3 (with its one OneTwoThreeTimeKeeper for the whole process) all comparisons of every client succeed; every handler has returned normally, and stop_server has returned.", "quantifier": "all time objects that accept their own times, all lists of requests that fit into a message, all key pairs, all schedules of the threads and all segmentations of the streams", "why_tests_cant": "All interleavings of any number of threads that share an object.", "anchors": ["saltchannel/util/__init__.py:SingletonABCMeta", "saltchannel/util/time.py", "saltchannel/dev/client_server.py:MpClientServerPair", "saltchannel/dev/example_session1.py", "saltchannel/dev/example_session3.py", "saltchannel/channel.py:SocketChannel"]}
{"id": "C138", "title": "The example server with coroutines and common time objects", "statement": "The servers of the examples with coroutines and any number of clients, whose sessions all have the same time keeper and the same time checker. If the checker accepts every time that the keeper can give, then whatever the schedule of the event loops and the pieces in which bytes arrive, run_sessions returns: in example session 1 every client has got its request back, in example session 3 (with its one OneTwoThreeTimeKeeper) all comparisons of every client have succeeded, and no task of the server has ended with an exception. For one connection, both coroutines end with these results and close it, and nothing is left unread.", "quantifier": "all time objects that accept their own times, all lists of requests that fit into a message, all key pairs, all schedules of the event loops and all segmentations of the streams", "why_tests_cant": "All interleavings of any number of coroutines that share an object.", "anchors": ["saltchannel/util/__init__.py:SingletonABCMeta", "saltchannel/util/time.py", "saltchannel/dev/client_server_a.py", "saltchannel/dev/example_session1_a.py", "saltchannel/dev/example_session3_a.py"]}
{"id": "C139", "title": "Tasks that start when their own handshake has ended", "statement": "A client that does not buffer M4 and a server run their handshakes as coroutines on AsyncioChannels on the two ends of a connection. As soon as its own handshake has returned, each side starts its tasks (any number that write, at most one that reads), without waiting for the other side; so tasks may write while the handshake of the other side still runs. Whatever the schedule and the pieces in which the bytes arrive, everything comes to an end; at any time the tasks that have returned have returned what they return when the tasks of the two sides are directly connected; at the end both handshakes have returned and the same tasks wait for messages as there. If each side has a task that writes and a task that reads as many messages as the other side writes, both readers get exactly these messages in order.", "quantifier": "all honest key pairs, clocks that accept each other, task programs whose calls fit into a frame, schedules and ways of cutting the stream into pieces", "why_tests_cant": "Schedules and segmentations cannot be enumerated.", "anchors": ["saltchannel/v2/salt_client_session.py:handshake", "saltchannel/v2/salt_server_session.py:handshake", "saltchannel/v2/app_channel_v2.py:read", "saltchannel/v2/app_channel_v2.py:write", "saltchannel/channel.py:AsyncioChannel"]}
{"id": "C140", "title": "A buffered M4 and several tasks", "statement": "Any number of tasks that read and write (several may read) share an application channel that holds a buffered M4, on one event loop. Whatever the schedule, and whatever the peer sends or whichever exceptions the reads of the underlying channel raise: as long as no task has written, nothing is sent and the M4 stays buffered; from the first write call on, what has been sent is, encrypted with the key of the channel and consecutive nonces, the M4 with the time of that call, the packets of that call, and then only packets of write calls of the tasks, and the M4 is no longer buffered. So M4 is sent exactly once and first. This holds for the channel of a client that buffers M4 after any handshake that has returned, with any peer; the M4 then has the public key of the client and the signature it made.", "quantifier": "all task programs with bounded numbers of messages, schedules, and results of reads", "why_tests_cant": "Schedules and behaviours of a peer cannot be enumerated.", "anchors": ["saltchannel/v2/salt_client_session.py:handshake", "saltchannel/v2/app_channel_v2.py:write", "saltchannel/v2/app_channel_v2.py:read"]}
{"id": "C141", "title": "Several tasks never use a nonce twice, with any peer", "statement": "Any number of tasks that read and write (several may read) share an application channel without a buffered M4, on one event loop. Whatever the schedule, and whatever the peer sends or whichever exceptions the reads of the underlying channel raise: what has been sent are packets of write calls of the tasks, encrypted with the key of the channel and consecutive nonces (in steps of two) from the write nonce of the channel on; the write nonce has advanced by two for each packet sent, and the key is unchanged. This holds for the channel of a server, and of a client that does not buffer M4, after any handshake that has returned (for a server: without having answered an A1), with any peer.", "quantifier": "all task programs with bounded numbers of messages, schedules, and results of reads", "why_tests_cant": "Schedules and behaviours of a peer cannot be enumerated.", "anchors": ["saltchannel/v2/salt_client_session.py:handshake", "saltchannel/v2/salt_server_session.py:handshake", "saltchannel/v2/app_channel_v2.py:write", "saltchannel/v2/app_channel_v2.py:read"]}
