{
 "claims": [
  {
   "property": "C01",
   "status": "proved",
   "theorems": [
    "Salt.Props.C01_m1_roundtrip"
   ],
   "note": ""
  },
  {
   "property": "C02",
   "status": "proved",
   "theorems": [
    "Salt.Props.C02_m2_roundtrip"
   ],
   "note": ""
  },
  {
   "property": "C03",
   "status": "proved",
   "theorems": [
    "Salt.Props.C03_m3_m4_roundtrip"
   ],
   "note": ""
  },
  {
   "property": "C04",
   "status": "proved",
   "theorems": [
    "Salt.Props.C04_encrypted_packet"
   ],
   "note": ""
  },
  {
   "property": "C05",
   "status": "proved",
   "theorems": [
    "Salt.Props.C05_app_packet_roundtrip"
   ],
   "note": ""
  },
  {
   "property": "C06",
   "status": "proved",
   "theorems": [
    "Salt.Props.C06_multi_roundtrip"
   ],
   "note": ""
  },
  {
   "property": "C07",
   "status": "partial",
   "theorems": [
    "Salt.Props.C07_multi_accept_partial",
    "Salt.Props.C07_violated"
   ],
   "note": "The code violates the claim: a truncated last message and trailing bytes are accepted. Proved: the exact accepted language, and the violation."
  },
  {
   "property": "C08",
   "status": "proved",
   "theorems": [
    "Salt.Props.C08_a1_accept"
   ],
   "note": ""
  },
  {
   "property": "C09",
   "status": "proved",
   "theorems": [
    "Salt.Props.C09_a2_accept",
    "Salt.Props.C09_a2_reject",
    "Salt.Props.C09_a2_roundtrip",
    "Salt.Props.C09_cases",
    "Salt.Props.C09_ascii_names",
    "Salt.Props.C09_newline_accepted"
   ],
   "note": "\"Pattern\" is the regular expression of the code; Python's $ lets a final newline through (C09_newline_accepted). Which non-ASCII code points are word characters is a parameter."
  },
  {
   "property": "C10",
   "status": "proved",
   "theorems": [
    "Salt.Props.C10_no_type_confusion"
   ],
   "note": "Proved for M1 as well."
  },
  {
   "property": "C11",
   "status": "partial",
   "theorems": [
    "Salt.Props.C11_fixed_accept_partial",
    "Salt.Props.C11_violated"
   ],
   "note": "The code violates the claim: every prefix of a valid M1-M4 is accepted. Proved: exact acceptance set and value, and the violation for every packet."
  },
  {
   "property": "C12",
   "status": "proved",
   "theorems": [
    "Salt.Props.C12_exceptions"
   ],
   "note": ""
  },
  {
   "property": "C13",
   "status": "proved",
   "theorems": [
    "Salt.Props.C13_size"
   ],
   "note": ""
  },
  {
   "property": "C14",
   "status": "proved",
   "theorems": [
    "Salt.Props.C14_reserialise"
   ],
   "note": ""
  },
  {
   "property": "C15",
   "status": "proved",
   "theorems": [
    "Salt.Props.C15_reads",
    "Salt.Props.C15_socket_framing"
   ],
   "note": ""
  },
  {
   "property": "C16",
   "status": "proved",
   "theorems": [
    "Salt.Props.C16_no_partial"
   ],
   "note": ""
  },
  {
   "property": "C17",
   "status": "proved",
   "theorems": [
    "Salt.Props.C17_frames_injective",
    "Salt.Props.C17_grouping",
    "Salt.Props.C17_write_calls"
   ],
   "note": ""
  },
  {
   "property": "C18",
   "status": "proved",
   "theorems": [
    "Salt.Props.C18_asyncio_interop"
   ],
   "note": ""
  },
  {
   "property": "C20",
   "status": "proved",
   "theorems": [
    "Salt.Props.C20_nonce"
   ],
   "note": ""
  },
  {
   "property": "C22",
   "status": "proved",
   "theorems": [
    "Salt.Props.C22_received_prefix_of_sent"
   ],
   "note": "Ciphertext integrity is a hypothesis about the run."
  },
  {
   "property": "C23",
   "status": "proved",
   "theorems": [
    "Salt.Props.C23_rejected_packets_harmless"
   ],
   "note": ""
  },
  {
   "property": "C24",
   "status": "proved",
   "theorems": [
    "Salt.Props.C24_last_flag"
   ],
   "note": ""
  },
  {
   "property": "C25",
   "status": "partial",
   "theorems": [
    "Salt.Props.C25_last_flag_honest_partial",
    "Salt.Props.C25_violated",
    "Salt.Props.C25_flag_malleable"
   ],
   "note": "The code violates the claim: the flag is not authenticated. Proved: the negation, that the attack works on every packet, and that the flag is right when packets are not modified."
  },
  {
   "property": "C26",
   "status": "proved",
   "theorems": [
    "Salt.Props.C26_read_binding"
   ],
   "note": ""
  },
  {
   "property": "C27",
   "status": "proved",
   "theorems": [
    "Salt.Props.C27_app_network",
    "Salt.Props.C27_app_fifo"
   ],
   "note": "Over reliable links for arbitrary programs on both sides and all schedules; and at the level of the two traces, whenever the reader decrypts what the writer encrypted, in order."
  },
  {
   "property": "C28",
   "status": "proved",
   "theorems": [
    "Salt.Props.C28_packets_of_a_write"
   ],
   "note": ""
  },
  {
   "property": "C29",
   "status": "partial",
   "theorems": [
    "Salt.Props.C29_delivery_partial",
    "Salt.Props.C29_violated",
    "Salt.Props.multi_count_wraps"
   ],
   "note": "The code violates the claim for more than 65535 messages in a call: the count wraps. Proved: the negation, what happens for any number of messages, and the claim up to 65535."
  },
  {
   "property": "C30",
   "status": "proved",
   "theorems": [
    "Salt.Props.C30_buffered_m4_once"
   ],
   "note": ""
  },
  {
   "property": "C31",
   "status": "proved",
   "theorems": [
    "Salt.Props.C31_queue_before_network"
   ],
   "note": ""
  },
  {
   "property": "C32",
   "status": "proved",
   "theorems": [
    "Salt.Props.C32_failed_read_keeps_state",
    "Salt.Props.C32_messages_of_accepted_packets"
   ],
   "note": ""
  },
  {
   "property": "C58",
   "status": "proved",
   "theorems": [
    "Salt.Props.C58_app_received_prefix_of_sent"
   ],
   "note": "Ciphertext integrity is a hypothesis about the run."
  },
  {
   "property": "C34",
   "status": "proved",
   "theorems": [
    "Salt.Props.C34_client_verifies_server"
   ],
   "note": ""
  },
  {
   "property": "C35",
   "status": "proved",
   "theorems": [
    "Salt.Props.C35_server_verifies_client"
   ],
   "note": ""
  },
  {
   "property": "C36",
   "status": "proved",
   "theorems": [
    "Salt.Props.C36_client_matching",
    "Salt.Props.C36_server_matching"
   ],
   "note": "Unforgeability of the peer's signing key and absence of hash collisions on the transcripts are hypotheses about the run."
  },
  {
   "property": "C37",
   "status": "proved",
   "theorems": [
    "Salt.Props.C37_roles_separated"
   ],
   "note": ""
  },
  {
   "property": "C38",
   "status": "proved",
   "theorems": [
    "Salt.Props.C38_identity_after_verification",
    "Salt.Props.C38_failure_wrote_only_M1",
    "Salt.Props.C38_unverified_noninterference"
   ],
   "note": ""
  },
  {
   "property": "C39",
   "status": "proved",
   "theorems": [
    "Salt.Props.C39_client_clear",
    "Salt.Props.C39_server_clear",
    "Salt.Props.C39_client_identities",
    "Salt.Props.C39_server_identities",
    "Salt.Props.C39_client_sealed",
    "Salt.Props.C39_server_sealed"
   ],
   "note": ""
  },
  {
   "property": "C40",
   "status": "proved",
   "theorems": [
    "Salt.Props.C40_server_refuses",
    "Salt.Props.C40_client_refused",
    "Salt.Props.C40_proceeds"
   ],
   "note": ""
  },
  {
   "property": "C41",
   "status": "proved",
   "theorems": [
    "Salt.Props.C41_a1"
   ],
   "note": ""
  },
  {
   "property": "C42",
   "status": "partial",
   "theorems": [
    "Salt.Props.C42_address_ignored_partial",
    "Salt.Props.C42_never_refused",
    "Salt.Props.C42_violated"
   ],
   "note": "The code violates the claim: the address of an A1 is never looked at. Proved: the negation, and that the answer is the same for every address."
  },
  {
   "property": "C43",
   "status": "proved",
   "theorems": [
    "Salt.Props.C43_needs_keypair"
   ],
   "note": ""
  },
  {
   "property": "C44",
   "status": "proved",
   "theorems": [
    "Salt.Props.C44_channel_or_exception"
   ],
   "note": ""
  },
  {
   "property": "C45",
   "status": "partial",
   "theorems": [
    "Salt.Props.C45_wanted_ignored_partial",
    "Salt.Props.C45_violated"
   ],
   "note": "The code violates the claim: wanted_server_sig_key is never read. Proved: the negation, and that the attribute influences nothing."
  },
  {
   "property": "C46",
   "status": "proved",
   "theorems": [
    "Salt.Props.C46_server",
    "Salt.Props.C46_client",
    "Salt.Props.C46_completed",
    "Salt.Props.C46_completed_client"
   ],
   "note": ""
  },
  {
   "property": "C49",
   "status": "partial",
   "theorems": [
    "Salt.Props.C49_not_m1_partial",
    "Salt.Props.C49_prefix_answered",
    "Salt.Props.C49_violated"
   ],
   "note": "The code violates the claim: every proper prefix of an M1 is processed as an M1. Proved: the negation, that the server answers every such prefix, and the claim for messages whose header is not that of an M1."
  },
  {
   "property": "C59",
   "status": "partial",
   "theorems": [
    "Salt.Props.C59_client",
    "Salt.Props.C59_server",
    "Salt.Props.C59_violated",
    "Salt.Props.C59_client_assertion",
    "Salt.Props.C59_server_value",
    "Salt.Props.C59_server_empty"
   ],
   "note": "The code violates the claim. Proved: the negation, exactly which exceptions are possible on either side, and that each of the undocumented ones occurs."
  },
  {
   "property": "C19",
   "status": "proved",
   "theorems": [
    "Salt.Props.C19_nonces_distinct"
   ],
   "note": "For a session object that performs one handshake, completed or not, followed by any application program."
  },
  {
   "property": "C48",
   "status": "partial",
   "theorems": [
    "Salt.Props.C48_keys_and_nonces_partial",
    "Salt.Props.C48_reused",
    "Salt.Props.C48_violated"
   ],
   "note": "The code violates the claim: encryption key pairs may be reused. Proved: the negation (for every library and all key pairs), and which keys and nonces a session uses."
  },
  {
   "property": "C21",
   "status": "proved",
   "theorems": [
    "Salt.Props.C21_enc_fifo"
   ],
   "note": "For arbitrary programs on both sides (at most 2^62 messages each, since nonces have 64 bits) and all schedules, given the laws of the box."
  },
  {
   "property": "C33",
   "status": "partial",
   "theorems": [
    "Salt.Props.C33_handshake_partial",
    "Salt.Props.C33_violated"
   ],
   "note": "The code violates the claim when the client buffers M4: the server waits for M4. Proved: the negation, and the claim without M4 buffering for both settings of M2 buffering. C47 covers M4 buffering when the client writes first."
  },
  {
   "property": "C47",
   "status": "proved",
   "theorems": [
    "Salt.Props.C47_end_to_end"
   ],
   "note": "For arbitrary programs on both sides and all schedules; if the client buffers M4 its program has to begin with a write, see C60."
  },
  {
   "property": "C60",
   "status": "partial",
   "theorems": [
    "Salt.Props.C60_buffer_m4_partial",
    "Salt.Props.C60_deadlock",
    "Salt.Props.C60_violated"
   ],
   "note": "The code violates the claim. Proved: the negation, that both sides wait for ever whenever the client reads first, and the claim for clients that write first."
  },
  {
   "property": "C57",
   "status": "proved",
   "theorems": [
    "Salt.Props.C57_socket_network",
    "Salt.Props.C57_sessions_over_sockets"
   ],
   "note": "For arbitrary programs, all schedules and all segmentations; each write call made when the programs are directly connected carries less than 2^31 - 26 bytes, two extra bytes counted per message (the frame length is a signed 32-bit number)."
  },
  {
   "property": "C50",
   "status": "partial",
   "theorems": [
    "Salt.Props.C50_selection_partial",
    "Salt.Props.C50_sound",
    "Salt.Props.C50_violated",
    "Salt.Props.C50_requested",
    "Salt.Props.C50_requested_unusable",
    "Salt.Props.C50_package"
   ],
   "note": "The code violates the claim: only the first library is considered, and an explicit request yields None. Proved: the negation, and the claim when libsodium is present."
  },
  {
   "property": "C51",
   "status": "proved",
   "theorems": [
    "Salt.Props.C51_compute_shared_key",
    "Salt.Props.C51_agree",
    "Salt.Props.C51_method"
   ],
   "note": ""
  },
  {
   "property": "C52",
   "status": "proved",
   "theorems": [
    "Salt.Props.C52_native_box",
    "Salt.Props.C52_native_sign",
    "Salt.Props.C52_native_dh",
    "Salt.Props.C52_native_hash",
    "Salt.Props.C52_native_honest"
   ],
   "note": "NaCl conventions of the foreign library are hypotheses."
  },
  {
   "property": "C53",
   "status": "proved",
   "theorems": [
    "Salt.Props.C53_same_instance",
    "Salt.Props.C53_first_instance"
   ],
   "note": ""
  },
  {
   "property": "C54",
   "status": "proved",
   "theorems": [
    "Salt.Props.C54_variant",
    "Salt.Props.C54_others",
    "Salt.Props.C54_dispatch"
   ],
   "note": ""
  },
  {
   "property": "C55",
   "status": "proved",
   "theorems": [
    "Salt.Props.C55_transparent",
    "Salt.Props.C55_complete"
   ],
   "note": "Provided the log itself raises nothing."
  },
  {
   "property": "C56",
   "status": "partial",
   "theorems": [
    "Salt.Props.C56_fifo_partial",
    "Salt.Props.C56_violated",
    "Salt.Props.C56_nothing_delivered"
   ],
   "note": "The code violates the claim: writing bytes raises TypeError. Proved: the negation, that nothing is ever delivered, and FIFO delivery for callers passing a tuple."
  },
  {
   "property": "C61",
   "status": "proved",
   "theorems": [
    "Salt.Props.C61_open_errors",
    "Salt.Props.C61_native_errors",
    "Salt.Props.C61_native_codes"
   ],
   "note": ""
  },
  {
   "property": "C62",
   "status": "proved",
   "theorems": [
    "Salt.Props.C62_key_pairs",
    "Salt.Props.C62_native_keys",
    "Salt.Props.C62_random"
   ],
   "note": ""
  },
  {
   "property": "C63",
   "status": "proved",
   "theorems": [
    "Salt.Props.C63_log"
   ],
   "note": "Provided the log itself raises nothing."
  },
  {
   "property": "C64",
   "status": "partial",
   "theorems": [
    "Salt.Props.C64_flush_partial",
    "Salt.Props.C64_lost",
    "Salt.Props.C64_violated"
   ],
   "note": "The code violates the claim: records are dropped while buffering. Proved: the negation, that all of them are lost, and that flushing logs whatever is in the queue."
  },
  {
   "property": "C65",
   "status": "proved",
   "theorems": [
    "Salt.Props.C65_client",
    "Salt.Props.C65_server",
    "Salt.Props.C65_app"
   ],
   "note": ""
  },
  {
   "property": "C66",
   "status": "proved",
   "theorems": [
    "Salt.Props.C66_m1",
    "Salt.Props.C66_m1_key",
    "Salt.Props.C66_m2",
    "Salt.Props.C66_m34",
    "Salt.Props.C66_other",
    "Salt.Props.C66_a2",
    "Salt.Props.C66_multi"
   ],
   "note": ""
  },
  {
   "property": "C67",
   "status": "partial",
   "theorems": [
    "Salt.Props.C67_client_partial",
    "Salt.Props.C67_trailing",
    "Salt.Props.C67_violated"
   ],
   "note": "The code violates the claim for the server. Proved: the negation, that bytes appended to an accepted M4 never matter, and the claim for the client."
  },
  {
   "property": "C68",
   "status": "proved",
   "theorems": [
    "Salt.Props.C68_encrypt_decrypt",
    "Salt.Props.C68_sign_hash"
   ],
   "note": "The laws of the box and of the signature are hypotheses on the backend."
  },
  {
   "property": "C69",
   "status": "proved",
   "theorems": [
    "Salt.Props.C69_a1_client",
    "Salt.Props.C69_new"
   ],
   "note": ""
  },
  {
   "property": "C70",
   "status": "partial",
   "theorems": [
    "Salt.Props.C70_reply_partial",
    "Salt.Props.C70_violated"
   ],
   "note": "The code violates the claim: an empty reply is accepted. Proved: the negation, and the shape of every other accepted reply."
  },
  {
   "property": "C71",
   "status": "proved",
   "theorems": [
    "Salt.Props.C71_a1_session",
    "Salt.Props.C71_over_sockets",
    "Salt.Props.C71_example2"
   ],
   "note": ""
  },
  {
   "property": "C72",
   "status": "proved",
   "theorems": [
    "Salt.Props.C72_default_times"
   ],
   "note": ""
  },
  {
   "property": "C73",
   "status": "proved",
   "theorems": [
    "Salt.Props.C73_example1",
    "Salt.Props.C73_example3"
   ],
   "note": ""
  },
  {
   "property": "C74",
   "status": "proved",
   "theorems": [
    "Salt.Props.C74_simple_echo",
    "Salt.Props.C74_empty",
    "Salt.Props.C74_server",
    "Salt.Props.echoEnd_eq"
   ],
   "note": ""
  },
  {
   "property": "C75",
   "status": "partial",
   "theorems": [
    "Salt.Props.C75_times_partial",
    "Salt.Props.C75_shared",
    "Salt.Props.C75_violated"
   ],
   "note": "The code violates the claim: the keeper is a singleton. Proved: the negation with the times that come out, and the claim for two distinct keeper objects."
  },
  {
   "property": "C76",
   "status": "partial",
   "theorems": [
    "Salt.Props.C76_last_partial",
    "Salt.Props.C76_early",
    "Salt.Props.C76_violated"
   ],
   "note": "The code violates the claim: the flag is that of the packet. Proved: the negation, what the flag is after every read, and that it is early for every packet of several messages."
  },
  {
   "property": "C77",
   "status": "proved",
   "theorems": [
    "Salt.Props.C77_pushback",
    "Salt.Props.C77_key_length"
   ],
   "note": ""
  },
  {
   "property": "C78",
   "status": "partial",
   "theorems": [
    "Salt.Props.C78_box_partial",
    "Salt.Props.C78_wrong_block",
    "Salt.Props.C78_violated"
   ],
   "note": "The code violates the claim for messages of more than 16416 bytes. Proved: the claim for all shorter ones, which counter the next block gets under every key and nonce, and the negation."
  },
  {
   "property": "C79",
   "status": "partial",
   "theorems": [
    "Salt.Props.C79_open_partial",
    "Salt.Props.C79_violated",
    "Salt.Props.C79_roundtrip",
    "Salt.Props.C79_not_instantiable"
   ],
   "note": "The code violates the claim. Proved: boxes of any length are told from other byte strings correctly, but give the empty byte string, and NameError otherwise."
  },
  {
   "property": "C80",
   "status": "proved",
   "theorems": [
    "Salt.Props.C80_hash",
    "Salt.Props.C80_length",
    "Salt.Props.C80_padding"
   ],
   "note": ""
  },
  {
   "property": "C81",
   "status": "proved",
   "theorems": [
    "Salt.Props.C81_keypair",
    "Salt.Props.C81_length",
    "Salt.Props.C81_public_length"
   ],
   "note": ""
  },
  {
   "property": "C82",
   "status": "proved",
   "theorems": [
    "Salt.Props.C82_beforenm"
   ],
   "note": ""
  },
  {
   "property": "C83",
   "status": "proved",
   "theorems": [
    "Salt.Props.C83_keypair",
    "Salt.Props.C83_length",
    "Salt.Props.C83_key_lengths"
   ],
   "note": ""
  },
  {
   "property": "C84",
   "status": "proved",
   "theorems": [
    "Salt.Props.C84_sign",
    "Salt.Props.C84_sign_with_keypair",
    "Salt.Props.C84_length"
   ],
   "note": ""
  },
  {
   "property": "C85",
   "status": "proved",
   "theorems": [
    "Salt.Props.C85_valid",
    "Salt.Props.C85_roundtrip"
   ],
   "note": ""
  },
  {
   "property": "C86",
   "status": "partial",
   "theorems": [
    "Salt.Props.C86_open_partial",
    "Salt.Props.C86_short",
    "Salt.Props.C86_sound",
    "Salt.Props.C86_iff",
    "Salt.Props.C86_malleable",
    "Salt.Props.C86_violated"
   ],
   "note": "The code violates the claim. Proved: the exact condition of acceptance, soundness for encoded keys and S below the order with the equation of RFC 8032, equivalence for keys made by the library, malleability of every accepted signature, and the negation with three kinds of witnesses."
  },
  {
   "property": "C87",
   "status": "proved",
   "theorems": [
    "Salt.Props.C87_commutes",
    "Salt.Props.C87_agree"
   ],
   "note": ""
  },
  {
   "property": "C88",
   "status": "proved",
   "theorems": [
    "Salt.Props.C88_zero_iff",
    "Salt.Props.C88_constant",
    "Salt.Props.C88_honest",
    "Salt.Props.C88_same_public"
   ],
   "note": ""
  },
  {
   "property": "C89",
   "status": "proved",
   "theorems": [
    "Salt.Props.C89_box",
    "Salt.Props.C89_hash",
    "Salt.Props.C89_sign",
    "Salt.Props.C89_dh",
    "Salt.Props.C89_keys",
    "Salt.Props.C89_honest",
    "Salt.Props.C89_session"
   ],
   "note": ""
  },
  {
   "property": "C90",
   "status": "partial",
   "theorems": [
    "Salt.Props.C90_server_partial",
    "Salt.Props.C90_client_partial",
    "Salt.Props.C90_value_error",
    "Salt.Props.C90_value_error_client",
    "Salt.Props.C90_constant_server",
    "Salt.Props.C90_constant_client",
    "Salt.Props.C90_completed",
    "Salt.Props.C90_completed_client",
    "Salt.Props.C90_violated"
   ],
   "note": "The code leaves the check to the library. Proved: the claim on both sides for a library that checks; that the session key is the constant and the handshake completes with one that does not; the negation with an empty first message."
  },
  {
   "property": "C91",
   "status": "partial",
   "theorems": [
    "Salt.Props.C91_tasks_partial",
    "Salt.Props.C91_duplex",
    "Salt.Props.C91_model",
    "Salt.Props.C91_two_readers",
    "Salt.Props.C91_violated"
   ],
   "note": "Proved for any number of writing tasks and at most one reading task per side, over all schedules; full-duplex corollary; the coroutine model equals the channel model when a task is alone. Missing because false: two reading tasks, negation proved for every box library with a concrete schedule."
  },
  {
   "property": "C92",
   "status": "partial",
   "theorems": [
    "Salt.Props.C92_tasks_partial",
    "Salt.Props.C92_duplex",
    "Salt.Props.C92_second_reader",
    "Salt.Props.C92_misframed",
    "Salt.Props.C92_violated"
   ],
   "note": "Proved for any number of writing tasks and at most one reading task per side, over all schedules and segmentations; full-duplex corollary. Missing because false: two reading tasks, with two concrete schedules (RuntimeError; a message nobody sent)."
  },
  {
   "property": "C93",
   "status": "partial",
   "theorems": [
    "Salt.Props.C93_tasks_partial",
    "Salt.Props.C93_duplex",
    "Salt.Props.C93_second_reader",
    "Salt.Props.C93_violated",
    "Salt.Props.C91_paired_partial"
   ],
   "note": "Proved for any number of writing tasks and at most one reading task per side, over all schedules and segmentations, from any matching pair of channels; full-duplex corollary. Missing because false: two reading tasks, negation proved with a concrete schedule."
  },
  {
   "property": "C94",
   "status": "proved",
   "theorems": [
    "Salt.Props.C94_handshake",
    "Salt.Props.C94_tasks"
   ],
   "note": "The handshakes run on the network of messages (for sockets see C57), the tasks on asyncio streams; tasks start when both handshakes have ended."
  },
  {
   "property": "C95",
   "status": "partial",
   "theorems": [
    "Salt.Props.C95_arrays_partial",
    "Salt.Props.C95_integers",
    "Salt.Props.C95_never",
    "Salt.Props.C95_violated",
    "Salt.Props.C95_addressType",
    "Salt.Props.C95_agrees",
    "Salt.Props.C95_unknown",
    "Salt.Props.C95_assign_array",
    "Salt.Props.C95_assign_refused",
    "Salt.Props.C95_assign_unknown",
    "Salt.Props.C95_assign_violated",
    "Salt.Props.C95_optional"
   ],
   "note": "Proved for byte arrays, headers and optional parts. Missing because false: integer fields (read as n zero bytes) and names that are not fields (accepted, no effect); both negations proved. Names defined by the class itself are outside of the model."
  },
  {
   "property": "C96",
   "status": "partial",
   "theorems": [
    "Salt.Props.C96_accepted",
    "Salt.Props.C96_zeroed",
    "Salt.Props.C96_invalid",
    "Salt.Props.C96_violated",
    "Salt.Props.C96_fill",
    "Salt.Props.C96_fill_errors"
   ],
   "note": "The negation is proved: no assignment to Prot gives a valid A2 that offers a protocol. The way that works, filling in the entries one by one, is proved for all lists of names. Which values ctypes converts is taken from its documented behaviour."
  },
  {
   "property": "C97",
   "status": "proved",
   "theorems": [
    "Salt.Props.C97_streams",
    "Salt.Props.C97_sessions",
    "Salt.Props.C97_closing"
   ],
   "note": "One coroutine per side on the model of asyncio streams of C92. Calls made when the programs are directly connected fit into a frame (2^31 - 27 bytes, two extra bytes counted per message)."
  },
  {
   "property": "C98",
   "status": "proved",
   "theorems": [
    "Salt.Props.C98_example1",
    "Salt.Props.C98_example2",
    "Salt.Props.C98_a1",
    "Salt.Props.C98_example3",
    "Salt.Props.C98_simple_echo"
   ],
   "note": "Printing, logging and counters are left out; requests fit into a frame; the loop of the echo server is run with sufficient fuel."
  },
  {
   "property": "C99",
   "status": "proved",
   "theorems": [
    "Salt.Props.C99_client",
    "Salt.Props.C99_server",
    "Salt.Props.C99_one_to_one",
    "Salt.Props.C99_programs"
   ],
   "note": "The cryptographic assumptions are hypotheses about the events of the sessions (Spec/World.lean); write calls carry at most 65535 messages; a session in progress is one whose pending operation raises."
  },
  {
   "property": "C100",
   "status": "partial",
   "theorems": [
    "Salt.Props.C100_socket_partial",
    "Salt.Props.C100_asyncio_partial",
    "Salt.Props.C100_socket_injected",
    "Salt.Props.C100_asyncio_injected",
    "Salt.Props.C100_violated",
    "Salt.Props.C100_asyncio_write",
    "Salt.Props.C100_write",
    "Salt.Props.C100_read"
   ],
   "note": "The negation is proved: for every m, an interrupted read of the message that is the frame of m is followed by a read that returns m. Missing for the full claim: reads interrupted within a message, and writes. An interruption is an exception raised by recv or readexactly that takes no bytes."
  },
  {
   "property": "C101",
   "status": "partial",
   "theorems": [
    "Salt.Props.C101_threads_partial",
    "Salt.Props.C101_client",
    "Salt.Props.C101_shared",
    "Salt.Props.C101_coroutine",
    "Salt.Props.C101_again",
    "Salt.Props.C101_run",
    "Salt.Props.C101_violated"
   ],
   "note": "The negation is proved. Missing for the full claim: the four situations named in it. The rules for event loops are those of CPython 3.11; what the coroutines do is not part of this model."
  },
  {
   "property": "C102",
   "status": "proved",
   "theorems": [
    "Salt.Props.C102_run_sessions",
    "Salt.Props.C102_all_served",
    "Salt.Props.C102_example1",
    "Salt.Props.C102_example2",
    "Salt.Props.C102_example3",
    "Salt.Props.C102_simple_echo",
    "Salt.Props.C102_loops"
   ],
   "note": "connect and the assignment after it are one step, and so are the end of a routine and the closing of its socket. A closed end is seen as end of file, or as any exception where TCP may report a reset."
  },
  {
   "property": "C103",
   "status": "partial",
   "theorems": [
    "Salt.Props.C103_accepted_partial",
    "Salt.Props.C103_blocked",
    "Salt.Props.C103_violated"
   ],
   "note": "The negation is proved. Missing for the full claim: connections accepted after one whose client stalls."
  },
  {
   "property": "C104",
   "status": "partial",
   "theorems": [
    "Salt.Props.C104_active_partial",
    "Salt.Props.C104_violated"
   ],
   "note": "The negation is proved. Missing for the full claim: two or more clients."
  },
  {
   "property": "C105",
   "status": "proved",
   "theorems": [
    "Salt.Props.C105_independent",
    "Salt.Props.C105_all_served",
    "Salt.Props.C105_example1",
    "Salt.Props.C105_example2",
    "Salt.Props.C105_example3",
    "Salt.Props.C105_simple_echo"
   ],
   "note": "All clients have the same time objects. What was written before an event loop stops is sent. asyncio.wait accepts its loop argument (Python before 3.10)."
  },
  {
   "property": "C106",
   "status": "partial",
   "theorems": [
    "Salt.Props.C106_clients_partial",
    "Salt.Props.C106_violated"
   ],
   "note": "The negation is proved. Missing for the full claim: the server sessions."
  },
  {
   "property": "C107",
   "status": "partial",
   "theorems": [
    "Salt.Props.C107_box_keypair",
    "Salt.Props.C107_sign_keypair",
    "Salt.Props.C107_box_partial",
    "Salt.Props.C107_open_partial",
    "Salt.Props.C107_exchange",
    "Salt.Props.C107_violated"
   ],
   "note": "The negation is proved. Missing for the full claim: the message that crypto_box_open returns, and messages of more than 16416 bytes (C78)."
  },
  {
   "property": "C108",
   "status": "proved",
   "theorems": [
    "Salt.Props.C108_box",
    "Salt.Props.C108_box_short",
    "Salt.Props.C108_open_short",
    "Salt.Props.C108_open_long",
    "Salt.Props.C108_beforenm",
    "Salt.Props.C108_beforenm_short",
    "Salt.Props.C108_sign",
    "Salt.Props.C108_sign_short",
    "Salt.Props.C108_signOpen",
    "Salt.Props.C108_signOpen_short"
   ],
   "note": "What the results are is C78-C86."
  },
  {
   "property": "C109",
   "status": "partial",
   "theorems": [
    "Salt.Props.C109_stream",
    "Salt.Props.C109_block",
    "Salt.Props.C109_fresh_partial",
    "Salt.Props.C109_same",
    "Salt.Props.C109_reused_64",
    "Salt.Props.C109_reused_32",
    "Salt.Props.C109_violated"
   ],
   "note": "Holds for the blocks up to number 256; fails for far blocks. C109_stream and C109_block say which counter every block gets, for messages of every length (this also says what the boxes beyond the range of C78_box_partial are)."
  },
  {
   "property": "C110",
   "status": "proved",
   "theorems": [
    "Salt.Props.C110_sig",
    "Salt.Props.C110_enc",
    "Salt.Props.C110_shared",
    "Salt.Props.C110_setup",
    "Salt.Props.C110_example1",
    "Salt.Props.C110_example3",
    "Salt.Props.C110_tcp",
    "Salt.Props.C110_asyncio"
   ],
   "note": ""
  },
  {
   "property": "C111",
   "status": "proved",
   "theorems": [
    "Salt.Props.C111_transcript",
    "Salt.Props.C111_bytes",
    "Salt.Props.C111_example3_times"
   ],
   "note": ""
  },
  {
   "property": "C112",
   "status": "partial",
   "theorems": [
    "Salt.Props.C112_counters_partial",
    "Salt.Props.C112_counters",
    "Salt.Props.C112_example1",
    "Salt.Props.C112_example1_unbuffered",
    "Salt.Props.C112_example3",
    "Salt.Props.C112_shipped",
    "Salt.Props.C112_violated"
   ],
   "note": "The negation is proved. Missing for the full claim: sessions in which M4 is buffered; C112_counters gives the counters in both cases."
  },
  {
   "property": "C113",
   "status": "proved",
   "theorems": [
    "Salt.Props.C113_client",
    "Salt.Props.C113_server"
   ],
   "note": "crypto_hash takes any argument."
  },
  {
   "property": "C114",
   "status": "proved",
   "theorems": [
    "Salt.Props.C114_session",
    "Salt.Props.C114_native",
    "Salt.Props.C114_bindings",
    "Salt.Props.C114_fit",
    "Salt.Props.C114_std"
   ],
   "note": "What the packages nacl and tweetnacl compute is a hypothesis (NaclBindings), as is what libsodium computes (naclSodium). SaltLibPure is no such backend: its crypto_box_open_afternm loses the message (C79)."
  },
  {
   "property": "C115",
   "status": "partial",
   "theorems": [
    "Salt.Props.C115_client",
    "Salt.Props.C115_server",
    "Salt.Props.C115_client_partial",
    "Salt.Props.C115_server_partial",
    "Salt.Props.C115_violated"
   ],
   "note": "The negation is proved. Missing for the full claim: sessions in which the key in the M1 or M2 is of small order. C115_client and C115_server are for any two libraries that agree on the calls that sessions make."
  },
  {
   "property": "C116",
   "status": "partial",
   "theorems": [
    "Salt.Props.C116_stop_server",
    "Salt.Props.C116_all_served_partial",
    "Salt.Props.C116_example1",
    "Salt.Props.C116_example2",
    "Salt.Props.C116_example3",
    "Salt.Props.C116_simple_echo",
    "Salt.Props.C116_violated"
   ],
   "note": "The negation is proved. Missing for the full claim: clients that end before the server has done anything. The test whether to stop and accept are one step of serve_forever; otherwise as C102."
  },
  {
   "property": "C117",
   "status": "proved",
   "theorems": [
    "Salt.Props.C117_client_reveals_nothing",
    "Salt.Props.C117_server_reveals_nothing",
    "Salt.Props.C117_server_same_identity",
    "Salt.Props.C117_asked"
   ],
   "note": "A statement about the calls; that boxes of equal length cannot be told apart is the assumption that turns it into secrecy, and is not modelled. Opened packets may differ between the two runs where a well-formed packet has a message, a signing key or a signature. Times and lengths are the same in both."
  },
  {
   "property": "C118",
   "status": "partial",
   "theorems": [
    "Salt.Props.C118_fixed_partial",
    "Salt.Props.C118_variable",
    "Salt.Props.C118_multi",
    "Salt.Props.C118_kept",
    "Salt.Props.C118_violated"
   ],
   "note": "The negation is proved. Missing for the full claim: sources shorter than the fixed part, for M1 to M4 (what they leave in place: C118_kept). The library itself always reads into new objects."
  },
  {
   "property": "C119",
   "status": "partial",
   "theorems": [
    "Salt.Props.C119_turns_partial",
    "Salt.Props.C119_safe_partial",
    "Salt.Props.C119_sessions_partial",
    "Salt.Props.C119_example1",
    "Salt.Props.C119_example3",
    "Salt.Props.C119_a1",
    "Salt.Props.C119_simple_echo",
    "Salt.Props.C119_both_write",
    "Salt.Props.C119_session_violated",
    "Salt.Props.C119_unread",
    "Salt.Props.C119_violated"
   ],
   "note": "The negation is proved. Missing for the full claim: programs that do not take turns or leave messages unread, when the messages do not fit into the buffers. Buffers are modelled as a bound on the bytes in flight in each direction. C119_session_violated is for sessions that do not buffer M4."
  },
  {
   "property": "C120",
   "status": "partial",
   "theorems": [
    "Salt.Props.C120_turns_partial",
    "Salt.Props.C120_safe_partial",
    "Salt.Props.C120_schedules",
    "Salt.Props.C120_sessions_partial",
    "Salt.Props.C120_closing_partial",
    "Salt.Props.C120_example1",
    "Salt.Props.C120_example3",
    "Salt.Props.C120_a1",
    "Salt.Props.C120_simple_echo",
    "Salt.Props.C120_both_write",
    "Salt.Props.C120_unread",
    "Salt.Props.C120_violated"
   ],
   "note": "The negation is proved. Missing for the full claim: coroutines that do not take turns or leave messages unread, when the messages do not fit into the buffers. Flow control is modelled after CPython (asyncio/streams.py, transports.py, selector_events.py); resets of the connection are not modelled."
  },
  {
   "property": "C121",
   "status": "proved",
   "theorems": [
    "Salt.Props.C121_plain",
    "Salt.Props.C121_session",
    "Salt.Props.C121_after_handshake",
    "Salt.Props.C121_duplex",
    "Salt.Props.C121_session_duplex"
   ],
   "note": "Flow control is modelled after CPython (asyncio/streams.py, transports.py, selector_events.py)."
  },
  {
   "property": "C122",
   "status": "partial",
   "theorems": [
    "Salt.Props.C122_client_partial",
    "Salt.Props.C122_server_partial",
    "Salt.Props.C122_server_fresh",
    "Salt.Props.C122_forged",
    "Salt.Props.C122_violated",
    "Salt.Props.C122_done_stays",
    "Salt.Props.C122_claim_false",
    "Salt.Props.C122_end_to_end"
   ],
   "note": "The negation is proved. Missing for the full claim: server objects on which an earlier handshake failed or an A1 was answered. For the client the claim holds in full."
  },
  {
   "property": "C123",
   "status": "partial",
   "theorems": [
    "Salt.Props.C123_client_partial",
    "Salt.Props.C123_server_partial",
    "Salt.Props.C123_key",
    "Salt.Props.C123_key_partial",
    "Salt.Props.C123_server_same",
    "Salt.Props.C123_client_usable",
    "Salt.Props.C123_client_violated",
    "Salt.Props.C123_server_violated",
    "Salt.Props.C123_claim_false"
   ],
   "note": "The negation is proved, for client and server. Missing for the full claim: handshakes that fail after the session key has been computed."
  },
  {
   "property": "C124",
   "status": "proved",
   "theorems": [
    "Salt.Props.C124_broken_connection",
    "Salt.Props.C124_broken_socket",
    "Salt.Props.C124_broken_stream"
   ],
   "note": "C124_broken_connection is about any byte channel that delivers whole messages and about any set of exceptions, C124_broken_socket about SocketChannel and the loss of bytes, C124_broken_stream the same for AsyncioChannel; there messages are limited in size. When recv or readexactly has raised nothing more arrives. If the client buffers M4 its program begins with a write, as in C47."
  },
  {
   "property": "C125",
   "status": "partial",
   "theorems": [
    "Salt.Props.C125_reported_partial",
    "Salt.Props.C125_returns_partial",
    "Salt.Props.C125_run_sessions_partial",
    "Salt.Props.C125_logged_partial",
    "Salt.Props.C125_thread",
    "Salt.Props.C125_thread_closes",
    "Salt.Props.C125_main",
    "Salt.Props.C125_violated"
   ],
   "note": "The negation is proved, for threads. Proved for coroutines; for threads, that every exception is logged. Missing for the full claim: that run_sessions of the threads raises, and that stop_server follows an exception of run_sessions (C125_main says that it does not). An exception gets from a client process to the main process unchanged; BaseExceptions such as KeyboardInterrupt are left out."
  },
  {
   "property": "C126",
   "status": "proved",
   "theorems": [
    "Salt.Props.C126_ends",
    "Salt.Props.C126_both",
    "Salt.Props.C126_run_sessions",
    "Salt.Props.C126_others",
    "Salt.Props.C126_stop_server",
    "Salt.Props.C126_example1",
    "Salt.Props.C126_example3",
    "Salt.Props.C126_simple_echo"
   ],
   "note": "C126_both says that both a connection that lasts and one that breaks occur. C126_stop_server is for clients that do not end before the server has done something, as C116. Which exceptions the sessions on a broken connection get is C124; connections of the asyncio server are C130."
  },
  {
   "property": "C127",
   "status": "partial",
   "theorems": [
    "Salt.Props.C127_stop_server_partial",
    "Salt.Props.C127_abandoned",
    "Salt.Props.C127_violated"
   ],
   "note": "The negation is proved with a client that returns at once. Proved: everything ends, all clients have their results, and what has ended has ended correctly. Missing for the full claim: that the server sessions have ended. wait_closed is that of asyncio up to Python 3.11, where it does not wait for connections (the code needs 3.9 or older)."
  },
  {
   "property": "C128",
   "status": "partial",
   "theorems": [
    "Salt.Props.C128_reads",
    "Salt.Props.C128_socket_reads",
    "Salt.Props.C128_reads_partial",
    "Salt.Props.C128_violated",
    "Salt.Props.C128_violated_negative"
   ],
   "note": "The negation is proved with a stream that ends within a length. Missing for the full claim: the type of the exceptions of AsyncioChannel.read; everything else is proved."
  },
  {
   "property": "C129",
   "status": "partial",
   "theorems": [
    "Salt.Props.C129_write_partial",
    "Salt.Props.C129_write_first",
    "Salt.Props.C129_socket",
    "Salt.Props.C129_violated"
   ],
   "note": "The negation is proved with one short message before the long one. Proved for SocketChannel, and for AsyncioChannel if the long message is the first one."
  },
  {
   "property": "C130",
   "status": "proved",
   "theorems": [
    "Salt.Props.C130_ends",
    "Salt.Props.C130_both",
    "Salt.Props.C130_run_sessions",
    "Salt.Props.C130_blame",
    "Salt.Props.C130_example1",
    "Salt.Props.C130_example3",
    "Salt.Props.C130_simple_echo"
   ],
   "note": "C130_both says that both a connection that lasts and one that breaks occur. When run_sessions raises, stop_server is not called (C125). What arrives while a connection breaks is put into the buffers of the readers at once."
  },
  {
   "property": "C131",
   "status": "proved",
   "theorems": [
    "Salt.Props.C131_asyncio",
    "Salt.Props.C131_tcp",
    "Salt.Props.C131_example1",
    "Salt.Props.C131_example3",
    "Salt.Props.C131_example1_a",
    "Salt.Props.C131_example3_a"
   ],
   "note": "That the numbers after the handshake are not those of the whole handshake when M4 is buffered is C112."
  },
  {
   "property": "C132",
   "status": "partial",
   "theorems": [
    "Salt.Props.C132_default_partial",
    "Salt.Props.C132_first",
    "Salt.Props.C132_frozen",
    "Salt.Props.C132_before",
    "Salt.Props.C132_violated",
    "Salt.Props.C132_violated_requested",
    "Salt.Props.C132_lib_type",
    "Salt.Props.C132_sessions",
    "Salt.Props.C132_sessions_unusable",
    "Salt.Props.C132_randombytes_violated"
   ],
   "note": "The negation is proved with two objects, and for every explicitly requested library. Proved for processes in which all objects are made by default; what happens in all the others is proved too."
  },
  {
   "property": "C133",
   "status": "proved",
   "theorems": [
    "Salt.Props.C133_text",
    "Salt.Props.C133_length"
   ],
   "note": ""
  },
  {
   "property": "C134",
   "status": "proved",
   "theorems": [
    "Salt.Props.C134_as_if",
    "Salt.Props.C134_sessions",
    "Salt.Props.C134_transcript",
    "Salt.Props.C134_example3"
   ],
   "note": "The common time objects are any object with a state that both sides change; network: message links in both directions."
  },
  {
   "property": "C135",
   "status": "partial",
   "theorems": [
    "Salt.Props.C135_own_keepers_partial",
    "Salt.Props.C135_common_keeper",
    "Salt.Props.C135_violated"
   ],
   "note": "Violated by the code, which runs both sides in one process; C135_common_keeper gives the times that are sent instead."
  },
  {
   "property": "C136",
   "status": "proved",
   "theorems": [
    "Salt.Props.C136_connection",
    "Salt.Props.C136_process",
    "Salt.Props.C136_run_sessions",
    "Salt.Props.C136_example3"
   ],
   "note": "The common time objects are any object with a state that all sessions change; network: message links in both directions. In C136_run_sessions the state is whatever other sessions may have left, at each call."
  },
  {
   "property": "C137",
   "status": "proved",
   "theorems": [
    "Salt.Props.C137_connection",
    "Salt.Props.C137_example1",
    "Salt.Props.C137_example3"
   ],
   "note": "The time objects are in any state that other threads may have left at each call. Without the MitmChannel of the client, which is transparent (C55)."
  },
  {
   "property": "C138",
   "status": "proved",
   "theorems": [
    "Salt.Props.C138_connection",
    "Salt.Props.C138_all_served",
    "Salt.Props.C138_example1",
    "Salt.Props.C138_example3"
   ],
   "note": "Each time a coroutine runs, the common time objects give any answers that they can give in some state. As in C105, tasks of the server may not have ended when run_sessions returns (C106)."
  },
  {
   "property": "C139",
   "status": "proved",
   "theorems": [
    "Salt.Props.C139_tasks",
    "Salt.Props.C139_duplex"
   ],
   "note": "Model of asyncio streams as in C92; the tasks of a side start at any time after its handshake has returned. A client that buffers M4 is not covered: then the handshake of the server ends only after the first write of a task of the client."
  },
  {
   "property": "C140",
   "status": "proved",
   "theorems": [
    "Salt.Props.C140_buffered_m4",
    "Salt.Props.C140_no_other_m4",
    "Salt.Props.C140_client"
   ],
   "note": "Writes of the underlying channel do not raise; a read that waits may get any message or exception at any time. Bounded numbers of messages: write calls have 1 to 65535 messages, and the nonces do not run out."
  },
  {
   "property": "C141",
   "status": "proved",
   "theorems": [
    "Salt.Props.C141_packets",
    "Salt.Props.C141_server",
    "Salt.Props.C141_client"
   ],
   "note": "As C140: writes of the underlying channel do not raise; a read that waits may get any message or exception at any time; write calls have 1 to 65535 messages, and the nonces do not run out."
  }
 ]
}