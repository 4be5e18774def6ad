# Formal model of salt-channel-python in Lean 4

## Approach

* Bytes are `List UInt8`. Python exceptions are values (`Err`), never dropped.
* ctypes structures are modelled as what they are: mutable byte buffers of fixed
  length with `memmove` and little-endian / bit-field accessors at offsets
  (`Verif/Model/CTypes.lean`). Packets are pairs (fixed buffer, optional part).
* Everything that talks to other objects is modelled as an *interaction tree*
  (`Verif/Model/Prog.lean`): a method either finishes or performs an operation and continues with
  whatever it returned or raised. Operations are: the underlying byte channel (`read`, `write`), the
  time keeper and checker, and every call into the crypto library. Theorems quantify over all answers,
  so every environment (honest, adversarial, crashing) is covered. Object attributes are threaded
  through and survive exceptions (`Py S σ α := σ → IT S (Except Err α × σ)`).
* `Exec t tr b` (`Verif/Spec/Trace.lean`): program `t` can perform the events `tr` and end with `b`.
  Adversarial properties are statements about all such traces.
* For honest runs, crypto operations are answered by a library `Lib` satisfying explicit laws
  (`box` opens to what was sealed, signatures verify, key agreement commutes, output lengths), with a
  concrete instance showing that the laws are satisfiable; time operations are answered by an arbitrary
  source of valid times. What is left are two processes that only read and write, connected by FIFO
  queues; all schedules are covered by a confluence theorem.
* Security assumptions (ciphertext integrity, signature unforgeability, no collision on the
  transcripts at hand) are explicit hypotheses about one run.
* Specifications (wire formats, FIFO queues, expected transcripts, textbook
  crypto) live in `Verif/Spec/*` and do not use model helpers.
* Property theorems live in `Verif/Props/*`; helper lemmas in `Verif/Lemmas/*`.
* Networks. `Verif/Spec/Net.lean`: two processes, two reliable FIFO links of messages, every schedule.
* Transcripts. `Verif/Spec/Log.lean`: runs of networks with the write calls in them, and what the two sides of a session write.
  `Verif/Spec/SockNet.lean`: the same over two byte streams. There `sendall` appends its bytes in one
  step, `recv(n)` returns any non-empty part of what has arrived, up to n bytes, and blocks on an empty
  stream; the end of the stream is covered by the channel theorems (C16), not by the network ones.
  `Verif/Spec/BufNet.lean`: the same with at most `cap` bytes in flight in each direction; `sendall` hands over its bytes in
  parts, as there is room (C119 only; elsewhere buffers are unlimited).
  `Verif/Spec/Flow.lean`: asyncio streams with the flow control of CPython: write buffers with water marks, tasks waiting in
  `drain`, readers that make their transport stop reading, sockets of finite size (C120 and C121 only).  Resets of the connection
  (closing with unread data) are not modelled, so writes never fail.
  `Verif/Spec/Tcp.lean`: TCP connections whose ends are closed when their programs end; `Verif/Spec/Broken*.lean`: connections that
  break (C124); `Verif/Spec/TcpBreak.lean`: both (C126);
  `Verif/Spec/AioBreak.lean`: connections between event loops that break, operation by operation (C130).
* Pure-Python TweetNaCl. Its C-like integer classes are modelled as values with a class
  (`Verif/Model/TInt.lean`): operations between classes truncate, operations with a plain Python
  integer give an exact plain integer. Arrays are lists of such values. Specifications are those of
  the RFCs and FIPS 180-4, on bytes, machine words and `ZMod (2^255 - 19)`.

## Plan per property

| property | modelled | proof |
|---|---|---|
| C01-C06 | packet classes as buffers | round trip by computation on the buffer and LE lemmas; C06 by induction on the message list |
| C07-C09, C11, C12 | parsers with their exceptions | acceptance characterised by case analysis / induction; violations by witness |
| C10, C13, C14, C66 | same | case analysis on the type byte / lengths / bit fields |
| C95, C96 | attribute access with the ctypes field types; conversion of sequences to ctypes arrays | fields tile the structure; C95 and C96 negated by witnesses |
| C15-C18 | SocketChannel, recvall loop over an arbitrary segmentation oracle | induction on stream and segmentation |
| C19, C20, C77 | Nonce, EncryptedChannelV2 | invariant over operation lists |
| C21, C27, C47 | two endpoints and two queues, arbitrary interleaving | refinement to two FIFO queues |
| C22, C23, C26, C58 | reads of arbitrary delivered bytes | invariant; ciphertext integrity as hypothesis |
| C24, C25, C76 | wrap/unwrap | direct; C25, C76 negated by witness |
| C28-C32 | AppChannelV2 | direct / invariants; C29 negated for 65537 messages |
| C33, C60 | both sessions as trees over two FIFO links, small-step scheduler | diamond property + one terminating run; C60 negated by a deadlock |
| C34-C46, C48, C49, C59, C65, C67 | sessions as trees, arbitrary responses | inversion of complete executions |
| C50-C56, C61-C64, C68, C72, C75 | small models of the helper classes and of the wrappers around the foreign libraries | direct |
| C57 | session trees over framed byte streams | simulation; sizes are a condition on the calls made when the programs are directly connected, and the calls of one complete run are those of all runs |
| C69-C71, C73, C74 | A1 client, example sessions | as C33-C46 |
| C78, C79 | Salsa20, Poly1305, secret box of TweetNaCl | values of the arrays tracked word by word; carries of Poly1305 as integers; C78 negated at block 257 |
| C80 | SHA-512 of TweetNaCl | as C78; constants computed from the primes |
| C81, C82 | Curve25519 of TweetNaCl | limbs as integers with bounds, their value in `ZMod p`; Montgomery ladder simulated step by step |
| C83-C86 | Ed25519 of TweetNaCl | complete twisted Edwards group law with associativity proved by explicit cofactors; extended coordinates represent points; `modL` bounded limb by limb; order 8 L of the group by Pratt certificates and counting |
| C87, C88 | X25519 as scalar multiplication | u-coordinates of the Edwards curve and of the Edwards form of the twist; ladder invariant m Q, (m+1) Q for every input; orders of both groups by Pratt certificates |
| C89 | standard algorithms satisfy the laws assumed of a library | `naclSodium` (Spec/Nacl.lean) is built from the specifications of C78-C88 only; C52 and C47 do the rest |
| C90 | small-order keys in the handshake | the laws of C89 without honest peers: `C88_zero_iff` decides when `crypto_box_beforenm` fails or returns the constant; the set of possible traces of the handshakes (C38, C41) does the rest |
| C91 | tasks sharing a channel | methods as coroutines that read and write the attributes of the shared object; a block is what runs between two suspension points; any schedule is simulated by tasks exchanging messages directly, by the channel relation of C27 |
| C92-C94 | tasks on asyncio streams | CPython's `StreamReader` (buffer, one waiter, wakeup) and `AsyncioChannel` below the coroutines; a simulation of the network of messages in which the single reader may have consumed the length of the next message |
| C97, C98 | one coroutine per side on asyncio streams, closing the connection at the end; the `_a` examples | a coroutine implements a program with read and write calls; the pair of coroutines is simulated by the network of messages; end of file arrives only when nothing is left to read |
| C99 | a set of complete and incomplete runs of both roles, each against arbitrary responses | a world of runs with ideal cryptography as hypotheses; C34-C37 give the partner, the scripts of incomplete handshakes give what was sealed before the application, the counters of C20 give the order |
| C100 | calls on socket and asyncio channels of which any may be interrupted, the application channel above | an exception of `recv`/`readexactly` takes nothing; calls that were not interrupted within a message are read off the frames; witness for the others |
| C101 | which event loop an object gets and when it can run: threads making objects and calling `_sync` methods in any order | invariant: every loop belongs to the thread that made it; witnesses |
| C102-C104 | client threads, the thread of the server, the queue of the listening socket, and a TCP connection per client whose ends are closed when a routine ends | a connection alone is any transition system with two sides (`Link`); an invariant of all threads reduces everything to single connections; these are simulated by the network of messages |
| C105, C106 | client processes and a server with one task per connection, on asyncio streams | the connections of C97 side by side; each is an independent transition system until `run_sessions` returns |
| C107 | `crypto_box`, `crypto_box_open` and the random key pairs of pure_pynacl | C78, C79, C81-C83 and C87 for arrays |
| C108 | lengths of keys and nonces in the pure Python backend | a run with a cut off array is the run with the whole one, or IndexError; a result implies that the last item has been read |
| C109 | the block counter of the Salsa20 stream, for all blocks | the eight places of the counter as a recursion on numbers; the counters of far blocks are calculated for all blocks at once in numbers with one lane per block (Lemmas/Lanes.lean), so that the kernel can evaluate them |
| C110 | the keys of the examples | X25519 and Ed25519 of the specification are evaluated by the kernel on the eight pairs; the session key follows from `KeysOf`, which the theorems on sessions (C33, C47, C57, C73, C89, C97, C98, C102, C105) state |
| C111 | what sessions send | `Net.Logged` are runs with the write calls in them; the proof of C47 is followed a second time with the ciphertexts, nonces and the numbers of the calls of the time objects (`LSim`, over `AppNet`, where messages travel in packets); confluence gives all other schedules |
| C112 | the byte counters of the examples | the run of C111 is cut after the handshake; what `MitmChannel` counts is the size of what is written and read in each part |
| C113 | the library calls of sessions | an invariant of the traces and attributes of a session (Hoare triples over all answers): packets kept were accepted by the constructors, the nonce prefix and the key of the encrypted channel have their lengths |
| C114, C115 | sessions with two backends | by C113 the calls of a client and of a server can be told apart, so two libraries that fit together act as one library that satisfies the laws of C47; libraries that agree on the calls of C113 cannot be told apart |
| C116 | C102 with the main thread and `serve_forever` around it | the invariant of C102, extended; a client whose program calls `read` before it ends cannot have left a connection that was not accepted |
| C117 | two sessions that differ only in signing keys and in the contents of messages | a relation between two interaction trees that make the same calls up to secrets, step by step through the handshake and the channels; statements about pairs of traces follow from it |
| C118 | `from_bytes` on used packet objects | `memmove` of the whole fixed part forgets the old one; a short source does not |
| C119 | `sendall` into buffers of any finite size | flushing a state with finite buffers gives one with message links; when all is stuck in a `sendall`, the two were not taking turns; sessions take turns if their programs do |
| C120 | asyncio streams with flow control (`drain` waits, readers pause) | forgetting the flow control gives a run of the streams without it; when all is stuck with somebody in `drain`, the two were not taking turns; two that write more than all buffers hold stay behind their `drain`, by counting bytes |
| C121 | tasks on asyncio streams with flow control | a task that never writes is never in `drain`, so it reads whatever is there; hence when all is stuck nothing is left in the write buffers, and the streams without flow control are stuck too |
| C122 | `handshake` on a used object, against a new one | two runs of the same method whose states agree on the attributes assigned so far make the same calls (`Par2`, a two-run Hoare logic); the witness takes any run that serves a client and replaces the last answer; end to end, the network of used objects is simulated by that of new ones as long as the latter does not end in an error (`NetUpto`) |
| C123 | attributes after `handshake` raised | each method keeps the attributes it does not assign (`Keeps`); the run is taken apart at the point where it stopped, and put together again with another answer |
| C124 | connections that break (`BreakNet`) | a run is replayed on a connection that does not break: failed writes are made, failed reads left out, and the programs replaced by lists of the calls they have made; then C47 says what these get. TCP connections that break (`BreakSock`) and asyncio streams (`BreakStream`) are simulated, with prefixes of what is on the links; a write is put on the links before it returns, so that the connection can break, and the other side react, while it is in progress |
| C125 | results of the sessions on top of `MpRun` and `Pool` (`MpLog`, `PoolRun`) | the log is a permutation of the exceptions of the threads that have ended (step by step); when the event loop of the server has stopped nothing changes any more, and awaiting the results in any order raises iff one of them is an exception; `_run_session` and `main` by running through their calls |
| C126 | TCP connections that are closed or break (`tcpBreak`) | while the connection works a `sendall` whose bytes are on their way counts as done, and the connection is one of C102; once it is broken every call can go on; so both programs end, and C102 and C116 apply |
| C127 | `PoolMain`: the main program with coroutines | C105 until `run_sessions` returns; afterwards only tasks of the server make steps, which change no result; negated by a schedule |
| C128 | `Starts`, `Parts`: what any stream of bytes consists of for a reader of messages | both channels determine their results from the part the stream starts with; every stream starts with a message, a negative length or an end; negated for asyncio by an end within a length |
| C129 | `write` of both channels, message by message | induction over the messages before the long one; negated for asyncio by one short message |
| C130 | asyncio connections that break (`BreakAio`, `aioBreak`) | while the connection works it is one of C98; once it is broken every operation of a coroutine can go on (end of file, an exception, or what is in the buffer), so both end; then what is known of `run_sessions` (C125) applies |
| C131 | the counting clients of C112 on connections | a run of messages whose calls all fit is a run of both drivers (C99, C105); the numbers of C112 are computed for the packets of the examples |
| C132 | the class `SaltLib` of a process (`SaltlibClass`) | induction over the sequence of operations: instance and generator are set together, once |
| C133 | `KeyPair.__str__` (`KeyText`) | digits determine bytes; the first comma determines where the secret key ends |
| C134 | two sessions and one time keeper and checker for both (`SharedTime`) | replay: each side's calls are numbered, and a clock of its own gives the answers it got; then C47 and C111 |
| C135 | example session 3 with one time keeper | the scripts of both sides; an invariant over all pairs of positions in them, of which those that are consistent determine the counter |
| C136 | any number of sessions in a process with one time keeper and checker (`Process`); one server thread for all (`Farm` over `anyTime`) | for one connection, calls of the others mean that the time objects are in any state; replay as for C134; then C47 and C102 |
| C137 | the main programs over TCP with one time keeper and checker for the process (`MpRun` over `tcpTime`) | sessions whose calls of the time objects stay calls (`sessionOnSocket`); replay of each run as one of `tcp` with clocks (`settle`); then the lemmas of C102 and C116 |
| C138 | the server with coroutines and one time keeper and checker for the process (`Pool` over `aioTime`) | a run of a coroutine depends on the answers to its own calls only, so the clocks of all its runs can be joined into one (`splice`); then C98 and the proof of C105 |
| C139 | handshakes as coroutines on asyncio streams, each side starting its tasks on the same streams when its own handshake has returned (`ForkNet`) | when one handshake has returned, the other one only reads what is on the way (`Drains`, `Late`); a configuration with tasks on one side simulates one of C93 where the tasks of the other side have not run yet (`Ahead`); then C93 |
| C140 | tasks on a channel with a buffered M4, with any peer (`Loop.Runs`) | reading keeps the key, the write nonce and the M4 (`Leaves`), a write call sends what is buffered and its packets; invariant over the steps (`OpenInv`) |
| C141 | as C140, without a buffered M4; channels after handshakes with any peer | the invariant of C140 |

Properties the code violates are kept in the list as users would expect them; the manifest marks
them `partial`: a `_partial` theorem says what does hold and a `_violated` theorem proves the negation
with a concrete witness.

## What is modelled

| file (saltchannel/...) | model | left out |
|---|---|---|
| util/packets.py, v2/packets.py, a1a2/packets.py | `CTypes`, `Packets`, `A1A2`, `Attr` | big-endian hosts; `__str__` |
| channel.py | `Socket`, `Tasks`, `AioTasks` | the inside of the asyncio event loop: a schedule is any order in which tasks run from one suspension point to the next; cancellation other than as an exception raised by the operation a coroutine waits for (C100); flow control (`drain` is a possible suspension and nothing more) except in C120 and C121; before Python 3.10 two tasks in a `drain` that really waits raise an AssertionError, which is not modelled |
| v2/encrypted_channel_v2.py, v2/app_channel_v2.py | `EncChannel`, `AppChannel` | - |
| v2/salt_client_session.py, v2/salt_server_session.py | `Client`, `Server` | - |
| a1a2/a1_client_session.py | `A1Client` | - |
| util/__init__.py, util/time.py, util/key_pair.py | `Meta`, `Loops`, `Time`, `Crypto`, `KeyText` | constructors that construct singletons themselves |
| saltlib/saltlib.py, saltlib_base.py, saltlib_native.py, saltlib_pynacl.py, saltlib_tweetnaclext.py | `Saltlib`, `SaltlibClass`, `Crypto` | the foreign libraries themselves (arbitrary functions); memory corruption |
| saltlib/saltlib_pure.py, saltlib/pure_pynacl | `TInt`, `Arrays`, `ChkSalsa`, `ChkSha`, `ChkField`, `ChkSign`, `ChkKeys`, `SaltPure`; constants and integer functions in `TweetSalsa`, `TweetSha`, `TweetField`, `TweetSign`, `TweetBox` (whose functions on arrays, without IndexError, only serve proofs) | |
| dev/mitm_channel.py, dev/tunnel.py | `Dev` | floating-point times |
| util/crypto_test_data.py | `TestData` | |
| dev/simple_echo_session.py, dev/example_session1-3.py | `Examples` | printing, logging |
| dev/simple_echo_session_a.py, dev/example_session1-3_a.py | `AioExamples`, `Props/AioExamples`, `Props/CountedRuns` (byte counters) | printing, logging |
| dev/client_server.py | `ClientServer`, `Drivers` | jitter |
| dev/client_server_a.py | `ClientServer`, `AioExamples`, `Drivers` | KeyboardInterrupt |
| dev/run_session.py, dev/run_session_a.py | `ClientServer`, `Drivers` | logging, timing |
| setup.py | - | packaging |

## Trusted base

* Lean's kernel, including its built-in arithmetic of large natural numbers (which the calculations
  of C109 need most: numbers of some megabytes). Every theorem depends on the axioms `propext`, `Quot.sound` and `Classical.choice`
  at most; no `sorry`, no own axioms, no compiled evaluation.
* Our reading of the Python source and of CPython and ctypes semantics as recorded in the comments of
  `Verif/Model/*`, including the simplifications stated there; for C92-C94, C97 and C98 also of asyncio/streams.py, in
  `Verif/Spec/AioNet.lean`.  As a check of this reading, every assertion of the repository's packet tests
  (tests/v2, tests/a1a2) is evaluated on the model in `Verif/Props/UnitTests.lean`.
* The specifications in `Verif/Spec/*`; the cryptographic ones are checked against published test vectors.

## Mutation testing

`seeded/LOG.jsonl` records, for every wrong program tried in a scratch copy, the definition edited, the
edit, the claim it breaks and the theorems that stopped proving.
