import Verif.Model.Prog
import Verif.Model.Time
import Verif.Model.A1Client
import Verif.Model.Client
import Verif.Model.Server
import Verif.Model.TestData

/-!
# The example sessions (saltchannel/dev/simple_echo_session.py, example_session1.py, 2 and 3)

What the client and the server do with a channel.  Printing and logging are left out, as are the byte
counters (see `Spec.countedClient` for these) and the processes, threads and sockets of client_server.py.  The variants with `_a` in their names do the same with
coroutines.
-/

namespace Salt

/-- `channel.read_sync()` in an example. -/
abbrev exRead : Py appSig Unit Bytes := Py.call (S := appSig) .read

/-- `channel.write_sync(*msgs, is_last=l)` in an example. -/
abbrev exWrite (msgs : List Bytes) (l : Bool) : Py appSig Unit Unit := Py.call (S := appSig) (.write msgs l)

namespace SimpleEcho

/-- The loop of `server_session`, dev/simple_echo_session.py:14-21; ComException (or a subclass) ends it.
Simplification: at most `fuel` rounds (results are proved for all sufficient `fuel`). -/
def server : Nat → Py appSig Unit Unit
  | 0 => return ()
  | fuel + 1 => Py.onError (do
      let msg ← exRead
      if msg = [] then return ()
      else do
        exWrite [msg] false
        server fuel) fun e => if e.isCom then return () else Py.raise e

/-- The loop of `client_session`, dev/simple_echo_session.py:23-29, `n` times (10 in the code); the responses
(which are only logged) are returned. -/
def client (data : Bytes) : Nat → Py appSig Unit (List Bytes)
  | 0 => return []
  | n + 1 => do
    exWrite [data] false
    let r ← exRead
    let rs ← client data n
    return r :: rs

end SimpleEcho

namespace Example1

/-- What the server does with its application channel, dev/example_session1.py:43, in one round of the loop. -/
def server : Py appSig Unit Unit := do
  let m ← exRead
  exWrite [m] false

/-- What the client does with its application channel, dev/example_session1.py:71-73; the response is returned. -/
def client (request : Bytes) : Py appSig Unit Bytes := do
  exWrite [request] true
  exRead

/-- `bytes([0x01, 0x05, 0x05, 0x05, 0x05, 0x05])`, dev/example_session1.py:71. -/
def request : Bytes := [1, 5, 5, 5, 5, 5]

/-- The client session, dev/example_session1.py:29-33 and 54-56; `bufferM4` is true there, and false in
dev/example_session1_a.py:65. -/
def clientCfg (bufferM4 : Bool) : ClientCfg where
  sigKp := CryptoTestData.aSig
  encKp := some CryptoTestData.aEnc
  bufferM4 := bufferM4
  wantedServerSigKey := []

/-- The server session, dev/example_session1.py:29-33 and 39-41; `bufferM2` is true there, and false in
dev/example_session1_a.py:48. -/
def serverCfg (bufferM2 : Bool) : ServerCfg where
  sigKp := CryptoTestData.bSig
  encKp := some CryptoTestData.bEnc
  bufferM2 := bufferM2
  a2 := none

end Example1

namespace Example2

/-- The A1 of the client, dev/example_session2.py:56-59. -/
def a1 : Packet := A1.setAddress (A1.setAddressSize (A1.setAddressType A1.fresh 1) 32) (List.replicate 32 8)

/-- The A2 of the server, dev/example_session2.py:39-41: the two assignments replace the names of the only
entry. -/
def a2 : Packet :=
  { A2.ofCase .default with
    opt := some (A2.sc2ProtString ++ [0x45, 0x43, 0x48, 0x4f, 0x2d, 0x2d, 0x2d, 0x2d, 0x2d, 0x2d]) }

end Example2

namespace Example3

/-- What the server does with its application channel, dev/example_session3.py:57-60, in one round of the loop. -/
def server : Py appSig Unit Unit := do
  let m ← exRead
  exWrite [m] false
  let data1 ← exRead
  let data2 ← exRead
  exWrite [data1, data2] true

/-- What the client does with its application channel, dev/example_session3.py:111-119, with the comparisons at
the end (:143-148). -/
def client (request1 request21 request22 : Bytes) : Py appSig Unit Unit := do
  exWrite [request1] false
  let response1 ← exRead
  exWrite [request21, request22] false
  let response2 ← exRead
  let response3 ← exRead
  if response1 ≠ request1 then Py.raise .assertionError
  else if request21 ≠ response2 then Py.raise .assertionError
  else if request22 ≠ response3 then Py.raise .assertionError
  else return ()

/-- `app_request1`, `app_request2_1`, `app_request2_2`, dev/example_session3.py:111-116. -/
def requests : Bytes × Bytes × Bytes := ([1, 5, 5, 5, 5, 5], [1, 4, 4, 4, 4], [3, 3, 3, 3])

/-- The client session, dev/example_session3.py:43-47 and 72-75. -/
def clientCfg : ClientCfg where
  sigKp := CryptoTestData.aSig
  encKp := some CryptoTestData.aEnc
  bufferM4 := false
  wantedServerSigKey := []

/-- The server session, dev/example_session3.py:43-47 and 53-55. -/
def serverCfg : ServerCfg where
  sigKp := CryptoTestData.bSig
  encKp := some CryptoTestData.bEnc
  bufferM2 := false
  a2 := none

end Example3

/-! ### OneTwoThreeTimeKeeper -/

/-- The method calls on a time keeper. -/
inductive KeeperOp
  | first | now
  deriving DecidableEq, Repr

/-- `OneTwoThreeTimeKeeper.get_first_time` and `get_time`, dev/example_session3.py:31-37, on the attribute
`time`: the returned time and the new value of the attribute. -/
def oneTwoThree : KeeperOp → Nat → Nat × Nat
  | .first, _ => (1, 1)
  | .now, t => (t + 1, t + 1)

end Salt
