import Verif.Model.AioTasks
import Verif.Model.Client
import Verif.Model.Server
import Verif.Model.Examples

/-!
# The example sessions as coroutines (saltchannel/dev/simple_echo_session_a.py, example_session1_a.py, 2_a and 3_a)

Each side is one coroutine on asyncio's streams; it closes the connection at the end.  Printing and
logging are left out; the byte counters are in Props/CountedRuns.
-/

namespace Salt

namespace Aio

variable {σ : Type}

/-- A coroutine that shares no object with others. -/
def alone {β : Type} : IT env β → IT (sh Unit) β
  | .ret b => .ret b
  | .op e k => .op (S := sh Unit) (.env e) fun r => alone (k r)

/-- A coroutine that ends with `channel.close()` (channel.py:54-55, which calls `writer.close()`), unless an exception
ends it before; `normal` tells the results without exception. -/
def closing {β : Type} (normal : β → Bool) (t : IT (aio σ) β) : IT (aio σ) β :=
  t.bind fun b => if normal b then .op (S := aio σ) .close fun _ => .ret b else .ret b

/-- No exception in the handshake. -/
def okSession {β τ : Type} : Except Err β × τ → Bool
  | (.ok _, _) => true
  | (.error _, _) => false

/-- No exception in the handshake nor in what was done with the application channel. -/
def okExample {β τ : Type} : Except Err (Except Err β × Unit) × τ → Bool
  | (.ok (.ok _, _), _) => true
  | _ => false

end Aio

namespace SimpleEchoA

/-- `await reader.read_msg()`, dev/client_server_a.py:17-19, the same as `AsyncioChannel.read`. -/
def readMsg : Py (aio Unit) Unit Bytes := fun s => Aio.embed (AsyncioChannel.read s)

/-- `writer.write_msg(msg)`, dev/client_server_a.py:13-14; unlike `AsyncioChannel.write` it does not wait. -/
def writeMsg (msg : Bytes) : Py (aio Unit) Unit Unit := do
  let f ← Py.lift (frameMsg msg)
  Py.call (S := aio Unit) (.stream (.write f))

/-- The loop of `server_session`, dev/simple_echo_session_a.py:19-26.  Simplification: at most `fuel` rounds (results
are proved for all sufficient `fuel`). -/
def serverLoop : Nat → Py (aio Unit) Unit Unit
  | 0 => return ()
  | fuel + 1 => do
    let e ← Py.call (S := aio Unit) .atEof
    if e = true then return ()
    else do
      let data ← readMsg
      if data = [] then return ()
      else do
        writeMsg data
        serverLoop fuel

/-- `server_session`, dev/simple_echo_session_a.py:14-30. -/
def server (fuel : Nat) : Py (aio Unit) Unit Unit := do
  serverLoop fuel
  let _ ← Py.call (S := aio Unit) (.stream .drain)
  Py.call (S := aio Unit) .close

/-- The loop of `client_session`, dev/simple_echo_session_a.py:36-40, `n` times (10 in the code); the responses (which
are only logged) are returned. -/
def clientLoop (msg : Bytes) : Nat → Py (aio Unit) Unit (List Bytes)
  | 0 => return []
  | n + 1 => do
    writeMsg msg
    let r ← readMsg
    let rs ← clientLoop msg n
    return r :: rs

/-- `client_session`, dev/simple_echo_session_a.py:32-47; `msg` is `os.urandom(6)`. -/
def client (msg : Bytes) (n : Nat) : Py (aio Unit) Unit (List Bytes) := do
  let rs ← clientLoop msg n
  writeMsg []
  let _ ← Py.call (S := aio Unit) (.stream .drain)
  let _ ← Py.call (S := aio Unit) .close
  return rs

end SimpleEchoA

end Salt
