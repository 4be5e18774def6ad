import Verif.Model.Tasks
import Verif.Model.Socket

/-!
# Tasks on asyncio streams (saltchannel/channel.py, dev/client_server_a.py)

Coroutines that share an object, as in `Model/Tasks`, with the channel below spelled out: `AsyncioChannel`, which calls
`readexactly`, `write` and `drain` of asyncio's streams.
-/

namespace Salt

/-- Operations of a coroutine on asyncio streams: those of a coroutine sharing an object, those of the streams, and
`reader.at_eof()` and `writer.close()` (used by the asyncio example sessions only). -/
inductive AioOp (σ : Type)
  | sh (e : ShOp σ)
  | stream (e : StreamOp)
  | atEof
  | close

/-- What they return. -/
abbrev AioOp.Resp {σ : Type} : AioOp σ → Type
  | .sh e => e.Resp
  | .stream e => e.Resp
  | .atEof => Bool
  | .close => Unit

/-- Signature of coroutines on asyncio streams sharing an object with attributes `σ`. -/
abbrev aio (σ : Type) : Sig := ⟨AioOp σ, AioOp.Resp⟩

namespace Aio

variable {σ : Type}

/-- A program on the streams alone. -/
def embed {γ : Type} : IT stream γ → IT (aio σ) γ
  | .ret x => .ret x
  | .op e k => .op (S := aio σ) (.stream e) fun r => embed (k r)

/-- The operations on the environment with `AsyncioChannel` (channel.py:36-52) as the channel below: `read` and
`write` are its methods, which ignore `is_last`; the others have nothing to do with it. -/
def handle : (e : EnvOp) → IT (aio σ) (Except Err e.Resp)
  | .read => (embed (AsyncioChannel.read ())).bind fun r => .ret r.1
  | .write ms _ => (embed (AsyncioChannel.write ms ())).bind fun r => .ret r.1
  | .firstTime => .op (S := aio σ) (.sh (.env .firstTime)) .ret
  | .time => .op (S := aio σ) (.sh (.env .time)) .ret
  | .report t => .op (S := aio σ) (.sh (.env (.report t))) .ret
  | .check t => .op (S := aio σ) (.sh (.env (.check t))) .ret
  | .sign m sk => .op (S := aio σ) (.sh (.env (.sign m sk))) .ret
  | .signOpen sm pk => .op (S := aio σ) (.sh (.env (.signOpen sm pk))) .ret
  | .hash m => .op (S := aio σ) (.sh (.env (.hash m))) .ret
  | .beforenm pk sk => .op (S := aio σ) (.sh (.env (.beforenm pk sk))) .ret
  | .box m n k => .op (S := aio σ) (.sh (.env (.box m n k))) .ret
  | .boxOpen c n k => .op (S := aio σ) (.sh (.env (.boxOpen c n k))) .ret

/-- A coroutine with an `AsyncioChannel` as the channel below. -/
def on {β : Type} : IT (sh σ) β → IT (aio σ) β
  | .ret b => .ret b
  | .op .get k => .op (S := aio σ) (.sh .get) fun r => on (k r)
  | .op (.put s) k => .op (S := aio σ) (.sh (.put s)) fun r => on (k r)
  | .op (.env e) k => (handle e).bind fun r => on (k r)

/-- An application program that uses an `AsyncioChannel` directly, without a session; the object shared by the tasks is
the channel, which has no attributes that change. -/
def plain {β : Type} : IT appSig β → IT (sh Unit) β
  | .ret b => .ret b
  | .op .read k => .op (S := sh Unit) (.env .read) fun r => plain (k r)
  | .op (.write ms l) k => .op (S := sh Unit) (.env (.write ms l)) fun r => plain (k r)

end Aio

end Salt
