import Verif.Model.Basic

/-!
# Programs that talk to an environment

Python methods of the sessions and channels are modelled as interaction trees: a method either
finishes or performs an operation on an object it does not own (the underlying `ByteChannel`, the
time keeper, the time checker, a socket) and continues with whatever that operation returned or
raised.  The environment is not part of the tree: theorems quantify over all its answers.

`async`/`await` is not modelled: a coroutine is the sequence of its operations, and awaiting a
channel operation is performing it.
-/

namespace Salt

/-- A set of environment operations with the type of value each one returns. -/
structure Sig where
  Op : Type
  Resp : Op → Type

/-- Interaction trees: `ret b` is a finished program, `op e k` performs `e` and continues with `k`
applied to the returned value or raised exception. -/
inductive IT (S : Sig) (β : Type) : Type
  | ret (b : β)
  | op (e : S.Op) (k : Except Err (S.Resp e) → IT S β)

/-- Sequential composition of trees. -/
def IT.bind {S : Sig} {α β : Type} : IT S α → (α → IT S β) → IT S β
  | .ret a, f => f a
  | .op e k, f => .op e fun r => (k r).bind f

/-- Replace every operation of a tree by a program over another signature (a decorator/adapter
object implementing the operations of `S` on top of `T`). -/
def IT.handle {S T : Sig} {β : Type} (h : (e : S.Op) → IT T (Except Err (S.Resp e))) :
    IT S β → IT T β
  | .ret b => .ret b
  | .op e k => (h e).bind fun r => (k r).handle h

/-- A Python method of an object with attributes `σ`: run from a state, it performs operations and
ends with a value or an exception, and a state (attribute assignments made before an exception
stay). -/
def Py (S : Sig) (σ α : Type) : Type := σ → IT S (Except Err α × σ)

namespace Py

variable {S : Sig} {σ τ α β : Type}

/-- `return a`. -/
def ret (a : α) : Py S σ α := fun s => .ret (.ok a, s)

/-- Statement sequencing: an exception skips the rest. -/
def andThen (m : Py S σ α) (f : α → Py S σ β) : Py S σ β := fun s =>
  (m s).bind fun
    | (.ok a, s') => f a s'
    | (.error e, s') => .ret (.error e, s')

instance : Monad (Py S σ) where
  pure := ret
  bind := andThen

/-- `raise e`. -/
def raise (e : Err) : Py S σ α := fun s => .ret (.error e, s)

/-- A computation without effects that may raise. -/
def lift (x : Except Err α) : Py S σ α := fun s => .ret (x, s)

/-- Read the attributes. -/
def getSt : Py S σ σ := fun s => .ret (.ok s, s)

/-- Assign attributes. -/
def modifySt (f : σ → σ) : Py S σ Unit := fun s => .ret (.ok (), f s)

/-- Perform an operation of the environment. -/
def call (e : S.Op) : Py S σ (S.Resp e) := fun s => .op e fun r => .ret (r, s)

/-- `try: m  except ...: h` where `h` decides (by re-raising) what it does not handle. -/
def onError (m : Py S σ α) (h : Err → Py S σ α) : Py S σ α := fun s =>
  (m s).bind fun
    | (.ok a, s') => .ret (.ok a, s')
    | (.error e, s') => h e s'

/-- Run a method of the object stored in an attribute that is `None` until it is created
(calling a method of `None` raises AttributeError). -/
def zoom (get : σ → Option τ) (set : τ → σ → σ) (m : Py S τ α) : Py S σ α := fun s =>
  match get s with
  | none => .ret (.error .attributeError, s)
  | some t => (m t).bind fun (r, t') => .ret (r, set t' s)

end Py

/-- The operations the sessions and channels perform on the objects given to them.
* `read`, `write`: the underlying `ByteChannel` (saltchannel/channel.py:19-25); `write(message, *args)`
  carries the tuple of all messages.
* `firstTime`, `time`: `TimeKeeper.get_first_time`/`get_time` (saltchannel/util/time.py:6-15).
* `report`, `check`: `TimeChecker.report_first_time`/`check_time` (saltchannel/util/time.py:18-27).
* The rest are calls into the crypto library, `SaltLibBase`
  (saltchannel/saltlib/saltlib_base.py:36-55): `crypto_sign(m, sk)`, `crypto_sign_open(sm, pk)`,
  `crypto_hash(m)`, `crypto_box_beforenm(pk, sk)`, `crypto_box_afternm(m, n, k)`,
  `crypto_box_open_afternm(c, n, k)`. -/
inductive EnvOp
  | read
  | write (msgs : List Bytes) (isLast : Bool)
  | firstTime
  | time
  | report (t : Nat)
  | check (t : Nat)
  | sign (m sk : Bytes)
  | signOpen (sm pk : Bytes)
  | hash (m : Bytes)
  | beforenm (pk sk : Bytes)
  | box (m n k : Bytes)
  | boxOpen (c n k : Bytes)
  deriving DecidableEq, Repr

/-- What the operations return.  Simplification: times are natural numbers. -/
abbrev EnvOp.Resp : EnvOp → Type
  | .write _ _ | .report _ | .check _ => Unit
  | .firstTime | .time => Nat
  | _ => Bytes

/-- Signature of sessions and channels. -/
abbrev env : Sig := ⟨EnvOp, EnvOp.Resp⟩

/-- Perform an operation of the environment. -/
abbrev Py.env {σ : Type} (e : EnvOp) : Py Salt.env σ e.Resp := Py.call (S := Salt.env) e

/-- What an application does with an `AppChannelV2`: `read()` and `write(message, *args, is_last)`
(saltchannel/v2/app_channel_v2.py:25,41). -/
inductive AppOp
  | read
  | write (msgs : List Bytes) (isLast : Bool)
  deriving DecidableEq, Repr

/-- What they return. -/
abbrev AppOp.Resp : AppOp → Type
  | .read => Bytes
  | .write _ _ => Unit

/-- Signature of application programs. -/
abbrev appSig : Sig := ⟨AppOp, AppOp.Resp⟩

end Salt
