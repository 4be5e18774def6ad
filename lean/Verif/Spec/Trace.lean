import Verif.Model.Prog
import Verif.Model.Crypto

/-!
# Executions

What a program did and what the environment answered, as a list of events; the environment is
arbitrary.
-/

namespace Salt

/-- One operation together with what it returned or raised. -/
structure Ev (S : Sig) where
  op : S.Op
  res : Except Err (S.Resp op)

/-- `Exec t tr b`: the program `t`, given the answers recorded in `tr`, performs exactly the
operations of `tr`, in this order, and finishes with `b`. -/
inductive Exec {S : Sig} {β : Type} : IT S β → List (Ev S) → β → Prop
  | ret (b : β) : Exec (.ret b) [] b
  | op (e : S.Op) (k : Except Err (S.Resp e) → IT S β) (r : Except Err (S.Resp e))
      (tr : List (Ev S)) (b : β) : Exec (k r) tr b → Exec (.op e k) (⟨e, r⟩ :: tr) b

/-- Calling method `m` on an object in state `s` can produce the events `tr`, end with `r` (a value
or an exception) and leave the object in state `s'`. -/
def Call {S : Sig} {σ α : Type} (m : Py S σ α) (s : σ) (tr : List (Ev S)) (r : Except Err α)
    (s' : σ) : Prop := Exec (m s) tr (r, s')

/-- The message lists of the write calls in a trace, whether they succeeded or not. -/
def writesOf : List (Ev env) → List (List Bytes × Bool)
  | [] => []
  | ⟨.write ms l, _⟩ :: tr => (ms, l) :: writesOf tr
  | _ :: tr => writesOf tr

/-- The messages delivered by the read calls in a trace. -/
def readsOf : List (Ev env) → List Bytes
  | [] => []
  | ⟨.read, .ok m⟩ :: tr => m :: readsOf tr
  | _ :: tr => readsOf tr

/-- The event is not a call into the crypto library. -/
def Ev.isIO : Ev env → Bool
  | ⟨.read, _⟩ | ⟨.write _ _, _⟩ | ⟨.firstTime, _⟩ | ⟨.time, _⟩ | ⟨.report _, _⟩ | ⟨.check _, _⟩ => true
  | _ => false

/-- If the event is a call into the crypto library, it was answered as library `L` does. -/
def AnsweredBy (L : Lib) : Ev env → Prop
  | ⟨.sign m sk, r⟩ => r = L.sign m sk
  | ⟨.signOpen sm pk, r⟩ => r = L.signOpen sm pk
  | ⟨.hash m, r⟩ => r = L.hash m
  | ⟨.beforenm pk sk, r⟩ => r = L.beforenm pk sk
  | ⟨.box m n k, r⟩ => r = L.box m n k
  | ⟨.boxOpen c n k, r⟩ => r = L.boxOpen c n k
  | _ => True

end Salt
