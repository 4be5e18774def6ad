import Verif.Spec.TaskNet

/-!
# The tasks of one side, with any peer
-/

namespace Salt.Spec

open Salt

/-- Some run of the program calls `write(*ms, last=l)`. -/
inductive MayWrite {α : Type} (ms : List Bytes) (l : Bool) : IT appSig α → Prop
  | here (k) : MayWrite ms l (.op (S := appSig) (.write ms l) k)
  | later (e : AppOp) (k : Except Err (appSig.Resp e) → IT appSig α) (r) : MayWrite ms l (k r) → MayWrite ms l (.op (S := appSig) e k)

section
variable {ι σ α : Type} [DecidableEq ι]

/-- Tasks on one event loop, as in `TaskNet`, with any peer: a task that waits for a message gets any message, or an exception, at any time. The
list is what the tasks have written so far. -/
inductive Loop.Runs (L : Lib) (c : Clock) (x : Loop ι σ α) : List Bytes → Loop ι σ α → Prop
  | refl : Runs L c x [] x
  | run {o y} (t : ι) : Runs L c x o y → Ready (y.tasks t) →
      Runs L c x (o ++ (y.run L c t (y.tasks t)).2) (y.run L c t (y.tasks t)).1
  | recv {o y} (t : ι) (r : Except Err Bytes) (k : Except Err Bytes → IT (sh σ) α) : Runs L c x o y →
      y.tasks t = .op (S := sh σ) (.env .read) k → Runs L c x (o ++ (y.run L c t (k r)).2) (y.run L c t (k r)).1

end

end Salt.Spec
