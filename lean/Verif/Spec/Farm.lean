import Verif.Model.ClientServer

/-!
# Connections on their own and served by one thread
-/

namespace Salt

open Salt

namespace Link

variable {X : Type}

/-- The two ends of a connection, scheduled in any way, lead from one configuration to another. -/
inductive Reach (S : Link X) : X → X → Prop
  | refl (x) : Reach S x x
  | step {x y z} : Reach S x y → S.stepC y z ∨ S.stepS y z → Reach S x z

/-- Nothing more can happen on the connection. -/
def Stuck (S : Link X) (x : X) : Prop := ∀ y, ¬ (S.stepC x y ∨ S.stepS x y)

/-- There is no infinite schedule. -/
def Terminates (S : Link X) (x : X) : Prop := Acc (fun y x => S.stepC x y ∨ S.stepS x y) x

/-- On a connection of its own, whatever the schedule, both programs end, in a configuration with the property `Q`. -/
def Ends (S : Link X) (Q : X → Prop) (x : X) : Prop :=
  S.Terminates x ∧ ∀ z, S.Reach x z → S.Stuck z → S.doneC z ∧ S.doneS z ∧ Q z

/-- A program that has ended does nothing more, whatever the other one does. -/
structure Lawful (S : Link X) : Prop where
  noC : ∀ x y, S.doneC x → ¬ S.stepC x y
  noS : ∀ x y, S.doneS x → ¬ S.stepS x y
  keepC : ∀ x y, S.doneC x → S.stepS x y → S.doneC y
  keepS : ∀ x y, S.doneS x → S.stepC x y → S.doneS y

/-- The client alone, while the server has not accepted the connection, leads from one configuration to another. -/
inductive ReachC (S : Link X) : X → X → Prop
  | refl (x) : ReachC S x x
  | step {x y z} : ReachC S x y → S.stepC y z → ReachC S x z

/-- The client does not end before the server has done something. -/
def NeedsServer (S : Link X) (x : X) : Prop := ∀ y, S.ReachC x y → ¬ S.doneC y

end Link

namespace Farm

variable {X : Type}

/-- Some schedule of all threads leads from one configuration to the other. -/
inductive Reach (S : Link X) : Farm X → Farm X → Prop
  | refl (F) : Reach S F F
  | step {F G H} : Reach S F G → Step S G H → Reach S F H

/-- No thread can do anything. -/
def Stuck (S : Link X) (F : Farm X) : Prop := ∀ G, ¬ Step S F G

/-- There is no infinite schedule. -/
def Terminates (S : Link X) (F : Farm X) : Prop := Acc (fun G F => Step S F G) F

/-- A server with one client for each element of `ds`, the connection of which is `conn d` at first: whatever the schedule of
all threads, everything ends, and then every client thread is at its end, every connection has been served and
has the property `Q d`, and `is_session_active` is false. -/
def AllServed {D : Type} (S : Link X) (ds : List D) (conn : D → X) (Q : D → X → Prop) : Prop :=
  Terminates S (start (ds.map conn)) ∧ (∃ F, Reach S (start (ds.map conn)) F ∧ Stuck S F) ∧
  ∀ F, Reach S (start (ds.map conn)) F → Stuck S F → F.conns.length = ds.length ∧ F.active = false ∧
    ∀ (i : Nat) (d : D), ds[i]? = some d → ∃ c, F.conns[i]? = some c ∧ c.cl = .left ∧ c.sv = .served ∧ Q d c.x

end Farm

namespace MpRun

variable {X : Type}

/-- Some schedule of all threads leads from one configuration to the other. -/
inductive Reach (S : Link X) : MpRun X → MpRun X → Prop
  | refl (R) : Reach S R R
  | step {R T U} : Reach S R T → Step S T U → Reach S R U

/-- No thread can do anything. -/
def Stuck (S : Link X) (R : MpRun X) : Prop := ∀ T, ¬ Step S R T

/-- There is no infinite schedule. -/
def Terminates (S : Link X) (R : MpRun X) : Prop := Acc (fun T R => Step S R T) R

/-- `start_server`, `run_sessions` with one client for each element of `ds`, and `stop_server`: whatever the schedule, everything
ends, and then `stop_server` has returned, `serve_forever` too, every client thread is at its end, and every connection
has been served and has the property `Q d`. -/
def AllServed {D : Type} (S : Link X) (ds : List D) (conn : D → X) (Q : D → X → Prop) : Prop :=
  Terminates S (start (ds.map conn)) ∧ (∃ R, Reach S (start (ds.map conn)) R ∧ Stuck S R) ∧
  ∀ R, Reach S (start (ds.map conn)) R → Stuck S R → R.main = .stopped ∧ R.loop = false ∧
    R.farm.conns.length = ds.length ∧ R.farm.active = false ∧
    ∀ (i : Nat) (d : D), ds[i]? = some d → ∃ c, R.farm.conns[i]? = some c ∧ c.cl = .left ∧ c.sv = .served ∧ Q d c.x

end MpRun

namespace Pool

variable {X : Type}

/-- Some schedule leads from one configuration to the other. -/
inductive Reach (S : Link X) : Pool X → Pool X → Prop
  | refl (P) : Reach S P P
  | step {P Q R} : Reach S P Q → Step S Q R → Reach S P R

/-- Nothing more can happen. -/
def Stuck (S : Link X) (P : Pool X) : Prop := ∀ Q, ¬ Step S P Q

/-- There is no infinite schedule. -/
def Terminates (S : Link X) (P : Pool X) : Prop := Acc (fun Q P => Step S P Q) P

end Pool

end Salt
