import Verif.Model.Drivers
import Verif.Spec.Tcp
import Verif.Spec.AioFarm
import Verif.Spec.Trace

/-!
# Schedules with results
-/

namespace Salt

namespace MpLog

variable {X : Type}

/-- Some schedule of all threads leads from one configuration to the other. -/
inductive Reach (S : Link X) (res : X → Except Err Unit) : MpLog X → MpLog X → Prop
  | refl (R) : Reach S res R R
  | step {R T U} : Reach S res R T → Step S res T U → Reach S res R U

/-- No thread can do anything. -/
def Stuck (S : Link X) (res : X → Except Err Unit) (R : MpLog X) : Prop := ∀ T, ¬ Step S res R T

end MpLog

namespace PoolRun

variable {X : Type}

/-- Some schedule leads from one configuration to the other. -/
inductive Reach (S : Link X) (res : X → Except Err Unit) : PoolRun X → PoolRun X → Prop
  | refl (R) : Reach S res R R
  | step {R T U} : Reach S res R T → Step S res T U → Reach S res R U

/-- Nothing more can happen. -/
def Stuck (S : Link X) (res : X → Except Err Unit) (R : PoolRun X) : Prop := ∀ T, ¬ Step S res R T

end PoolRun

namespace PoolMain

variable {X : Type}

/-- Some schedule leads from one configuration to the other. -/
inductive Reach (S : Link X) : PoolMain X → PoolMain X → Prop
  | refl (R) : Reach S R R
  | step {R T U} : Reach S R T → Step S T U → Reach S R U

/-- Nothing more can happen. -/
def Stuck (S : Link X) (R : PoolMain X) : Prop := ∀ T, ¬ Step S R T

/-- There is no infinite schedule. -/
def Terminates (S : Link X) (R : PoolMain X) : Prop := Acc (fun T R => Step S R T) R

end PoolMain

namespace Spec

/-- The result of a session that has ended is not changed by what the other side does. -/
def Stays {X : Type} (S : Link X) (res : X → Except Err Unit) : Prop := ∀ x y, S.doneC x → S.stepS x y → res y = res x

/-- How the client of a TCP connection has ended. -/
def tcpResult {α β : Type} (f : α → Except Err Unit) (x : SockNet α β) : Except Err Unit := match x.a with
  | .ret r => f r
  | _ => .ok ()

/-- How the client of an asyncio connection has ended. -/
def aioResult {α β : Type} (f : α → Except Err Unit) (x : AioNet Unit Unit Unit Unit α β) : Except Err Unit :=
  match x.a.tasks () with
  | .ret r => f r
  | _ => .ok ()

/-- The exceptions of the calls of a trace. -/
def raisedIn (tr : List (Ev threadSig)) : List Err := tr.filterMap fun v => match v.res with
  | .ok _ => none
  | .error e => some e

/-- What a trace has logged. -/
def loggedIn (tr : List (Ev threadSig)) : List Err := tr.filterMap fun v => match v.op with
  | .log e => some e
  | _ => none

end Spec

end Salt
