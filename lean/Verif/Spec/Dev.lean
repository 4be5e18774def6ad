import Verif.Model.Dev
import Verif.Spec.Trace

/-!
# What is expected of the development channels
-/

namespace Salt.Spec

open Salt

/-- What happened on the channel below a `MitmChannel`. -/
def chanEvents : List (Ev mitmSig) → List (Ev appSig)
  | [] => []
  | ⟨.read, r⟩ :: tr => ⟨.read, r⟩ :: chanEvents tr
  | ⟨.write ms l, r⟩ :: tr => ⟨.write ms l, r⟩ :: chanEvents tr
  | _ :: tr => chanEvents tr

/-- The records given to the log: kind and data. -/
def logged : List (Ev mitmSig) → List (MitmEventType × Bytes)
  | [] => []
  | ⟨.info r, _⟩ :: tr => (r.type, r.data) :: logged tr
  | _ :: tr => logged tr

/-- Neither the clock nor the log raised anything. -/
def LogOk (tr : List (Ev mitmSig)) : Prop :=
  ∀ e ∈ tr, match e with
    | ⟨.clock, r⟩ => ∃ t, r = .ok t
    | ⟨.info _, r⟩ => r = .ok ()
    | _ => True

/-- Number of bytes delivered by the successful reads. -/
def bytesRead : List (Ev appSig) → Nat
  | [] => 0
  | ⟨.read, .ok m⟩ :: tr => m.length + bytesRead tr
  | _ :: tr => bytesRead tr

/-- Number of bytes in the messages of the successful writes. -/
def bytesWritten : List (Ev appSig) → Nat
  | [] => 0
  | ⟨.write ms _, .ok _⟩ :: tr => (ms.map List.length).sum + bytesWritten tr
  | _ :: tr => bytesWritten tr

/-- What a log of the successful operations should hold: one record per message. -/
def expectedLog : List (Ev appSig) → List (MitmEventType × Bytes)
  | [] => []
  | ⟨.read, .ok m⟩ :: tr => (.read, m) :: expectedLog tr
  | ⟨.write (m :: ms) _, .ok _⟩ :: tr =>
    (.write, m) :: ms.map (fun x => (.writeWithPrevious, x)) ++ expectedLog tr
  | _ :: tr => expectedLog tr

/-- The end that is not this one. -/
def otherEnd : TunnelEnd → TunnelEnd
  | .one => .two
  | .two => .one

/-- The messages a sequence of tunnel operations successfully wrote at an end. -/
def tunnelWritten (e : TunnelEnd) : List (TunnelOp × Except Err (Option Bytes)) → List Bytes
  | [] => []
  | (.write e' (.tuple l) args, .ok _) :: tr =>
    if e' = e then l ++ args ++ tunnelWritten e tr else tunnelWritten e tr
  | (.write e' (.bytes b) args, .ok _) :: tr =>
    if e' = e then b :: args ++ tunnelWritten e tr else tunnelWritten e tr
  | _ :: tr => tunnelWritten e tr

/-- The messages read at an end. -/
def tunnelRead (e : TunnelEnd) : List (TunnelOp × Except Err (Option Bytes)) → List Bytes
  | [] => []
  | (.read e', .ok (some m)) :: tr => if e' = e then m :: tunnelRead e tr else tunnelRead e tr
  | _ :: tr => tunnelRead e tr

end Salt.Spec
