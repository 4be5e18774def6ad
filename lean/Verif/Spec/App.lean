import Verif.Spec.Channel

/-!
# Vocabulary for statements about the application channel
-/

namespace Salt.Spec

open Salt

/-- The plaintext packets of one `write` call with time `t`: one multi packet for at least two messages
of at most 65535 bytes each, otherwise one app packet per message. -/
def appPackets (t : Nat) (msgs : List Bytes) : List Bytes :=
  if 2 ≤ msgs.length ∧ ∀ m ∈ msgs, m.length ≤ 65535 then [multiApp t msgs] else msgs.map (app t)

/-- `Carries p msgs`: the plaintext packet `p` is an app packet or a well-formed multi packet with the
messages `msgs`. -/
inductive Carries : Bytes → List Bytes → Prop
  | app (t : Nat) (m : Bytes) : Carries (app t m) [m]
  | multi (t : Nat) (msgs : List Bytes) : 1 ≤ msgs.length → msgs.length ≤ 65535 →
      (∀ m ∈ msgs, m.length ≤ 65535) → Carries (multiApp t msgs) msgs

/-- The packets `ps` carry, in order, the messages `msgs`. -/
inductive CarryAll : List Bytes → List Bytes → Prop
  | nil : CarryAll [] []
  | cons {p : Bytes} {ms : List Bytes} {ps msgs : List Bytes} : Carries p ms → CarryAll ps msgs →
      CarryAll (p :: ps) (ms ++ msgs)

/-- The times returned by the time keeper. -/
def timesOf : List (Ev env) → List Nat
  | [] => []
  | ⟨.time, .ok t⟩ :: tr => t :: timesOf tr
  | _ :: tr => timesOf tr

/-- No time check failed. -/
def ChecksOk (tr : List (Ev env)) : Prop := ∀ t r, ⟨EnvOp.check t, r⟩ ∈ tr → r = .ok ()

/-- The plaintexts to be sent for a sequence of calls: those of each write call with its own time, and
before those of the first write call the pending M4, if any, stamped with that time. -/
def plaintexts : Option (Nat → Bytes) → List AppOp → List Nat → List Bytes
  | _, [], _ => []
  | m4, .read :: ops, ts => plaintexts m4 ops ts
  | _, .write _ _ :: _, [] => []
  | m4, .write ms _ :: ops, t :: ts =>
    (m4.map fun f => f t).toList ++ appPackets t ms ++ plaintexts none ops ts

/-- The operations of an `AppChannelV2` as seen by the application. -/
def appOps : (e : AppOp) → Py env AppSt e.Resp
  | .read => App.read
  | .write ms l => App.write ms l

/-- Every write call carries at most 65535 messages. -/
def ShortWrites (ops : List AppOp) : Prop := ∀ ms l, AppOp.write ms l ∈ ops → ms.length ≤ 65535

end Salt.Spec
