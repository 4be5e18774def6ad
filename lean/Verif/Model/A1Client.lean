import Verif.Model.Prog
import Verif.Model.A1A2

/-!
# The A1 client (saltchannel/a1a2/a1_client_session.py)
-/

namespace Salt

/-- The attributes of an `A1ClientSession`, a1a2/a1_client_session.py:7-12 (the channel is the
environment). -/
structure A1ClientSt where
  a1 : Packet
  a2 : Option Packet
  deriving DecidableEq, Repr

namespace A1Client

/-- `A1ClientSession(channel)`, a1a2/a1_client_session.py:7-12. -/
def init : A1ClientSt := { a1 := A1.fresh, a2 := none }

/-- `do_a1a2` and `do_a1a2_sync`, a1a2/a1_client_session.py:14-20. -/
def doA1A2 (uw : Nat → Bool) : Py appSig A1ClientSt Unit := do
  let s ← Py.getSt
  let _ ← Py.call (S := appSig) (.write [s.a1.toBytes] false)
  let raw ← Py.call (S := appSig) .read
  let p ← Py.lift (A2.ctor uw raw)
  Py.modifySt fun s => { s with a2 := some p }

end A1Client

end Salt
