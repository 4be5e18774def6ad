import Verif.Model.Prog

/-!
# The default time objects (saltchannel/util/time.py)
-/

namespace Salt

/-- `NullTimeKeeper.get_first_time` and `get_time`, util/time.py:36-41. -/
def nullTime : Nat := 0

/-- `NullTimeChecker.report_first_time`, util/time.py:48-50: for a bad time the message is built with
`"..." + time` where `time` is an int, so TypeError is raised instead of BadPeer. -/
def nullReport (t : Nat) : Except Err Unit :=
  if t = 0 ∨ t = 1 then .ok () else .error .typeError

/-- `NullTimeChecker.check_time`, util/time.py:53. -/
def nullCheck (_ : Nat) : Except Err Unit := .ok ()

end Salt
