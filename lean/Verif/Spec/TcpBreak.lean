import Verif.Spec.BrokenSock
import Verif.Spec.Tcp

/-!
# TCP connections that are closed at the end, and may break before
-/

namespace Salt.Spec

open Salt

variable {α β : Type}

/-- The other program has ended, and the first one finds its socket closed (`TcpStep`). -/
def Shut (x y : BreakSock α β) : Prop :=
  x.alive = true ∧ x.inA = false ∧ (∃ r, x.net.b = .ret r) ∧ TcpStep x.net y.net ∧ y = { x with net := y.net }

/-- The connection breaks: in each direction some of the bytes in flight still arrive, the others are lost. -/
def Cut (x y : BreakSock α β) : Prop :=
  x.alive = true ∧ ∃ i j, y = { x with net := { x.net with ab := x.net.ab.take i, ba := x.net.ba.take j }, alive := false }

/-- A TCP connection between a client (`a`) and the handler of a server (`b`), which may break at any time before both have
ended.  While it works, it is as `tcp`, except that bytes can arrive before the `sendall` that sends them has
returned. -/
def tcpBreak : Link (BreakSock α β) where
  stepC := fun x y => BreakSock.Half x y ∨ Shut x y ∨ Cut x y ∧ ¬ ∃ r, x.net.a = .ret r
  stepS := fun x y => BreakSock.Half x.swap y.swap ∨ Shut x.swap y.swap ∨ Cut x y ∧ ¬ ∃ r, x.net.b = .ret r
  doneC := fun x => ∃ r, x.net.a = .ret r
  doneS := fun x => ∃ r, x.net.b = .ret r

/-- A connection that works. -/
def working (x : SockNet α β) : BreakSock α β := ⟨x, true, false, false⟩

/-- If the connection has not broken, then the two programs have ended with the property `Q`. -/
def IfWorks (Q : SockNet α β → Prop) (z : BreakSock α β) : Prop := z.alive = true → Q z.net

/-- `start_server`, `run_sessions` with one client for each element of `ds`, and `stop_server`, on connections that may break:
whatever the schedule, everything ends, and then `stop_server` has returned, `serve_forever` too, every client
thread is at its end, no handler is running, and every connection that has not broken has been served and has the property
`Q d`. -/
def UnbrokenServed {D : Type} (ds : List D) (conn : D → SockNet α β) (Q : D → SockNet α β → Prop) : Prop :=
  MpRun.Terminates tcpBreak (MpRun.start (ds.map fun d => working (conn d))) ∧
  (∃ R, MpRun.Reach tcpBreak (MpRun.start (ds.map fun d => working (conn d))) R ∧ MpRun.Stuck tcpBreak R) ∧
  ∀ R, MpRun.Reach tcpBreak (MpRun.start (ds.map fun d => working (conn d))) R → MpRun.Stuck tcpBreak R →
    R.main = .stopped ∧ R.loop = false ∧ R.farm.conns.length = ds.length ∧ R.farm.active = false ∧
    ∀ (i : Nat) (d : D), ds[i]? = some d → ∃ c, R.farm.conns[i]? = some c ∧ c.cl = .left ∧ c.sv ≠ .serving ∧
      (c.x.alive = true → c.sv = .served ∧ Q d c.x.net)

end Salt.Spec
