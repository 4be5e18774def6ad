import Verif.Model.Server
import Verif.Model.Examples

/-!
# Servers with several clients (saltchannel/dev/client_server.py, client_server_a.py)

The server sessions of the examples with their loops, and `MpClientServerPair`: one thread serves the connections of
all clients, one after the other; every client runs in a thread of its own.  `ClientServerPairA`: the server has a task
for every connection; every client runs in a process of its own.
-/

namespace Salt

/-- `except ComException: logging.info(...)` around a server session: dev/example_session1.py:49-50,
dev/example_session2.py:52-53, dev/example_session3.py:67-68. -/
def catchCom : Except Err Unit → Except Err Unit
  | .ok _ => .ok ()
  | .error e => if e.isCom then .ok () else .error e

/-- What follows the handshake in one round of the loop; `again` is the next round. -/
def afterHandshake (prog : Py appSig Unit Unit) (again : IT env (Except Err Unit)) :
    Except Err Unit × ServerSt → IT env (Except Err Unit)
  | (.error e, _) => .ret (.error e)
  | (.ok _, s) => match s.chan with
    | none => .ret (.error .attributeError)
    | some c => (App.run (prog ()) c).bind fun (r, c') => match r.1 with
      | .error e => .ret (.error e)
      | .ok _ => if App.last c' then .ret (.ok ()) else again

/-- The loop inside of `server_session`: a new session, the handshake, `prog` on its application channel, until the
client's last message has been seen; dev/example_session1.py:38-47 and dev/example_session3.py:52-65.  Simplification:
at most `fuel` rounds (results are proved for all `fuel` from 2 on). -/
def sessionRounds (cfg : ServerCfg) (prog : Py appSig Unit Unit) : Nat → IT env (Except Err Unit)
  | 0 => .ret (.ok ())
  | fuel + 1 => (Server.handshake cfg Server.init).bind (afterHandshake prog (sessionRounds cfg prog fuel))

/-- `server_session` of dev/example_session1.py:35-50 (with `Example1.server`) and dev/example_session3.py:49-68 (with
`Example3.server`). -/
def sessionLoop (cfg : ServerCfg) (prog : Py appSig Unit Unit) (fuel : Nat) : IT env (Except Err Unit) :=
  (sessionRounds cfg prog fuel).bind fun r => .ret (catchCom r)

/-- `server_session` of dev/example_session2.py:35-53: one handshake. -/
def Example2.serverSession (cfg : ServerCfg) : IT env (Except Err Unit) :=
  (Server.handshake cfg Server.init).bind fun (r, _) => .ret (catchCom r)

/-! ### MpClientServerPair -/

/-- A connection with a program at each end: what the client's and the server's end can do next, and whether their
programs have ended. -/
structure Link (X : Type) where
  stepC : X → X → Prop
  stepS : X → X → Prop
  doneC : X → Prop
  doneS : X → Prop

/-- Where a client thread is, `_run_session`, dev/client_server.py:87-101: before `sock.connect`, in `client_session`, or
at its end. -/
inductive ClientStage
  | idle | running | left
  deriving DecidableEq, Repr

/-- What the server thread does with a connection: it has not accepted it, is in `handle` (dev/client_server.py:54-56), or
has returned from it. -/
inductive ServerStage
  | waiting | serving | served
  deriving DecidableEq, Repr

/-- A client thread, the handling of its connection, and the connection. -/
structure Conn (X : Type) where
  cl : ClientStage
  sv : ServerStage
  x : X

/-- A `MpClientServerPair` running `run_sessions` (dev/client_server.py:74-85): the clients, the connections not yet
accepted (oldest first), and the attribute `is_session_active`. -/
structure Farm (X : Type) where
  conns : List (Conn X)
  queue : List Nat
  active : Bool

namespace Farm

variable {X : Type}

/-- `run_sessions(len(xs))` begins; the server runs (`start_server`, dev/client_server.py:66-72). -/
def start (xs : List X) : Farm X := ⟨xs.map fun x => ⟨.idle, .waiting, x⟩, [], false⟩

/-- One thread makes its next step.  `socketserver.TCPServer` handles one connection at a time, in the order in which
they were made.  Simplifications: `connect` and the assignment after it are one step (:91-93), and so are the end of a
program and the closing of its socket; a `connect` that has to wait for the queue of the listening socket is a `connect`
made later. -/
inductive Step (S : Link X) : Farm X → Farm X → Prop
  | connect {F : Farm X} {i : Nat} {c : Conn X} : F.conns[i]? = some c → c.cl = .idle →
      Step S F ⟨F.conns.set i { c with cl := .running }, F.queue ++ [i], true⟩
  | accept {F : Farm X} {i : Nat} {q : List Nat} {c : Conn X} : (∀ d ∈ F.conns, d.sv ≠ .serving) → F.queue = i :: q →
      F.conns[i]? = some c → c.sv = .waiting →
      Step S F { F with conns := F.conns.set i { c with sv := .serving }, queue := q }
  | client {F : Farm X} {i : Nat} {c : Conn X} {y : X} : F.conns[i]? = some c → c.cl = .running → S.stepC c.x y →
      Step S F { F with conns := F.conns.set i { c with x := y } }
  | server {F : Farm X} {i : Nat} {c : Conn X} {y : X} : F.conns[i]? = some c → c.sv = .serving → S.stepS c.x y →
      Step S F { F with conns := F.conns.set i { c with x := y } }
  | finish {F : Farm X} {i : Nat} {c : Conn X} : F.conns[i]? = some c → c.sv = .serving → S.doneS c.x →
      Step S F { F with conns := F.conns.set i { c with sv := .served } }
  | leave {F : Farm X} {i : Nat} {c : Conn X} : F.conns[i]? = some c → c.cl = .running → S.doneC c.x →
      Step S F { F with conns := F.conns.set i { c with cl := .left }, active := false }

end Farm

/-- Where the main program is (dev/run_session.py:21-32, dev/example_session1.py:99-107): in `run_sessions`, in
`self.server.shutdown()` of `stop_server` (dev/client_server.py:103-105), or after `stop_server`. -/
inductive MainStage
  | sessions | stopping | stopped
  deriving DecidableEq, Repr

/-- A main program with its `MpClientServerPair`: the clients and their connections, the main thread, and whether
`serve_forever` has not returned yet. -/
structure MpRun (X : Type) where
  farm : Farm X
  main : MainStage
  loop : Bool

namespace MpRun

variable {X : Type}

/-- `run_sessions(len(xs))` begins, after `start_server`. -/
def start (xs : List X) : MpRun X := ⟨Farm.start xs, .sessions, true⟩

/-- One thread makes its next step.  `run_sessions` returns when all client threads have ended (:83-85), and `shutdown` asks
`serve_forever` to stop: from then on nothing is accepted, and `serve_forever` returns when it is not in a handler.
`shutdown` waits for that; `server_close` follows (:106).  Simplifications: the test whether to stop and `accept` are one step
of `serve_forever`; the server socket is closed in the same step in which `shutdown` returns. -/
inductive Step (S : Link X) : MpRun X → MpRun X → Prop
  | farm {R : MpRun X} {G : Farm X} : Farm.Step S R.farm G → (R.main ≠ .sessions → G.queue = R.farm.queue) →
      Step S R { R with farm := G }
  | shutdown {R : MpRun X} : R.main = .sessions → (∀ c ∈ R.farm.conns, c.cl = .left) → Step S R { R with main := .stopping }
  | exit {R : MpRun X} : R.main = .stopping → R.loop = true → (∀ c ∈ R.farm.conns, c.sv ≠ .serving) →
      Step S R { R with loop := false }
  | close {R : MpRun X} : R.main = .stopping → R.loop = false → Step S R { R with main := .stopped }

end MpRun

/-! ### ClientServerPairA -/

/-- The connections of the clients, for each of them whether its process has connected, and whether the event loop of
the server runs; `ClientServerPairA.run_sessions`, dev/client_server_a.py:111-117. -/
structure Pool (X : Type) where
  conns : List (Bool × X)
  running : Bool

namespace Pool

variable {X : Type}

/-- `run_sessions` begins. -/
def start (xs : List X) : Pool X := ⟨xs.map fun x => (false, x), true⟩

/-- Something happens: a client process connects (dev/client_server_a.py:85) and gets a task of the server
(:23-32); the event loop of a client (`run_until_complete`, :92) or of the server (:115) does something for a connection;
or `spawn_clients_and_wait` (:95-102) returns, as all clients have returned, and with it `run_sessions`: the event loop
of the server stops.  Simplification: what was written before an event loop stops is sent.  What `run_sessions`
returns or raises is in `Model/Drivers.lean`. -/
inductive Step (S : Link X) : Pool X → Pool X → Prop
  | connect {P : Pool X} {i : Nat} {x : X} : P.running = true → P.conns[i]? = some (false, x) →
      Step S P { P with conns := P.conns.set i (true, x) }
  | client {P : Pool X} {i : Nat} {x y : X} : P.conns[i]? = some (true, x) → ¬ S.doneC x → S.stepC x y →
      Step S P { P with conns := P.conns.set i (true, y) }
  | server {P : Pool X} {i : Nat} {x y : X} : P.running = true → P.conns[i]? = some (true, x) → S.stepS x y →
      Step S P { P with conns := P.conns.set i (true, y) }
  | stop {P : Pool X} : P.running = true → (∀ c ∈ P.conns, c.1 = true ∧ S.doneC c.2) → Step S P { P with running := false }

end Pool

end Salt
