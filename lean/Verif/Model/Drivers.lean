import Verif.Model.ClientServer

/-!
# How client sessions that raise are reported (saltchannel/dev/client_server.py, client_server_a.py, run_session_a.py)

`_run_session` of the threads, the log the threads write, what `run_sessions` of the coroutines returns or raises, and
the two main programs.
-/

namespace Salt

/-- What `_run_session` does (dev/client_server.py:87-101): create a socket, connect it, assign `is_session_active`, call
`client_session`, log an exception, close the socket. -/
inductive ThreadOp
  | socket | connect | active (b : Bool) | session | log (e : Err) | close
  deriving DecidableEq

/-- None of these returns anything that is used. -/
def threadSig : Sig := ⟨ThreadOp, fun _ => Unit⟩

/-- `try: m  finally: f`: `f` runs in any case; an exception of `f` replaces what `m` has returned or raised. -/
def Py.andFinally {S : Sig} {σ α : Type} (m : Py S σ α) (f : Py S σ Unit) : Py S σ α := fun s =>
  (m s).bind fun (r, s') => (f s').bind fun
    | (.ok _, s'') => .ret (r, s'')
    | (.error e, s'') => .ret (.error e, s'')

/-- `_run_session`, dev/client_server.py:87-101.  Simplification: the `SocketChannel` and the `MitmChannel` are created by
`session` (their constructors do not raise). -/
def runSession : Py threadSig Unit Unit := do
  Py.call (S := threadSig) .socket
  Py.andFinally
    (Py.onError
      (do
        Py.call (S := threadSig) .connect
        Py.call (S := threadSig) (.active true)
        Py.call (S := threadSig) .session)
      fun e => Py.call (S := threadSig) (.log e))
    (Py.call (S := threadSig) .close)
  Py.call (S := threadSig) (.active false)

/-- The exception of a call. -/
def raisedBy : Except Err Unit → Option Err
  | .ok _ => none
  | .error e => some e

/-- A main program with its `MpClientServerPair`, and what `logging.exception` has been called with
(dev/client_server.py:96-97), oldest first. -/
structure MpLog (X : Type) where
  run : MpRun X
  log : List Err

namespace MpLog

variable {X : Type}

/-- What a client thread writes when it comes to its end; `res` says how `client_session` has ended. -/
def line (res : X → Except Err Unit) (c d : Conn X) : Option Err :=
  if c.cl ≠ .left ∧ d.cl = .left then raisedBy (res d.x) else none

/-- `run_sessions(len(xs))` begins, after `start_server`. -/
def start (xs : List X) : MpLog X := ⟨MpRun.start xs, []⟩

/-- One thread makes its next step; a client thread that comes to its end logs the exception of its session. -/
inductive Step (S : Link X) (res : X → Except Err Unit) : MpLog X → MpLog X → Prop
  | step {R : MpLog X} {T : MpRun X} : MpRun.Step S R.run T →
      Step S res R ⟨T, R.log ++ (R.run.farm.conns.zip T.farm.conns).filterMap fun p => line res p.1 p.2⟩

end MpLog

/-- `for f in done: await f`, dev/client_server_a.py:101-102: the first exception is raised, the other results are not
looked at. -/
def awaitAll : List (Except Err Unit) → Except Err Unit
  | [] => .ok ()
  | .ok _ :: rest => awaitAll rest
  | .error e :: _ => .error e

/-- A `ClientServerPairA` and what `run_sessions` (dev/client_server_a.py:111-117) has returned or raised. -/
structure PoolRun (X : Type) where
  pool : Pool X
  result : Option (Except Err Unit)

namespace PoolRun

variable {X : Type}

/-- `run_sessions` begins. -/
def start (xs : List X) : PoolRun X := ⟨Pool.start xs, none⟩

/-- Something happens.  `asyncio.wait(..., ALL_COMPLETED)` (:100) waits for all clients, also if some have raised an
exception; `done` is a set, so the results are awaited in any order.  A client's exception gets from its process
(`_spawn_client_process`, :89-93) through the executor to the awaited future; `res` says how `client_session` has ended. -/
inductive Step (S : Link X) (res : X → Except Err Unit) : PoolRun X → PoolRun X → Prop
  | run {R : PoolRun X} {P : Pool X} : Pool.Step S R.pool P → P.running = R.pool.running → Step S res R { R with pool := P }
  | ret {R : PoolRun X} {done : List (Except Err Unit)} : R.pool.running = true → (∀ c ∈ R.pool.conns, c.1 = true ∧ S.doneC c.2) →
      done.Perm (R.pool.conns.map fun c => res c.2) →
      Step S res R ⟨{ R.pool with running := false }, some (awaitAll done)⟩

end PoolRun

/-- Where a main program with a `ClientServerPairA` is: before `stop_server`, within it, after it. -/
inductive MainA | sessions | stopping | stopped
  deriving DecidableEq

/-- A `ClientServerPairA` and where its main program is. -/
structure PoolMain (X : Type) where
  pool : Pool X
  main : MainA

namespace PoolMain

variable {X : Type}

/-- `run_sessions` begins, after `start_server`. -/
def start (xs : List X) : PoolMain X := ⟨Pool.start xs, .sessions⟩

/-- Something happens. When `run_sessions` has returned, `stop_server` (dev/client_server_a.py:119-124) closes the listening
socket and runs the event loop of the server again, which may go on with tasks of the server, until `wait_closed()`
returns; it does so at once, as `close()` has left no sockets (asyncio of Python up to 3.11; `asyncio.wait(loop=...)`, :100,
needs 3.9 or older). Then the event loop is closed.  No client can connect after `run_sessions`: all have returned. -/
inductive Step (S : Link X) : PoolMain X → PoolMain X → Prop
  | sessions {R : PoolMain X} {P : Pool X} : R.main = .sessions → Pool.Step S R.pool P → Step S R { R with pool := P }
  | stop {R : PoolMain X} : R.main = .sessions → R.pool.running = false → Step S R { R with main := .stopping }
  | server {R : PoolMain X} {i : Nat} {x y : X} : R.main = .stopping → R.pool.conns[i]? = some (true, x) → S.stepS x y →
      Step S R { R with pool := { R.pool with conns := R.pool.conns.set i (true, y) } }
  | closed {R : PoolMain X} : R.main = .stopping → Step S R { R with main := .stopped }

end PoolMain

/-- What the main programs do: `start_server`, `run_sessions`, `stop_server`. -/
inductive MainOp
  | start | sessions | stop
  deriving DecidableEq

/-- None of these returns anything. -/
def mainSig : Sig := ⟨MainOp, fun _ => Unit⟩

/-- `main` of dev/run_session.py:18-32 and dev/run_session_a.py:19-29 without the logging. -/
def driverMain : Py mainSig Unit Unit := do
  Py.call (S := mainSig) .start
  Py.call (S := mainSig) .sessions
  Py.call (S := mainSig) .stop

end Salt
