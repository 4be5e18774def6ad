import Verif.Model.Basic

/-!
# Event loops and threads (saltchannel/util/__init__.py, the constructors, CPython 3.11's asyncio)

Which event loop an object uses, and when its `_sync` methods can run on it.  What the coroutines do
is not part of this model.
-/

namespace Salt.Loops

/-- Threads; 0 is the main thread. -/
abbrev Thread := Nat
/-- Event loops, numbered in the order in which they were made. -/
abbrev LoopId := Nat

/-- The state of asyncio: `_local._loop` and `_local._set_called` of the event loop policy, the running
loop of every thread (`_get_running_loop()`), the thread in which a loop runs (`loop._thread_id`), and
whether it is closed. -/
structure Asyncio where
  made : Nat
  current : Thread → Option LoopId
  setCalled : Thread → Bool
  running : Thread → Option LoopId
  runner : LoopId → Option Thread
  closed : LoopId → Bool

/-- `f` with the value at `i` replaced. -/
def put {α : Type} (f : Nat → α) (i : Nat) (a : α) : Nat → α := fun j => if j = i then a else f j

/-- `asyncio.set_event_loop(l)` in thread `t`. -/
def setEventLoop (t : Thread) (l : Option LoopId) (s : Asyncio) : Asyncio :=
  { s with current := put s.current t l, setCalled := put s.setCalled t true }

/-- `asyncio.set_event_loop(asyncio.new_event_loop())` in thread `t`. -/
def setNewLoop (t : Thread) (s : Asyncio) : Asyncio :=
  setEventLoop t (some s.made) { s with made := s.made + 1 }

/-- `asyncio.get_event_loop()` in thread `t` (asyncio/events.py): the running loop, or that of the
thread; the main thread gets one at the first call; RuntimeError in a thread without one. -/
def getEventLoop (t : Thread) (s : Asyncio) : Except Err LoopId × Asyncio :=
  match s.running t with
  | some l => (.ok l, s)
  | none =>
    let s1 := if s.current t = none ∧ s.setCalled t = false ∧ t = 0 then setNewLoop t s else s
    match s1.current t with
    | some l => (.ok l, s1)
    | none => (.error .runtimeError, s1)

/-- `loop or asyncio.get_event_loop()`, salt_client_session.py:18 and a1_client_session.py:8. -/
def orGetEventLoop (t : Thread) (loop : Option LoopId) (s : Asyncio) : Except Err LoopId × Asyncio :=
  match loop with
  | some l => (.ok l, s)
  | none => getEventLoop t s

/-- `force_event_loop(loop)`, util/__init__.py:12-18. -/
def forceEventLoop (t : Thread) (loop : Option LoopId) (s : Asyncio) : Except Err LoopId × Asyncio :=
  match orGetEventLoop t loop s with
  | (.error .runtimeError, s1) => (.ok s1.made, setNewLoop t s1)
  | r => r

/-- Entering `loop.run_until_complete(...)` in thread `t` (`_check_closed` and `_check_running` of
asyncio/base_events.py). -/
def enter (t : Thread) (l : LoopId) (s : Asyncio) : Except Err Unit × Asyncio :=
  if s.closed l ∨ s.runner l ≠ none ∨ s.running t ≠ none then (.error .runtimeError, s)
  else (.ok (), { s with running := put s.running t (some l), runner := put s.runner l (some t) })

/-- Leaving it. -/
def leave (t : Thread) (s : Asyncio) : Asyncio :=
  match s.running t with
  | none => s
  | some l => { s with running := put s.running t none, runner := put s.runner l none }

/-- The classes with a `loop` attribute.  (`SocketChannel` has none.) -/
inductive Kind
  /-- `SaltServerSession` (salt_server_session.py:21) -/
  | server
  /-- `SaltClientSession` (salt_client_session.py:18) -/
  | client
  /-- `A1ClientSession` (a1_client_session.py:8) -/
  | a1
  /-- `AsyncioChannel`, `EncryptedChannelV2`, `AppChannelV2`, `MitmChannel`, by `ByteChannel.__init__`
  (channel.py:14-17) -/
  | channel
  deriving DecidableEq, Repr

/-- What a constructor does with the event loops. -/
def construct (k : Kind) (t : Thread) (loop : Option LoopId) (s : Asyncio) : Except Err LoopId × Asyncio :=
  match k with
  | .server => forceEventLoop t loop s
  | .channel => forceEventLoop t loop s
  | .client => orGetEventLoop t loop s
  | .a1 => orGetEventLoop t loop s

/-- An object: the thread that made it, whether inside of `asyncio.run`, and its `loop` attribute. -/
structure Obj where
  by_ : Thread
  inRun : Bool
  loop : LoopId
  deriving DecidableEq, Repr

/-- A process: asyncio, the objects made so far, and for every thread whether it is inside of
`asyncio.run`. -/
structure Proc where
  io : Asyncio
  objs : List Obj
  inRun : Thread → Bool

/-- What threads do. -/
inductive Act
  /-- make an object, perhaps with the argument `loop=` -/
  | make (t : Thread) (k : Kind) (loop : Option LoopId)
  /-- begin a `_sync` call on an object, util/__init__.py:59-61 -/
  | call (t : Thread) (o : Nat)
  /-- the call ends -/
  | ret (t : Thread)
  /-- `asyncio.run(...)` begins: a new loop, which is set and run -/
  | run (t : Thread)
  /-- `asyncio.run(...)` ends: the loop is closed and None set -/
  | runEnd (t : Thread)
  deriving DecidableEq, Repr

/-- One action: the exception it raises, if any, and what it changes. -/
def step : Act → Proc → Except Err Unit × Proc
  | .make t k loop, p =>
    match construct k t loop p.io with
    | (.ok l, io) => (.ok (), { p with io := io, objs := p.objs ++ [⟨t, p.inRun t, l⟩] })
    | (.error e, io) => (.error e, { p with io := io })
  | .call t o, p =>
    match p.objs[o]? with
    | none => (.error .nameError, p)
    | some ob =>
      let (r, io) := enter t ob.loop p.io
      (r, { p with io := io })
  | .ret t, p => (.ok (), if p.inRun t then p else { p with io := leave t p.io })
  | .run t, p =>
    if p.io.running t ≠ none then (.error .runtimeError, p)
    else
      let (r, io) := enter t p.io.made (setNewLoop t p.io)
      (r, { p with io := io, inRun := put p.inRun t true })
  | .runEnd t, p =>
    if p.inRun t = false then (.ok (), p)
    else
      match p.io.running t with
      | none => (.ok (), p)
      | some l =>
        let io := leave t p.io
        (.ok (), { p with
          io := setEventLoop t none { io with closed := put io.closed l true }, inRun := put p.inRun t false })

end Salt.Loops
