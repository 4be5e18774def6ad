import Verif.Model.Prog
import Verif.Model.Packets
import Verif.Model.A1A2

/-!
# The development channels (saltchannel/dev) and the A1 client (saltchannel/a1a2)
-/

namespace Salt

/-! ### MitmChannel -/

/-- `MitmEventType`, dev/mitm_channel.py:9-15. -/
inductive MitmEventType
  | unknown | read | write | writeWithPrevious | delay
  deriving DecidableEq, Repr

/-- `LogRecord`, dev/mitm_channel.py:21.  Times are natural numbers instead of floats. -/
structure LogRecord where
  time : Nat
  type : MitmEventType
  data : Bytes
  deriving DecidableEq, Repr

/-- What a `MitmChannel` does to other objects: `read` and `write` of the original channel,
`time.perf_counter()`, and `log.info(text)`, whose text is given by the record (and the time since the
last one, not modelled). -/
inductive MitmOp
  | read
  | write (msgs : List Bytes) (isLast : Bool)
  | clock
  | info (r : LogRecord)
  deriving DecidableEq, Repr

/-- What they return. -/
abbrev MitmOp.Resp : MitmOp → Type
  | .read => Bytes
  | .clock => Nat
  | _ => Unit

/-- Signature of the environment of a `MitmChannel`. -/
abbrev mitmSig : Sig := ⟨MitmOp, MitmOp.Resp⟩

/-- The attributes of a `MitmChannel`, dev/mitm_channel.py:24-33; `log` says whether there is one. -/
structure MitmSt where
  log : Bool
  queue : List LogRecord := []
  time0 : Nat := 0
  logBuffering : Bool := false
  counterRead : Nat := 0
  counterWrite : Nat := 0
  deriving DecidableEq, Repr

namespace Mitm

/-- Perform an operation of the environment. -/
abbrev op (e : MitmOp) : Py mitmSig MitmSt e.Resp := Py.call (S := mitmSig) e

/-- `_log_event`, dev/mitm_channel.py:40-50. -/
def logEvent (r : LogRecord) (force : Bool) : Py mitmSig MitmSt Unit := do
  Py.modifySt fun s => if s.time0 = 0 then { s with time0 := r.time } else s
  let s ← Py.getSt
  if force || !s.logBuffering then
    if s.log then
      let _ ← op (.info r)
    else
      Py.modifySt fun s => { s with queue := s.queue ++ [r] }
  else pure ()
  Py.modifySt fun s => { s with time0 := r.time }

/-- The loop of `flush_log_buffer`, dev/mitm_channel.py:36-37. -/
def flushLoop : List LogRecord → Py mitmSig MitmSt Unit
  | [] => return ()
  | r :: rs => do
    logEvent r true
    flushLoop rs

/-- `flush_log_buffer`, dev/mitm_channel.py:35-38.  Simplification: the loop runs over the queue as it
was at the beginning (with a log it is not changed by the loop). -/
def flushLogBuffer : Py mitmSig MitmSt Unit := do
  let s ← Py.getSt
  flushLoop s.queue
  Py.modifySt fun s => { s with queue := [] }

/-- `read` and `read_sync`, dev/mitm_channel.py:52-57, 70-75. -/
def read : Py mitmSig MitmSt Bytes := do
  let data ← op .read
  Py.modifySt fun s => { s with counterRead := s.counterRead + data.length }
  let s ← Py.getSt
  if s.log then
    let t ← op .clock
    logEvent ⟨t, .read, data⟩ false
  else pure ()
  return data

/-- The loop logging the further messages of a call, dev/mitm_channel.py:67-68, 85-86. -/
def logArgs : List Bytes → Py mitmSig MitmSt Unit
  | [] => return ()
  | m :: ms => do
    let t ← op .clock
    logEvent ⟨t, .writeWithPrevious, m⟩ false
    logArgs ms

/-- `write` and `write_sync`, dev/mitm_channel.py:59-68, 77-86; `msgs` is `(msg,) + args`. -/
def write (msgs : List Bytes) (isLast : Bool) : Py mitmSig MitmSt Unit := do
  let _ ← op (.write msgs isLast)
  Py.modifySt fun s =>
    { s with counterWrite := msgs.foldl (fun n m => n + m.length) s.counterWrite }
  let s ← Py.getSt
  if s.log then
    match msgs with
    | [] => return ()
    | msg :: args =>
      let t ← op .clock
      logEvent ⟨t, .write, msg⟩ false
      logArgs args
  else return ()

/-- A program using a channel, run on a `MitmChannel` put around it. -/
def run {β : Type} : IT appSig β → MitmSt → IT mitmSig (β × MitmSt)
  | .ret b, s => .ret (b, s)
  | .op .read k, s => (read s).bind fun (r, s') => run (k r) s'
  | .op (.write ms l) k, s => (write ms l s).bind fun (r, s') => run (k r) s'

end Mitm

/-! ### Tunnel -/

/-- What may be passed as `msg` to the channels of a `Tunnel`. -/
inductive TunnelArg
  | bytes (b : Bytes)
  | tuple (l : List Bytes)
  deriving DecidableEq, Repr

/-- `msg + args` for the tuple `args`: adding a tuple to bytes raises TypeError, even an empty one. -/
def TunnelArg.add : TunnelArg → List Bytes → Except Err (List Bytes)
  | .bytes _, _ => .error .typeError
  | .tuple l, args => .ok (l ++ args)

/-- The two queues of `Tunnel`, dev/tunnel.py:9-10: `_q1` is read by `channel1`, `_q2` by `channel2`. -/
structure TunnelSt where
  q1 : List Bytes := []
  q2 : List Bytes := []
  deriving DecidableEq, Repr

/-- One of the two channels of a tunnel. -/
inductive TunnelEnd
  | one | two
  deriving DecidableEq, Repr

/-- Operations on a tunnel. -/
inductive TunnelOp
  | read (at_ : TunnelEnd)
  | write (at_ : TunnelEnd) (msg : TunnelArg) (args : List Bytes)
  deriving DecidableEq, Repr

namespace Tunnel

/-- The queue read by a channel, dev/tunnel.py:11-12. -/
def inQ (s : TunnelSt) : TunnelEnd → List Bytes
  | .one => s.q1
  | .two => s.q2

/-- Replace the queue read by a channel. -/
def setInQ (s : TunnelSt) (e : TunnelEnd) (q : List Bytes) : TunnelSt :=
  match e with
  | .one => { s with q1 := q }
  | .two => { s with q2 := q }

/-- The other channel. -/
def other : TunnelEnd → TunnelEnd
  | .one => .two
  | .two => .one

/-- `_Channel.read`, dev/tunnel.py:17-18: `popleft` of an empty deque raises IndexError. -/
def read (s : TunnelSt) (e : TunnelEnd) : Except Err Bytes × TunnelSt :=
  match inQ s e with
  | [] => (.error .indexError, s)
  | m :: q => (.ok m, setInQ s e q)

/-- `_Channel.write`, dev/tunnel.py:20-22. -/
def write (s : TunnelSt) (e : TunnelEnd) (msg : TunnelArg) (args : List Bytes) :
    Except Err Unit × TunnelSt :=
  match msg.add args with
  | .error x => (.error x, s)
  | .ok ms => (.ok (), setInQ s (other e) (inQ s (other e) ++ ms))

/-- A sequence of operations; the list of the messages read at each end (in order) is returned with
the state, and whether anything was ever raised by a write. -/
def run : List TunnelOp → TunnelSt → List (TunnelOp × Except Err (Option Bytes)) × TunnelSt
  | [], s => ([], s)
  | .read e :: ops, s =>
    let (r, s1) := read s e
    let (rs, s2) := run ops s1
    ((.read e, r.map some) :: rs, s2)
  | .write e msg args :: ops, s =>
    let (r, s1) := write s e msg args
    let (rs, s2) := run ops s1
    ((.write e msg args, r.map fun _ => none) :: rs, s2)

end Tunnel

/-- `TunnelMP._Channel.write`, dev/tunnel.py:38-40, up to the messages given to `send_bytes`. -/
def TunnelMP.write (msg : TunnelArg) (args : List Bytes) : Except Err (List Bytes) := msg.add args

end Salt
