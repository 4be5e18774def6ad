import Verif.Spec.Framing
import Verif.Spec.Channel

/-!
# Calls that are interrupted: timeouts of sockets, cancellation of coroutines
-/

namespace Salt.Spec

open Salt

/-- As `Consumes`, but `recv` may also raise, for instance `socket.timeout`; it then takes nothing. -/
inductive Takes : List (Ev sock) → Bytes → Bytes → Prop
  | nil (s : Bytes) : Takes [] s s
  | recv (n : Nat) (chunk rest s' : Bytes) (tr : List (Ev sock)) : chunk ≠ [] → chunk.length ≤ n →
      Takes tr rest s' → Takes (⟨.recv n, .ok chunk⟩ :: tr) (chunk ++ rest) s'
  | eof (n : Nat) (s' : Bytes) (tr : List (Ev sock)) :
      Takes tr [] s' → Takes (⟨.recv n, .ok ([] : Bytes)⟩ :: tr) [] s'
  | stop (n : Nat) (e : Err) (s s' : Bytes) (tr : List (Ev sock)) :
      Takes tr s s' → Takes (⟨.recv n, .error e⟩ :: tr) s s'
  | send (b s s' : Bytes) (r : Except Err Unit) (tr : List (Ev sock)) :
      Takes tr s s' → Takes (⟨.sendall b, r⟩ :: tr) s s'

/-- The stream operations of a trace, on a stream that will carry the bytes `s` and then end, leaving
`s'`: `readexactly(n)` takes the next `n` bytes, however they arrive; it raises IncompleteReadError, and
loses them, if there are fewer; and it raises any other exception, for instance when its task is
cancelled, without taking anything (CPython's asyncio/streams.py: bytes stay in the buffer until there
are `n` of them). -/
inductive Serves : List (Ev stream) → Bytes → Bytes → Prop
  | nil (s : Bytes) : Serves [] s s
  | read (n : Nat) (b rest s' : Bytes) (tr : List (Ev stream)) : b.length = n → Serves tr rest s' →
      Serves (⟨.readexactly n, .ok b⟩ :: tr) (b ++ rest) s'
  | eof (n : Nat) (s s' : Bytes) (tr : List (Ev stream)) : s.length < n → Serves tr [] s' →
      Serves (⟨.readexactly n, .error .incompleteReadError⟩ :: tr) s s'
  | stop (n : Int) (e : Err) (s s' : Bytes) (tr : List (Ev stream)) : e ≠ .incompleteReadError →
      Serves tr s s' → Serves (⟨.readexactly n, .error e⟩ :: tr) s s'
  | write (b s s' : Bytes) (r : Except Err Unit) (tr : List (Ev stream)) : Serves tr s s' →
      Serves (⟨.write b, r⟩ :: tr) s s'
  | drain (s s' : Bytes) (r : Except Err Unit) (tr : List (Ev stream)) : Serves tr s s' →
      Serves (⟨.drain, r⟩ :: tr) s s'

/-- The bytes a trace has taken from a stream. -/
def streamReceived : List (Ev stream) → Bytes
  | [] => []
  | ⟨.readexactly _, .ok b⟩ :: tr => (show Bytes from b) ++ streamReceived tr
  | _ :: tr => streamReceived tr

/-- Calls on a channel object without attributes that change, one after the other: each with its events
and its outcome. -/
def Ran {S : Sig} (rd : Py S Unit Bytes) (wr : List Bytes → Py S Unit Unit) (cs : List (List (Ev S) × Done)) :
    Prop :=
  ∀ c ∈ cs, match c.2 with
    | .read r => Call rd () c.1 r ()
    | .write ms _ r => Call (wr ms) () c.1 r ()

/-- All events of these calls. -/
def eventsOf {S : Sig} (cs : List (List (Ev S) × Done)) : List (Ev S) := (cs.map (·.1)).flatten

/-- No call on the socket was interrupted after it had received something. -/
def StopsClean (cs : List (List (Ev sock) × Done)) : Prop :=
  ∀ c ∈ cs, ∀ a n e b, c.1 = a ++ ⟨.recv n, .error e⟩ :: b → received a = []

/-- No call on the stream was interrupted after it had received something. -/
def CancelsClean (cs : List (List (Ev stream) × Done)) : Prop :=
  ∀ c ∈ cs, ∀ a n e b, c.1 = a ++ ⟨.readexactly n, .error e⟩ :: b → e ≠ .incompleteReadError →
    streamReceived a = []

end Salt.Spec
