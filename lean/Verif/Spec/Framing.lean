import Verif.Model.Socket
import Verif.Spec.Trace

/-!
# What message framing over a byte stream means
-/

namespace Salt.Spec

open Salt

/-- A message on the wire: its length on four little-endian bytes, then the message. -/
def frame (m : Bytes) : Bytes := leBytes 4 m.length ++ m

/-- A sequence of messages on the wire. -/
def frames (ms : List Bytes) : Bytes := (ms.map frame).flatten

/-- The socket reads of a trace take successive pieces of a reliable byte stream: `Consumes tr s s'`
when the `recv` calls of `tr` deliver the bytes of `s` in order, in any pieces the transport likes
(non-empty, at most as long as requested), leaving `s'`; once the stream is used up, `recv` reports end
of file. -/
inductive Consumes : List (Ev sock) → Bytes → Bytes → Prop
  | nil (s : Bytes) : Consumes [] s s
  | recv (n : Nat) (chunk rest s' : Bytes) (tr : List (Ev sock)) : chunk ≠ [] → chunk.length ≤ n →
      Consumes tr rest s' → Consumes (⟨.recv n, .ok chunk⟩ :: tr) (chunk ++ rest) s'
  | eof (n : Nat) (s' : Bytes) (tr : List (Ev sock)) :
      Consumes tr [] s' → Consumes (⟨.recv n, .ok ([] : Bytes)⟩ :: tr) [] s'
  | send (b s s' : Bytes) (r : Except Err Unit) (tr : List (Ev sock)) :
      Consumes tr s s' → Consumes (⟨.sendall b, r⟩ :: tr) s s'

/-- The bytes handed to the transport by successful `sendall` calls. -/
def sent : List (Ev sock) → Bytes
  | [] => []
  | ⟨.sendall b, .ok _⟩ :: tr => b ++ sent tr
  | _ :: tr => sent tr

/-- The bytes obtained by `recv` calls. -/
def received : List (Ev sock) → Bytes
  | [] => []
  | ⟨.recv _, .ok b⟩ :: tr => (show Bytes from b) ++ received tr
  | _ :: tr => received tr

/-- `recv(n)` returns at most `n` bytes (otherwise nothing is assumed: any data, end of file at any
point, any exception). -/
def RecvBounded (tr : List (Ev sock)) : Prop :=
  ∀ n, ∀ b : Bytes, (⟨.recv n, .ok b⟩ : Ev sock) ∈ tr → b.length ≤ n

/-- Successive `read_sync` calls and what each returned or raised. -/
def readMany : Nat → Py sock Unit (List (Except Err Bytes))
  | 0 => return []
  | n + 1 => fun s =>
    (SocketChannel.readSync s).bind fun (r, s') => (readMany n s').bind fun
      | (.ok rs, s'') => .ret (.ok (r :: rs), s'')
      | (.error e, s'') => .ret (.error e, s'')

/-- Successive `write_sync` calls (all of which have to succeed). -/
def writeMany : List (List Bytes) → Py sock Unit Unit
  | [] => return ()
  | ms :: rest => do
    SocketChannel.writeSync ms
    writeMany rest

/-- The bytes handed to an asyncio transport. -/
def streamSent : List (Ev stream) → Bytes
  | [] => []
  | ⟨.write b, .ok _⟩ :: tr => b ++ streamSent tr
  | _ :: tr => streamSent tr

/-- The stream operations of a trace are answered by an `asyncio.StreamReader`. -/
inductive Reads : List (Ev stream) → AsyncioChannel.ReaderSt → AsyncioChannel.ReaderSt → Prop
  | nil (s) : Reads [] s s
  | read (n : Int) (s s') (tr : List (Ev stream)) : Reads tr (AsyncioChannel.readexactly n s).2 s' →
      Reads (⟨.readexactly n, (AsyncioChannel.readexactly n s).1⟩ :: tr) s s'

/-- Successive `read` calls on the asyncio channel and what each returned or raised. -/
def streamReadMany : Nat → Py stream Unit (List (Except Err Bytes))
  | 0 => return []
  | n + 1 => fun s =>
    (AsyncioChannel.read s).bind fun (r, s') => (streamReadMany n s').bind fun
      | (.ok rs, s'') => .ret (.ok (r :: rs), s'')
      | (.error e, s'') => .ret (.error e, s'')

end Salt.Spec
