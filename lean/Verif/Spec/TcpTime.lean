import Verif.Spec.AnyTime
import Verif.Spec.Tcp

/-!
# TCP connections in a process where all sessions have the same time objects

As `anyTime`, but the messages are sent through a `SocketChannel` and the programs close their sockets when they end.
-/

namespace Salt.Spec

open Salt

variable {σ α β : Type}

/-- A socket call, or a call of another object. -/
inductive SockTimeOp
  | own (e : EnvOp)
  | sock (o : SockOp)

/-- What they return. -/
abbrev SockTimeOp.Resp : SockTimeOp → Type
  | .own e => e.Resp
  | .sock o => o.Resp

/-- Signature of programs that call sockets and other objects. -/
abbrev sockTime : Sig := ⟨SockTimeOp, SockTimeOp.Resp⟩

/-- A program that calls its socket only. -/
def justSock : IT sock α → IT sockTime α
  | .ret v => .ret v
  | .op o k => .op (S := sockTime) (.sock o) fun r => justSock (k r)

/-- A session using a `SocketChannel` (`onSocket` with the calls of all other objects left as they are). -/
def sessionOnSocket : IT env α → IT sockTime α
  | .ret v => .ret v
  | .op .read k => (justSock (SocketChannel.readSync ())).bind fun (r, _) => sessionOnSocket (k r)
  | .op (.write ms _) k => (justSock (SocketChannel.writeSync ms ())).bind fun (r, _) => sessionOnSocket (k r)
  | .op e k => .op (S := sockTime) (.own e) fun r => sessionOnSocket (k r)

/-- Two programs and the bytes in flight between them. -/
structure TcpTime (α β : Type) where
  a : IT sockTime α
  b : IT sockTime β
  /-- from `a` to `b` -/
  ab : Bytes
  /-- from `b` to `a` -/
  ba : Bytes

/-- The beginning. -/
def TcpTime.start (a : IT sockTime α) (b : IT sockTime β) : TcpTime α β := ⟨a, b, [], []⟩

/-- The same with the sides exchanged. -/
def TcpTime.swap (x : TcpTime α β) : TcpTime β α := ⟨x.b, x.a, x.ba, x.ab⟩

/-- The answer of an object other than the channel, the time objects being in the state `s` (`sessionOnSocket` has no other calls). -/
def ownReply (L : Lib) (T : TimeObj σ) (e : EnvOp) (s : σ) : Except Err e.Resp :=
  match ownAnswer L T e s with
  | some (r, _) => r
  | none => .error .typeError

/-- The first program makes its next call: one of another object, the time objects being in any state, or a socket call as in
`TcpStep`. -/
inductive TcpTimeStep (L : Lib) (T : TimeObj σ) : TcpTime α β → TcpTime α β → Prop
  | own {b ab ba} (e : EnvOp) (k : Except Err e.Resp → IT sockTime α) (s : σ) :
      TcpTimeStep L T ⟨.op (S := sockTime) (.own e) k, b, ab, ba⟩ ⟨k (ownReply L T e s), b, ab, ba⟩
  | send {b ab ba} (d : Bytes) (k : Except Err Unit → IT sockTime α) :
      TcpTimeStep L T ⟨.op (S := sockTime) (.sock (.sendall d)) k, b, ab, ba⟩ ⟨k (.ok ()), b, ab ++ d, ba⟩
  | recv {b ab rest} (n : Nat) (chunk : Bytes) (k : Except Err Bytes → IT sockTime α) : chunk ≠ [] → chunk.length ≤ n →
      TcpTimeStep L T ⟨.op (S := sockTime) (.sock (.recv n)) k, b, ab, chunk ++ rest⟩ ⟨k (.ok chunk), b, ab, rest⟩
  | eof {r ab} (n : Nat) (k : Except Err Bytes → IT sockTime α) :
      TcpTimeStep L T ⟨.op (S := sockTime) (.sock (.recv n)) k, .ret r, ab, []⟩ ⟨k (.ok []), .ret r, ab, []⟩
  | broken {r ab ba} (d : Bytes) (k : Except Err Unit → IT sockTime α) (e : Err) : d ≠ [] →
      TcpTimeStep L T ⟨.op (S := sockTime) (.sock (.sendall d)) k, .ret r, ab, ba⟩ ⟨k (.error e), .ret r, ab, ba⟩
  | reset {r ab ba} (n : Nat) (k : Except Err Bytes → IT sockTime α) (e : Err) : ab ≠ [] →
      TcpTimeStep L T ⟨.op (S := sockTime) (.sock (.recv n)) k, .ret r, ab, ba⟩ ⟨k (.error e), .ret r, ab, []⟩

/-- A TCP connection in a process with the time objects `T`, which may be in any state whenever they are called. -/
def tcpTime (L : Lib) (T : TimeObj σ) : Link (TcpTime α β) where
  stepC := TcpTimeStep L T
  stepS := fun x y => TcpTimeStep L T x.swap y.swap
  doneC := fun x => ∃ r, x.a = .ret r
  doneS := fun x => ∃ r, x.b = .ret r

end Salt.Spec
