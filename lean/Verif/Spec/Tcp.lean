import Verif.Spec.SockNet
import Verif.Spec.Farm

/-!
# TCP connections whose ends are closed

As `SockNet`, but a program that ends closes its socket: `_run_session` does so (dev/client_server.py:99), and
`socketserver` after `handle` has returned.
-/

namespace Salt.Spec

open Salt

variable {α β : Type}

/-- The first program makes its next socket call.  When the other one has ended, `recv` returns `b''` after the last byte;
a `sendall` of something may raise; and if the other one has left something unread, so may `recv`, at any time, and then the
rest is gone. -/
inductive TcpStep : SockNet α β → SockNet α β → Prop
  | send {b ab ba} (d : Bytes) (k : Except Err Unit → IT sock α) :
      TcpStep ⟨.op (S := sock) (.sendall d) k, b, ab, ba⟩ ⟨k (.ok ()), b, ab ++ d, ba⟩
  | recv {b ab rest} (n : Nat) (chunk : Bytes) (k : Except Err Bytes → IT sock α) : chunk ≠ [] → chunk.length ≤ n →
      TcpStep ⟨.op (S := sock) (.recv n) k, b, ab, chunk ++ rest⟩ ⟨k (.ok chunk), b, ab, rest⟩
  | eof {r ab} (n : Nat) (k : Except Err Bytes → IT sock α) :
      TcpStep ⟨.op (S := sock) (.recv n) k, .ret r, ab, []⟩ ⟨k (.ok []), .ret r, ab, []⟩
  | broken {r ab ba} (d : Bytes) (k : Except Err Unit → IT sock α) (e : Err) : d ≠ [] →
      TcpStep ⟨.op (S := sock) (.sendall d) k, .ret r, ab, ba⟩ ⟨k (.error e), .ret r, ab, ba⟩
  | reset {r ab ba} (n : Nat) (k : Except Err Bytes → IT sock α) (e : Err) : ab ≠ [] →
      TcpStep ⟨.op (S := sock) (.recv n) k, .ret r, ab, ba⟩ ⟨k (.error e), .ret r, ab, []⟩

/-- A TCP connection between a client (`a`) and the handler of a server (`b`). -/
def tcp : Link (SockNet α β) where
  stepC := TcpStep
  stepS := fun x y => TcpStep x.swap y.swap
  doneC := fun x => ∃ r, x.a = .ret r
  doneS := fun x => ∃ r, x.b = .ret r

/-- Client and handler have ended with these results. -/
def Results (ra : α) (rb : β) (x : SockNet α β) : Prop := x.a = .ret ra ∧ x.b = .ret rb

end Salt.Spec
