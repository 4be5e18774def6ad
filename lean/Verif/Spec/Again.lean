import Verif.Spec.Session
import Verif.Spec.Net

/-!
# Using a session object again

`handshake()` may be called on an object whose attributes were assigned by earlier calls.
-/

namespace Salt.Spec

open Salt

/-- Each attribute of the client session is as in `y` or as it was before. -/
structure ClientMixed (old y x : ClientSt) : Prop where
  sessionKey : x.sessionKey = y.sessionKey ∨ x.sessionKey = old.sessionKey
  m1 : x.m1 = y.m1 ∨ x.m1 = old.m1
  m1Hash : x.m1Hash = y.m1Hash ∨ x.m1Hash = old.m1Hash
  m2 : x.m2 = y.m2 ∨ x.m2 = old.m2
  m2Hash : x.m2Hash = y.m2Hash ∨ x.m2Hash = old.m2Hash
  m3 : x.m3 = y.m3 ∨ x.m3 = old.m3
  m4 : x.m4 = y.m4 ∨ x.m4 = old.m4
  chan : x.chan = y.chan ∨ x.chan = old.chan

/-- Each attribute of the server session is as in `y` or as it was before. -/
structure ServerMixed (old y x : ServerSt) : Prop where
  sessionKey : x.sessionKey = y.sessionKey ∨ x.sessionKey = old.sessionKey
  m1 : x.m1 = y.m1 ∨ x.m1 = old.m1
  m1Hash : x.m1Hash = y.m1Hash ∨ x.m1Hash = old.m1Hash
  m2 : x.m2 = y.m2 ∨ x.m2 = old.m2
  m2Hash : x.m2Hash = y.m2Hash ∨ x.m2Hash = old.m2Hash
  m4 : x.m4 = y.m4 ∨ x.m4 = old.m4
  clientSigKey : x.clientSigKey = y.clientSigKey ∨ x.clientSigKey = old.clientSigKey
  isDone : x.isDone = y.isDone ∨ x.isDone = old.isDone
  chan : x.chan = y.chan ∨ x.chan = old.chan

/-- The method `m` does on an object with attributes `s` what it does on one with attributes `t`: the same calls in the
same order, given the same answers, and the same result or exception; and `R` holds for the result and the attributes
that it leaves (of the first object, and of the second one). -/
def SameCalls {σ α : Type} (m : Py env σ α) (s t : σ) (R : Except Err α → σ → σ → Prop) : Prop :=
  (∀ tr r x, Call m s tr r x → ∃ y, Call m t tr r y ∧ R r x y) ∧
  (∀ tr r y, Call m t tr r y → ∃ x, Call m s tr r x ∧ R r x y)

/-- How a handshake that returned normally leaves an object with attributes `s`, and a new one. -/
def ServerOkAgain (s x y : ServerSt) : Prop :=
  (x = { s with m1 := none, isDone := true } ∧ y = { Server.init with isDone := true }) ∨
    (y.isDone = false ∧ x = { y with isDone := s.isDone })

/-- The handshake on a client session object with attributes `s`, then the application program on its channel. -/
def clientSessionOn {β : Type} (cfg : ClientCfg) (s : ClientSt) (prog : IT appSig β) : IT env (Except Err β × ClientSt) :=
  (Client.handshake cfg s).bind (clientAfter prog)

/-- The same on a server session object. -/
def serverSessionOn {β : Type} (cfg : ServerCfg) (s : ServerSt) (prog : IT appSig β) : IT env (Except Err β × ServerSt) :=
  (Server.handshake cfg s).bind (serverAfter prog)

/-- The attributes of a client session object on which `handshake()` was called any number of times with any answers, and
whose channel was used in any way in between. -/
inductive UsedClient (cfg : ClientCfg) : ClientSt → Prop
  | new : UsedClient cfg Client.init
  | handshake {s s' : ClientSt} {tr : List (Ev env)} {r : Except Err Unit} : UsedClient cfg s →
      Call (Client.handshake cfg) s tr r s' → UsedClient cfg s'
  | app {s : ClientSt} {c c' : AppSt} : UsedClient cfg s → s.chan = some c → UsedClient cfg { s with chan := some c' }

/-- The same for a server. -/
inductive UsedServer (cfg : ServerCfg) : ServerSt → Prop
  | new : UsedServer cfg Server.init
  | handshake {s s' : ServerSt} {tr : List (Ev env)} {r : Except Err Unit} : UsedServer cfg s →
      Call (Server.handshake cfg) s tr r s' → UsedServer cfg s'
  | app {s : ServerSt} {c c' : AppSt} : UsedServer cfg s → s.chan = some c → UsedServer cfg { s with chan := some c' }

end Salt.Spec
