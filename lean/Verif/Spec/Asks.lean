import Verif.Spec.Session
import Verif.Spec.Net

/-!
# What sessions ask of the crypto library

The calls of the crypto library that a session makes, with the lengths of the arguments; `crypto_box_beforenm` and the
others pass their arguments to C functions that read a fixed number of bytes of keys and nonces.
-/

namespace Salt.Spec

open Salt

/-- The calls that a client with the key pairs of `cfg` makes: it signs with its own signing key, and only messages that
begin with `SC-SIG02`; it verifies signatures of 64 bytes, of messages that begin with `SC-SIG01`; it computes shared
keys from 32 bytes and its own encryption key of 32 bytes; nonces have 24 bytes and keys of boxes 32.  The other operations
are not calls of the library. -/
def ClientAsks (cfg : ClientCfg) : EnvOp → Prop
  | .sign m sk => sk = cfg.sigKp.sec ∧ ∃ rest, m = scSig02 ++ rest
  | .signOpen sm pk => pk.length = 32 ∧ ∃ sig rest, sig.length = 64 ∧ sm = sig ++ (scSig01 ++ rest)
  | .beforenm pk sk => pk.length = 32 ∧ sk.length = 32 ∧ ∃ kp, cfg.encKp = some kp ∧ sk = kp.sec
  | .box _ n k => n.length = 24 ∧ k.length = 32
  | .boxOpen _ n k => n.length = 24 ∧ k.length = 32
  | _ => True

/-- The calls that a server makes: the same, with the two kinds of signed messages exchanged. -/
def ServerAsks (cfg : ServerCfg) : EnvOp → Prop
  | .sign m sk => sk = cfg.sigKp.sec ∧ ∃ rest, m = scSig01 ++ rest
  | .signOpen sm pk => pk.length = 32 ∧ ∃ sig rest, sig.length = 64 ∧ sm = sig ++ (scSig02 ++ rest)
  | .beforenm pk sk => pk.length = 32 ∧ sk.length = 32 ∧ ∃ kp, cfg.encKp = some kp ∧ sk = kp.sec
  | .box _ n k => n.length = 24 ∧ k.length = 32
  | .boxOpen _ n k => n.length = 24 ∧ k.length = 32
  | _ => True

/-- The encryption key in an M2, unless it says that there is no such server. -/
def offeredByServer (raw : Bytes) : Option Bytes :=
  if leNat (field raw 1 1) % 2 = 0 then some (field raw 6 32) else none

/-- The encryption key in an M1. -/
def offeredByClient (raw : Bytes) : Option Bytes := some (field raw 10 32)

/-- The keys with which shared keys are computed were in the first message that was read. -/
def KeysRead (offered : Bytes → Option Bytes) (tr : List (Ev env)) : Prop :=
  ∀ ev ∈ tr, ∀ pk sk, ev.op = .beforenm pk sk → ∃ raw, (readsOf tr).head? = some raw ∧ offered raw = some pk

/-- The two libraries give the same answer to a call. -/
def SameAnswer (L L' : Lib) : EnvOp → Prop
  | .sign m sk => L.sign m sk = L'.sign m sk
  | .signOpen sm pk => L.signOpen sm pk = L'.signOpen sm pk
  | .hash m => L.hash m = L'.hash m
  | .beforenm pk sk => L.beforenm pk sk = L'.beforenm pk sk
  | .box m n k => L.box m n k = L'.box m n k
  | .boxOpen c n k => L.boxOpen c n k = L'.boxOpen c n k
  | _ => True

end Salt.Spec
