import Verif.Spec.Net
import Verif.Spec.Channel
import Verif.Spec.Session

/-!
# What two runs have in common when they differ only in secrets

Two runs of a session are compared call by call.  The secrets are the contents of the application messages
and the signing keys; the lengths of the messages, the times and the encryption keys of the session are the
same in both.
-/

namespace Salt.Spec

/-- The opened packets `d` and `d'` (nonce `n`) differ at most in secrets: the payload of an app packet, the
messages of a multi packet, the key and the signature in M3 (nonce 2) and M4 (nonce 1). -/
inductive SameForm (n : Bytes) : Bytes → Bytes → Prop
  | same (d : Bytes) : SameForm n d d
  | app (t : Nat) (m m' : Bytes) : m.length = m'.length → SameForm n (Spec.app t m) (Spec.app t m')
  | multi (t : Nat) (ms ms' : List Bytes) : 1 ≤ ms.length → ms.length ≤ 65535 → (∀ m ∈ ms, m.length ≤ 65535) →
      ms.map List.length = ms'.map List.length → SameForm n (Spec.multiApp t ms) (Spec.multiApp t ms')
  | m3 (t : Nat) (key key' sig sig' : Bytes) : n = Spec.nonce 2 → key.length = 32 → key'.length = 32 →
      sig.length = 64 → sig'.length = 64 → SameForm n (Spec.m3 t key sig) (Spec.m3 t key' sig')
  | m4 (t : Nat) (key key' sig sig' : Bytes) : n = Spec.nonce 1 → key.length = 32 → key'.length = 32 →
      sig.length = 64 → sig'.length = 64 → SameForm n (Spec.m4 t key sig) (Spec.m4 t key' sig')

/-- The same call up to secrets: clear texts of `crypto_box` of the same length, any two signing keys, any
two keys and signatures to be verified (for the same signed message).  All other calls, in particular
everything given to the network, are equal. -/
inductive SameCall : EnvOp → EnvOp → Prop
  | same (e : EnvOp) : SameCall e e
  | box (m m' n k : Bytes) : m.length = m'.length → SameCall (.box m n k) (.box m' n k)
  | sign (m sk sk' : Bytes) : SameCall (.sign m sk) (.sign m sk')
  | signOpen (sig sig' m pk pk' : Bytes) : sig.length = 64 → sig'.length = 64 →
      SameCall (.signOpen (sig ++ m) pk) (.signOpen (sig' ++ m) pk')

/-- The same call up to secrets, with the same answer up to secrets: boxes are *equal* (this is what an
eavesdropper who cannot tell boxes of equal length apart sees); signatures and opened packets may differ in
the secret parts; verifications both succeed or both fail. -/
inductive Alike : Ev env → Ev env → Prop
  | same (ev : Ev env) : Alike ev ev
  | box (m m' n k : Bytes) (r : Except Err Bytes) : m.length = m'.length → Alike ⟨.box m n k, r⟩ ⟨.box m' n k, r⟩
  | sign (m sk sk' sm sm' : Bytes) : sm.length = sm'.length → Alike ⟨.sign m sk, .ok sm⟩ ⟨.sign m sk', .ok sm'⟩
  | signErr (m sk sk' : Bytes) (e : Err) : Alike ⟨.sign m sk, .error e⟩ ⟨.sign m sk', .error e⟩
  | signOpen (sig sig' m pk pk' r r' : Bytes) : sig.length = 64 → sig'.length = 64 →
      Alike ⟨.signOpen (sig ++ m) pk, .ok r⟩ ⟨.signOpen (sig' ++ m) pk', .ok r'⟩
  | signOpenErr (sig sig' m pk pk' : Bytes) (e : Err) : sig.length = 64 → sig'.length = 64 →
      Alike ⟨.signOpen (sig ++ m) pk, .error e⟩ ⟨.signOpen (sig' ++ m) pk', .error e⟩
  | boxOpen (c n k d d' : Bytes) : SameForm n d d' → Alike ⟨.boxOpen c n k, .ok d⟩ ⟨.boxOpen c n k, .ok d'⟩

/-- Call by call alike. -/
inductive InStep : List (Ev env) → List (Ev env) → Prop
  | nil : InStep [] []
  | cons {ev ev' : Ev env} {tr tr' : List (Ev env)} : Alike ev ev' → InStep tr tr' → InStep (ev :: tr) (ev' :: tr')

/-- Application programs that differ only in the contents of messages: given messages of equal length they do
the same thing, they write messages of equal lengths, and their results are related by `Q`. -/
inductive SameShape {β γ : Type} (Q : β → γ → Prop) : IT appSig β → IT appSig γ → Prop
  | ret (b : β) (c : γ) : Q b c → SameShape Q (.ret b) (.ret c)
  | read (k : Except Err Bytes → IT appSig β) (k' : Except Err Bytes → IT appSig γ) :
      (∀ m m' : Bytes, m.length = m'.length → SameShape Q (k (.ok m)) (k' (.ok m'))) →
      (∀ e, SameShape Q (k (.error e)) (k' (.error e))) →
      SameShape Q (.op (S := appSig) AppOp.read k) (.op (S := appSig) AppOp.read k')
  | write (ms ms' : List Bytes) (l : Bool) (k : Except Err Unit → IT appSig β) (k' : Except Err Unit → IT appSig γ) :
      ms.map List.length = ms'.map List.length → (∀ r, SameShape Q (k r) (k' r)) →
      SameShape Q (.op (S := appSig) (AppOp.write ms l) k) (.op (S := appSig) (AppOp.write ms' l) k')

/-- Both runs end without an exception, with results related by `Q`, or with the same exception. -/
def EndAlike {β γ σ τ : Type} (Q : β → γ → Prop) (x : Except Err β × σ) (y : Except Err γ × τ) : Prop :=
  (∃ b c, x.1 = .ok b ∧ y.1 = .ok c ∧ Q b c) ∨ ∃ e, x.1 = .error e ∧ y.1 = .error e

/-- What happens on the network (and is seen by everybody): the calls of the underlying channel with their
results. -/
def wire : List (Ev env) → List (Ev env)
  | [] => []
  | ⟨.read, r⟩ :: tr => ⟨.read, r⟩ :: wire tr
  | ⟨.write ms l, r⟩ :: tr => ⟨.write ms l, r⟩ :: wire tr
  | _ :: tr => wire tr

/-- The two programs cannot be told apart by what they do, as long as `P` holds:
* in any two runs all calls and answers are alike and both end alike, or there is a first call, the same in both
  up to secrets, *whose answers* are not alike (the environment has told them apart, not the programs);
* every run of one has a run of the other with alike calls and answers, which then look the same on the
  network. -/
def Indistinct {β γ σ τ : Type} (P : List (Ev env) → Prop) (Q : β → γ → Prop) (t : IT env (Except Err β × σ))
    (t' : IT env (Except Err γ × τ)) : Prop :=
  (∀ tr tr' x y, P tr → P tr' → Exec t tr x → Exec t' tr' y →
    (InStep tr tr' ∧ EndAlike Q x y) ∨
    ∃ p p' ev ev' q q', tr = p ++ ev :: q ∧ tr' = p' ++ ev' :: q' ∧ InStep p p' ∧
      SameCall ev.op ev'.op ∧ ¬ Alike ev ev') ∧
  (∀ tr x, P tr → Exec t tr x → ∃ tr' y, P tr' ∧ Exec t' tr' y ∧ InStep tr tr' ∧ EndAlike Q x y ∧ wire tr' = wire tr) ∧
  ∀ tr' y, P tr' → Exec t' tr' y → ∃ tr x, P tr ∧ Exec t tr x ∧ InStep tr tr' ∧ EndAlike Q x y ∧ wire tr' = wire tr

/-- The first packet read asks for a server signing key (M1 with the flag and the key, bytes 42 to 73), and it is
exactly one of `k` and `k'`. -/
def AsksForOne (k k' : Bytes) (tr : List (Ev env)) : Prop :=
  ∃ raw rest, tr = (⟨EnvOp.read, Except.ok raw⟩ : Ev env) :: rest ∧ leNat (field raw 5 1) % 2 = 1 ∧
    ¬ (field raw 42 32 = k ↔ field raw 42 32 = k')

end Salt.Spec
