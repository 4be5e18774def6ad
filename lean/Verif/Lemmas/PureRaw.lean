import Verif.Model.SaltPure
import Verif.Lemmas.ChkSign2
import Verif.Lemmas.ChkBox

/-! The methods of `SaltLibPure` with functions that ignore indices out of range; for arguments that are long enough they
agree with the model. -/

namespace Salt.Pure.Raw

open Salt.Tweet

/-- `crypto_box_afternm`. -/
def boxAfternm (w : Nat) (m n k : Bytes) : Except Err Bytes := do
  let padded := zeros 32 ++ m
  let (_, c) := secretbox w (intArray .u8 padded.length) (ofBytes padded) padded.length (ofBytes n) (ofBytes k)
  let c ← toBytes c
  pure (c.drop 16)

/-- `crypto_box_open_afternm`. -/
def boxOpenAfternm (w : Nat) (c n k : Bytes) : Except Err Bytes :=
  let body : Except Err Bytes := do
    let padded := zeros 16 ++ c
    let (res, m) := secretboxOpen w (intArray .u8 padded.length) (ofBytes padded) padded.length (ofBytes n) (ofBytes k)
    if res ≠ 0 then throw .nameError
    let m ← toBytes m
    pure (m.drop 32)
  match body with
  | .ok m => .ok m
  | .error _ => .error .nameError

/-- `crypto_hash`. -/
def hash (m : Option Bytes) : Except Err Bytes :=
  match m with
  | none => .error .valueError
  | some m => toBytes (hashSha512 (intArray .u8 64) (ofBytes m) m.length)

/-- `crypto_box_keypair_not_random`. -/
def boxKeypair (sk : Bytes) : Except Err (Bytes × Bytes) := do
  if sk.length ≠ 32 then throw .valueError
  let pk ← toBytes (scalarmultCurveBase (intArray .u8 32) (ofBytes sk))
  pure (pk, sk)

/-- `crypto_box_beforenm`. -/
def boxBeforenm (w : Nat) (pk sk : Bytes) : Except Err Bytes :=
  toBytes (Tweet.boxBeforenm w (intArray .u8 32) (ofBytes pk) (ofBytes sk))

/-- `crypto_sign_keypair_not_random`. -/
def signKeypair (seed : Bytes) : Except Err (Bytes × Bytes) := do
  if seed.length ≠ 32 then throw .valueError
  let d := clampHash (hashSha512 (intArray .u8 64) (ofBytes seed) 32)
  let p := scalarbase Pt.new d
  let pk ← toBytes (pack (intArray .u8 32) p)
  pure (pk, seed ++ pk)

/-- `crypto_sign`. -/
def sign (m sk : Bytes) : Except Err Bytes :=
  toBytes (Tweet.sign (ofBytes (zeros (m.length + 64))) (ofBytes m) m.length (ofBytes sk))

/-- `crypto_sign_open`. -/
def signOpen (w : Nat) (sm pk : Bytes) : Except Err Bytes := do
  let (res, m) := Tweet.signOpen w (ofBytes (zeros sm.length)) (ofBytes sm) sm.length (ofBytes pk)
  if res ≠ 0 then throw .nameError
  let m ← toBytes m
  pure (m.take (sm.length - 64))

end Salt.Pure.Raw

namespace Salt.Pure

open Salt.Tweet (V intArray ofBytes toBytes areBytes_ofBytes AreBytes Pt)
open Salt.Chk (ok_bind intArray_length ptOk_new)

theorem ofBytes_length (b : Bytes) : (ofBytes b).length = b.length := (areBytes_ofBytes b).length

theorem throw_bind {α β : Type} (e : Err) (f g : α → Except Err β) : ((throw e : Except Err α) >>= f) = ((throw e : Except Err α) >>= g) := rfl

theorem boxAfternm_raw (w : Nat) (m : Bytes) {n k : Bytes} (hn : 24 ≤ n.length) (hk : 32 ≤ k.length) :
    boxAfternm w m n k = Raw.boxAfternm w m n k := by
  unfold boxAfternm Raw.boxAfternm
  simp only
  rw [Chk.secretbox_ok w (intArray_length _ _) (ofBytes_length _) (by rw [ofBytes_length]; exact hn) (by rw [ofBytes_length]; exact hk), ok_bind]

theorem boxOpenAfternm_raw (w : Nat) (c : Bytes) {n k : Bytes} (hn : 24 ≤ n.length) (hk : 32 ≤ k.length) :
    boxOpenAfternm w c n k = Raw.boxOpenAfternm w c n k := by
  unfold boxOpenAfternm Raw.boxOpenAfternm
  simp only
  rw [Chk.secretboxOpen_ok w (intArray_length _ _) (ofBytes_length _) (by rw [ofBytes_length]; exact hn) (by rw [ofBytes_length]; exact hk), ok_bind]
  generalize Tweet.secretboxOpen _ _ _ _ _ _ = r
  rfl

theorem hash_raw (m : Option Bytes) : hash m = Raw.hash m := by
  cases m with
  | none => rfl
  | some m =>
    unfold hash Raw.hash
    simp only
    rw [(Chk.hashSha512_ok (Nat.le_of_eq (intArray_length _ _).symm) (Nat.le_of_eq (ofBytes_length m).symm)).1, ok_bind]

attribute [local irreducible] Tweet.scalarmultCurveBase Chk.scalarmultCurveBase in
theorem boxKeypair_raw (sk : Bytes) : boxKeypair sk = Raw.boxKeypair sk := by
  unfold boxKeypair Raw.boxKeypair
  by_cases h : sk.length = 32
  · rw [if_neg (by simpa using h), if_neg (by simpa using h), (Chk.scalarmultCurveBase_ok (q := intArray .u8 32) (n := ofBytes sk)
      (by rw [intArray_length]) (by rw [ofBytes_length, h])).1, ok_bind]
  · rw [if_pos h, if_pos h]
    exact throw_bind _ _ _

theorem boxBeforenm_raw (w : Nat) {pk sk : Bytes} (hp : 32 ≤ pk.length) (hs : 32 ≤ sk.length) : boxBeforenm w pk sk = Raw.boxBeforenm w pk sk := by
  unfold boxBeforenm Raw.boxBeforenm
  rw [(Chk.boxBeforenm_ok w (k := intArray .u8 32) (by rw [intArray_length]) (by rw [ofBytes_length]; exact hp) (by rw [ofBytes_length]; exact hs)).1, ok_bind]

/-- The public key, as the two functions for key pairs calculate it. -/
theorem public_ok {sk : List V} {sb : Bytes} (h : AreBytes sk sb) (hl : 32 ≤ sb.length) : ∃ d p,
    Chk.hashSha512 (intArray .u8 64) sk 32 = .ok (Tweet.hashSha512 (intArray .u8 64) sk 32) ∧
    Chk.clampHash (Tweet.hashSha512 (intArray .u8 64) sk 32) = .ok d ∧ Tweet.clampHash (Tweet.hashSha512 (intArray .u8 64) sk 32) = d ∧
    Chk.scalarbase Pt.new d = .ok p ∧ Tweet.scalarbase Pt.new d = p ∧
    Chk.pack .list (intArray .u8 32) p = .ok (Tweet.pack (intArray .u8 32) p) := by
  obtain ⟨l0, l1, l2, l3⟩ := Tweet.ptNew_len
  obtain ⟨e1, le1⟩ := Chk.hashSha512_ok (out := intArray .u8 64) (m := sk) (n := 32) (by rw [intArray_length]) (by rw [h.length]; exact hl)
  have hd := Tweet.hash_bytes h 32 (by omega) (by omega)
  have hdl := Tweet.sha512_length (sb.take 32)
  rw [intArray_length] at le1
  generalize Tweet.hashSha512 (intArray .u8 64) sk 32 = d0 at *
  obtain ⟨e2, le2⟩ := Chk.clampHash_ok (d := d0) (by omega)
  have hd' := Tweet.clampHash_bytes hd hdl
  obtain ⟨e3, le3⟩ := Chk.scalarbase_ok (p := Pt.new) (s := Tweet.clampHash d0) ptOk_new (by omega)
  have hp := Tweet.scalarbase_bytes (p := Pt.new) hd' l0 l1 l2 l3
  have e4 := (Chk.pack_ok .list (r := intArray .u8 32) hp le3 (by rw [intArray_length])).1
  simp only [Chk.Kind.item, List.map_id_fun, id_eq] at e4
  exact ⟨_, _, e1, e2, rfl, e3, rfl, e4⟩

attribute [local irreducible] Tweet.scalarbase Chk.scalarbase Tweet.hashSha512 Chk.hashSha512 Tweet.pack Chk.pack Tweet.clampHash Chk.clampHash in
theorem signKeypair_raw (seed : Bytes) : signKeypair seed = Raw.signKeypair seed := by
  unfold signKeypair Raw.signKeypair
  by_cases h : seed.length = 32
  · obtain ⟨d, p, e1, e2, e3, e4, e5, e6⟩ := public_ok (areBytes_ofBytes seed) (Nat.le_of_eq h.symm)
    simp only
    rw [if_neg (by simpa using h), if_neg (by simpa using h), e1, ok_bind, e2, ok_bind, e4, ok_bind, e6, ok_bind, e3, e5]
  · rw [if_pos h, if_pos h]
    exact throw_bind _ _ _

theorem sign_raw {m sk : Bytes} (hs : 64 ≤ sk.length) (hm : m.length + 64 < 2 ^ 64) : sign m sk = Raw.sign m sk := by
  unfold sign Raw.sign
  rw [Chk.sign_ok (areBytes_ofBytes (zeros (m.length + 64))) (Chk.plain_ofBytes _) (by simp [zeros]) (areBytes_ofBytes m) rfl (areBytes_ofBytes sk) hs hm, ok_bind]

theorem signOpen_raw {w : Nat} (hw : 32 ≤ w) {sm pk : Bytes} (hp : pk.length = 32) (hm : sm.length < 2 ^ 64) : signOpen w sm pk = Raw.signOpen w sm pk := by
  unfold signOpen Raw.signOpen
  rw [Chk.signOpen_ok hw (areBytes_ofBytes (zeros sm.length)) (Chk.plain_ofBytes _) (by simp [zeros]) (areBytes_ofBytes sm) rfl (areBytes_ofBytes pk) hp hm, ok_bind]

end Salt.Pure
