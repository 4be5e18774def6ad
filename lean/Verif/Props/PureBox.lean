import Verif.Lemmas.PureRaw
import Verif.Lemmas.Box

/-! C78, C79: the boxes of the pure Python backend. -/

namespace Salt.Props

open Salt.Tweet Salt.Spec Salt.Pure

/-! ### C78: encryption -/

/-- C78: `crypto_box_afternm` gives the XSalsa20-Poly1305 box of every message. -/
def C78_claim : Prop := ∀ (w : Nat), 32 ≤ w → ∀ (k n m : Bytes), k.length = 32 → n.length = 24 →
  boxAfternm w m n k = .ok (Spec.secretbox k n m)

theorem boxAfternm_of {w : Nat} {k n m c : Bytes} {y : List V}
    (e : secretbox w (intArray .u8 (32 + m.length)) (ofBytes (List.replicate 32 0 ++ m)) (32 + m.length) (ofBytes n) (ofBytes k) = (0, y))
    (hy : AreBytes y (List.replicate 16 0 ++ c)) (hn : n.length = 24) (hk : k.length = 32) : boxAfternm w m n k = .ok c := by
  rw [boxAfternm_raw w m (Nat.le_of_eq hn.symm) (Nat.le_of_eq hk.symm)]
  unfold Raw.boxAfternm
  have hl : (zeros 32 ++ m).length = 32 + m.length := by rw [List.length_append]; simp [zeros]
  simp only [hl]
  rw [show zeros 32 = List.replicate 32 0 from rfl, e]
  simp only [toBytes_of hy]
  show Except.ok _ = _
  rw [List.drop_left' (by simp)]

/-- C78 holds for messages of up to 16416 bytes.  Missing: longer messages, where it fails (C78_violated). -/
theorem C78_box_partial (w : Nat) (hw : 32 ≤ w) (k n m : Bytes) (hk : k.length = 32) (hn : n.length = 24)
    (hm : m.length ≤ 16416) : boxAfternm w m n k = .ok (Spec.secretbox k n m) := by
  obtain ⟨y, e, hy⟩ := secretbox_eq hw (m := m) (areBytes_ofBytes n) (areBytes_ofBytes k) hk hn hm
  exact boxAfternm_of e hy hn hk

theorem xorBytes_take (a b : Bytes) : xorBytes a (b.take a.length) = xorBytes a b := by
  unfold xorBytes
  induction a generalizing b with
  | nil => rfl
  | cons x a ih =>
    cases b with
    | nil => rfl
    | cons y b => simp [ih]

theorem boxWith_append (s b m : Bytes) (N : Nat) (hs : s.length = N) (hN : 32 ≤ N) (hm : N - 32 ≤ m.length) :
    boxWith (s ++ b.take (m.length - (N - 32))) m =
      Spec.poly1305 (s.take 32) (xorBytes (m.take (N - 32)) (s.drop 32) ++ xorBytes (m.drop (N - 32)) b) ++
        (xorBytes (m.take (N - 32)) (s.drop 32) ++ xorBytes (m.drop (N - 32)) b) := by
  have e1 : (s ++ b.take (m.length - (N - 32))).take 32 = s.take 32 := by
    rw [List.take_append, hs, show 32 - N = 0 by omega, List.take_zero, List.append_nil]
  have e2 : (s ++ b.take (m.length - (N - 32))).drop 32 = s.drop 32 ++ b.take (m.length - (N - 32)) := by
    rw [List.drop_append, hs, show 32 - N = 0 by omega, List.drop_zero]
  have ec : xorBytes m (s.drop 32 ++ b.take (m.length - (N - 32))) = xorBytes (m.take (N - 32)) (s.drop 32) ++ xorBytes (m.drop (N - 32)) b := by
    conv => lhs; lhs; rw [← List.take_append_drop (N - 32) m]
    have := xorBytes_take (m.drop (N - 32)) b
    rw [List.length_drop] at this
    rw [← this]
    unfold xorBytes
    rw [List.zipWith_append (by rw [List.length_take, List.length_drop, hs]; omega)]
  unfold boxWith
  rw [e1, e2, ec]

/-- In messages of 16417 to 16479 bytes the bytes from 16416 on are encrypted with the block of the stream that has
number 769 (in place of 257), under every key and nonce; the authenticator is that of the resulting ciphertext. -/
theorem C78_wrong_block (w : Nat) (hw : 32 ≤ w) (k n m : Bytes) (hk : k.length = 32) (hn : n.length = 24)
    (hm : 16416 ≤ m.length) (hm' : m.length < 16480) :
    let stream := xsalsaStream k n 16448
    let block := salsa20 (hsalsa20 k (n.take 16)) (n.drop 16 ++ digits 8 769)
    let c := xorBytes (m.take 16416) (stream.drop 32) ++ xorBytes (m.drop 16416) block
    boxAfternm w m n k = .ok (Spec.poly1305 (stream.take 32) c ++ c) := by
  obtain ⟨y, e, hy⟩ := secretbox_ctr hw (m := m) (areBytes_ofBytes n) (areBytes_ofBytes k) hk hn
  rw [show 32 + m.length = 16448 + (m.length - 16416) by omega, keyStream_long hw hk hn _ (by omega)] at hy
  have hs := xsalsaStream_length hk hn 16448
  have hsub := (subkey (w := 32) (by omega) (areBytes_ofBytes n) (areBytes_ofBytes k) hk hn).2
  have hb := salsa20_length (n := n.drop 16 ++ digits 8 769) hsub (by
    rw [List.length_append, List.length_drop, hn]
    rfl)
  intro stream block c
  rw [boxAfternm_of e hy hn hk, boxWith_append _ _ m 16448 hs (by omega) (by omega)]

/-- The first bytes of blocks 257 and 769 of the stream under the zero key and nonce. -/
theorem blocks_differ :
    (salsa20 (hsalsa20 (List.replicate 32 0) (List.replicate 16 0)) (List.replicate 8 0 ++ digits 8 257)).take 1 ≠
    (salsa20 (hsalsa20 (List.replicate 32 0) (List.replicate 16 0)) (List.replicate 8 0 ++ digits 8 769)).take 1 := by
  decide +kernel

/-- C78 fails: the box of 16417 zeros under the zero key and nonce. -/
theorem C78_violated : ¬ C78_claim := by
  intro h
  have hm : (List.replicate 16417 (0 : UInt8)).length = 16417 := List.length_replicate
  have hk : (List.replicate 32 (0 : UInt8)).length = 32 := List.length_replicate
  have hn : (List.replicate 24 (0 : UInt8)).length = 24 := List.length_replicate
  generalize hmm : List.replicate 16417 (0 : UInt8) = m at hm
  have h1 := h 32 (by omega) (List.replicate 32 0) (List.replicate 24 0) m hk hn
  have h2 := C78_wrong_block 32 (by omega) (List.replicate 32 0) (List.replicate 24 0) m hk hn (by omega) (by omega)
  simp only at h2
  have hs := (subkey (w := 32) (by omega) (areBytes_ofBytes (List.replicate 24 0)) (areBytes_ofBytes (List.replicate 32 0)) hk hn).2
  have hl := xsalsaStream_length hk hn 16448
  have hd := blocks_differ
  rw [show List.replicate 16 (0 : UInt8) = (List.replicate 24 0).take 16 from rfl,
    show List.replicate 8 (0 : UInt8) = (List.replicate 24 0).drop 16 from rfl] at hd
  have es : xsalsaStream (List.replicate 32 0) (List.replicate 24 0) (32 + m.length) =
      xsalsaStream (List.replicate 32 0) (List.replicate 24 0) 16448 ++
        (salsa20 (hsalsa20 (List.replicate 32 0) ((List.replicate 24 0).take 16)) ((List.replicate 24 0).drop 16 ++ digits 8 257)).take 1 := by
    unfold xsalsaStream
    rw [hm, salsaStream_eq hs (by rw [List.length_drop, hn]), salsaStream_eq hs (by rw [List.length_drop, hn])]
    have := keyStream_split (fun i => i) (hsalsa20 (List.replicate 32 0) ((List.replicate 24 0).take 16)) ((List.replicate 24 0).drop 16) 1 257 0
    rw [show 64 * 257 + 1 = 32 + 16417 from rfl, show 64 * 257 = 16448 from rfl] at this
    rw [this]
    conv => lhs; rhs; rw [keyStream, if_neg (by omega)]
  rw [h1] at h2
  unfold Spec.secretbox at h2
  rw [es] at h2
  generalize salsa20 (hsalsa20 (List.replicate 32 0) ((List.replicate 24 0).take 16)) ((List.replicate 24 0).drop 16 ++ digits 8 257) = b1 at *
  generalize salsa20 (hsalsa20 (List.replicate 32 0) ((List.replicate 24 0).take 16)) ((List.replicate 24 0).drop 16 ++ digits 8 769) = b2 at *
  generalize xsalsaStream (List.replicate 32 0) (List.replicate 24 0) 16448 = s at *
  simp only [Except.ok.injEq] at h2
  have h3 := congrArg (List.drop 16) h2
  rw [List.drop_left' (spec_poly1305_length _ _), List.drop_left' (spec_poly1305_length _ _)] at h3
  rw [List.drop_append, hl, show 32 - 16448 = 0 from rfl, List.drop_zero] at h3
  have e1 : xorBytes m (s.drop 32 ++ b1.take 1) = xorBytes (m.take 16416) (s.drop 32) ++ xorBytes (m.drop 16416) (b1.take 1) := by
    conv => lhs; lhs; rw [← List.take_append_drop 16416 m]
    unfold xorBytes
    rw [List.zipWith_append (by rw [List.length_take, List.length_drop, hl, hm]; rfl)]
  rw [e1] at h3
  have h4 := List.append_cancel_left h3
  have em : m.drop 16416 = [0] := by
    rw [← hmm, List.drop_replicate]
    rfl
  rw [em] at h4
  apply hd
  have := xorBytes_take [0] b2
  rw [← this] at h4
  have z : ∀ b : Bytes, xorBytes [0] (b.take 1) = b.take 1 := by
    intro b
    cases b with
    | nil => rfl
    | cons x b => simp [xorBytes]
  rw [z, show [(0 : UInt8)].length = 1 from rfl, z] at h4
  exact h4

example : ∃ k n m : Bytes, k.length = 32 ∧ n.length = 24 ∧ m.length = 16416 ∧ m.getD 5 0 = 7 := by
  refine ⟨List.replicate 32 3, List.replicate 24 5, List.replicate 16416 7, List.length_replicate, List.length_replicate, List.length_replicate, ?_⟩
  rw [List.getD_eq_getElem?_getD, List.getElem?_replicate, if_pos (by omega)]
  rfl

/-- A test vector of NaCl ("Cryptography in NaCl", section 10): the first bytes of the box. -/
example : (hsalsa20 [0x4a,0x5d,0x9d,0x5b,0xa4,0xce,0x2d,0xe1,0x72,0x8e,0x3b,0xf4,0x80,0x35,0x0f,0x25,
      0xe0,0x7e,0x21,0xc9,0x47,0xd1,0x9e,0x33,0x76,0xf0,0x9b,0x3c,0x1e,0x16,0x17,0x42] (zeros 16)) =
    [0x1b,0x27,0x55,0x64,0x73,0xe9,0x85,0xd4,0x62,0xcd,0x51,0x19,0x7a,0x9a,0x46,0xc7,
     0x60,0x09,0x54,0x9e,0xac,0x64,0x74,0xf2,0x06,0xc4,0xee,0x08,0x44,0xf6,0x83,0x89] := by decide +kernel

/-! ### C79: opening -/

/-- C79: `crypto_box_open_afternm` gives back the message of every box, and raises `BadEncryptedDataException` on
every other byte string. -/
def C79_claim : Prop := ∀ (w : Nat), 32 ≤ w → ∀ (k n c : Bytes), k.length = 32 → n.length = 24 →
  (∀ m, c = Spec.secretbox k n m → boxOpenAfternm w c n k = .ok m) ∧
  ((∀ m, c ≠ Spec.secretbox k n m) → boxOpenAfternm w c n k = .error .badEncryptedData)

theorem xsalsaStream_take {k n : Bytes} (hk : k.length = 32) (hn : n.length = 24) (a b : Nat) (h : a ≤ b) :
    (xsalsaStream k n b).take a = xsalsaStream k n a := by
  unfold xsalsaStream salsaStream
  have hs := (subkey (w := 32) (by omega) (areBytes_ofBytes n) (areBytes_ofBytes k) hk hn).2
  generalize hsalsa20 k (n.take 16) = s at hs
  have hN : b / 64 + 1 = (a / 64 + 1) + (b / 64 - a / 64) := by have := Nat.div_le_div_right (c := 64) h; omega
  have hl : ∀ N, ((List.range N).flatMap fun i => salsa20 s (n.drop 16 ++ digits 8 i)).length = 64 * N := by
    intro N
    induction N with
    | zero => rfl
    | succ N ih =>
      rw [List.range_succ, List.flatMap_append, List.length_append, ih]
      simp [salsa20_length hs (n := n.drop 16 ++ digits 8 N) (by simp [hn, digits])]
      omega
  rw [List.take_take, Nat.min_eq_left h, hN, List.range_add, List.flatMap_append,
    List.take_append_of_le_length (by rw [hl]; omega)]

theorem xorBytes_self (a s : Bytes) (h : a.length ≤ s.length) : xorBytes (xorBytes a s) s = a := by
  unfold xorBytes
  induction a generalizing s with
  | nil => rfl
  | cons x a ih =>
    cases s with
    | nil => simp at h
    | cons y s =>
      simp only [List.length_cons, Nat.add_le_add_iff_right] at h
      simp [ih s h, UInt8.xor_assoc]

/-- The boxes are the byte strings with the right authenticator. -/
theorem is_box {k n : Bytes} (hk : k.length = 32) (hn : n.length = 24) (c : Bytes) :
    (∃ m, c = Spec.secretbox k n m) ↔ 16 ≤ c.length ∧ c.take 16 = Spec.poly1305 (xsalsaStream k n 32) (c.drop 16) := by
  constructor
  · rintro ⟨m, rfl⟩
    unfold Spec.secretbox
    simp only
    rw [List.take_left' (spec_poly1305_length _ _), List.drop_left' (spec_poly1305_length _ _),
      xsalsaStream_take hk hn 32 _ (by omega), List.length_append, spec_poly1305_length]
    exact ⟨by omega, rfl⟩
  · rintro ⟨h1, h2⟩
    have hl := xsalsaStream_length hk hn (32 + (c.length - 16))
    refine ⟨xorBytes (c.drop 16) ((xsalsaStream k n (32 + (c.length - 16))).drop 32), ?_⟩
    unfold Spec.secretbox
    have e : (xorBytes (c.drop 16) ((xsalsaStream k n (32 + (c.length - 16))).drop 32)).length = c.length - 16 := by
      rw [xorBytes_length, List.length_drop, List.length_drop, hl]
      omega
    simp only [e]
    rw [xorBytes_self _ _ (by rw [List.length_drop, List.length_drop, hl]; omega), xsalsaStream_take hk hn 32 _ (by omega),
      ← h2, List.take_append_drop]

/-- Opening gives the empty byte string for every box, of any length, and raises NameError on every other byte
string.  Missing from C79: the message and the right exception. -/
theorem C79_open_partial (w : Nat) (hw : 32 ≤ w) (k n c : Bytes) (hk : k.length = 32) (hn : n.length = 24) :
    ((∃ m, c = Spec.secretbox k n m) → boxOpenAfternm w c n k = .ok []) ∧
    ((∀ m, c ≠ Spec.secretbox k n m) → boxOpenAfternm w c n k = .error .nameError) := by
  have hb := is_box hk hn c
  have key : boxOpenAfternm w c n k =
      if 16 ≤ c.length ∧ c.take 16 = Spec.poly1305 (xsalsaStream k n 32) (c.drop 16) then .ok [] else .error .nameError := by
    have hl : (zeros 16 ++ c).length = 16 + c.length := by rw [List.length_append]; simp [zeros]
    by_cases h : 16 ≤ c.length
    · have e := secretboxOpen_eq hw (m := intArray .u8 (zeros 16 ++ c).length) (areBytes_ofBytes n) (areBytes_ofBytes k) hk hn
        (areBytes_ofBytes (zeros 16 ++ c)) (by omega)
      have d16 : (zeros 16 ++ c).drop 16 = c := List.drop_left' rfl
      have d32 : (zeros 16 ++ c).drop 32 = c.drop 16 := by
        rw [show 32 = 16 + 16 from rfl, ← List.drop_drop, d16]
      rw [d16, d32] at e
      rw [boxOpenAfternm_raw w c (Nat.le_of_eq hn.symm) (Nat.le_of_eq hk.symm)]
      unfold Raw.boxOpenAfternm
      simp only [e]
      by_cases ht : c.take 16 = Spec.poly1305 (xsalsaStream k n 32) (c.drop 16)
      · rw [if_pos ht]
        conv => rhs; rw [if_pos ⟨h, ht⟩]
        rfl
      · rw [if_neg ht]
        conv => rhs; rw [if_neg (fun x => ht x.2)]
        rfl
    · rw [if_neg (fun x => h x.1)]
      unfold boxOpenAfternm Chk.secretboxOpen
      simp only [hl]
      have h32 : 16 + c.length < 32 := by omega
      simp only [if_pos h32]
      rfl
  constructor
  · intro h
    rw [key, if_pos (hb.mp h)]
  · intro h
    rw [key, if_neg (fun x => by obtain ⟨m, e⟩ := hb.mpr x; exact h m e)]

/-- C79 fails: a box with a message of one byte opens to the empty byte string. -/
theorem C79_violated : ¬ C79_claim := by
  intro h
  have h1 := (h 32 (by omega) (zeros 32) (zeros 24) _ rfl rfl).1 [7] rfl
  rw [(C79_open_partial 32 (by omega) (zeros 32) (zeros 24) _ rfl rfl).1 ⟨[7], rfl⟩] at h1
  simp at h1

/-- Every message other than the empty one is lost in encryption and decryption. -/
theorem C79_roundtrip (w : Nat) (hw : 32 ≤ w) (k n m : Bytes) (hk : k.length = 32) (hn : n.length = 24) (hm : m.length ≤ 16416) :
    ∃ c, boxAfternm w m n k = .ok c ∧ boxOpenAfternm w c n k = .ok [] :=
  ⟨_, C78_box_partial w hw k n m hk hn hm, (C79_open_partial w hw k n _ hk hn).1 ⟨m, rfl⟩⟩

/-- A byte string that is too short to be a box. -/
example : boxOpenAfternm 64 [1, 2, 3] (zeros 24) (zeros 32) = .error .nameError := by
  refine (C79_open_partial 64 (by omega) (zeros 32) (zeros 24) _ rfl rfl).2 (fun m h => ?_)
  have := congrArg List.length h
  rw [Spec.secretbox, List.length_append, spec_poly1305_length] at this
  simp at this
  omega

/-- `SaltLibPure()` raises TypeError. -/
theorem C79_not_instantiable : Pure.new = .error .typeError := by decide

end Salt.Props
