import Verif.Lemmas.Poly4

/-! Comparison of arrays and the secret box. -/

namespace Salt.Tweet

open Salt.Spec

theorem byte_xor_val {x y : V} {a b : UInt8} (hx : IsByte x a) (hy : IsByte y b) : (x ^^^ y).v = ((a ^^^ b).toNat : Int) :=
  (xor_byte hx hy).2

/-- The accumulated difference in `vn`. -/
theorem vn_loop {w : Nat} (hw : 32 ≤ w) {x y : List V} {a b : Bytes} (hx : AreBytes x a) (hy : AreBytes y b) (n : Nat) :
    ∃ d : Nat, (forRange n ⟨.u32 w, 0⟩ fun i d => d ||| (at' x i ^^^ at' y i)).v = d ∧
      ((forRange n ⟨.u32 w, 0⟩ fun i d => d ||| (at' x i ^^^ at' y i)).ty = .u32 w ∨
       (forRange n ⟨.u32 w, 0⟩ fun i d => d ||| (at' x i ^^^ at' y i)).ty = .plain) ∧ d < 256 ∧
      (d = 0 ↔ ∀ i, i < n → a.getD i 0 = b.getD i 0) := by
  have hp : 2 ^ 32 ≤ 2 ^ w := Nat.pow_le_pow_right (by omega) hw
  induction n with
  | zero => exact ⟨0, rfl, .inl rfl, by omega, by simp⟩
  | succ n ih =>
    obtain ⟨d, h1, h2, h3, h4⟩ := ih
    rw [forRange_succ]
    generalize (forRange n ⟨.u32 w, 0⟩ fun i d => d ||| (at' x i ^^^ at' y i)) = D at h1 h2
    have hb := xor_byte (hx.at' n) (hy.at' n)
    generalize hc : a.getD n 0 ^^^ b.getD n 0 = c at hb
    have hcz : c.toNat = 0 ↔ a.getD n 0 = b.getD n 0 := by
      rw [← hc]
      constructor
      · intro h
        have h : a.getD n 0 ^^^ b.getD n 0 = 0 := UInt8.toNat_inj.mp h
        exact UInt8.xor_eq_zero_iff.mp h
      · intro h
        rw [h, UInt8.xor_self]
        rfl
    have e : (D ||| (at' x n ^^^ at' y n)).v = ((d ||| c.toNat : Nat) : Int) ∧
        ((D ||| (at' x n ^^^ at' y n)).ty = .u32 w ∨ (D ||| (at' x n ^^^ at' y n)).ty = .plain) := by
      have hlt : d ||| c.toNat < 2 ^ 8 := Nat.or_lt_two_pow h3 c.toNat_lt
      show (typed Int.lor _ _).v = _ ∧ ((typed Int.lor _ _).ty = _ ∨ (typed Int.lor _ _).ty = _)
      unfold typed
      rw [h1, hb.2, lor_nat, promote_nat]
      have : ∀ t : Ty, t = .u32 w ∨ t = .plain → (cast t ((d ||| c.toNat : Nat) : Int)).v = ((d ||| c.toNat : Nat) : Int) ∧
          ((cast t ((d ||| c.toNat : Nat) : Int)).ty = .u32 w ∨ (cast t ((d ||| c.toNat : Nat) : Int)).ty = .plain) := by
        rintro t (rfl | rfl)
        · rw [cast_nat _ (by simp)]
          refine ⟨?_, .inl rfl⟩
          simp only [Ty.bits]
          rw [Nat.mod_eq_of_lt (by omega)]
        · exact ⟨rfl, .inr rfl⟩
      apply this
      rcases h2 with h2 | h2 <;> rcases hb.1 with h | h <;> simp [h2, h, Ty.order]
    refine ⟨_, e.1, e.2, Nat.or_lt_two_pow (n := 8) h3 c.toNat_lt, ?_⟩
    rw [Nat.or_eq_zero_iff, h4, hcz]
    constructor
    · rintro ⟨g1, g2⟩ i hi
      rcases Nat.lt_or_eq_of_le (Nat.le_of_lt_succ hi) with h | rfl
      · exact g1 i h
      · exact g2
    · intro g
      exact ⟨fun i hi => g i (by omega), g n (by omega)⟩

/-- `vn` is 0 on equal arrays and -1 otherwise. -/
theorem vn_eq {w : Nat} (hw : 32 ≤ w) {x y : List V} {a b : Bytes} (hx : AreBytes x a) (hy : AreBytes y b) (n : Nat)
    (ha : n ≤ a.length) (hb : n ≤ b.length) : (vn w x y n).v = if a.take n = b.take n then 0 else -1 := by
  obtain ⟨d, h1, h2, h3, h4⟩ := vn_loop hw hx hy n
  have hiff : (∀ i, i < n → a.getD i 0 = b.getD i 0) ↔ a.take n = b.take n := by
    constructor
    · intro h
      apply List.ext_getElem
      · simp; omega
      · intro i h1 h2
        simp only [List.length_take] at h1 h2
        have := h i (by omega)
        rw [List.getD_eq_getElem _ _ (by omega), List.getD_eq_getElem _ _ (by omega)] at this
        simpa using this
    · intro h i hi
      have := congrArg (fun l => l.getD i 0) h
      simpa [hi] using this
  rw [hiff] at h4
  unfold vn
  simp only
  generalize (forRange n ⟨.u32 w, 0⟩ fun i d => d ||| (at' x i ^^^ at' y i)) = D at h1 h2
  have hsub : D - 1 = ⟨.plain, (d : Int) - 1⟩ := by
    show typed (· - ·) _ _ = _
    unfold typed
    rw [h1, show (1 : V).v = 1 from rfl, show (1 : V).ty = .plain from rfl]
    have : promote D.ty .plain ((d : Int) - 1) = .plain := by
      unfold promote
      rw [if_neg (by simp [Ty.order])]
      rcases h2 with h2 | h2 <;> simp [h2, Ty.order]
    simp only [this]
    rfl
  rw [hsub]
  by_cases h0 : d = 0
  · rw [if_pos (h4.mp h0), h0]
    have e : (⟨.plain, ((0 : Nat) : Int) - 1⟩ : V) >>> 8 = ⟨.plain, Int.negSucc 0⟩ := rfl
    have e2 : ((1 : V) &&& ⟨.plain, Int.negSucc 0⟩) = 1 := by
      show typed Int.land _ _ = _
      unfold typed
      have : Int.land (1 : V).v (Int.negSucc 0) = 1 := by
        rw [show (1 : V).v = ((1 : Nat) : Int) from rfl]
        simp [Int.land, Nat.ldiff]
      simp only [this]
      rfl
    rw [e, e2]
    rfl
  · rw [if_neg (fun h => h0 (h4.mpr h))]
    have : (⟨.plain, (d : Int) - 1⟩ : V) >>> 8 = 0 := by
      show cast _ (((d : Int) - 1) / 2 ^ 8) = _
      rw [show ((d : Int) - 1) / 2 ^ 8 = 0 by omega]
      rfl
    rw [this]
    decide

/-! ### The secret box -/

theorem xorBytes_zeros (n : Nat) (m s : Bytes) (h : n ≤ s.length) :
    xorBytes (List.replicate n 0 ++ m) s = s.take n ++ xorBytes m (s.drop n) := by
  unfold xorBytes
  induction n generalizing s with
  | zero => simp
  | succ n ih =>
    cases s with
    | nil => simp at h
    | cons a s => simp [List.replicate_succ, ih s (by simpa using h)]

theorem xorBytes_length (a b : Bytes) : (xorBytes a b).length = min a.length b.length := by simp [xorBytes]

theorem spec_poly1305_length (k m : Bytes) : (Spec.poly1305 k m).length = 16 := by
  unfold Spec.poly1305
  generalize (polyAcc (polyClamp (num (k.take 16))) 0 m + num (k.drop 16)) = x
  generalize 16 = n
  induction n generalizing x with
  | zero => rfl
  | succ n ih => simp [digits, ih]

/-- What is left of a padded message: the authenticator is that of `Spec.poly1305` under the first 32 bytes of the
stream, and everything behind is what the stream cipher wrote. -/
theorem secretbox_any {w : Nat} (hw : 32 ≤ w) {c m n k : List V} {cb : Bytes} (d : Nat) (hd : 32 ≤ d)
    (hs : AreBytes (streamXsalsaXor w c m d n k) cb) (hcl : cb.length = d) :
    ∃ y, secretbox w c m d n k = (0, y) ∧
      AreBytes y (List.replicate 16 0 ++ Spec.poly1305 (cb.take 32) (cb.drop 32) ++ cb.drop 32) := by
  unfold secretbox
  rw [if_neg (by omega)]
  simp only
  generalize streamXsalsaXor w c m d n k = s at hs
  have hsl := hs.length
  obtain ⟨y, e, hy⟩ := poly1305_eq hw (out := s.drop 16) (hs.drop 32) hs (by omega) (d - 32) (by simp; omega) (by simp; omega)
  refine ⟨_, rfl, ?_⟩
  rw [e]
  have : ((s.take 16) ++ (y ++ (s.drop 16).drop 16)).drop 16 = y ++ s.drop 32 := by
    rw [List.drop_left' (by simp; omega), List.drop_drop]
  rw [this, List.append_assoc]
  exact (areBytes_zeros 16).append (hy.append (hs.drop 32))

/-- The box made with a given key stream. -/
def boxWith (s m : Bytes) : Bytes := Spec.poly1305 (s.take 32) (xorBytes m (s.drop 32)) ++ xorBytes m (s.drop 32)

/-- The box of a padded message, with the counters that are used. -/
theorem secretbox_ctr {w : Nat} (hw : 32 ≤ w) {n k : List V} {nb kb m : Bytes} (hn : AreBytes n nb) (hk : AreBytes k kb)
    (hkl : kb.length = 32) (hnl : nb.length = 24) :
    ∃ y, secretbox w (intArray .u8 (32 + m.length)) (ofBytes (List.replicate 32 0 ++ m)) (32 + m.length) n k = (0, y) ∧
      AreBytes y (List.replicate 16 0 ++ boxWith (keyStream (ctr w) (hsalsa20 kb (nb.take 16)) (nb.drop 16) 0 (32 + m.length)) m) := by
  obtain ⟨y, e, h⟩ := streamXsalsaXor_ctr hw (c := intArray .u8 (32 + m.length)) (areBytes_ofBytes (List.replicate 32 0 ++ m)) hn hk hkl hnl
    (32 + m.length) (by simp [intArray])
  rw [List.drop_of_length_le (by simp [intArray]), List.append_nil] at e
  have hsl := keyStream_length (ctr w) (subkey hw hn hk hkl hnl).2 (nb := nb.drop 16) (by simp; omega) 0 (32 + m.length)
  generalize keyStream (ctr w) (hsalsa20 kb (nb.take 16)) (nb.drop 16) 0 (32 + m.length) = s at h hsl
  have hpl : (List.replicate 32 (0 : UInt8) ++ m).length = 32 + m.length := by rw [List.length_append, List.length_replicate]
  rw [map_xor_eq _ _ _ (by omega) hsl, List.take_of_length_le (by omega), xorBytes_zeros _ _ _ (by omega)] at h
  rw [← e] at h
  have hl32 : (s.take 32).length = 32 := by simp; omega
  obtain ⟨z, ez, hz⟩ := secretbox_any hw (32 + m.length) (by omega) h (by simp [xorBytes_length, hsl])
  refine ⟨z, ez, ?_⟩
  rw [List.take_left' hl32, List.drop_left' hl32, List.append_assoc] at hz
  exact hz

/-- The key stream up to block 256. -/
theorem keyStream_short {w : Nat} (hw : 32 ≤ w) {nb kb : Bytes} (hkl : kb.length = 32) (hnl : nb.length = 24) (b : Nat) (hb : b ≤ 16448) :
    keyStream (ctr w) (hsalsa20 kb (nb.take 16)) (nb.drop 16) 0 b = xsalsaStream kb nb b := by
  have hs := (subkey (w := 32) (by omega) (areBytes_ofBytes nb) (areBytes_ofBytes kb) hkl hnl).2
  rw [keyStream_ctr hw _ _ _ 0 (by omega), xsalsaStream, salsaStream_eq hs (by simp; omega)]

/-- The key stream with block 257. -/
theorem keyStream_long {w : Nat} (hw : 32 ≤ w) {nb kb : Bytes} (hkl : kb.length = 32) (hnl : nb.length = 24) (b : Nat) (hb : b < 64) :
    keyStream (ctr w) (hsalsa20 kb (nb.take 16)) (nb.drop 16) 0 (16448 + b) =
      xsalsaStream kb nb 16448 ++ (salsa20 (hsalsa20 kb (nb.take 16)) (nb.drop 16 ++ digits 8 0x301)).take b := by
  have := keyStream_split (ctr w) (hsalsa20 kb (nb.take 16)) (nb.drop 16) b 257 0
  rw [show 64 * 257 = 16448 from rfl] at this
  rw [this, keyStream_short hw hkl hnl _ (by omega)]
  conv => lhs; rhs; rw [keyStream, if_neg (by omega)]
  rw [Nat.zero_add, ctr_257 hw]

/-- The box of a padded message. -/
theorem secretbox_eq {w : Nat} (hw : 32 ≤ w) {n k : List V} {nb kb m : Bytes} (hn : AreBytes n nb) (hk : AreBytes k kb)
    (hkl : kb.length = 32) (hnl : nb.length = 24) (hm : m.length ≤ 16416) :
    ∃ y, secretbox w (intArray .u8 (32 + m.length)) (ofBytes (List.replicate 32 0 ++ m)) (32 + m.length) n k = (0, y) ∧
      AreBytes y (List.replicate 16 0 ++ Spec.secretbox kb nb m) := by
  obtain ⟨y, e, h⟩ := secretbox_ctr hw hn hk hkl hnl (m := m)
  rw [keyStream_short hw hkl hnl _ (by omega)] at h
  exact ⟨y, e, h⟩

theorem streamXsalsa_32 {w : Nat} (hw : 32 ≤ w) {n k : List V} {nb kb : Bytes} (hn : AreBytes n nb) (hk : AreBytes k kb)
    (hkl : kb.length = 32) (hnl : nb.length = 24) :
    AreBytes (streamXsalsa w (intArray .u8 32) 32 n k) (xsalsaStream kb nb 32) := by
  obtain ⟨y, e, h⟩ := streamXsalsaXor_eq hw (c := intArray .u8 32) (m := []) (mb := []) .nil hn hk hkl hnl 32 (by simp [intArray]) (by omega)
  rw [List.drop_of_length_le (by simp [intArray]), List.append_nil] at e
  rw [map_zero_eq _ _ (xsalsaStream_length hkl hnl 32)] at h
  rw [← e] at h
  exact h

/-- Opening: the authenticator is checked, but what is returned are 32 zeros. -/
theorem secretboxOpen_eq {w : Nat} (hw : 32 ≤ w) {n k m c : List V} {nb kb cb : Bytes} (hn : AreBytes n nb) (hk : AreBytes k kb)
    (hkl : kb.length = 32) (hnl : nb.length = 24) (hc : AreBytes c cb) (hcl : 32 ≤ cb.length) :
    secretboxOpen w m c cb.length n k =
      if (cb.drop 16).take 16 = Spec.poly1305 (xsalsaStream kb nb 32) (cb.drop 32) then (0, intArray .u8 32) else (-1, m) := by
  unfold secretboxOpen
  rw [if_neg (by omega)]
  have hx := streamXsalsa_32 hw hn hk hkl hnl
  have hxl := xsalsaStream_length hkl hnl 32
  generalize streamXsalsa w (intArray .u8 32) 32 n k = x at hx
  obtain ⟨y, e, hy⟩ := poly1305_eq hw (out := intArray .u8 16) (hc.drop 32) hx (by omega) (cb.length - 32) (by simp) (by simp [intArray])
  rw [show (intArray .u8 16).drop 16 = [] from rfl, List.append_nil] at e
  rw [List.take_of_length_le (by omega)] at hy
  have hv : (polyVerify w (c.drop 16) (c.drop 32) (cb.length - 32) x).v =
      if (cb.drop 16).take 16 = Spec.poly1305 (xsalsaStream kb nb 32) (cb.drop 32) then 0 else -1 := by
    unfold polyVerify verify16
    rw [e, vn_eq hw (hc.drop 16) hy 16 (by simp; omega) (by rw [spec_poly1305_length])]
    rw [List.take_of_length_le (l := Spec.poly1305 _ _) (by rw [spec_poly1305_length])]
  simp only [hv]
  split
  · rfl
  · rfl

end Salt.Tweet
