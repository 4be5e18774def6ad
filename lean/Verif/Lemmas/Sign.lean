import Verif.Lemmas.SignPack
import Verif.Lemmas.Sha4

/-! `crypto_sign_ed25519_tweet` computes the signature of RFC 8032. -/

namespace Salt.Tweet

open Salt.Spec

/-! ### Scalars -/

theorem num_append (a b : Bytes) : num (a ++ b) = num a + 256 ^ a.length * num b := by
  induction a with
  | nil => simp [num]
  | cons x a ih =>
    rw [List.cons_append, num, num, ih, List.length_cons, Nat.pow_succ]
    ring

theorem num_zeros (n : Nat) : num (List.replicate n 0) = 0 := by
  induction n with
  | zero => rfl
  | succ n ih => rw [List.replicate_succ, num, ih]; rfl

theorem num_digits (n : Nat) : ∀ m, num (digits n m) = m % 256 ^ n := by
  induction n with
  | zero => intro m; rw [digits, num, pow_zero, Nat.mod_one]
  | succ n ih =>
    intro m
    rw [digits, num, ih, UInt8.toNat_ofNat', show (2 : Nat) ^ 8 = 256 from rfl, show 256 ^ (n + 1) = 256 * 256 ^ n from Nat.pow_succ', Nat.mod_mul]

theorem num_take_bits (sb : Bytes) (i : Nat) (hi : i < 256) : (num (sb.take 32)).testBit i = (num sb).testBit i := by
  rw [testBit_num, testBit_num, List.getD_eq_getElem?_getD, List.getD_eq_getElem?_getD, List.getElem?_take_of_lt (by omega)]

theorem num_take_lt (sb : Bytes) : num (sb.take 32) < 2 ^ 256 := by
  refine Nat.lt_of_lt_of_le (num_lt _) ?_
  have : (256 : Nat) ^ (sb.take 32).length ≤ 256 ^ 32 := Nat.pow_le_pow_right (by omega) (by simp)
  exact Nat.le_trans this (by norm_num)

theorem orderL_lt : orderL < 2 ^ 256 := by decide +kernel

/-- A multiple of the base point, by a scalar given as an array of at least 32 bytes. -/
theorem scalarbase_bytes {p : Pt} {s : List V} {sb : Bytes} (hs : AreBytes s sb)
    (l0 : 16 ≤ p.p0.length) (l1 : 16 ≤ p.p1.length) (l2 : 16 ≤ p.p2.length) (l3 : 16 ≤ p.p3.length) :
    PtIs (scalarbase p s) (num (sb.take 32) • basePt) :=
  scalarbase_is hs _ (num_take_lt sb) (num_take_bits sb) l0 l1 l2 l3

theorem scalarmult_bytes {p q : Pt} {s : List V} {sb : Bytes} {Q : EdPt} (hs : AreBytes s sb) (hq : PtIs q Q)
    (l0 : 16 ≤ p.p0.length) (l1 : 16 ≤ p.p1.length) (l2 : 16 ≤ p.p2.length) (l3 : 16 ≤ p.p3.length) :
    PtIs (scalarmult p q s) (num (sb.take 32) • Q) :=
  scalarmult_is hs _ (num_take_lt sb) (num_take_bits sb) hq l0 l1 l2 l3

/-! ### Arrays of bytes -/

theorem byteItem_byte {x : V} {b : UInt8} (h : IsByte x b) : IsByte (byteItem x) b := ⟨.inr rfl, h.2⟩

theorem byteItem_bytes {x : List V} {b : Bytes} (h : AreBytes x b) : AreBytes (x.map byteItem) b := by
  induction h with
  | nil => exact .nil
  | cons h _ ih => exact .cons (byteItem_byte h) ih

theorem zeros_bytes (n : Nat) : AreBytes (intArray .u8 n) (List.replicate n 0) := by
  induction n with
  | zero => exact .nil
  | succ n ih => exact .cons ⟨.inl rfl, rfl⟩ ih

/-- Items `j` to `j + n` of `m` stored at `off`. -/
theorem store_bytes {sm m : List V} {sb mb : Bytes} (hs : AreBytes sm sb) (hm : AreBytes m mb) (n off j : Nat) (h1 : off + n ≤ sb.length)
    (h2 : j + n ≤ mb.length) :
    AreBytes (forRange n sm fun i sm => sm.set (i + off) (byteItem (at' m (i + j)))) (sb.take off ++ (mb.drop j).take n ++ sb.drop (off + n)) := by
  rw [forRange_set n off sm _ (by rw [hs.length]; omega)]
  refine ((hs.take off).append ?_).append (hs.drop _)
  have e : (List.range n).map (fun i => byteItem (at' m (i + j))) = ((m.drop j).take n).map byteItem := by
    apply List.ext_getElem
    · simp [hm.length]; omega
    · intro i h1 h2
      have hl := hm.length
      simp only [List.length_map, List.length_range] at h1
      simp only [List.getElem_map, List.getElem_range, List.getElem_take, List.getElem_drop]
      congr 1
      unfold at'
      rw [List.getD_eq_getElem?_getD, List.getElem?_eq_getElem (by omega), Option.getD_some]
      congr 1
      omega
  rw [e]
  exact byteItem_bytes ((hm.drop j).take n)

theorem clampHash_bytes {d : List V} {db : Bytes} (hd : AreBytes d db) (hl : db.length = 64) :
    AreBytes (clampHash d) ((db.set 0 (db.getD 0 0 &&& 248)).set 31 ((db.getD 31 0 &&& 127) ||| 64)) := by
  unfold clampHash
  simp only
  have hdl := hd.length
  have hand : ∀ (x : V) (b m : UInt8), IsByte x b → IsByte (x &&& pl m.toNat) (b &&& m) := by
    intro x b m hx
    have e : x &&& pl m.toNat = pl (Int.land x.v m.toNat) := typed_right _ _ _ rfl
    rw [e, hx.2]
    refine ⟨.inr rfl, ?_⟩
    show ((b.toNat &&& m.toNat : Nat) : Int) = _
    rw [UInt8.toNat_and]
  have hor : ∀ (x : V) (b m : UInt8), IsByte x b → IsByte (x ||| pl m.toNat) (b ||| m) := by
    intro x b m hx
    have e : x ||| pl m.toNat = pl (Int.lor x.v m.toNat) := typed_right _ _ _ rfl
    rw [e, hx.2]
    refine ⟨.inr rfl, ?_⟩
    show ((b.toNat ||| m.toNat : Nat) : Int) = _
    rw [UInt8.toNat_or]
  have e31 : ∀ a, at' (d.set 0 a) 31 = at' d 31 := fun a => by rw [at'_set _ _ _ _ (by omega), if_neg (by omega)]
  have e31' : ∀ a b, at' ((d.set 0 a).set 31 b) 31 = b := fun a b => by rw [at'_set _ _ _ _ (by simp; omega), if_pos rfl]
  rw [e31, e31', List.set_set]
  apply areBytes_of_at
  · simp [hdl, hl]
  · intro i hi
    have hi' : i < 64 := by simpa [hl] using hi
    rw [at'_set _ _ _ _ (by simp; omega), at'_set _ _ _ _ (by omega)]
    by_cases h31 : i = 31
    · subst h31
      rw [if_pos rfl]
      have h := hor _ _ 64 (hand _ _ 127 (hd.at' 31))
      have e : ((db.set 0 (db.getD 0 0 &&& 248)).set 31 ((db.getD 31 0 &&& 127) ||| 64)).getD 31 0 = (db.getD 31 0 &&& 127) ||| 64 := by simp [hl]
      rw [e]
      exact h
    · rw [if_neg h31]
      by_cases h0 : i = 0
      · subst h0
        rw [if_pos rfl]
        have h := hand _ _ 248 (hd.at' 0)
        have e : ((db.set 0 (db.getD 0 0 &&& 248)).set 31 ((db.getD 31 0 &&& 127) ||| 64)).getD 0 0 = db.getD 0 0 &&& 248 := by simp [hl]
        rw [e]
        exact h
      · rw [if_neg h0]
        have := hd.at' i
        simpa [Ne.symm h0, Ne.symm h31] using this

theorem clamp_take (db : Bytes) :
    ((db.set 0 (db.getD 0 0 &&& 248)).set 31 ((db.getD 31 0 &&& 127) ||| 64)).take 32 =
      (((db.take 32).set 0 ((db.take 32).getD 0 0 &&& 248)).set 31 (((db.take 32).getD 31 0 &&& 127) ||| 64)) := by
  rw [List.take_set, List.take_set]
  have : ∀ i, i < 32 → (db.take 32).getD i 0 = db.getD i 0 := by
    intro i hi
    rw [List.getD_eq_getElem?_getD, List.getD_eq_getElem?_getD, List.getElem?_take_of_lt hi]
  rw [this 0 (by omega), this 31 (by omega)]

theorem clamp_drop (db : Bytes) : ((db.set 0 (db.getD 0 0 &&& 248)).set 31 ((db.getD 31 0 &&& 127) ||| 64)).drop 32 = db.drop 32 := by
  rw [List.drop_set_of_lt (by omega), List.drop_set_of_lt (by omega)]

theorem clamp_length (db : Bytes) (x y : UInt8) : ((db.set 0 x).set 31 y).length = db.length := by simp

/-! ### Hash values -/

theorem sha512_length (m : Bytes) : (sha512 m).length = 64 := by
  have lg : ∀ l : List UInt64, (l.flatMap fun a => digitsBE 8 a.toNat).length = 8 * l.length := by
    intro l
    induction l with
    | nil => rfl
    | cons a l ih => rw [List.flatMap_cons, List.length_append, ih, digitsBE_length, List.length_cons]; omega
  unfold sha512
  rw [lg, compressAll_length _ _ rfl]

theorem hash_bytes {m : List V} {mb : Bytes} (hm : AreBytes m mb) (n : Nat) (hn : n ≤ mb.length) (h64 : n < 2 ^ 64) :
    AreBytes (hashSha512 (intArray .u8 64) m n) (sha512 (mb.take n)) := by
  obtain ⟨y, e, h⟩ := hashSha512_eq (intArray .u8 64) m mb hm.has n hn h64 (by simp [intArray])
  rw [e, show (intArray .u8 64).drop 64 = [] by simp [intArray], List.append_nil]
  exact h

/-! ### The signature -/

theorem cast_mod_lt (n : Nat) : n % orderL < 256 ^ 32 :=
  Nat.lt_of_lt_of_le (Nat.mod_lt _ (by decide +kernel)) (by decide +kernel)

/-- The reduced hash, as a scalar. -/
theorem reduce_bytes {r : List V} {b : Bytes} (h : AreBytes r b) (hb : b.length = 64) :
    AreBytes (reduce r) (digits 32 (num b % orderL) ++ List.replicate 32 0) ∧ (∀ i, i < 32 → (at' (reduce r) i).ty = .plain) := by
  obtain ⟨y, e, hl, hp, hy⟩ := reduce_eq h hb
  rw [e]
  refine ⟨hy.append (zeros_bytes 32), ?_⟩
  intro i hi
  have : at' (y ++ intArray .u8 32) i = y[i]'(by omega) := by
    unfold at'
    rw [List.getD_append _ _ _ _ (by omega), List.getD_eq_getElem?_getD, List.getElem?_eq_getElem (by omega)]
    rfl
  rw [this]
  exact hp _ (List.getElem_mem _)

theorem take_digits (n : Nat) (z : Bytes) : (digits 32 n ++ z).take 32 = digits 32 n := List.take_left' (digits_length _ _)

theorem ptNew_len : 16 ≤ Pt.new.p0.length ∧ 16 ≤ Pt.new.p1.length ∧ 16 ≤ Pt.new.p2.length ∧ 16 ≤ Pt.new.p3.length := by decide

/-- The array `x` of `crypto_sign_ed25519_tweet` before the products. -/
theorem sign_x {r : List V} {n : Nat} (hr : AreBytes r (digits 32 n ++ List.replicate 32 0)) (hn : n < 256 ^ 32) :
    let x := forRange 32 (forRange 64 (intArray .i64 64) fun i x => x.set i 0) fun i x => x.set i (u64 (at' r i))
    x.length = 64 ∧ (∀ j, j < 64 → 0 ≤ (at' x j).v ∧ (at' x j).v ≤ 255) ∧ pv x 64 = n := by
  have e0 : (forRange 64 (intArray .i64 64) fun i x => x.set i 0) = List.replicate 64 (0 : V) := by decide
  rw [e0, forRange_set0 32 _ _ (by simp)]
  have hlow : ∀ i, i < 32 → at' ((List.range 32).map (fun i => u64 (at' r i)) ++ (List.replicate 64 (0 : V)).drop 32) i =
      ⟨.u64, (((digits 32 n).getD i 0).toNat : Int)⟩ := by
    intro i hi
    rw [at'_map_range _ _ _ _ hi, u64_byte (hr.at' i)]
    congr 3
    rw [List.getD_append _ _ _ _ (by rw [digits_length]; exact hi)]
  have hhigh : ∀ i, 32 ≤ i → i < 64 → at' ((List.range 32).map (fun i => u64 (at' r i)) ++ (List.replicate 64 (0 : V)).drop 32) i = pl 0 := by
    intro i h1 h2
    unfold at'
    rw [List.getD_append_right _ _ _ _ (by simpa using h1), List.drop_replicate, List.length_map, List.length_range, List.getD_eq_getElem?_getD,
      List.getElem?_replicate, if_pos (by omega)]
    rfl
  generalize hx : (List.range 32).map (fun i => u64 (at' r i)) ++ (List.replicate 64 (0 : V)).drop 32 = x at *
  refine ⟨by rw [← hx]; simp, ?_, ?_⟩
  · intro j hj
    by_cases h : j < 32
    · rw [hlow j h]
      have := ((digits 32 n).getD j 0).toNat_lt
      show 0 ≤ (((digits 32 n).getD j 0).toNat : Int) ∧ (((digits 32 n).getD j 0).toNat : Int) ≤ 255
      omega
    · rw [hhigh j (by omega) hj]
      exact ⟨by rw [pl_v], by rw [pl_v]; omega⟩
  · rw [pv_above (n := 32) 32 (fun j h1 h2 => hhigh j h1 (by omega))]
    have h := pv_num (areBytes_ofBytes (digits 32 n))
    rw [digits_length, num_digits, Nat.mod_eq_of_lt hn] at h
    rw [← h]
    refine pv_congr (fun i hi => ?_)
    rw [hlow i hi, ((areBytes_ofBytes (digits 32 n)).at' i).2]

end Salt.Tweet
