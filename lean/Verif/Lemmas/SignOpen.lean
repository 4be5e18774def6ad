import Verif.Lemmas.Unpack

/-! `crypto_sign_ed25519_tweet_open`. -/

namespace Salt.Tweet

open Salt.Spec

theorem ptIs_len {p : Pt} {P : EdPt} (h : PtIs p P) : 16 ≤ p.p0.length ∧ 16 ≤ p.p1.length ∧ 16 ≤ p.p2.length ∧ 16 ≤ p.p3.length := by
  obtain ⟨e, ⟨h0, h1, h2, h3⟩, -⟩ := h
  exact ⟨fe_len h0, fe_len h1, fe_len h2, fe_len h3⟩

/-- The point whose encoding is compared. -/
theorem open_iff (A R : EdPt) (S k : Nat) : k • -A + S • basePt = R ↔ edMul S edBase = edAdd R.1 (edMul k A.1) := by
  rw [show edBase = basePt.1 from rfl, edMul_eq, edMul_eq, show edAdd R.1 (k • A).1 = (R + k • A).1 from rfl]
  have h1 : k • -A + S • basePt = R ↔ S • basePt = R + k • A := by
    rw [← eq_sub_iff_add_eq', smul_neg, sub_neg_eq_add]
  exact h1.trans ⟨fun h => congrArg Subtype.val h, fun h => Subtype.ext h⟩

theorem decode_unique {pk : Bytes} {A A' : Fp × Fp} (h : EdDecodes pk A) (h' : EdDecodes pk A') : A = A' := by
  obtain ⟨h1, h2, h3⟩ := h
  obtain ⟨h1', h2', h3'⟩ := h'
  obtain ⟨x, y⟩ := A
  obtain ⟨x', y'⟩ := A'
  simp only at h2 h3 h2' h3'
  subst h2'
  subst h2
  rcases sq_eq h1 h1' with h | h
  · rw [h]
  · by_cases h0 : x = 0
    · rw [h, h0, neg_zero]
    · subst h
      rcases h3 with h3 | h3
      · exact absurd h3 h0
      · rcases h3' with h3' | h3'
        · exact absurd (neg_eq_zero.mp h3') h0
        · exact absurd (h3'.trans h3.symm) (neg_parity h0)

attribute [local irreducible] reduce scalarbase scalarmult pack hashSha512 unpackneg verify32 add forRange in
theorem signOpen_eq {w : Nat} (hw : 32 ≤ w) {m sm pk : List V} {n : Nat} {mb sb pkb : Bytes} (hm : AreBytes m mb) (hml : mb.length = n) (hsm : AreBytes sm sb)
    (hn : sb.length = n) (hpk : AreBytes pk pkb) (hpl : pkb.length = 32) (h64 : n < 2 ^ 64) :
    (EdLenient pkb (sb.drop 64) (sb.take 64) → ∃ y, signOpen w m sm n pk = (0, y) ∧ ∃ z, AreBytes y (sb.drop 64 ++ z)) ∧
    (¬ EdLenient pkb (sb.drop 64) (sb.take 64) → ∃ y, signOpen w m sm n pk = (-1, y)) := by
  obtain ⟨l0, l1, l2, l3⟩ := ptNew_len
  have hlen : EdLenient pkb (sb.drop 64) (sb.take 64) → 64 ≤ n := by
    intro h
    have := h.1
    rw [List.length_take] at this
    omega
  unfold signOpen
  by_cases h : n < 64
  · rw [if_pos h]
    exact ⟨fun h' => absurd (hlen h') (by omega), fun _ => ⟨_, rfl⟩⟩
  rw [if_neg h]
  rcases unpackneg_eq hw _ rfl hpk hpl l0 l1 l2 l3 with ⟨q, A, e, hq, hA2, hA1⟩ | ⟨q, e, hno⟩
  swap
  · rw [e]
    simp only
    rw [if_pos (by decide)]
    refine ⟨fun h' => ?_, fun _ => ⟨_, rfl⟩⟩
    obtain ⟨-, A, R, ⟨hA, hA', -⟩, -⟩ := h'
    refine absurd ?_ (hno A.1)
    rw [← hA']
    exact hA
  rw [e]
  simp only
  rw [if_neg (by decide)]
  have hdec : EdDecodes pkb A.1 := ⟨A.2, hA2, hA1⟩
  have s1 : AreBytes (forRange n m fun i m => m.set i (byteItem (at' sm i))) sb := by
    have := store_bytes hm hsm n 0 0 (by omega) (by omega)
    rw [List.take_zero, List.nil_append, List.drop_zero, List.take_of_length_le (l := sb) (by omega), List.drop_of_length_le (by omega), List.append_nil] at this
    exact this
  generalize (forRange n m fun i m => m.set i (byteItem (at' sm i))) = m1 at *
  have s2 : AreBytes (forRange 32 m1 fun i m => m.set (i + 32) (byteItem (at' pk i))) (sb.take 32 ++ pkb ++ sb.drop 64) := by
    have := store_bytes s1 hpk 32 32 0 (by omega) (by omega)
    rw [List.drop_zero, List.take_of_length_le (l := pkb) (by omega)] at this
    exact this
  generalize (forRange 32 m1 fun i m => m.set (i + 32) (byteItem (at' pk i))) = m2 at *
  have hh := hash_bytes s2 n (by simp; omega) h64
  rw [List.take_of_length_le (by simp; omega)] at hh
  have hhl := sha512_length (sb.take 32 ++ pkb ++ sb.drop 64)
  have hL : EdLenient pkb (sb.drop 64) (sb.take 64) ↔
      edEncode ((num (sha512 (sb.take 32 ++ pkb ++ sb.drop 64)) % orderL) • -A + num ((sb.drop 32).take 32) • basePt).1 = sb.take 32 := by
    have e1 : (sb.take 64).take 32 = sb.take 32 := by rw [List.take_take]; rfl
    have e2 : (sb.take 64).drop 32 = (sb.drop 32).take 32 := by rw [List.drop_take]
    unfold EdLenient
    rw [e1, e2]
    constructor
    · rintro ⟨-, A', R, hA', hR, h1, h2⟩
      rw [← decode_unique hdec hA'] at h2
      rw [(open_iff A ⟨R, hR⟩ _ _).mpr h2]
      exact h1
    · intro h1
      refine ⟨by rw [List.length_take]; omega, A.1, _, hdec, ?_, h1, (open_iff A _ _ _).mp rfl⟩
      exact Subtype.property _
  generalize sha512 (sb.take 32 ++ pkb ++ sb.drop 64) = kb at *
  generalize hashSha512 (intArray .u8 64) m2 n = h0 at *
  have hh1 := (reduce_bytes hh hhl).1
  generalize reduce h0 = hr at *
  have hp := scalarmult_bytes (p := Pt.new) hh1 hq l0 l1 l2 l3
  rw [take_digits, num_digits, Nat.mod_eq_of_lt (cast_mod_lt _)] at hp
  generalize scalarmult Pt.new q hr = p at *
  obtain ⟨q0, q1, q2, q3⟩ := ptIs_len hq
  have hq' := scalarbase_bytes (hsm.drop 32) q0 q1 q2 q3
  generalize scalarbase q (sm.drop 32) = q' at *
  have ha := add_is hp hq'
  generalize add p q' = pq at *
  obtain ⟨y, e, hy⟩ := pack_point (r := intArray .u8 32) ha (by simp [intArray])
  rw [show (intArray .u8 32).drop 32 = [] by simp [intArray], List.append_nil] at e
  rw [e]
  have hyl := edEncode_length ((num kb % orderL) • -A + num ((sb.drop 32).take 32) • basePt).1
  generalize edEncode ((num kb % orderL) • -A + num ((sb.drop 32).take 32) • basePt).1 = R at *
  have hv : (verify32 w sm y).v = if sb.take 32 = R then 0 else -1 := by
    unfold verify32
    rw [vn_eq hw hsm hy 32 (by omega) (by omega), List.take_of_length_le (l := R) (by omega)]
  rw [hL]
  constructor
  · intro hR
    rw [if_neg (by rw [hv, if_pos hR.symm]; decide)]
    have s3 := store_bytes s2 hsm (n - 64) 0 64 (by simp; omega) (by omega)
    rw [List.take_zero, List.nil_append, List.take_of_length_le (l := sb.drop 64) (by simp; omega)] at s3
    exact ⟨_, rfl, _, s3⟩
  · intro hR
    rw [if_pos (by rw [hv, if_neg (fun h => hR h.symm)]; decide)]
    exact ⟨_, rfl⟩

end Salt.Tweet
