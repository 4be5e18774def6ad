import Verif.Lemmas.Stream
import Mathlib.Tactic.Ring
import Mathlib.Data.Nat.ModEq

/-! The counters of far blocks of the Salsa20 stream of tweetnacl.py, calculated for all blocks at once: one number holds
a place of the counter at every block, each in a lane of its own. -/

namespace Salt.Lanes

open Salt.Tweet

/-! ### Numbers with lanes -/

/-- The number with `f i` in lane `i`, for `n` lanes; `X` is the base. -/
def pack (X : Nat) (f : Nat → Nat) : Nat → Nat
  | 0 => 0
  | n + 1 => pack X f n + f n * X ^ n

theorem pack_congr {X : Nat} {f g : Nat → Nat} (n : Nat) (h : ∀ i, i < n → f i = g i) : pack X f n = pack X g n := by
  induction n with
  | zero => rfl
  | succ n ih => rw [pack, pack, ih (fun i hi => h i (by omega)), h n (by omega)]

theorem pack_lt {X : Nat} {f : Nat → Nat} (n : Nat) (h : ∀ i, i < n → f i < X) : pack X f n < X ^ n := by
  induction n with
  | zero => simp [pack]
  | succ n ih =>
    have h1 := ih (fun i hi => h i (by omega))
    have h2 := Nat.mul_le_mul_right (X ^ n) (h n (by omega))
    rw [pack, Nat.pow_succ, Nat.mul_comm _ X]
    rw [Nat.succ_mul] at h2
    omega

theorem pack_add (X : Nat) (f g : Nat → Nat) (n : Nat) : pack X (fun i => f i + g i) n = pack X f n + pack X g n := by
  induction n with
  | zero => rfl
  | succ n ih => simp only [pack]; rw [ih]; ring

theorem pack_mul (X c : Nat) (f : Nat → Nat) (n : Nat) : pack X (fun i => c * f i) n = c * pack X f n := by
  induction n with
  | zero => rfl
  | succ n ih => simp only [pack]; rw [ih]; ring

/-- Ones in all lanes. -/
def ones (X n : Nat) : Nat := (X ^ n - 1) / (X - 1)

theorem pack_one {X : Nat} (hX : 2 ≤ X) (n : Nat) : (X - 1) * pack X (fun _ => 1) n + 1 = X ^ n := by
  induction n with
  | zero => simp [pack]
  | succ n ih =>
    rw [pack, Nat.mul_add, Nat.pow_succ]
    obtain ⟨y, rfl⟩ : ∃ y, X = y + 1 := ⟨X - 1, by omega⟩
    simp only [Nat.add_sub_cancel] at ih ⊢
    rw [Nat.mul_add, Nat.one_mul, Nat.mul_one]
    have := Nat.mul_comm y ((y + 1) ^ n)
    omega

theorem pack_ones {X : Nat} (hX : 2 ≤ X) (n : Nat) : pack X (fun _ => 1) n = ones X n := by
  unfold ones
  rw [← pack_one hX n, Nat.add_sub_cancel, Nat.mul_div_cancel_left _ (by omega)]

theorem pack_const {X : Nat} (hX : 2 ≤ X) (c n : Nat) : pack X (fun _ => c) n = c * ones X n := by
  rw [← pack_ones hX, ← pack_mul]
  simp

/-- The lane `i` of a number. -/
def lane (X i x : Nat) : Nat := x / X ^ i % X

theorem lane_pack {X : Nat} {f : Nat → Nat} (n : Nat) (h : ∀ i, i < n → f i < X) (i : Nat) (hi : i < n) :
    lane X i (pack X f n) = f i := by
  have hX : 0 < X := Nat.lt_of_le_of_lt (Nat.zero_le _) (h i hi)
  have key : ∀ m, i < m → m ≤ n → ∃ q, pack X f m = pack X f i + (f i + X * q) * X ^ i := by
    intro m hm hmn
    induction m with
    | zero => omega
    | succ m ih =>
      by_cases hmi : m = i
      · subst hmi
        exact ⟨0, by rw [pack]; ring⟩
      · obtain ⟨q, hq⟩ := ih (by omega) (by omega)
        refine ⟨q + f m * X ^ (m - i - 1), ?_⟩
        rw [pack, hq]
        have : X ^ m = X ^ i * (X * X ^ (m - i - 1)) := by
          rw [← Nat.pow_succ', ← Nat.pow_add]
          congr 1
          omega
        rw [this]
        ring
  obtain ⟨q, hq⟩ := key n hi (Nat.le_refl n)
  unfold lane
  rw [hq, Nat.add_mul_div_right _ _ (Nat.pow_pos hX), Nat.div_eq_of_lt (pack_lt i (fun j hj => h j (by omega))), Nat.zero_add,
    Nat.add_mul_mod_self_left, Nat.mod_eq_of_lt (h i hi)]

theorem and_split (k a b c d : Nat) (ha : a < 2 ^ k) (hc : c < 2 ^ k) :
    (a + b * 2 ^ k) &&& (c + d * 2 ^ k) = (a &&& c) + (b &&& d) * 2 ^ k := by
  have h3 : (a &&& c) < 2 ^ k := Nat.lt_of_le_of_lt Nat.and_le_left ha
  apply Nat.eq_of_testBit_eq
  intro i
  rw [Nat.testBit_and]
  rw [Nat.add_comm a, Nat.add_comm c, Nat.add_comm (a &&& c), Nat.mul_comm b, Nat.mul_comm d, Nat.mul_comm (b &&& d)]
  rw [Nat.testBit_two_pow_mul_add _ ha, Nat.testBit_two_pow_mul_add _ hc, Nat.testBit_two_pow_mul_add _ h3]
  split <;> rw [Nat.testBit_and]

theorem pack_and {B : Nat} {f g : Nat → Nat} (n : Nat) (hf : ∀ i, i < n → f i < 2 ^ B) (hg : ∀ i, i < n → g i < 2 ^ B) :
    pack (2 ^ B) f n &&& pack (2 ^ B) g n = pack (2 ^ B) (fun i => f i &&& g i) n := by
  induction n with
  | zero => simp [pack]
  | succ n ih =>
    rw [pack, pack, pack, ← ih (fun i hi => hf i (by omega)) (fun i hi => hg i (by omega))]
    have a := pack_lt n (fun i hi => hf i (by omega))
    have b := pack_lt n (fun i hi => hg i (by omega))
    rw [← Nat.pow_mul] at a b ⊢
    exact and_split _ _ _ _ _ a b

/-- The sum of the first items. -/
def psum (f : Nat → Nat) : Nat → Nat
  | 0 => f 0
  | i + 1 => f (i + 1) + psum f i

theorem pack_psum {X : Nat} (f : Nat → Nat) (n : Nat) :
    pack X (psum f) n + psum f n * X ^ n = pack X f n + f n * X ^ n + X * pack X (psum f) n := by
  induction n with
  | zero => simp [pack, psum]
  | succ n ih =>
    have e : pack X (psum f) (n + 1) = pack X f (n + 1) + X * pack X (psum f) n := by
      rw [pack, pack, ih]
    have e2 : X * pack X (psum f) (n + 1) = X * pack X (psum f) n + psum f n * X ^ (n + 1) := by
      rw [pack, Nat.pow_succ]
      ring
    rw [e2, e, psum]
    ring

/-- A product with ones in all lanes sums up. -/
theorem pack_sums {X : Nat} (hX : 2 ≤ X) {f : Nat → Nat} (n : Nat) (h : ∀ i, i < n → psum f i < X) :
    pack X f n * ones X n % X ^ n = pack X (psum f) n := by
  rw [← pack_ones hX]
  have hle : f n ≤ psum f n := by cases n <;> simp [psum]
  have h1 := pack_psum (X := X) f n
  have h2 := pack_one hX n
  have hX' : X * pack X (psum f) n = (X - 1) * pack X (psum f) n + pack X (psum f) n := by
    obtain ⟨y, rfl⟩ : ∃ y, X = y + 1 := ⟨X - 1, by omega⟩
    rw [Nat.add_sub_cancel]
    ring
  have e1 : (X - 1) * pack X (psum f) n + pack X f n = X ^ n * (psum f n - f n) := by
    rw [Nat.mul_sub, Nat.mul_comm _ (psum f n), Nat.mul_comm _ (f n)]
    omega
  have e2 : (X - 1) * (pack X f n * pack X (fun _ => 1) n) + pack X f n = X ^ n * pack X f n := by
    rw [← h2]
    ring
  have m : (X - 1) * (pack X f n * pack X (fun _ => 1) n) + pack X f n ≡ (X - 1) * pack X (psum f) n + pack X f n [MOD X ^ n] := by
    rw [e1, e2]
    exact ((Nat.modEq_zero_iff_dvd).mpr ⟨_, rfl⟩).trans ((Nat.modEq_zero_iff_dvd).mpr ⟨_, rfl⟩).symm
  have hc : Nat.gcd (X ^ n) (X - 1) = 1 := by
    apply Nat.Coprime.pow_left
    obtain ⟨y, rfl⟩ : ∃ y, X = y + 1 := ⟨X - 1, by omega⟩
    simp
  have := Nat.ModEq.cancel_left_of_coprime hc (Nat.ModEq.add_right_cancel' _ m)
  unfold Nat.ModEq at this
  rw [this, Nat.mod_eq_of_lt (pack_lt n h)]

/-! ### The places of the counter -/

/-- Repeated addition modulo `2 ^ w`. -/
def acc (w : Nat) (f : Nat → Nat) : Nat → Nat
  | 0 => 0
  | i + 1 => (f (i + 1) + acc w f i) % 2 ^ w

/-- Place `j` of the counter at block `i`. -/
def place (w : Nat) : Nat → Nat → Nat
  | 0 => acc w fun i => if i = 0 then 0 else 1
  | j + 1 => acc w fun i => place w j i / 256

theorem places_eq (w i : Nat) : places w i = (List.range 8).map fun j => place w j i := by
  induction i with
  | zero => rfl
  | succ i ih =>
    rw [places, ih]
    rfl

theorem acc_lt (w : Nat) (f : Nat → Nat) (i : Nat) : acc w f i < 2 ^ w := by
  cases i with
  | zero => exact Nat.two_pow_pos w
  | succ i => exact Nat.mod_lt _ (Nat.two_pow_pos w)

theorem place_lt (w j i : Nat) : place w j i < 2 ^ w := by
  cases j <;> exact acc_lt ..

theorem acc_eq (w : Nat) (f : Nat → Nat) (h : f 0 = 0) (i : Nat) : acc w f i = psum f i % 2 ^ w := by
  induction i with
  | zero => rw [psum, h, acc, Nat.zero_mod]
  | succ i ih => rw [acc, psum, ih, Nat.add_mod_mod]

theorem place_zero (w j : Nat) : place w j 0 = 0 := by
  cases j <;> rfl

theorem psum_le (f : Nat → Nat) (c : Nat) (n : Nat) (h : ∀ i, i < n → f i ≤ c) (i : Nat) (hi : i < n) : psum f i ≤ (i + 1) * c := by
  induction i with
  | zero => rw [psum]; have := h 0 hi; omega
  | succ i ih =>
    have h1 := ih (by omega)
    have h2 := h (i + 1) hi
    rw [psum, Nat.add_mul (i + 1) 1 c]
    omega

/-- The lanes of a place cut to `w` bits. -/
theorem pack_mod {B : Nat} {f : Nat → Nat} (hB : 1 ≤ B) (w : Nat) (hw : w ≤ B) (n : Nat) (hf : ∀ i, i < n → f i < 2 ^ B) :
    pack (2 ^ B) f n &&& (2 ^ w - 1) * ones (2 ^ B) n = pack (2 ^ B) (fun i => f i % 2 ^ w) n := by
  have hX : 2 ≤ 2 ^ B := Nat.le_trans (by omega) (Nat.pow_le_pow_right (by omega) hB)
  have hp : 2 ^ w ≤ 2 ^ B := Nat.pow_le_pow_right (by omega) hw
  have := Nat.two_pow_pos w
  rw [← pack_const hX, pack_and n hf (fun i _ => by omega)]
  exact pack_congr n (fun i _ => Nat.and_two_pow_sub_one_eq_mod _ _)

/-- The first place at all blocks. -/
def first (w X n : Nat) : Nat := ((ones X n - 1) * ones X n % X ^ n) &&& ((2 ^ w - 1) * ones X n)

/-- The next place at all blocks. -/
def level (w X n Z : Nat) : Nat :=
  ((Z - (Z &&& (2 ^ 8 - 1) * ones X n)) / 256 * ones X n % X ^ n) &&& ((2 ^ w - 1) * ones X n)

theorem first_eq {w B n : Nat} (hB : 1 ≤ B) (hw : w ≤ B) (hn : 1 ≤ n) (hnB : n ≤ 2 ^ B) :
    first w (2 ^ B) n = pack (2 ^ B) (place w 0) n := by
  have hX : 2 ≤ 2 ^ B := Nat.le_trans (by omega) (Nat.pow_le_pow_right (by omega) hB)
  have e : ones (2 ^ B) n - 1 = pack (2 ^ B) (fun i => if i = 0 then 0 else 1) n := by
    rw [← pack_ones hX]
    have : ∀ n, 1 ≤ n → pack (2 ^ B) (fun _ => 1) n = pack (2 ^ B) (fun i => if i = 0 then 0 else 1) n + 1 := by
      intro n hn
      induction n with
      | zero => omega
      | succ n ih =>
        by_cases h0 : n = 0
        · subst h0; simp [pack]
        · rw [pack, pack, ih (by omega), if_neg h0]
          omega
    rw [this n hn, Nat.add_sub_cancel]
  have hs : ∀ i, i < n → psum (fun i => if i = 0 then 0 else 1) i < 2 ^ B := by
    intro i hi
    have : ∀ i, psum (fun i => if i = 0 then 0 else 1) i = i := by
      intro i
      induction i with
      | zero => rfl
      | succ i ih => rw [psum, ih]; simp; omega
    rw [this]
    omega
  unfold first
  rw [e, pack_sums hX n hs, pack_mod hB w hw n hs]
  exact pack_congr n (fun i _ => (acc_eq w _ rfl i).symm)

theorem level_eq {w B n j : Nat} (hw8 : 8 ≤ w) (hw : w ≤ B) (hnB : n * 2 ^ (w - 8) ≤ 2 ^ B) :
    level w (2 ^ B) n (pack (2 ^ B) (place w j) n) = pack (2 ^ B) (place w (j + 1)) n := by
  have hB : 1 ≤ B := by omega
  have hX : 2 ≤ 2 ^ B := Nat.le_trans (by omega) (Nat.pow_le_pow_right (by omega) hB)
  have hp : 2 ^ w ≤ 2 ^ B := Nat.pow_le_pow_right (by omega) hw
  have hlt : ∀ i, i < n → place w j i < 2 ^ B := fun i _ => Nat.lt_of_lt_of_le (place_lt w j i) hp
  have hpw : 2 ^ w = 2 ^ (w - 8) * 256 := by
    rw [show (256 : Nat) = 2 ^ 8 from rfl, ← Nat.pow_add]
    congr 1
    omega
  have e : (pack (2 ^ B) (place w j) n - pack (2 ^ B) (fun i => place w j i % 2 ^ 8) n) / 256 =
      pack (2 ^ B) (fun i => place w j i / 256) n := by
    have : pack (2 ^ B) (place w j) n = 256 * pack (2 ^ B) (fun i => place w j i / 256) n + pack (2 ^ B) (fun i => place w j i % 2 ^ 8) n := by
      rw [← pack_mul, ← pack_add]
      exact pack_congr n (fun i _ => by omega)
    omega
  have hs : ∀ i, i < n → psum (fun i => place w j i / 256) i < 2 ^ B := by
    intro i hi
    have h1 := psum_le (fun i => place w j i / 256) (2 ^ (w - 8) - 1) n (fun i _ => by have := place_lt w j i; omega) i hi
    have h2 : (i + 1) * (2 ^ (w - 8) - 1) ≤ n * (2 ^ (w - 8) - 1) := Nat.mul_le_mul_right _ (by omega)
    have h3 : n * (2 ^ (w - 8) - 1) < n * 2 ^ (w - 8) :=
      Nat.mul_lt_mul_of_pos_left (by have := Nat.two_pow_pos (w - 8); omega) (by omega)
    omega
  unfold level
  rw [pack_mod hB 8 (by omega) n hlt, e, pack_sums hX n hs, pack_mod hB w hw n hs]
  exact pack_congr n (fun i _ => (acc_eq w _ (by simp [place_zero]) i).symm)

/-! ### The calculation -/

/-- `f x`, where the kernel calculates `x` first. -/
def force {α : Type} (x : Nat) (f : Nat → α) : α := Nat.rec (f 0) (fun n _ => f (Nat.succ n)) x

theorem force_eq {α : Type} (x : Nat) (f : Nat → α) : force x f = f x := by
  cases x <;> rfl

/-- The lanes `i` of `n` places from that of `Z` on. -/
def column (w X n i : Nat) : Nat → Nat → List Nat
  | 0, _ => []
  | m + 1, Z => force (lane X i Z) fun a => a :: force (level w X n Z) (column w X n i m)

theorem column_eq {w B n i : Nat} (hw8 : 8 ≤ w) (hw : w ≤ B) (hnB : n * 2 ^ (w - 8) ≤ 2 ^ B) (hi : i < n) (m : Nat) :
    ∀ j, column w (2 ^ B) n i m (pack (2 ^ B) (place w j) n) = (List.range m).map fun t => place w (j + t) i := by
  have hp : 2 ^ w ≤ 2 ^ B := Nat.pow_le_pow_right (by omega) hw
  induction m with
  | zero => intro j; rfl
  | succ m ih =>
    intro j
    rw [column, force_eq, force_eq, lane_pack n (fun i _ => Nat.lt_of_lt_of_le (place_lt w j i) hp) i hi, level_eq hw8 hw hnB, ih,
      List.range_succ_eq_map, List.map_cons, List.map_map]
    congr 1
    apply List.map_congr_left
    intro t _
    simp only [Function.comp, Nat.succ_eq_add_one]
    congr 1
    omega

theorem places_column {w B n i : Nat} (hw8 : 8 ≤ w) (hw : w ≤ B) (hnB : n * 2 ^ (w - 8) ≤ 2 ^ B) (hi : i < n) (hn : n ≤ 2 ^ B) :
    places w i = column w (2 ^ B) n i 8 (first w (2 ^ B) n) := by
  rw [first_eq (by omega) hw (by omega) hn, column_eq hw8 hw hnB hi, places_eq]
  simp

/-- The counter from its places. -/
def counterOf : List Nat → Nat
  | [a0, a1, a2, a3, a4, a5, a6, a7] => word [a0, a1, a2, a3] + 2 ^ 32 * word [a4, a5, a6, a7]
  | _ => 0

theorem ctr_column {w B n i : Nat} (hw8 : 8 ≤ w) (hw : w ≤ B) (hnB : n * 2 ^ (w - 8) ≤ 2 ^ B) (hi : i < n) (hn : n ≤ 2 ^ B) :
    ctr w i = counterOf (column w (2 ^ B) n i 8 (first w (2 ^ B) n)) := by
  unfold ctr
  rw [places_column hw8 hw hnB hi hn]
  have hl := places_length w i
  rw [places_column hw8 hw hnB hi hn] at hl
  generalize column w (2 ^ B) n i 8 (first w (2 ^ B) n) = p at hl
  match p, hl with
  | [a0, a1, a2, a3, a4, a5, a6, a7], _ => rfl

/-- With words of 64 bits, two blocks have the same counter. -/
theorem ctr64_same : ctr 64 385020 = ctr 64 589820 := by
  have h1 : ctr 64 385020 = 0xffffff0f7ffffffc := by
    rw [ctr_column (B := 76) (n := 385021) (by omega) (by omega) (by omega) (by omega) (by omega)]
    decide +kernel
  have h2 : ctr 64 589820 = 0xffffff0f7ffffffc := by
    rw [ctr_column (B := 76) (n := 589821) (by omega) (by omega) (by omega) (by omega) (by omega)]
    decide +kernel
  rw [h1, h2]

/-- With words of 32 bits, two blocks have the same counter. -/
theorem ctr32_same : ctr 32 522614 = ctr 32 523638 := by
  have h1 : ctr 32 522614 = 0xffffed0affffff76 := by
    rw [ctr_column (B := 44) (n := 523639) (by omega) (by omega) (by omega) (by omega) (by omega)]
    decide +kernel
  have h2 : ctr 32 523638 = 0xffffed0affffff76 := by
    rw [ctr_column (B := 44) (n := 523639) (by omega) (by omega) (by omega) (by omega) (by omega)]
    decide +kernel
  rw [h1, h2]

end Salt.Lanes
