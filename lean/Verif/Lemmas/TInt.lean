import Verif.Model.TInt
import Verif.Model.TweetSalsa
import Verif.Spec.Salsa20

/-! Lemmas on typed integers. -/

namespace Salt.Tweet

open Salt.Spec

/-! ### Loops -/

theorem forRange_succ {α : Type} (n : Nat) (s : α) (body : Nat → α → α) :
    forRange (n + 1) s body = body n (forRange n s body) := by
  simp [forRange, List.range_succ]

theorem forRange_zero {α : Type} (s : α) (body : Nat → α → α) : forRange 0 s body = s := rfl

/-- Setting consecutive items. -/
theorem forRange_set (n off : Nat) (c : List V) (f : Nat → V) (h : off + n ≤ c.length) :
    forRange n c (fun i c => c.set (i + off) (f i)) = c.take off ++ (List.range n).map f ++ c.drop (off + n) := by
  induction n with
  | zero => simp [forRange_zero]
  | succ n ih =>
    rw [forRange_succ, ih (by omega), List.set_append]
    simp only [List.length_append, List.length_take, List.length_map, List.length_range]
    rw [if_neg (by omega), List.range_succ, List.map_append]
    have e : n + off - (min off c.length + n) = 0 := by omega
    rw [e, List.drop_eq_getElem_cons (by omega : off + n < c.length), List.set_cons_zero]
    simp [Nat.add_assoc]

/-! ### Bytes -/

/-- An item that holds a byte. -/
def IsByte (x : V) (b : UInt8) : Prop := (x.ty = .u8 ∨ x.ty = .plain) ∧ x.v = b.toNat

/-- An array of bytes. -/
def AreBytes (x : List V) (b : Bytes) : Prop := List.Forall₂ IsByte x b

theorem AreBytes.length {x : List V} {b : Bytes} (h : AreBytes x b) : x.length = b.length := by
  induction h with
  | nil => rfl
  | cons _ _ ih => simp [ih]

theorem areBytes_ofBytes (b : Bytes) : AreBytes (ofBytes b) b := by
  induction b with
  | nil => exact .nil
  | cons x b ih => exact .cons ⟨.inr rfl, rfl⟩ ih

theorem toBytes_of {x : List V} {b : Bytes} (h : AreBytes x b) : toBytes x = .ok b := by
  have h1 : x.all (fun a => 0 ≤ a.v ∧ a.v < 256) = true := by
    induction h with
    | nil => rfl
    | cons hx _ ih =>
      rw [List.all_cons, ih, Bool.and_true]
      have := hx.2
      have := UInt8.toNat_lt ‹UInt8›
      simp only [decide_eq_true_eq]
      omega
  unfold toBytes
  rw [if_pos h1]
  congr 1
  induction h with
  | nil => rfl
  | cons hx h ih =>
    rw [List.map_cons, ih (by rw [List.all_cons, Bool.and_eq_true] at h1; exact h1.2), hx.2]
    simp

theorem AreBytes.drop {x : List V} {b : Bytes} (h : AreBytes x b) (n : Nat) : AreBytes (x.drop n) (b.drop n) := by
  induction h generalizing n with
  | nil => simp [AreBytes]
  | cons h1 h2 ih =>
    cases n with
    | zero => exact .cons h1 h2
    | succ n => exact ih n

theorem AreBytes.take {x : List V} {b : Bytes} (h : AreBytes x b) (n : Nat) : AreBytes (x.take n) (b.take n) := by
  induction h generalizing n with
  | nil => simp [AreBytes]
  | cons h1 h2 ih =>
    cases n with
    | zero => exact .nil
    | succ n => exact .cons h1 (ih n)

theorem AreBytes.append {x y : List V} {a b : Bytes} (h : AreBytes x a) (h' : AreBytes y b) :
    AreBytes (x ++ y) (a ++ b) := by
  induction h with
  | nil => exact h'
  | cons h1 _ ih => exact .cons h1 ih

theorem AreBytes.at' {x : List V} {b : Bytes} (h : AreBytes x b) (n : Nat) : IsByte (at' x n) (b.getD n 0) := by
  unfold Tweet.at'
  induction h generalizing n with
  | nil => exact ⟨.inr rfl, rfl⟩
  | cons h1 h2 ih =>
    cases n with
    | zero => exact h1
    | succ n => exact ih n

theorem areBytes_zeros (n : Nat) : AreBytes (intArray .u8 n) (List.replicate n 0) := by
  induction n with
  | zero => exact .nil
  | succ n ih => exact .cons ⟨.inl rfl, rfl⟩ ih

/-! ### Casts -/

theorem cast_nat (t : Ty) (ht : t ≠ .plain) (a : Nat) : cast t (a : Int) = ⟨t, ((a % 2 ^ t.bits : Nat) : Int)⟩ := by
  unfold cast
  cases t <;> simp_all

theorem cast_plain (a : Int) : cast .plain a = ⟨.plain, a⟩ := rfl

theorem cast_u8_byte (a : Nat) : IsByte (cast .u8 (a : Int)) (UInt8.ofNat a) := by
  rw [cast_nat _ (by simp)]
  exact ⟨.inl rfl, by simp [Ty.bits]⟩

theorem land_nat (a b : Nat) : Int.land (a : Int) (b : Int) = ((a &&& b : Nat) : Int) := rfl
theorem lor_nat (a b : Nat) : Int.lor (a : Int) (b : Int) = ((a ||| b : Nat) : Int) := rfl
theorem xor_nat (a b : Nat) : Int.xor (a : Int) (b : Int) = ((a ^^^ b : Nat) : Int) := rfl

theorem promote_nat (a b : Ty) (r : Nat) : promote a b (r : Int) = if a.order > b.order then a else b := by
  unfold promote
  rw [if_neg (by omega)]

theorem xor_byte {x y : V} {a b : UInt8} (hx : IsByte x a) (hy : IsByte y b) : IsByte (x ^^^ y) (a ^^^ b) := by
  obtain ⟨t, v⟩ := x
  obtain ⟨t', v'⟩ := y
  obtain ⟨h1, h2⟩ := hx
  obtain ⟨h3, h4⟩ := hy
  simp only at h1 h2 h3 h4
  subst h2 h4
  have e : (a.toNat ^^^ b.toNat) % 256 = a.toNat ^^^ b.toNat :=
    Nat.mod_eq_of_lt (Nat.xor_lt_two_pow (n := 8) a.toNat_lt b.toNat_lt)
  show IsByte (typed Int.xor _ _) _
  unfold typed
  simp only [xor_nat, promote_nat]
  rcases h1 with rfl | rfl <;> rcases h3 with rfl | rfl
  · rw [if_neg (by simp), cast_nat _ (by simp)]; exact ⟨.inl rfl, by simp [Ty.bits, e]⟩
  · rw [if_neg (by simp [Ty.order])]; exact ⟨.inr rfl, by simp [cast_plain]⟩
  · rw [if_pos (by simp [Ty.order])]; exact ⟨.inr rfl, by simp [cast_plain]⟩
  · rw [if_neg (by simp)]; exact ⟨.inr rfl, by simp [cast_plain]⟩

/-! ### 32-bit words -/

/-- A value whose lowest 32 bits are those of a word. -/
def Low (w : Nat) (x : V) (n : UInt32) : Prop :=
  (x.ty = .u32 w ∨ x.ty = .plain) ∧ ∃ a : Nat, x.v = a ∧ a % 2 ^ 32 = n.toNat

theorem cast_low {w : Nat} (hw : 32 ≤ w) {t : Ty} (ht : t = .u32 w ∨ t = .plain) (a : Nat) (n : UInt32)
    (h : a % 2 ^ 32 = n.toNat) : Low w (cast t (a : Int)) n := by
  rcases ht with rfl | rfl
  · rw [cast_nat _ (by simp)]
    refine ⟨.inl rfl, _, rfl, ?_⟩
    simp only [Ty.bits]
    rw [Nat.mod_mod_of_dvd _ (Nat.pow_dvd_pow 2 hw), h]
  · exact ⟨.inr rfl, a, rfl, h⟩

theorem typed_low {w : Nat} (hw : 32 ≤ w) (f : Int → Int → Int) (g : Nat → Nat → Nat) (hf : ∀ a b : Nat, f a b = (g a b : Nat))
    {x y : V} {a b : UInt32} (hx : Low w x a) (hy : Low w y b) (c : UInt32)
    (hg : ∀ m n : Nat, m % 2 ^ 32 = a.toNat → n % 2 ^ 32 = b.toNat → g m n % 2 ^ 32 = c.toNat) :
    Low w (typed f x y) c := by
  obtain ⟨ht, m, hm, hm'⟩ := hx
  obtain ⟨ht', n, hn, hn'⟩ := hy
  unfold typed
  rw [hm, hn, hf, promote_nat]
  refine cast_low hw ?_ _ _ (hg m n hm' hn')
  split
  · exact ht
  · exact ht'

theorem add_low {w : Nat} (hw : 32 ≤ w) {x y : V} {a b : UInt32} (hx : Low w x a) (hy : Low w y b) :
    Low w (x + y) (a + b) := by
  refine typed_low hw (· + ·) (· + ·) (fun a b => by simp) hx hy _ ?_
  intro m n h1 h2
  simp only [UInt32.toNat_add, ← h1, ← h2]
  omega

theorem xor_low {w : Nat} (hw : 32 ≤ w) {x y : V} {a b : UInt32} (hx : Low w x a) (hy : Low w y b) :
    Low w (x ^^^ y) (a ^^^ b) := by
  refine typed_low hw Int.xor (· ^^^ ·) (fun a b => rfl) hx hy _ ?_
  intro m n h1 h2
  simp only [UInt32.toNat_xor, ← h1, ← h2, Nat.xor_mod_two_pow]

/-- `L32` rotates the lowest 32 bits. -/
theorem L32_low {w : Nat} (hw : 32 ≤ w) {x : V} {a : UInt32} (hx : Low w x a) (c : Nat) (h0 : 0 < c) (hc : c < 32) :
    Low w (L32 w x c) (rotl a (UInt32.ofNat c)) := by
  obtain ⟨ht, m, hm, hm'⟩ := hx
  unfold L32 u32
  rw [hm, cast_nat _ (by simp)]
  simp only [Ty.bits]
  have e : m % 2 ^ w % 2 ^ 32 = a.toNat := by rw [Nat.mod_mod_of_dvd _ (Nat.pow_dvd_pow 2 hw), hm']
  generalize m % 2 ^ w = q at e
  have h1 : ((⟨.u32 w, (q : Int)⟩ : V) <<< c) = ⟨.u32 w, ((q * 2 ^ c % 2 ^ w : Nat) : Int)⟩ := by
    show cast _ _ = _
    rw [show (q : Int) * 2 ^ c = ((q * 2 ^ c : Nat) : Int) by push_cast; rfl, cast_nat _ (by simp)]
    rfl
  have h2 : ((⟨.u32 w, (q : Int)⟩ : V) &&& 0xffffffff) = ⟨.plain, ((q % 2 ^ 32 : Nat) : Int)⟩ := by
    show typed Int.land _ _ = _
    unfold typed
    rw [show ((0xffffffff : V).v) = ((2 ^ 32 - 1 : Nat) : Int) by rfl, land_nat, Nat.and_two_pow_sub_one_eq_mod,
      promote_nat, if_neg (by simp [Ty.order])]
    rfl
  have h3 : ((⟨.plain, ((q % 2 ^ 32 : Nat) : Int)⟩ : V) >>> (32 - c)) = ⟨.plain, ((q % 2 ^ 32 / 2 ^ (32 - c) : Nat) : Int)⟩ := by
    show cast _ _ = _
    rw [cast_plain]
    push_cast
    rfl
  rw [h1, h2, h3]
  have hl : Low w ⟨.u32 w, ((q * 2 ^ c % 2 ^ w : Nat) : Int)⟩ (a <<< UInt32.ofNat c) := by
    refine ⟨.inl rfl, _, rfl, ?_⟩
    rw [Nat.mod_mod_of_dvd _ (Nat.pow_dvd_pow 2 hw)]
    simp only [UInt32.toNat_shiftLeft, UInt32.toNat_ofNat', Nat.shiftLeft_eq, ← e]
    rw [Nat.mod_eq_of_lt (by omega : c % 2 ^ 32 < 32), Nat.mod_eq_of_lt (by omega : c < 2 ^ 32), Nat.mod_mul_mod]
  have hr : Low w ⟨.plain, ((q % 2 ^ 32 / 2 ^ (32 - c) : Nat) : Int)⟩ (a >>> (32 - UInt32.ofNat c)) := by
    refine ⟨.inr rfl, _, rfl, ?_⟩
    rw [e]
    have e2 : (32 - UInt32.ofNat c).toNat = 32 - c := by
      rw [UInt32.toNat_sub]
      simp
      omega
    rw [UInt32.toNat_shiftRight, e2, Nat.shiftRight_eq_div_pow, Nat.mod_eq_of_lt (by omega : 32 - c < 32)]
    exact Nat.mod_eq_of_lt (Nat.lt_of_le_of_lt (Nat.div_le_self _ _) a.toNat_lt)
  refine typed_low hw Int.lor (· ||| ·) (fun a b => rfl) hl hr _ ?_
  intro m n h1 h2
  unfold rotl
  rw [UInt32.toNat_or, ← h1, ← h2, Nat.or_mod_two_pow]

end Salt.Tweet
