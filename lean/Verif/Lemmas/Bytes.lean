import Verif.Model.CTypes

/-! Helper lemmas about little-endian encodings, slices and buffers. -/

namespace Salt

@[simp] theorem leBytes_length (w n : Nat) : (leBytes w n).length = w := by
  induction w generalizing n with
  | zero => rfl
  | succ w ih => simp [leBytes, ih]

@[simp] theorem zeros_length (n : Nat) : (zeros n).length = n := by simp [zeros]

theorem toNat_ofNat_mod (n : Nat) : (UInt8.ofNat (n % 256)).toNat = n % 256 := by
  rw [UInt8.toNat_ofNat']; omega

theorem leNat_leBytes (w n : Nat) : leNat (leBytes w n) = n % 256 ^ w := by
  induction w generalizing n with
  | zero => simp [leBytes, leNat, Nat.mod_one]
  | succ w ih =>
    simp only [leBytes, leNat, toNat_ofNat_mod, ih]
    rw [Nat.pow_succ, Nat.mul_comm (256 ^ w) 256, Nat.mod_mul]

theorem leNat_lt (b : Bytes) : leNat b < 256 ^ b.length := by
  induction b with
  | nil => simp [leNat]
  | cons x t ih =>
    have hx : x.toNat < 256 := x.toNat_lt
    have h : leNat t + 1 ≤ 256 ^ t.length := ih
    have := Nat.mul_le_mul_left 256 h
    simp only [leNat, List.length_cons, Nat.pow_succ]
    omega

theorem leBytes_leNat (b : Bytes) : leBytes b.length (leNat b) = b := by
  induction b with
  | nil => rfl
  | cons x t ih =>
    have hx : x.toNat < 256 := x.toNat_lt
    simp only [List.length_cons, leBytes, leNat]
    have h1 : (x.toNat + 256 * leNat t) % 256 = x.toNat := by omega
    have h2 : (x.toNat + 256 * leNat t) / 256 = leNat t := by omega
    rw [h1, h2, ih, UInt8.ofNat_toNat]

theorem leBytes_leNat' {b : Bytes} {w : Nat} (h : b.length = w) : leBytes w (leNat b) = b := by
  subst h; exact leBytes_leNat b

theorem leNat_leBytes_of_lt {w n : Nat} (h : n < 256 ^ w) : leNat (leBytes w n) = n := by
  rw [leNat_leBytes, Nat.mod_eq_of_lt h]

theorem leBytes_inj {w a b : Nat} (ha : a < 256 ^ w) (hb : b < 256 ^ w)
    (h : leBytes w a = leBytes w b) : a = b := by
  rw [← leNat_leBytes_of_lt ha, h, leNat_leBytes_of_lt hb]

theorem leNat_inj {a b : Bytes} (hl : a.length = b.length) (h : leNat a = leNat b) : a = b := by
  rw [← leBytes_leNat a, ← leBytes_leNat b, h, hl]

theorem leNat_append (a b : Bytes) : leNat (a ++ b) = leNat a + 256 ^ a.length * leNat b := by
  induction a with
  | nil => simp [leNat]
  | cons x t ih =>
    simp only [List.cons_append, leNat, ih, List.length_cons, Nat.pow_succ, Nat.mul_add]
    rw [← Nat.mul_assoc, Nat.mul_comm 256 (256 ^ t.length), Nat.add_assoc]

@[simp] theorem structFromBytes_length (self src : Bytes) :
    (structFromBytes self src).length = self.length := by
  unfold structFromBytes; split
  · rfl
  · simp; omega

theorem structFromBytes_eq (self src : Bytes) :
    structFromBytes self src = src.take self.length ++ self.drop src.length := by
  unfold structFromBytes
  split
  · rename_i h; simp at h; simp [h]
  · rcases Nat.le_total src.length self.length with h | h
    · rw [Nat.min_eq_left h, List.take_of_length_le (Nat.le_refl _), List.take_of_length_le h]
    · rw [Nat.min_eq_right h, List.drop_of_length_le (Nat.le_refl _), List.drop_of_length_le h]

/-- With enough source bytes the structure is the prefix of the source. -/
theorem structFromBytes_of_le {self src : Bytes} (h : self.length ≤ src.length) :
    structFromBytes self src = src.take self.length := by
  rw [structFromBytes_eq, List.drop_of_length_le h, List.append_nil]

theorem structFromBytes_of_eq {self src : Bytes} (h : self.length = src.length) :
    structFromBytes self src = src := by
  rw [structFromBytes_of_le (Nat.le_of_eq h), List.take_of_length_le (Nat.le_of_eq h.symm)]

theorem slice_append_mid {α : Type} (a b c : List α) {i j : Nat} (hi : a.length = i)
    (hj : i + b.length = j) : slice (a ++ b ++ c) i j = b := by
  subst hi; subst hj
  unfold slice
  rw [List.take_append_of_le_length (by simp), List.take_of_length_le (by simp),
    List.drop_left]

theorem slice_length {α : Type} (b : List α) (i j : Nat) :
    (slice b i j).length = min j b.length - i := by
  simp [slice]

theorem slice_eq_drop_take {α : Type} (b : List α) (i n : Nat) :
    slice b i (i + n) = (b.drop i).take n := by
  unfold slice
  rw [List.drop_take]; congr 1; omega

theorem setBytes_append_mid (a b c v : Bytes) {i : Nat} (hi : a.length = i)
    (hv : v.length = b.length) : setBytes (a ++ b ++ c) i v = a ++ v ++ c := by
  subst hi
  unfold setBytes
  rw [List.append_assoc a b c, List.take_left, hv, ← List.append_assoc a b c,
    ← List.length_append, List.drop_left]

theorem setBytes_length (self : Bytes) (off : Nat) (v : Bytes) (h : off + v.length ≤ self.length) :
    (setBytes self off v).length = self.length := by
  simp [setBytes]; omega

theorem getLE_setLE_same (self : Bytes) (off w n : Nat) (h : off + w ≤ self.length) :
    getLE (setLE self off w n) off w = n % 256 ^ w := by
  unfold getLE setLE setBytes
  rw [slice_append_mid _ (leBytes w n) _ (by simp; omega) (by simp), leNat_leBytes]

/-- Byte-at-a-time view of a one byte field. -/
theorem getLE_one {self : Bytes} {off : Nat} {x : UInt8} (h : self[off]? = some x) :
    getLE self off 1 = x.toNat := by
  unfold getLE
  rw [slice_eq_drop_take]
  have hlt : off < self.length := by
    rcases Nat.lt_or_ge off self.length with h' | h'
    · exact h'
    · rw [List.getElem?_eq_none h'] at h; simp at h
  rw [List.drop_eq_getElem_cons hlt]
  have hx : self[off] = x := by
    rw [List.getElem?_eq_getElem hlt] at h; exact Option.some.inj h
  simp [leNat, hx]

theorem drop_length_eq_nil {α : Type} (l : List α) (n : Nat) (h : l.length ≤ n) : l.drop n = [] :=
  List.drop_of_length_le h

end Salt
