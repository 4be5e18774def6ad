import Verif.Model.KeyText

/-!
# C133: key pairs as text
-/

namespace Salt.Spec

open Salt

/-- The hexadecimal digits, in order. -/
def hexDigits : List Char := "0123456789abcdef".toList

/-- The text is the bytes, most significant digit first. -/
inductive HexOf : List Char → Bytes → Prop
  | nil : HexOf [] []
  | cons {c d : Char} {x : UInt8} {t : List Char} {b : Bytes} (h1 : hexDigits[x.toNat / 16]? = some c)
      (h2 : hexDigits[x.toNat % 16]? = some d) (h : HexOf t b) : HexOf (c :: d :: t) (x :: b)

/-- The text is that of a key pair: the secret key, a comma and a new line, the public key. -/
def KeyText (t : List Char) (k : KeyPair) : Prop := ∃ s p, t = s ++ ", \n".toList ++ p ∧ HexOf s k.sec ∧ HexOf p k.pub

end Salt.Spec

namespace Salt.Props

open Salt Salt.Spec

theorem hexDigit_eq : ∀ n < 16, hexDigits[n]? = some (hexDigit n) := by decide

theorem hexDigits_index : ∀ i < 16, ∀ j < 16, hexDigits[i]? = hexDigits[j]? → i = j := by decide

theorem hexOf_hex (b : Bytes) : HexOf (hex b) b := by
  induction b with
  | nil => exact .nil
  | cons x b ih =>
    have := x.toNat_lt
    exact .cons (hexDigit_eq _ (by omega)) (hexDigit_eq _ (by omega)) ih

theorem hexOf_mem {t : List Char} {b : Bytes} (h : HexOf t b) : ∀ c ∈ t, c ∈ hexDigits := by
  induction h with
  | nil => simp
  | cons h1 h2 _ ih =>
    intro c hc
    simp only [List.mem_cons] at hc
    rcases hc with rfl | rfl | hc
    · exact List.mem_of_getElem? h1
    · exact List.mem_of_getElem? h2
    · exact ih c hc

theorem hexOf_unique {t : List Char} {b b' : Bytes} (h : HexOf t b) (h' : HexOf t b') : b = b' := by
  induction h generalizing b' with
  | nil => cases h'; rfl
  | @cons c d x t b h1 h2 _ ih =>
    cases h' with
    | @cons _ _ y _ b' h3 h4 h5 =>
      have hx := x.toNat_lt
      have hy := y.toNat_lt
      have e1 := hexDigits_index (x.toNat / 16) (by omega) (y.toNat / 16) (by omega) (h1.trans h3.symm)
      have e2 := hexDigits_index (x.toNat % 16) (by omega) (y.toNat % 16) (by omega) (h2.trans h4.symm)
      rw [ih h5, show x = y from UInt8.toNat.inj (by omega)]

/-- A list is cut only in one way at the first comma. -/
theorem cut_unique {s s' p p' : List Char} {c : Char} (hs : c ∉ s) (hs' : c ∉ s') (h : s ++ c :: p = s' ++ c :: p') : s = s' ∧ p = p' := by
  induction s generalizing s' with
  | nil =>
    cases s' with
    | nil => exact ⟨rfl, by simpa using h⟩
    | cons x s' => simp at h hs'; exact absurd h.1 hs'.1
  | cons x s ih =>
    cases s' with
    | nil => simp at h hs; exact absurd h.1.symm hs.1
    | cons y s' =>
      simp only [List.cons_append, List.cons.injEq] at h
      simp only [List.mem_cons, not_or] at hs hs'
      obtain ⟨rfl, h⟩ := h
      obtain ⟨rfl, rfl⟩ := ih hs.2 hs'.2 h
      exact ⟨rfl, rfl⟩

/-- **C133.** `str` of a key pair is the text of that key pair and of no other: what is printed can be read back, and different key
pairs are printed differently, whatever the lengths of the keys. -/
theorem C133_text (k k' : KeyPair) : KeyText k.str k' ↔ k' = k := by
  have self : ∀ k : KeyPair, KeyText k.str k := fun k => ⟨hex k.sec, hex k.pub, rfl, hexOf_hex _, hexOf_hex _⟩
  refine ⟨?_, fun h => h ▸ self k'⟩
  rintro ⟨s, p, h, h1, h2⟩
  have hc : ',' ∉ hexDigits := by decide
  have h' : hex k.sec ++ ',' :: (' ' :: '\n' :: hex k.pub) = s ++ ',' :: (' ' :: '\n' :: p) := by
    simpa [KeyPair.str] using h
  obtain ⟨e1, e2⟩ := cut_unique (fun hm => hc (hexOf_mem (hexOf_hex k.sec) _ hm)) (fun hm => hc (hexOf_mem h1 _ hm)) h'
  simp only [List.cons.injEq, true_and] at e2
  subst e1 e2
  cases k; cases k'
  simp only [KeyPair.mk.injEq]
  exact ⟨hexOf_unique h1 (hexOf_hex _), hexOf_unique h2 (hexOf_hex _)⟩

/-- **C133.** Two digits for every byte, and three characters. -/
theorem C133_length (k : KeyPair) : k.str.length = 2 * k.sec.length + 2 * k.pub.length + 3 := by
  have : ∀ b : Bytes, (hex b).length = 2 * b.length := by
    intro b
    induction b with
    | nil => rfl
    | cons x b ih =>
      simp only [hex, List.flatMap_cons, List.length_append, List.length_cons, List.length_nil] at ih ⊢
      omega
  simp only [KeyPair.str, List.length_append, this, List.length_cons, List.length_nil]
  omega

/-- A key pair with a secret key of three bytes and a public one of two. -/
example : (KeyPair.mk [0, 171, 255] [16, 9]).str = "00abff, \n1009".toList := by decide

end Salt.Props
