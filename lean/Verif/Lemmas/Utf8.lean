import Verif.Model.A1A2
import Verif.Spec.Utf8

/-! Correctness of the UTF-8 decoder of the model and of the name matcher. -/

namespace Salt

theorem toNat_ofNat_lt {n : Nat} (h : n < 256) : (UInt8.ofNat n).toNat = n := by
  rw [UInt8.toNat_ofNat']; omega

theorem utf8Decode_enc (c : Nat) (hc : Spec.scalar c) (t : Bytes) :
    utf8Decode (Spec.utf8Enc c ++ t) = (utf8Decode t).map (c :: ·) := by
  unfold Spec.scalar at hc
  unfold Spec.utf8Enc
  split
  · rename_i h
    have h1 : (UInt8.ofNat c).toNat = c := toNat_ofNat_lt (by omega)
    simp only [List.cons_append, List.nil_append]
    rw [utf8Decode.eq_def]; simp only [h1, if_pos h]
  · split
    · have h1 : (UInt8.ofNat (0xC0 + c / 64)).toNat = 0xC0 + c / 64 := toNat_ofNat_lt (by omega)
      have h2 : (UInt8.ofNat (0x80 + c % 64)).toNat = 0x80 + c % 64 := toNat_ofNat_lt (by omega)
      simp only [List.cons_append, List.nil_append]
      rw [utf8Decode.eq_def]
      simp only [h1, h2]
      rw [if_neg (by omega), if_pos (by omega), if_pos (by omega)]
      rw [show (0xC0 + c / 64 - 0xC0) * 64 + (0x80 + c % 64 - 0x80) = c by omega]
    · split
      · have h1 : (UInt8.ofNat (0xE0 + c / 4096)).toNat = 0xE0 + c / 4096 := toNat_ofNat_lt (by omega)
        have h2 : (UInt8.ofNat (0x80 + c / 64 % 64)).toNat = 0x80 + c / 64 % 64 :=
          toNat_ofNat_lt (by omega)
        have h3 : (UInt8.ofNat (0x80 + c % 64)).toNat = 0x80 + c % 64 := toNat_ofNat_lt (by omega)
        simp only [List.cons_append, List.nil_append]
        rw [utf8Decode.eq_def]
        simp only [h1, h2, h3]
        rw [if_neg (by omega), if_neg (by omega), if_pos (by omega), if_pos]
        · rw [show (0xE0 + c / 4096 - 0xE0) * 4096 + (0x80 + c / 64 % 64 - 0x80) * 64
              + (0x80 + c % 64 - 0x80) = c by omega]
        · refine ⟨?_, ?_, by omega, by omega⟩
          · split <;> omega
          · split <;> omega
      · have h1 : (UInt8.ofNat (0xF0 + c / 262144)).toNat = 0xF0 + c / 262144 :=
          toNat_ofNat_lt (by omega)
        have h2 : (UInt8.ofNat (0x80 + c / 4096 % 64)).toNat = 0x80 + c / 4096 % 64 :=
          toNat_ofNat_lt (by omega)
        have h3 : (UInt8.ofNat (0x80 + c / 64 % 64)).toNat = 0x80 + c / 64 % 64 :=
          toNat_ofNat_lt (by omega)
        have h4 : (UInt8.ofNat (0x80 + c % 64)).toNat = 0x80 + c % 64 := toNat_ofNat_lt (by omega)
        simp only [List.cons_append, List.nil_append]
        rw [utf8Decode.eq_def]
        simp only [h1, h2, h3, h4]
        rw [if_neg (by omega), if_neg (by omega), if_neg (by omega), if_pos (by omega), if_pos]
        · rw [show (0xF0 + c / 262144 - 0xF0) * 262144 + (0x80 + c / 4096 % 64 - 0x80) * 4096
              + (0x80 + c / 64 % 64 - 0x80) * 64 + (0x80 + c % 64 - 0x80) = c by omega]
        · refine ⟨?_, ?_, by omega, by omega, by omega, by omega⟩
          · split <;> omega
          · split <;> omega

theorem ofNat_eq_of_toNat {n : Nat} {b : UInt8} (h : b.toNat = n) : UInt8.ofNat n = b := by
  rw [← h, UInt8.ofNat_toNat]

theorem isUtf8_cons {c : Nat} {e t : Bytes} {cs : List Nat} (hc : Spec.scalar c)
    (he : Spec.utf8Enc c = e) (h : Spec.IsUtf8 t cs) : Spec.IsUtf8 (e ++ t) (c :: cs) := by
  refine ⟨?_, by simp [h.2, he]⟩
  intro x hx
  rcases List.mem_cons.1 hx with rfl | hx
  · exact hc
  · exact h.1 x hx

theorem utf8Decode_sound (b : Bytes) : ∀ cs, utf8Decode b = some cs → Spec.IsUtf8 b cs := by
  fun_induction utf8Decode b <;> intro cs h
  · simp at h; subst h; exact ⟨by simp, rfl⟩
  · rename_i b0 t0 h0 ih
    obtain ⟨ds, hd, rfl⟩ := Option.map_eq_some_iff.1 h
    refine isUtf8_cons (e := [b0]) (by unfold Spec.scalar; omega) ?_ (ih ds hd)
    simp [Spec.utf8Enc, h0]
  · simp at h
  · rename_i b0 h0 b1 t1 h1 h2 ih
    obtain ⟨ds, hd, rfl⟩ := Option.map_eq_some_iff.1 h
    refine isUtf8_cons (e := [b0, b1]) (by unfold Spec.scalar; omega) ?_ (ih ds hd)
    unfold Spec.utf8Enc
    rw [if_neg (by omega), if_pos (by omega), ofNat_eq_of_toNat (b := b0) (by omega),
      ofNat_eq_of_toNat (b := b1) (by omega)]
  · simp at h
  · simp at h
  · rename_i b0 h0 b1 h1 b2 t2 h2 h3 ih
    obtain ⟨ds, hd, rfl⟩ := Option.map_eq_some_iff.1 h
    obtain ⟨ha, hb, hc, hd'⟩ := h3
    have ha' : 0x80 ≤ b1.toNat ∧ (b0.toNat = 0xE0 → 0xA0 ≤ b1.toNat) := by split at ha <;> omega
    have hb' : b1.toNat ≤ 0xBF ∧ (b0.toNat = 0xED → b1.toNat ≤ 0x9F) := by split at hb <;> omega
    refine isUtf8_cons (e := [b0, b1, b2]) (by unfold Spec.scalar; omega) ?_ (ih ds hd)
    unfold Spec.utf8Enc
    rw [if_neg (by omega), if_neg (by omega), if_pos (by omega), ofNat_eq_of_toNat (b := b0) (by omega),
      ofNat_eq_of_toNat (b := b1) (by omega), ofNat_eq_of_toNat (b := b2) (by omega)]
  · simp at h
  · simp at h
  · rename_i b0 h0 b1 h1 b2 h2 b3 t3 h3 h4 ih
    obtain ⟨ds, hd, rfl⟩ := Option.map_eq_some_iff.1 h
    obtain ⟨ha, hb, hc, hd', he, hf⟩ := h4
    have ha' : 0x80 ≤ b1.toNat ∧ (b0.toNat = 0xF0 → 0x90 ≤ b1.toNat) := by split at ha <;> omega
    have hb' : b1.toNat ≤ 0xBF ∧ (b0.toNat = 0xF4 → b1.toNat ≤ 0x8F) := by split at hb <;> omega
    refine isUtf8_cons (e := [b0, b1, b2, b3]) (by unfold Spec.scalar; omega) ?_ (ih ds hd)
    unfold Spec.utf8Enc
    rw [if_neg (by omega), if_neg (by omega), if_neg (by omega), ofNat_eq_of_toNat (b := b0) (by omega),
      ofNat_eq_of_toNat (b := b1) (by omega), ofNat_eq_of_toNat (b := b2) (by omega),
      ofNat_eq_of_toNat (b := b3) (by omega)]
  · simp at h
  · simp at h

/-- The decoder of the model accepts exactly the UTF-8 encodings and returns the encoded text. -/
theorem utf8Decode_iff (b : Bytes) (cs : List Nat) : utf8Decode b = some cs ↔ Spec.IsUtf8 b cs := by
  constructor
  · exact utf8Decode_sound b cs
  · rintro ⟨h, rfl⟩
    induction cs with
    | nil => simp [utf8Decode]
    | cons c cs ih =>
      simp only [List.map_cons, List.flatten_cons]
      rw [utf8Decode_enc c (h c (by simp)), ih (fun x hx => h x (by simp [hx]))]
      rfl

theorem nameChar_iff (uw : Nat → Bool) (c : Nat) : A2.nameChar uw c = true ↔ Spec.NameCode uw c := by
  simp [A2.nameChar, Spec.NameCode, or_assoc]

theorem nameCode_ne_newline {uw : Nat → Bool} {c : Nat} (h : Spec.NameCode uw c) : c ≠ 0x0a := by
  unfold Spec.NameCode at h; rintro rfl; omega

theorem nameMatch_iff (uw : Nat → Bool) (s : List Nat) :
    A2.nameMatch uw s = true ↔ Spec.NameText uw s := by
  unfold A2.nameMatch Spec.NameText
  simp only [Bool.and_eq_true, Bool.not_eq_true', List.isEmpty_eq_false_iff, List.all_eq_true,
    nameChar_iff]
  constructor
  · rintro ⟨h1, h2⟩
    refine ⟨_, h1, h2, ?_⟩
    by_cases hn : s.getLast? = some 0x0a
    · right
      rw [if_pos hn]
      have hne : s ≠ [] := by rintro rfl; simp at hn
      have := List.dropLast_concat_getLast hne
      rw [List.getLast?_eq_some_getLast hne, Option.some.injEq] at hn
      rw [hn] at this
      exact this.symm
    · left; rw [if_neg hn]
  · rintro ⟨body, hb, hc, rfl | rfl⟩
    · have : s.getLast? ≠ some 0x0a := by
        rw [List.getLast?_eq_some_getLast hb]
        intro h
        exact nameCode_ne_newline (hc _ (List.getLast_mem hb)) (Option.some.inj h)
      rw [if_neg this]
      exact ⟨hb, hc⟩
    · simp [hb]
      exact hc

theorem nameValid_true_iff (uw : Nat → Bool) (p : Bytes) :
    A2.nameValid uw p = .ok true ↔ Spec.NameField uw p := by
  unfold A2.nameValid Spec.NameField
  cases h : utf8Decode p with
  | none =>
    constructor
    · intro h; simp at h
    · rintro ⟨s, hs, -⟩
      rw [(utf8Decode_iff _ _).2 hs] at h; simp at h
  | some s =>
    constructor
    · intro hm
      exact ⟨s, (utf8Decode_iff _ _).1 h, (nameMatch_iff _ _).1 (by simpa using hm)⟩
    · rintro ⟨s', hs, hm⟩
      rw [(utf8Decode_iff _ _).2 hs] at h
      cases h
      simpa using (nameMatch_iff _ _).2 hm

theorem nameValid_error_iff (uw : Nat → Bool) (p : Bytes) (e : Err) :
    A2.nameValid uw p = .error e ↔ e = .unicodeDecodeError ∧ ¬ ∃ s, Spec.IsUtf8 p s := by
  unfold A2.nameValid
  cases h : utf8Decode p with
  | none =>
    constructor
    · intro h'
      refine ⟨by simpa [eq_comm] using h', ?_⟩
      rintro ⟨s, hs⟩
      rw [(utf8Decode_iff _ _).2 hs] at h; simp at h
    · rintro ⟨rfl, -⟩; rfl
  | some s =>
    constructor
    · intro h'; simp at h'
    · rintro ⟨-, hn⟩; exact absurd ⟨s, (utf8Decode_iff _ _).1 h⟩ hn

end Salt
