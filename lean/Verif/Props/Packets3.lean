import Verif.Lemmas.Packets
import Verif.Lemmas.Utf8

/-!
# C09: acceptance set and round trip of A2 packets
-/

namespace Salt.Props

open Salt

set_option linter.unusedSimpArgs false

/-- Concatenated (P1, P2) pairs. -/
def protBytes (prots : List (Bytes × Bytes)) : Bytes := (prots.map fun p => p.1 ++ p.2).flatten

theorem protBytes_length (prots : List (Bytes × Bytes))
    (h : ∀ p ∈ prots, p.1.length = 10 ∧ p.2.length = 10) :
    (protBytes prots).length = 20 * prots.length := by
  induction prots with
  | nil => rfl
  | cons p ps ih =>
    have hp := h p (by simp)
    have := ih (fun x hx => h x (by simp [hx]))
    simp only [protBytes, List.map_cons, List.flatten_cons, List.length_append, List.length_cons] at *
    omega

theorem entries_protBytes (prots : List (Bytes × Bytes))
    (h : ∀ p ∈ prots, p.1.length = 10 ∧ p.2.length = 10) (tail : Bytes) :
    A2.entries prots.length (protBytes prots ++ tail) = prots.map fun p => p.1 ++ p.2 := by
  induction prots with
  | nil => rfl
  | cons p ps ih =>
    have hp := h p (by simp)
    have hl : (p.1 ++ p.2).length = 20 := by simp; omega
    simp only [List.length_cons, A2.entries, protBytes, List.map_cons, List.flatten_cons,
      List.append_assoc (p.1 ++ p.2)]
    rw [List.take_left' hl, List.drop_left' hl]
    exact congrArg _ (ih (fun x hx => h x (by simp [hx])))

theorem exists_prots (n : Nat) (b : Bytes) (hb : 20 * n ≤ b.length) :
    ∃ prots : List (Bytes × Bytes), prots.length = n ∧
      (∀ p ∈ prots, p.1.length = 10 ∧ p.2.length = 10) ∧ b = protBytes prots ++ b.drop (20 * n) := by
  induction n generalizing b with
  | zero => exact ⟨[], rfl, by simp, by simp [protBytes]⟩
  | succ n ih =>
    obtain ⟨ps, h1, h2, h3⟩ := ih (b.drop 20) (by simp; omega)
    refine ⟨(b.take 10, (b.drop 10).take 10) :: ps, by simp [h1], ?_, ?_⟩
    · intro p hp
      rcases List.mem_cons.1 hp with rfl | hp
      · simp; omega
      · exact h2 p hp
    · simp only [protBytes, List.map_cons, List.flatten_cons, List.append_assoc] at *
      rw [List.drop_drop] at h3
      rw [show 20 * (n + 1) = 20 + 20 * n by omega, ← h3, ← List.drop_drop (i := 10) (j := 10),
        List.take_append_drop, List.take_append_drop]

theorem validateEntries_ok (uw : Nat → Bool) (es : List Bytes) :
    A2.validateEntries uw es = .ok () ↔ ∀ e ∈ es, A2.protValid uw e = .ok true := by
  induction es with
  | nil => simp [A2.validateEntries]
  | cons e es ih =>
    simp only [A2.validateEntries, bind, Except.bind, List.mem_cons, forall_eq_or_imp, ← ih]
    cases h : A2.protValid uw e with
    | error x => simp
    | ok v => cases v <;> simp

theorem protValid_true (uw : Nat → Bool) (p : Bytes × Bytes) (h1 : p.1.length = 10)
    (h2 : p.2.length = 10) :
    A2.protValid uw (p.1 ++ p.2) = .ok true ↔ Spec.NameField uw p.1 ∧ Spec.NameField uw p.2 := by
  have e1 : slice (p.1 ++ p.2) 0 10 = p.1 := by simp [slice, List.take_left' h1]
  have e2 : slice (p.1 ++ p.2) 10 20 = p.2 := by
    have := slice_append_mid p.1 p.2 [] (i := 10) (j := 20) h1 (by omega)
    simpa using this
  simp only [A2.protValid, e1, e2, bind, Except.bind, ← nameValid_true_iff]
  cases h : A2.nameValid uw p.1 with
  | error x => simp
  | ok v => cases v <;> simp

/-- An exception out of the entry loop is BadPeer or UnicodeDecodeError, the latter only when some
name is not UTF-8. -/
theorem validateEntries_error (uw : Nat → Bool) (prots : List (Bytes × Bytes))
    (hp : ∀ p ∈ prots, p.1.length = 10 ∧ p.2.length = 10) (e : Err)
    (h : A2.validateEntries uw (prots.map fun p => p.1 ++ p.2) = .error e) :
    e = .badPeer ∨ (e = .unicodeDecodeError ∧
      ∃ p ∈ prots, (¬ ∃ s, Spec.IsUtf8 p.1 s) ∨ ¬ ∃ s, Spec.IsUtf8 p.2 s) := by
  induction prots with
  | nil => simp [A2.validateEntries] at h
  | cons p ps ih =>
    obtain ⟨h1, h2⟩ := hp p (by simp)
    have e1 : slice (p.1 ++ p.2) 0 10 = p.1 := by simp [slice, List.take_left' h1]
    have e2 : slice (p.1 ++ p.2) 10 20 = p.2 := by
      have := slice_append_mid p.1 p.2 [] (i := 10) (j := 20) h1 (by omega)
      simpa using this
    simp only [List.map_cons, A2.validateEntries, A2.protValid, e1, e2, bind, Except.bind] at h
    cases hv1 : A2.nameValid uw p.1 with
    | error x =>
      rw [hv1] at h
      simp at h; subst h
      obtain ⟨rfl, hn⟩ := (nameValid_error_iff _ _ _).1 hv1
      exact .inr ⟨rfl, p, by simp, .inl hn⟩
    | ok v1 =>
      rw [hv1] at h
      cases v1 with
      | false => simp at h; exact .inl h.symm
      | true =>
        simp only [if_true] at h
        cases hv2 : A2.nameValid uw p.2 with
        | error x =>
          rw [hv2] at h
          simp at h; subst h
          obtain ⟨rfl, hn⟩ := (nameValid_error_iff _ _ _).1 hv2
          exact .inr ⟨rfl, p, by simp, .inr hn⟩
        | ok v2 =>
          rw [hv2] at h
          cases v2 with
          | false => simp at h; exact .inl h.symm
          | true =>
            simp only [if_true] at h
            rcases ih (fun x hx => hp x (by simp [hx])) h with h | ⟨h, q, hq, hq'⟩
            · exact .inl h
            · exact .inr ⟨h, q, by simp [hq], hq'⟩

theorem A2_ctor_eq (uw : Nat → Bool) (b0 b1 b2 : UInt8) (prots : List (Bytes × Bytes)) (tail : Bytes)
    (hp : ∀ p ∈ prots, p.1.length = 10 ∧ p.2.length = 10) (ht : tail.length < 20) :
    A2.ctor uw (b0 :: b1 :: b2 :: (protBytes prots ++ tail)) =
      if b0 = 9 ∧ 128 ≤ b1.toNat ∧ b2.toNat = prots.length ∧ prots.length < 128 ∧
          (b1.toNat % 2 = 1 → prots = []) then
        match A2.validateEntries uw (prots.map fun p => p.1 ++ p.2) with
        | .ok () => .ok { data := [b0, b1, b2], opt := some (protBytes prots) }
        | .error e => .error e
      else .error .badPeer := by
  have hpl := protBytes_length prots hp
  have h1 : structFromBytes A2.fresh.data (b0 :: b1 :: b2 :: (protBytes prots ++ tail))
      = [b0, b1, b2] := by
    rw [structFromBytes_of_le (by simp [A2_fresh_data]), A2_fresh_data]; simp
  have hlen : ((b0 :: b1 :: b2 :: (protBytes prots ++ tail)).length - 3) / 20 = prots.length := by
    simp [hpl]; omega
  have hnl : ¬ (b0 :: b1 :: b2 :: (protBytes prots ++ tail)).length < 3 := by simp
  have hd : (b0 :: b1 :: b2 :: (protBytes prots ++ tail)).drop 3 = protBytes prots ++ tail := rfl
  have h2 : structFromBytes (zeros (20 * prots.length)) (protBytes prots ++ tail)
      = protBytes prots := by
    rw [structFromBytes_of_le (by simp [hpl])]
    simp only [zeros_length, ← hpl]
    exact List.take_left
  have h3 : getLE [b0, b1, b2] 0 1 = b0.toNat := getLE_one (by simp)
  have h4 : getLE [b0, b1, b2] 1 1 = b1.toNat := getLE_one (by simp)
  have h5 : getLE [b0, b1, b2] 2 1 = b2.toNat := getLE_one (by simp)
  have e9 : (b0.toNat = 9) ↔ b0 = 9 := by rw [← UInt8.toNat_inj]; simp
  have hent := entries_protBytes prots hp []
  rw [List.append_nil] at hent
  have hb1 := b1.toNat_lt
  have hb2 := b2.toNat_lt
  have hpc : A2.protCount { data := [b0, b1, b2], opt := some (protBytes prots) } = prots.length := by
    simp [A2.protCount, Packet.optBytes, hpl]
  have hob : Packet.optBytes { data := [b0, b1, b2], opt := some (protBytes prots) }
      = protBytes prots := rfl
  simp only [A2.ctor, List.isEmpty_cons, Bool.false_eq_true, if_false, A2.fromBytes, h1, hlen, hnl, hd,
    h2, A2.validate, Packet.validateType, PacketType.value, h3, hpc, hob, hent, A2.noSuchServer,
    A2.lastFlag, A2.count, getBit, h4, h5, bind, Except.bind, pure, Except.pure, ne_eq, e9]
  by_cases h9 : b0 = 9
  · simp only [h9, not_true_eq_false, if_false, true_and]
    by_cases hns : ¬ b1.toNat / 2 ^ 0 % 2 = 0 ∧
        (¬ (if b2.toNat < 128 then (b2.toNat : Int) else (b2.toNat : Int) - 256) = 0 ∨
          ¬ prots.length = 0)
    · rw [if_pos hns, if_neg]
      rintro ⟨-, hc, hlt, hz⟩
      have : b1.toNat % 2 = 1 := by omega
      have hz' := hz this
      rw [hz'] at hc hns
      simp at hc
      simp [hc] at hns
    · rw [if_neg hns]
      by_cases hlf : b1.toNat / 2 ^ 7 % 2 = 0
      · rw [if_pos hlf, if_neg (by omega)]
      · rw [if_neg hlf]
        by_cases hr : ¬ (0 ≤ (if b2.toNat < 128 then (b2.toNat : Int) else (b2.toNat : Int) - 256) ∧
            (if b2.toNat < 128 then (b2.toNat : Int) else (b2.toNat : Int) - 256) ≤ 127)
        · rw [if_pos hr, if_neg]
          rintro ⟨-, hc, hlt, hz⟩
          apply hr
          rw [if_pos (by omega)]; omega
        · rw [if_neg hr]
          have hb128 : b2.toNat < 128 := by
            apply Nat.lt_of_not_le
            intro hcon
            apply hr
            rw [if_neg (by omega)]; omega
          simp only [hb128, if_true] at hns ⊢
          by_cases hc : (prots.length : Int) = b2.toNat
          · rw [if_neg (by simpa using hc), if_pos]
            · cases hv : A2.validateEntries uw (prots.map fun p => p.1 ++ p.2) <;> rfl
            · refine ⟨by omega, by omega, by omega, fun ho => ?_⟩
              have : prots.length = 0 := by omega
              exact List.length_eq_zero_iff.1 this
          · rw [if_pos hc, if_neg (by omega)]
  · simp [h9]

/-- **C09 (acceptance).** Exact set of A2 byte strings accepted, and their value: type 9, LastFlag,
`Count` below 128 equal to the number of complete (P1, P2) pairs, NoSuchServer only without pairs, and
every name field UTF-8 for a text matching the pattern.  Fewer than 20 trailing bytes are ignored. -/
theorem C09_a2_accept (uw : Nat → Bool) (src : Bytes) (hne : src ≠ []) (p : Packet) :
    A2.ctor uw src = .ok p ↔
      ∃ (flags : UInt8) (prots : List (Bytes × Bytes)) (tail : Bytes),
        src = [9, flags, UInt8.ofNat prots.length] ++ (prots.map fun p => p.1 ++ p.2).flatten ++ tail ∧
        prots.length ≤ 127 ∧ 128 ≤ flags.toNat ∧ (flags.toNat % 2 = 1 → prots = []) ∧
        tail.length < 20 ∧
        (∀ q ∈ prots, q.1.length = 10 ∧ q.2.length = 10 ∧
          Spec.NameField uw q.1 ∧ Spec.NameField uw q.2) ∧
        p = { data := [9, flags, UInt8.ofNat prots.length],
              opt := some (prots.map fun p => p.1 ++ p.2).flatten } := by
  constructor
  · intro h
    match src, hne with
    | [a], _ =>
      simp [A2.ctor, A2.fromBytes] at h
    | [a, b], _ =>
      simp [A2.ctor, A2.fromBytes] at h
    | b0 :: b1 :: b2 :: rest, _ =>
      obtain ⟨prots, hl, hp, hr⟩ := exists_prots (rest.length / 20) rest (by omega)
      have ht : (rest.drop (20 * (rest.length / 20))).length < 20 := by simp; omega
      generalize rest.drop (20 * (rest.length / 20)) = tail at hr ht
      subst hr
      rw [A2_ctor_eq uw b0 b1 b2 prots tail hp ht] at h
      split at h
      · rename_i hc
        obtain ⟨rfl, h1, h2, h3, h4⟩ := hc
        have hb2 : b2 = UInt8.ofNat prots.length := by rw [← h2, UInt8.ofNat_toNat]
        split at h
        · rename_i hv
          have hv' := (validateEntries_ok _ _).1 hv
          refine ⟨b1, prots, tail, by simp [hb2, protBytes], by omega, h1, h4, ht, ?_, ?_⟩
          · intro q hq
            obtain ⟨hq1, hq2⟩ := hp q hq
            have := (protValid_true uw q hq1 hq2).1 (hv' _ (List.mem_map.2 ⟨q, hq, rfl⟩))
            exact ⟨hq1, hq2, this⟩
          · rw [← hb2]; exact (Except.ok.inj h).symm
        · simp at h
      · simp at h
  · rintro ⟨flags, prots, tail, rfl, h1, h2, h3, h4, h5, rfl⟩
    have hp : ∀ q ∈ prots, q.1.length = 10 ∧ q.2.length = 10 := fun q hq => ⟨(h5 q hq).1, (h5 q hq).2.1⟩
    have := A2_ctor_eq uw 9 flags (UInt8.ofNat prots.length) prots tail hp h4
    simp only [protBytes] at this
    simp only [List.cons_append, List.nil_append, List.append_assoc] at this ⊢
    rw [this, if_pos ⟨trivial, h2, toNat_ofNat_lt (by omega), by omega, h3⟩]
    have hv : A2.validateEntries uw (prots.map fun p => p.1 ++ p.2) = .ok () := by
      rw [validateEntries_ok]
      intro e he
      obtain ⟨q, hq, rfl⟩ := List.mem_map.1 he
      obtain ⟨hq1, hq2, hq3⟩ := h5 q hq
      exact (protValid_true uw q hq1 hq2).2 hq3
    rw [hv]

/-- **C09 (rejection).** Any other input of at least 3 bytes raises BadPeer, or UnicodeDecodeError when
one of the name fields is not UTF-8. -/
theorem C09_a2_reject (uw : Nat → Bool) (src : Bytes) (hl : 3 ≤ src.length) (e : Err)
    (h : A2.ctor uw src = .error e) :
    e = .badPeer ∨ (e = .unicodeDecodeError ∧ ∃ (hdr : Bytes) (prots : List (Bytes × Bytes)) (tail : Bytes),
      hdr.length = 3 ∧ src = hdr ++ (prots.map fun p => p.1 ++ p.2).flatten ++ tail ∧
      (∀ q ∈ prots, q.1.length = 10 ∧ q.2.length = 10) ∧
      ∃ q ∈ prots, (¬ ∃ s, Spec.IsUtf8 q.1 s) ∨ ¬ ∃ s, Spec.IsUtf8 q.2 s) := by
  match src, hl with
  | b0 :: b1 :: b2 :: rest, _ =>
    obtain ⟨prots, hl, hp, hr⟩ := exists_prots (rest.length / 20) rest (by omega)
    have ht : (rest.drop (20 * (rest.length / 20))).length < 20 := by simp; omega
    generalize rest.drop (20 * (rest.length / 20)) = tail at hr ht
    subst hr
    rw [A2_ctor_eq uw b0 b1 b2 prots tail hp ht] at h
    split at h
    · split at h
      · simp at h
      · rename_i e' hv
        have he := Except.error.inj h
        subst he
        rcases validateEntries_error uw prots hp _ hv with h | ⟨h, hq⟩
        · exact .inl h
        · exact .inr ⟨h, [b0, b1, b2], prots, tail, rfl, by simp [protBytes], hp, hq⟩
    · exact .inl (Except.error.inj h).symm

/-- Names made of the documented characters satisfy the pattern. -/
theorem strict_nameField (uw : Nat → Bool) (p : Bytes) (hne : p ≠ []) (h : ∀ b ∈ p, Spec.NameByte b) :
    Spec.NameField uw p := by
  refine ⟨p.map UInt8.toNat, ⟨?_, ?_⟩, p.map UInt8.toNat, by simpa using hne, ?_, .inl rfl⟩
  · intro c hc
    obtain ⟨b, hb, rfl⟩ := List.mem_map.1 hc
    have := b.toNat_lt
    unfold Spec.scalar; omega
  · clear hne
    induction p with
    | nil => rfl
    | cons b t ih =>
      have hb := h b (by simp)
      have : b.toNat < 0x80 := by unfold Spec.NameByte at hb; omega
      simp only [List.map_cons, List.flatten_cons]
      rw [← ih (fun x hx => h x (by simp [hx]))]
      simp [Spec.utf8Enc, this]
  · intro c hc
    obtain ⟨b, hb, rfl⟩ := List.mem_map.1 hc
    have := h b hb
    unfold Spec.NameByte at this
    unfold Spec.NameCode
    omega

/-- **C09 (round trip).** Every A2 made of pairs of documented names parses back to its fields, and
re-serialises to the same bytes. -/
theorem C09_a2_roundtrip (uw : Nat → Bool) (nss : Bool) (prots : List (Bytes × Bytes))
    (hn : prots.length ≤ 127) (hnss : nss = true → prots = [])
    (hp : ∀ q ∈ prots, q.1.length = 10 ∧ q.2.length = 10 ∧
      (∀ b ∈ q.1, Spec.NameByte b) ∧ ∀ b ∈ q.2, Spec.NameByte b) :
    ∃ p, A2.ctor uw (Spec.a2 nss true prots) = .ok p ∧ A2.noSuchServer p = nss.toNat ∧
      A2.lastFlag p = 1 ∧ A2.count p = prots.length ∧
      A2.entries prots.length p.optBytes = prots.map (fun q => q.1 ++ q.2) ∧
      p.toBytes = Spec.a2 nss true prots := by
  have hacc := (C09_a2_accept uw (Spec.a2 nss true prots) (by simp [Spec.a2]) _).2
    ⟨(if nss then 1 else 0) + 128, prots, [], by simp [Spec.a2], hn,
      by cases nss <;> decide, by intro h; cases nss <;> simp at h; exact hnss rfl, by simp,
      fun q hq => by
        obtain ⟨h1, h2, h3, h4⟩ := hp q hq
        exact ⟨h1, h2, strict_nameField uw _ (by rintro h; simp [h] at h1) h3,
          strict_nameField uw _ (by rintro h; simp [h] at h2) h4⟩, rfl⟩
  refine ⟨_, hacc, ?_, ?_, ?_, ?_, ?_⟩
  · cases nss <;> simp [A2.noSuchServer, getBit, getLE, slice, leNat]
  · cases nss <;> simp [A2.lastFlag, getBit, getLE, slice, leNat]
  · have : (UInt8.ofNat prots.length).toNat = prots.length := toNat_ofNat_lt (by omega)
    simp only [A2.count]
    rw [getLE_one (x := UInt8.ofNat prots.length) (by simp), this, if_pos (by omega)]
  · have := entries_protBytes prots (fun q hq => ⟨(hp q hq).1, (hp q hq).2.1⟩) []
    simpa [Packet.optBytes, protBytes] using this
  · simp [Packet.toBytes, Packet.optBytes, Spec.a2]

/-- C09, the packets made by `A2Packet(case=..)`: for `A2_NO_SUCH_SERVER` an A2 that says so and lists nothing, for
`A2_DEFAUT` an A2 with the single pair `SCv2------`, `----------`; both are marked last and accepted. -/
theorem C09_cases (uw : Nat → Bool) :
    (A2.ofCase .noSuchServer).toBytes = Spec.a2 true true [] ∧
    (A2.ofCase .default).toBytes = Spec.a2 false true
      [([0x53, 0x43, 0x76, 0x32, 0x2d, 0x2d, 0x2d, 0x2d, 0x2d, 0x2d], List.replicate 10 0x2d)] ∧
    (∃ p, A2.ctor uw (A2.ofCase .noSuchServer).toBytes = .ok p) ∧
    ∃ p, A2.ctor uw (A2.ofCase .default).toBytes = .ok p := by
  have h1 : (A2.ofCase .noSuchServer).toBytes = Spec.a2 true true [] := by decide
  have h2 : (A2.ofCase .default).toBytes = Spec.a2 false true
      [([0x53, 0x43, 0x76, 0x32, 0x2d, 0x2d, 0x2d, 0x2d, 0x2d, 0x2d], List.replicate 10 0x2d)] := by decide
  refine ⟨h1, h2, ?_, ?_⟩
  · rw [h1]
    exact (C09_a2_roundtrip uw true [] (by decide) (by decide) (by decide)).imp fun _ h => h.1
  · rw [h2]
    exact (C09_a2_roundtrip uw false _ (by decide) (by decide) (by decide)).imp fun _ h => h.1

/-- ASCII name fields that the code accepts are made of the documented characters, except that the last
byte may be a newline. -/
theorem C09_ascii_names (uw : Nat → Bool) (p : Bytes) (ha : ∀ b ∈ p, b.toNat < 0x80)
    (h : Spec.NameField uw p) :
    ∃ body, body ≠ [] ∧ (∀ b ∈ body, Spec.NameByte b) ∧ (p = body ∨ p = body ++ [0x0a]) := by
  obtain ⟨s, hs, body, hb, hc, hor⟩ := h
  have hmap : s = p.map UInt8.toNat := by
    have : Spec.IsUtf8 p (p.map UInt8.toNat) := by
      refine ⟨?_, ?_⟩
      · intro c hc
        obtain ⟨b, hb, rfl⟩ := List.mem_map.1 hc
        have := ha b hb
        unfold Spec.scalar; omega
      · clear hs hor
        induction p with
        | nil => rfl
        | cons b t ih =>
          have hb := ha b (by simp)
          simp only [List.map_cons, List.flatten_cons]
          rw [← ih (fun x hx => ha x (by simp [hx]))]
          simp [Spec.utf8Enc, hb]
    exact Option.some.inj (((utf8Decode_iff _ _).2 hs).symm.trans ((utf8Decode_iff _ _).2 this))
  subst hmap
  have hback : ∀ l : List UInt8, (l.map UInt8.toNat).map UInt8.ofNat = l := by
    intro l; simp [Function.comp_def]
  have hbody : ∀ c ∈ body, Spec.NameByte (UInt8.ofNat c) := by
    intro c hcb
    have hc' := hc c hcb
    have hlt : c < 0x80 := by
      have hmem : c ∈ p.map UInt8.toNat := by
        rcases hor with h | h <;> rw [h] <;> simp [hcb]
      obtain ⟨b, hb, rfl⟩ := List.mem_map.1 hmem
      exact ha b hb
    unfold Spec.NameCode at hc'
    unfold Spec.NameByte
    rw [toNat_ofNat_lt (by omega)]
    omega
  refine ⟨body.map UInt8.ofNat, by simpa using hb, ?_, ?_⟩
  · intro b hb'
    obtain ⟨c, hc, rfl⟩ := List.mem_map.1 hb'
    exact hbody c hc
  · rcases hor with h | h
    · left; rw [← h, hback]
    · right
      have := congrArg (List.map UInt8.ofNat) h
      rw [hback] at this
      simpa using this

/-- The documented character set is not enforced: a name ending in a newline is accepted. -/
theorem C09_newline_accepted (uw : Nat → Bool) :
    ∃ p, A2.ctor uw (Spec.a2 false true
      [(A2.sc2ProtString, [0x2d, 0x2d, 0x2d, 0x2d, 0x2d, 0x2d, 0x2d, 0x2d, 0x2d, 0x0a])]) = .ok p := by
  refine ⟨_, (C09_a2_accept uw _ (by simp [Spec.a2]) _).2
    ⟨128, [(A2.sc2ProtString, [0x2d, 0x2d, 0x2d, 0x2d, 0x2d, 0x2d, 0x2d, 0x2d, 0x2d, 0x0a])], [],
      by decide, by decide, by decide, by decide, by decide, ?_, rfl⟩⟩
  intro q hq
  simp only [List.mem_singleton] at hq
  subst hq
  refine ⟨by decide, by decide, strict_nameField uw _ (by decide) (by decide), ?_⟩
  refine (nameValid_true_iff _ _).1 ?_
  rfl

end Salt.Props
