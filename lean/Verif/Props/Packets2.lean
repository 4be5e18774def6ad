import Verif.Lemmas.Packets

/-!
# C06-C08: multi app packets and A1 packets
-/

namespace Salt.Props

open Salt

set_option linter.unusedSimpArgs false

/-! ### Helper: parsing on the remaining bytes instead of an offset -/

/-- `parseMsgs` re-expressed on the remaining bytes. -/
def parseRest : Nat → Bytes → Except Err (List Bytes)
  | 0, _ => .ok []
  | n + 1, s =>
    if s.length < 2 then .error .valueError
    else
      match parseRest n (s.drop (2 + leNat (s.take 2))) with
      | .ok ms => .ok ((s.drop 2).take (leNat (s.take 2)) :: ms)
      | .error e => .error e

theorem parseMsgs_eq (src : Bytes) (n off : Nat) :
    MultiApp.parseMsgs src n off = parseRest n (src.drop off) := by
  induction n generalizing off with
  | zero => rfl
  | succ n ih =>
    have h1 : (src.length < off + 2) ↔ (src.drop off).length < 2 := by simp; omega
    have h2 : getLE src off 2 = leNat ((src.drop off).take 2) := by
      unfold getLE; rw [slice_eq_drop_take]
    simp only [MultiApp.parseMsgs, parseRest, h1, h2, bind, Except.bind, pure, Except.pure, ih,
      slice_eq_drop_take, List.drop_drop]
    rw [Nat.add_assoc]
    split
    · rfl
    · split <;> simp_all

theorem split_le16 {s : Bytes} (h : 2 ≤ s.length) :
    s = Spec.le16 (leNat (s.take 2)) ++ s.drop 2 ∧ leNat (s.take 2) < 65536 := by
  have hl : (s.take 2).length = 2 := by simp; omega
  constructor
  · rw [← leBytes_two, leBytes_leNat' hl, List.take_append_drop]
  · have := leNat_lt (s.take 2); rw [hl] at this; simpa using this

/-- Encoded form of one message. -/
theorem parseRest_cons (n L : Nat) (hL : L < 65536) (t : Bytes) :
    parseRest (n + 1) (Spec.le16 L ++ t) =
      match parseRest n (t.drop L) with
      | .ok ms => .ok (t.take L :: ms)
      | .error e => .error e := by
  have h1 : ¬ (Spec.le16 L ++ t).length < 2 := by simp
  have h2 : (Spec.le16 L ++ t).take 2 = Spec.le16 L := List.take_left' rfl
  have h3 : (Spec.le16 L ++ t).drop 2 = t := List.drop_left' rfl
  have h4 : (Spec.le16 L ++ t).drop (2 + L) = t.drop L := by rw [← List.drop_drop, h3]
  simp only [parseRest, h1, if_false, h2, leNat_le16 hL, h3, h4]

theorem parseRest_complete (msgs : List Bytes) (h : ∀ m ∈ msgs, m.length < 65536) (rest : Bytes) :
    parseRest msgs.length ((msgs.map fun m => Spec.le16 m.length ++ m).flatten ++ rest) = .ok msgs := by
  induction msgs with
  | nil => rfl
  | cons m ms ih =>
    have hm := h m (by simp)
    simp only [List.length_cons, List.map_cons, List.flatten_cons, List.append_assoc]
    rw [parseRest_cons _ _ hm, List.drop_left, List.take_left, ih (fun x hx => h x (by simp [hx]))]

theorem optBytes_eq (msgs : List Bytes) :
    MultiApp.optBytes msgs = (msgs.map fun m => Spec.le16 m.length ++ m).flatten := by
  induction msgs with
  | nil => rfl
  | cons m ms ih => simp [MultiApp.optBytes, MultiApp.msgBytes, leBytes_two, ih]

/-! ### C06 -/

/-- Building a multi packet (app_channel_v2.py:52-56). -/
def buildMulti (time : Nat) (msgs : List Bytes) : MultiApp :=
  MultiApp.createOptFields (MultiApp.setTime (MultiApp.setCount MultiApp.fresh msgs.length) time) msgs

theorem buildMulti_eq (time : Nat) (msgs : List Bytes) :
    buildMulti time msgs
      = { data := [11, 0] ++ Spec.le32 time ++ Spec.le16 msgs.length, opt := some msgs } := by
  have h1 : ∀ c, setLE ([11, 0] ++ zeros 4 ++ zeros 2) 6 2 c = [11, 0] ++ zeros 4 ++ Spec.le16 c := by
    intro c
    unfold setLE
    have := setBytes_append_mid ([11, 0] ++ zeros 4) (zeros 2) [] (leBytes 2 c) (i := 6) (by simp)
      (by simp)
    simpa [leBytes_two] using this
  have h2 : ∀ c t, setLE ([11, 0] ++ zeros 4 ++ Spec.le16 c) 2 4 t
      = [11, 0] ++ Spec.le32 t ++ Spec.le16 c := by
    intro c t
    unfold setLE
    rw [setBytes_append_mid _ _ _ _ (by simp) (by simp), leBytes_four]
  simp only [buildMulti, MultiApp.setCount, MultiApp.setTime, MultiApp.createOptFields,
    Multi_fresh_data, h1, h2]

theorem buildMulti_bytes (time : Nat) (msgs : List Bytes) :
    (buildMulti time msgs).toBytes = Spec.multiApp time msgs := by
  rw [buildMulti_eq]
  simp [MultiApp.toBytes, optBytes_eq, Spec.multiApp]

/-- Exact behaviour of `MultiAppPacket(src)` on sources holding the fixed part. -/
theorem MultiApp_ctor_spec (src : Bytes) (hl : 8 ≤ src.length) :
    MultiApp.ctor src =
      match parseRest (leNat ((src.drop 6).take 2)) (src.drop 8) with
      | .error e => .error e
      | .ok msgs =>
        if src.head? = some 11 ∧ 1 ≤ leNat ((src.drop 6).take 2) ∧
            msgs.length = leNat ((src.drop 6).take 2) then
          .ok { data := src.take 8, opt := some msgs }
        else .error .badPeer := by
  have hne : src ≠ [] := by rintro rfl; simp at hl
  have hemp : src.isEmpty = false := by simpa using hne
  have h1 : structFromBytes MultiApp.fresh.data src = src.take 8 := by
    rw [structFromBytes_of_le (by simp [Multi_fresh_data]; omega), Multi_fresh_data]; simp
  have hc : ∀ o, MultiApp.count { data := src.take 8, opt := o } = leNat ((src.drop 6).take 2) := by
    intro o
    simp only [MultiApp.count, getLE]
    rw [slice_eq_drop_take, List.drop_take, List.take_take]
    simp
  generalize leNat ((src.drop 6).take 2) = c at *
  have h3 : (getLE (src.take 8) 0 1 = 11) ↔ src.head? = some 11 := by
    obtain ⟨a, t, rfl⟩ := List.exists_cons_of_ne_nil hne
    rw [show getLE ((a :: t).take 8) 0 1 = a.toNat from getLE_one (by simp)]
    simp [← UInt8.toNat_inj]
  simp only [MultiApp.ctor, hemp, Bool.false_eq_true, if_false, MultiApp.fromBytes, h1, hc,
    parseMsgs_eq, List.drop_zero, bind, Except.bind, MultiApp.validate, h3, PacketType.value,
    Option.getD_some, pure, Except.pure, ne_eq]
  cases parseRest c (src.drop 8) with
  | error e => rfl
  | ok msgs =>
    by_cases ha : src.head? = some 11
    · by_cases hb : c < 1
      · have hb' : ¬ 1 ≤ c := by omega
        simp [ha, hb, hb']
      · have hb' : 1 ≤ c := by omega
        by_cases hm : msgs.length = c
        · simp [ha, hb, hb', hm]
        · simp [ha, hb, hb', hm]
    · simp [ha]

/-- **C06.** MultiAppPacket round trip for 1 to 65535 messages of at most 65535 bytes. -/
theorem C06_multi_roundtrip (time : Nat) (ht : time < 2 ^ 32) (msgs : List Bytes)
    (hn : 1 ≤ msgs.length) (hn' : msgs.length ≤ 65535) (hm : ∀ m ∈ msgs, m.length ≤ 65535) :
    (buildMulti time msgs).toBytes = Spec.multiApp time msgs ∧
    ∃ q, MultiApp.ctor (Spec.multiApp time msgs) = .ok q ∧ MultiApp.time q = time ∧
      MultiApp.count q = msgs.length ∧ q.opt = some msgs ∧
      q.toBytes = Spec.multiApp time msgs := by
  refine ⟨buildMulti_bytes time msgs, buildMulti time msgs, ?_, ?_, ?_, ?_, buildMulti_bytes _ _⟩
  · have hd6 : ((Spec.multiApp time msgs).drop 6).take 2 = Spec.le16 msgs.length := by
      simp [Spec.multiApp, Spec.le32, Spec.le16]
    have hd8 : (Spec.multiApp time msgs).drop 8
        = (msgs.map fun m => Spec.le16 m.length ++ m).flatten ++ [] := by
      simp [Spec.multiApp, Spec.le32, Spec.le16]
    have ht8 : (Spec.multiApp time msgs).take 8
        = [11, 0] ++ Spec.le32 time ++ Spec.le16 msgs.length := by
      simp [Spec.multiApp, Spec.le32, Spec.le16]
    rw [MultiApp_ctor_spec _ (by simp [Spec.multiApp]; omega), hd6, hd8, ht8,
      leNat_le16 (by omega), parseRest_complete _ (fun m h => by have := hm m h; omega), buildMulti_eq]
    simp [Spec.multiApp, hn]
  · rw [buildMulti_eq]
    simp only [MultiApp.time, getLE]
    rw [slice_append_mid _ (Spec.le32 time) _ (by simp) (by simp), leNat_le32 ht]
  · rw [buildMulti_eq]
    simp only [MultiApp.count, getLE]
    have := slice_append_mid ([11, 0] ++ Spec.le32 time) (Spec.le16 msgs.length) [] (i := 6) (j := 8)
      (by simp) (by simp)
    rw [List.append_nil] at this
    rw [this, leNat_le16 (by omega)]
  · rw [buildMulti_eq]

/-- Non-vacuity of C06: three messages, one of them empty. -/
example : ∃ q, MultiApp.ctor (Spec.multiApp 5 [[1, 2], [], [3]]) = .ok q ∧
    q.opt = some [[1, 2], [], [3]] := by
  obtain ⟨-, q, h1, -, -, h2, -⟩ := C06_multi_roundtrip 5 (by decide) [[1, 2], [], [3]] (by decide)
    (by decide) (by decide)
  exact ⟨q, h1, h2⟩

/-! ### C07 -/

theorem parseRest_iff (n : Nat) (s : Bytes) (msgs : List Bytes) :
    parseRest (n + 1) s = .ok msgs ↔
      msgs.length = n + 1 ∧ ∃ (init : List Bytes) (last : Bytes) (declared : Nat) (rest : Bytes),
        msgs = init ++ [last] ∧ (∀ m ∈ init, m.length < 65536) ∧ declared < 65536 ∧
        s = (init.map fun m => Spec.le16 m.length ++ m).flatten ++ Spec.le16 declared ++ last ++ rest ∧
        last.length ≤ declared ∧ (last.length < declared → rest = []) := by
  induction n generalizing s msgs with
  | zero =>
    constructor
    · intro h
      by_cases hl : s.length < 2
      · simp [parseRest, hl] at h
      · obtain ⟨hs, hL⟩ := split_le16 (s := s) (by omega)
        simp only [parseRest, hl, if_false] at h
        have h' := (Except.ok.inj h).symm
        refine ⟨by simp [h'], [], (s.drop 2).take (leNat (s.take 2)), leNat (s.take 2),
          s.drop (2 + leNat (s.take 2)), by simp [h'], by simp, hL, ?_, by simp; omega, ?_⟩
        · simp only [List.map_nil, List.flatten_nil, List.nil_append, ← List.drop_drop,
            List.append_assoc, List.take_append_drop]
          exact hs
        · intro hlt
          apply List.drop_of_length_le
          simp at hlt ⊢; omega
    · rintro ⟨hlen, init, last, L, rest, rfl, -, hL, rfl, hle, htr⟩
      have : init = [] := by
        cases init with
        | nil => rfl
        | cons => simp at hlen
      subst this
      simp only [List.map_nil, List.flatten_nil, List.nil_append, List.append_assoc]
      rw [parseRest_cons _ _ hL]
      simp only [parseRest]
      rcases Nat.lt_or_ge last.length L with h | h
      · rw [htr h, List.append_nil, List.take_of_length_le (by omega)]
      · rw [List.take_append_of_le_length h, List.take_of_length_le hle]
  | succ n ih =>
    constructor
    · intro h
      by_cases hl : s.length < 2
      · simp [parseRest, hl] at h
      · obtain ⟨hs, hL⟩ := split_le16 (s := s) (by omega)
        rw [hs, parseRest_cons _ _ hL] at h
        cases hr : parseRest (n + 1) ((s.drop 2).drop (leNat (s.take 2))) with
        | error e => rw [hr] at h; simp at h
        | ok ms =>
          rw [hr] at h
          have h' := (Except.ok.inj h).symm
          obtain ⟨hlen, init, last, D, rest, hms, hin, hD, heq, hle, htr⟩ := (ih _ _).1 hr
          have hfull : ((s.drop 2).take (leNat (s.take 2))).length = leNat (s.take 2) := by
            rw [List.length_take]
            have : 2 ≤ ((s.drop 2).drop (leNat (s.take 2))).length := by rw [heq]; simp; omega
            simp at this ⊢; omega
          refine ⟨by simp [h', hlen], (s.drop 2).take (leNat (s.take 2)) :: init, last, D, rest,
            by simp [h', hms], ?_, hD, ?_, hle, htr⟩
          · intro m hm
            rcases List.mem_cons.1 hm with rfl | hm
            · omega
            · exact hin m hm
          · simp only [List.map_cons, List.flatten_cons, hfull]
            rw [List.append_assoc, List.append_assoc, List.append_assoc, List.append_assoc,
              ← List.append_assoc _ last rest, ← List.append_assoc _ (Spec.le16 D ++ last) rest,
              ← List.append_assoc _ (Spec.le16 D) last, ← heq, List.take_append_drop]
            exact hs
    · rintro ⟨hlen, init, last, L, rest, rfl, hin, hL, rfl, hle, htr⟩
      cases init with
      | nil => simp at hlen
      | cons m init =>
        have hm := hin m (by simp)
        simp only [List.map_cons, List.flatten_cons, List.append_assoc]
        rw [parseRest_cons _ _ hm, List.drop_left, List.take_left]
        have := (ih ((init.map fun m => Spec.le16 m.length ++ m).flatten ++ Spec.le16 L ++ last ++ rest)
          (init ++ [last])).2 ⟨by simpa using hlen, init, last, L, rest, rfl,
            fun x hx => hin x (by simp [hx]), hL, rfl, hle, htr⟩
        simp only [List.append_assoc] at this
        rw [this]; rfl

/-- **C07 (partial).** The exact set of byte strings `MultiAppPacket` accepts, and the messages it
yields.  All messages but the last are complete; the last one may be shorter than its length prefix
(then nothing follows it); bytes after the last message are ignored.  The full claim (only complete
packets are accepted) is false, see `C07_violated`. -/
theorem C07_multi_accept_partial (src : Bytes) (hne : src ≠ []) (msgs : List Bytes) :
    (∃ p, MultiApp.ctor src = .ok p ∧ p.opt = some msgs) ↔
      src.head? = some 11 ∧ 8 ≤ src.length ∧ (src.drop 6).take 2 = Spec.le16 msgs.length ∧
      msgs.length < 65536 ∧
      ∃ (init : List Bytes) (last : Bytes) (declared : Nat) (rest : Bytes),
        msgs = init ++ [last] ∧ (∀ m ∈ init, m.length < 65536) ∧ declared < 65536 ∧
        src.drop 8 = (init.map fun m => Spec.le16 m.length ++ m).flatten
          ++ Spec.le16 declared ++ last ++ rest ∧
        last.length ≤ declared ∧ (last.length < declared → rest = []) := by
  rcases Nat.lt_or_ge src.length 8 with hl | hl
  · constructor
    · rintro ⟨p, hp, -⟩
      exfalso
      have hemp : src.isEmpty = false := by simpa using hne
      simp only [MultiApp.ctor, hemp, Bool.false_eq_true, if_false, MultiApp.fromBytes, parseMsgs_eq,
        bind, Except.bind, List.drop_of_length_le (Nat.le_of_lt hl), List.drop_nil] at hp
      generalize hc : MultiApp.count
        { data := structFromBytes MultiApp.fresh.data src, opt := MultiApp.fresh.opt } = c at hp
      cases c with
      | zero =>
        have hc' : ∀ o, MultiApp.count
          { data := structFromBytes MultiApp.fresh.data src, opt := o } = 0 := fun o => hc
        simp only [parseRest, MultiApp.validate, hc'] at hp
        split at hp
        · simp at hp
        · rename_i h; split at h <;> simp at h
      | succ c => simp [parseRest] at hp
    · rintro ⟨-, h, -⟩; omega
  · rw [MultiApp_ctor_spec src hl]
    have hc2 : ((src.drop 6).take 2).length = 2 := by simp; omega
    constructor
    · rintro ⟨p, hp, ho⟩
      split at hp
      · simp at hp
      · rename_i ms hms
        split at hp
        · rename_i hcond
          have hp' := (Except.ok.inj hp).symm
          subst hp'
          simp only [Option.some.injEq] at ho
          subst ho
          obtain ⟨h1, h2, h3⟩ := hcond
          obtain ⟨k, hk⟩ : ∃ k, leNat ((src.drop 6).take 2) = k + 1 := ⟨_, (Nat.sub_add_cancel h2).symm⟩
          rw [hk] at hms
          obtain ⟨-, rest⟩ := (parseRest_iff _ _ _).1 hms
          refine ⟨h1, hl, ?_, ?_, rest⟩
          · rw [h3, ← leBytes_two, leBytes_leNat' hc2]
          · rw [h3]; have := leNat_lt ((src.drop 6).take 2); rw [hc2] at this; simpa using this
        · simp at hp
    · rintro ⟨h1, -, h2, h3, h4⟩
      have hk : leNat ((src.drop 6).take 2) = msgs.length := by rw [h2, leNat_le16 h3]
      have hpos : 1 ≤ msgs.length := by
        obtain ⟨init, last, _, _, rfl, -⟩ := h4; simp
      have hparse : parseRest (leNat ((src.drop 6).take 2)) (src.drop 8) = .ok msgs := by
        rw [hk]
        obtain ⟨k, hk'⟩ : ∃ k, msgs.length = k + 1 := ⟨_, (Nat.sub_add_cancel hpos).symm⟩
        rw [hk']
        exact (parseRest_iff _ _ _).2 ⟨hk', h4⟩
      rw [hparse]
      refine ⟨{ data := src.take 8, opt := some msgs }, ?_, rfl⟩
      simp [h1, hk, hpos]

/-- Non-vacuity of C07: a two-message packet with a complete first message. -/
example : ∃ p, MultiApp.ctor (Spec.multiApp 0 [[1], [2]]) = .ok p ∧ p.opt = some [[1], [2]] :=
  (C07_multi_accept_partial _ (by simp [Spec.multiApp]) _).2
    ⟨by decide, by decide, by decide, by decide, [[1]], [2], 1, [], by decide, by decide, by decide,
      by decide, by decide, by decide⟩

/-- **C07 violated.** A packet announcing two messages of 1 and 4 bytes, the second one cut after two
bytes, is accepted and yields the truncated message; so is one with trailing garbage. -/
theorem C07_violated :
    (∃ p, MultiApp.ctor ([11, 0, 0, 0, 0, 0, 2, 0] ++ [1, 0, 0xaa] ++ [4, 0, 1, 2]) = .ok p ∧
      p.opt = some [[0xaa], [1, 2]]) ∧
    (∃ p, MultiApp.ctor ([11, 0, 0, 0, 0, 0, 1, 0] ++ [1, 0, 0xaa] ++ [9, 9, 9]) = .ok p ∧
      p.opt = some [[0xaa]]) :=
  ⟨⟨_, rfl, rfl⟩, ⟨_, rfl, rfl⟩⟩

/-! ### C08 -/

/-- Exact behaviour of `A1Packet(src)` on sources of at least 5 bytes. -/
theorem A1_ctor_spec (b0 b1 b2 b3 b4 : UInt8) (addr : Bytes) :
    A1.ctor (b0 :: b1 :: b2 :: b3 :: b4 :: addr) =
      if b0 = 8 ∧ b3.toNat + 256 * b4.toNat = addr.length ∧
          ((b2 = 0 ∧ addr.length = 0) ∨ (b2 = 1 ∧ addr.length = 32)) then
        .ok { data := [b0, b1, b2, b3, b4], opt := some addr }
      else .error .badPeer := by
  have h1 : structFromBytes A1.fresh.data (b0 :: b1 :: b2 :: b3 :: b4 :: addr)
      = [b0, b1, b2, b3, b4] := by
    rw [structFromBytes_of_le (by simp [A1_fresh_data]), A1_fresh_data]; simp
  have h2 : structFromBytes (zeros addr.length) addr = addr := structFromBytes_of_eq (by simp)
  have h3 : getLE [b0, b1, b2, b3, b4] 0 1 = b0.toNat := getLE_one (by simp)
  have h4 : getLE [b0, b1, b2, b3, b4] 2 1 = b2.toNat := getLE_one (by simp)
  have h5 : getLE [b0, b1, b2, b3, b4] 3 2 = b3.toNat + 256 * b4.toNat := by
    simp [getLE, slice, leNat]
  have e8 : (b0.toNat = 8) ↔ b0 = 8 := by rw [← UInt8.toNat_inj]; simp
  have e0 : (b2.toNat = 0) ↔ b2 = 0 := by rw [← UInt8.toNat_inj]; simp
  have e1 : (b2.toNat = 1) ↔ b2 = 1 := by rw [← UInt8.toNat_inj]; simp
  have hlen : (b0 :: b1 :: b2 :: b3 :: b4 :: addr).length - 5 = addr.length := by simp
  have hnl : ¬ (b0 :: b1 :: b2 :: b3 :: b4 :: addr).length < 5 := by simp
  have hd : (b0 :: b1 :: b2 :: b3 :: b4 :: addr).drop 5 = addr := rfl
  have hle : ¬ (b3.toNat + 256 * b4.toNat > 65535) := by
    have := b3.toNat_lt; have := b4.toNat_lt; omega
  simp only [A1.ctor, List.isEmpty_cons, Bool.false_eq_true, if_false, A1.fromBytes, h1, hlen, hnl, hd,
    h2, A1.validate, Packet.validateType, PacketType.value, h3, h4, h5, A1.addressSize,
    A1.addressType, A1.address, bind, Except.bind, pure, Except.pure, ne_eq, e8, e0, e1, hle]
  by_cases h8 : b0 = 8
  · by_cases hs : b3.toNat + 256 * b4.toNat = addr.length
    · by_cases hz : b2 = 0
      · by_cases ha : addr.length = 0
        · simp [h8, hs, hz, ha]
        · simp [h8, hs, hz, ha]
      · by_cases ho : b2 = 1
        · by_cases ha : addr.length = 32
          · simp [h8, hs, ho, ha]
          · simp [h8, hs, ho, ha]
        · simp [h8, hs, hz, ho]
    · simp [h8, hs]
  · simp [h8]

/-- **C08.** Acceptance set of A1. -/
theorem C08_a1_accept (src : Bytes) (hl : 5 ≤ src.length) :
    ((∃ p, A1.ctor src = .ok p) ↔
      (∃ x, src = [8, x, 0, 0, 0]) ∨ ∃ x addr, src = [8, x, 1, 32, 0] ++ addr ∧ addr.length = 32) ∧
    (∀ x, src = [8, x, 0, 0, 0] →
      ∃ p, A1.ctor src = .ok p ∧ A1.addressType p = 0 ∧ A1.address p = .ok []) ∧
    (∀ x addr, src = [8, x, 1, 32, 0] ++ addr → addr.length = 32 →
      ∃ p, A1.ctor src = .ok p ∧ A1.addressType p = 1 ∧ A1.address p = .ok addr) ∧
    ((¬ ∃ p, A1.ctor src = .ok p) → A1.ctor src = .error .badPeer) := by
  obtain ⟨b0, b1, b2, b3, b4, addr, rfl⟩ : ∃ b0 b1 b2 b3 b4 addr,
      src = b0 :: b1 :: b2 :: b3 :: b4 :: addr := by
    match src, hl with
    | b0 :: b1 :: b2 :: b3 :: b4 :: addr, _ => exact ⟨_, _, _, _, _, _, rfl⟩
  rw [A1_ctor_spec]
  refine ⟨⟨?_, ?_⟩, ?_, ?_, ?_⟩
  · rintro ⟨p, hp⟩
    split at hp
    · rename_i h
      obtain ⟨rfl, hs, h⟩ := h
      have h3 := b3.toNat_lt
      have h4 := b4.toNat_lt
      rcases h with ⟨rfl, h⟩ | ⟨rfl, h⟩
      · left
        refine ⟨b1, ?_⟩
        have ha : addr = [] := List.length_eq_zero_iff.1 h
        have e3 : b3 = 0 := by rw [← UInt8.toNat_inj]; simp; omega
        have e4 : b4 = 0 := by rw [← UInt8.toNat_inj]; simp; omega
        simp [ha, e3, e4]
      · right
        refine ⟨b1, addr, ?_, h⟩
        have e3 : b3 = 32 := by rw [← UInt8.toNat_inj]; simp; omega
        have e4 : b4 = 0 := by rw [← UInt8.toNat_inj]; simp; omega
        simp [e3, e4]
    · simp at hp
  · rintro (⟨x, hx⟩ | ⟨x, a, hx, ha⟩)
    · simp at hx
      simp [hx]
    · simp at hx
      simp [hx, ha]
  · rintro x hx
    simp at hx
    simp [hx, A1.addressType, A1.address, getLE, slice, leNat]
  · rintro x a hx ha
    simp at hx
    simp [hx, ha, A1.addressType, A1.address, getLE, slice, leNat]
  · intro h
    split
    · rename_i hc; exact absurd ⟨_, if_pos hc⟩ h
    · rfl

/-- Non-vacuity of C08: an addressed A1 as the client builds it is accepted. -/
example : ∃ p, A1.ctor (Spec.a1 1 (List.replicate 32 3)) = .ok p ∧
    A1.address p = .ok (List.replicate 32 3) := by
  obtain ⟨-, -, h, -⟩ := C08_a1_accept (Spec.a1 1 (List.replicate 32 3)) (by decide)
  obtain ⟨p, h1, -, h2⟩ := h 0 (List.replicate 32 3) (by decide) (by decide)
  exact ⟨p, h1, h2⟩

end Salt.Props
