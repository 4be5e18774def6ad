import Verif.Props.Packets1
import Verif.Props.Packets2
import Verif.Props.Packets3

/-!
# C10-C14: type confusion, truncated packets, exceptions, sizes, re-serialisation
-/

namespace Salt.Props

open Salt

set_option linter.unusedSimpArgs false

/-! ### Exact behaviour of the fixed-size constructors -/

theorem getLE_struct_head (self : Bytes) (src : Bytes) (hne : src ≠ []) (hs : self ≠ []) :
    (∃ a, src.head? = some a ∧ getLE (structFromBytes self src) 0 1 = a.toNat) := by
  obtain ⟨a, t, rfl⟩ := List.exists_cons_of_ne_nil hne
  obtain ⟨b, u, rfl⟩ := List.exists_cons_of_ne_nil hs
  refine ⟨a, rfl, getLE_one ?_⟩
  rw [structFromBytes_eq]; simp

/-- `M2Packet(src)`: accepted iff the first byte is 2; missing bytes are zero. -/
theorem M2_ctor_spec (src : Bytes) (hne : src ≠ []) :
    M2.ctor src = if src.head? = some 2 then
        .ok { data := src.take 38 ++ zeros (38 - src.length), opt := none }
      else .error .badPeer := by
  have hemp : src.isEmpty = false := by simpa using hne
  obtain ⟨a, h1, h2⟩ := getLE_struct_head M2.fresh.data src hne (by decide)
  have e : (a.toNat = 2) ↔ a = 2 := by rw [← UInt8.toNat_inj]; simp
  have hd : structFromBytes M2.fresh.data src = src.take 38 ++ zeros (38 - src.length) := by
    rw [structFromBytes_eq, M2_fresh_data]
    congr 1
    obtain ⟨b, t, rfl⟩ := List.exists_cons_of_ne_nil hne
    have : ([2, 0] ++ zeros 4 ++ zeros 32 : Bytes) = 2 :: zeros 37 := by decide
    rw [this]
    simp only [zeros, List.length_cons, List.drop_succ_cons, List.drop_replicate]
    congr 1; omega
  simp only [M2.ctor, hemp, Bool.false_eq_true, if_false, M2.fromBytes, Packet.validateType,
    PacketType.value, h2, h1, bind, Except.bind, pure, Except.pure, ne_eq, e, Option.some.injEq]
  by_cases ha : a = 2
  · simp [ha, hd]
  · simp [ha]

/-- `M3Packet(src)` / `M4Packet(src)`: accepted iff the first byte is the type. -/
theorem M34_ctor_spec (t : PacketType) (x : UInt8) (hx : x.toNat = t.value) (src : Bytes)
    (hne : src ≠ []) :
    M34.ctor t src = if src.head? = some x then
        .ok { data := src.take 102 ++ zeros (102 - src.length), opt := none }
      else .error .badPeer := by
  have hemp : src.isEmpty = false := by simpa using hne
  have hfne : (M34.fresh t).data ≠ [] := by rw [M34_fresh_data t x hx]; simp
  obtain ⟨a, h1, h2⟩ := getLE_struct_head (M34.fresh t).data src hne hfne
  have e : (a.toNat = t.value) ↔ a = x := by rw [← UInt8.toNat_inj, hx]
  have hd : structFromBytes (M34.fresh t).data src = src.take 102 ++ zeros (102 - src.length) := by
    rw [structFromBytes_eq, M34_fresh_data t x hx]
    obtain ⟨b, u, rfl⟩ := List.exists_cons_of_ne_nil hne
    have : ([x, 0] ++ zeros 4 ++ zeros 32 ++ zeros 64 : Bytes) = x :: zeros 101 := by
      simp [zeros, List.replicate]
    rw [this]
    simp only [zeros, List.length_cons, List.drop_succ_cons, List.drop_replicate, List.length_replicate]
    congr 2; omega
  simp only [M34.ctor, hemp, Bool.false_eq_true, if_false, M34.fromBytes, Packet.validateType,
    h2, h1, bind, Except.bind, pure, Except.pure, ne_eq, e, Option.some.injEq]
  by_cases ha : a = x
  · simp [ha, hd]
  · simp [ha]

/-- `b'SCv2' + 1`: what a complete M1 starts with. -/
def m1Head : Bytes := [0x53, 0x43, 0x76, 0x32, 1]

/-- `M1Packet(src)`: accepted iff `src` agrees with `SCv2`,1 as far as it goes. -/
theorem M1_ctor_spec (src : Bytes) (hne : src ≠ []) :
    ∃ data opt, data = src.take 42 ++ (m1Head ++ zeros 37).drop src.length ∧
      opt = structFromBytes (zeros (32 * getBit data 5 0)) (src.drop 42) ∧
      M1.ctor src = if src.take 5 = m1Head.take src.length then .ok { data := data, opt := some opt }
        else .error .badPeer := by
  have hemp : src.isEmpty = false := by simpa using hne
  refine ⟨_, _, rfl, rfl, ?_⟩
  have hd : structFromBytes M1.fresh.data src = src.take 42 ++ (m1Head ++ zeros 37).drop src.length := by
    rw [structFromBytes_eq, M1_fresh_data]; rfl
  simp only [M1.ctor, hemp, Bool.false_eq_true, if_false, M1.fromBytes, hd, M1.optFactory,
    M1.serverSigKeyIncluded, M1.validate, Packet.validateType, PacketType.value, bind, Except.bind,
    pure, Except.pure, getArr]
  -- the first five bytes of the buffer
  have h5 : (src.take 42 ++ (m1Head ++ zeros 37).drop src.length).take 5
      = src.take 5 ++ m1Head.drop src.length := by
    rcases Nat.lt_or_ge src.length 5 with h | h
    · rw [List.take_of_length_le (l := src) (i := 42) (by omega),
        List.take_of_length_le (l := src) (i := 5) (by omega), List.take_append,
        List.take_of_length_le (l := src) (by omega)]
      congr 1
      rw [← List.drop_take]
      rw [List.take_left' (by rfl)]
    · rw [List.take_append_of_le_length (by simp; omega), List.take_take,
        List.drop_of_length_le (l := m1Head) (by simpa [m1Head] using h)]
      simp
  have hcond : (src.take 5 = m1Head.take src.length) ↔ src.take 5 ++ m1Head.drop src.length = m1Head := by
    constructor
    · intro h; rw [h, List.take_append_drop]
    · intro h
      have : (src.take 5 ++ m1Head.drop src.length).take src.length = m1Head.take src.length := by rw [h]
      rcases Nat.lt_or_ge src.length 5 with hl | hl
      · rw [List.take_left' (by simp; omega)] at this; exact this
      · have e1 : m1Head.drop src.length = [] :=
          List.drop_of_length_le (by simpa [m1Head] using hl)
        rw [e1, List.append_nil] at h
        rw [h, List.take_of_length_le (by simpa [m1Head] using hl)]
  generalize hD : src.take 42 ++ (m1Head ++ zeros 37).drop src.length = D at *
  have hlen : 5 ≤ D.length := by
    rw [← hD]; simp [m1Head]; omega
  obtain ⟨a, b, c, d, e, t, rfl⟩ : ∃ a b c d e t, D = a :: b :: c :: d :: e :: t := by
    match D, hlen with
    | a :: b :: c :: d :: e :: t, _ => exact ⟨_, _, _, _, _, _, rfl⟩
  have hiff : (src.take 5 = m1Head.take src.length) ↔
      ([a, b, c, d] = M1.indicator ∧ e = 1) := by
    rw [hcond, ← h5]
    simp [m1Head, M1.indicator, and_assoc]
  have g1 : getLE (a :: b :: c :: d :: e :: t) 4 1 = e.toNat := getLE_one (by simp)
  have g2 : slice (a :: b :: c :: d :: e :: t) 0 (0 + 4) = [a, b, c, d] := by simp [slice]
  have e1 : (e.toNat = 1) ↔ e = 1 := by rw [← UInt8.toNat_inj]; simp
  simp only [g1, g2, hiff, ne_eq, e1]
  by_cases he : e = 1
  · by_cases hi : [a, b, c, d] = M1.indicator
    · simp [he, hi]
    · simp [he, hi]
  · simp [he]

/-! ### C10 -/

/-- The packet classes. -/
inductive Cls | m1 | m2 | m3 | m4 | encrypted | app | multiApp | a1 | a2
  deriving DecidableEq

/-- `C(src_buf=src)` returns (does not raise). -/
def Accepts (uw : Nat → Bool) : Cls → Bytes → Prop
  | .m1, s => ∃ p, M1.ctor s = .ok p
  | .m2, s => ∃ p, M2.ctor s = .ok p
  | .m3, s => ∃ p, M34.ctor .m3 s = .ok p
  | .m4, s => ∃ p, M34.ctor .m4 s = .ok p
  | .encrypted, s => ∃ p, EncPkt.ctor s = .ok p
  | .app, s => ∃ p, AppPkt.ctor s = .ok p
  | .multiApp, s => ∃ p, MultiApp.ctor s = .ok p
  | .a1, s => ∃ p, A1.ctor s = .ok p
  | .a2, s => ∃ p, A2.ctor uw s = .ok p

/-- First byte of every accepted non-empty source. -/
def Cls.firstByte : Cls → UInt8
  | .m1 => 0x53 | .m2 => 2 | .m3 => 3 | .m4 => 4 | .encrypted => 6 | .app => 5 | .multiApp => 11
  | .a1 => 8 | .a2 => 9

theorem MultiApp_accept_len {src : Bytes} (hne : src ≠ []) {p : MultiApp}
    (h : MultiApp.ctor src = .ok p) : 8 ≤ src.length ∧ src.head? = some 11 := by
  have : ∃ msgs, p.opt = some msgs := by
    have hemp : src.isEmpty = false := by simpa using hne
    simp only [MultiApp.ctor, hemp, Bool.false_eq_true, if_false, MultiApp.fromBytes, bind,
      Except.bind, pure, Except.pure] at h
    split at h
    · simp at h
    · split at h
      · simp at h
      · exact ⟨_, by rw [← Except.ok.inj h]⟩
  obtain ⟨msgs, hm⟩ := this
  obtain ⟨h1, h2, -⟩ := (C07_multi_accept_partial src hne msgs).1 ⟨p, h, hm⟩
  exact ⟨h2, h1⟩

theorem A1_accept_len {src : Bytes} (hne : src ≠ []) {p : Packet} (h : A1.ctor src = .ok p) :
    5 ≤ src.length := by
  apply Nat.le_of_not_lt
  intro hl
  have hemp : src.isEmpty = false := by simpa using hne
  simp [A1.ctor, hemp, A1.fromBytes, hl] at h

theorem accepts_firstByte (uw : Nat → Bool) (c : Cls) (src : Bytes) (hne : src ≠ [])
    (h : Accepts uw c src) : src.head? = some c.firstByte := by
  cases c with
  | m1 =>
    obtain ⟨p, hp⟩ := h
    obtain ⟨_, _, -, -, hc⟩ := M1_ctor_spec src hne
    rw [hc] at hp
    split at hp
    · rename_i h
      obtain ⟨a, t, rfl⟩ := List.exists_cons_of_ne_nil hne
      simp [m1Head] at h
      simp [h, Cls.firstByte]
    · simp at hp
  | m2 =>
    obtain ⟨p, hp⟩ := h
    rw [M2_ctor_spec src hne] at hp
    split at hp
    · assumption
    · simp at hp
  | m3 =>
    obtain ⟨p, hp⟩ := h
    rw [M34_ctor_spec .m3 3 rfl src hne] at hp
    split at hp
    · assumption
    · simp at hp
  | m4 =>
    obtain ⟨p, hp⟩ := h
    rw [M34_ctor_spec .m4 4 rfl src hne] at hp
    split at hp
    · assumption
    · simp at hp
  | encrypted =>
    obtain ⟨p, hp⟩ := h
    rw [EncPkt_ctor_spec src hne] at hp
    split at hp
    · rename_i h; exact h.2
    · simp at hp
  | app =>
    obtain ⟨p, hp⟩ := h
    rw [AppPkt_ctor_spec src hne] at hp
    split at hp
    · rename_i h; exact h.2 rfl
    · simp at hp
  | multiApp =>
    obtain ⟨p, hp⟩ := h
    exact (MultiApp_accept_len hne hp).2
  | a1 =>
    obtain ⟨p, hp⟩ := h
    obtain ⟨hiff, -⟩ := C08_a1_accept src (A1_accept_len hne hp)
    rcases hiff.1 ⟨p, hp⟩ with ⟨x, rfl⟩ | ⟨x, addr, rfl, -⟩ <;> rfl
  | a2 =>
    obtain ⟨p, hp⟩ := h
    obtain ⟨f, ps, tl, rfl, -⟩ := (C09_a2_accept uw src hne p).1 hp
    rfl

/-- **C10.** No non-empty byte string is accepted by two packet classes (M1 included). -/
theorem C10_no_type_confusion (uw : Nat → Bool) (src : Bytes) (hne : src ≠ []) (c d : Cls)
    (hc : Accepts uw c src) (hd : Accepts uw d src) : c = d := by
  have h1 := accepts_firstByte uw c src hne hc
  have h2 := accepts_firstByte uw d src hne hd
  rw [h1] at h2
  revert h2
  cases c <;> cases d <;> decide

/-- Non-vacuity of C10: every class accepts some non-empty string. -/
example (uw : Nat → Bool) : ∀ c, ∃ src, src ≠ [] ∧ Accepts uw c src := by
  intro c
  cases c
  · exact ⟨[0x53], by decide, _, rfl⟩
  · exact ⟨[2], by decide, _, rfl⟩
  · exact ⟨[3], by decide, _, rfl⟩
  · exact ⟨[4], by decide, _, rfl⟩
  · exact ⟨Spec.encrypted false (zeros 16), by decide, _, rfl⟩
  · exact ⟨Spec.app 0 [], by decide, _, rfl⟩
  · exact ⟨Spec.multiApp 0 [[1], [2]], by decide, _, rfl⟩
  · exact ⟨Spec.a1 0 [], by decide, _, rfl⟩
  · exact ⟨Spec.a2 true true [], by decide, _, rfl⟩

/-! ### C11 -/

/-- **C11 (partial).** The exact acceptance sets of the fixed-size packets, with the value obtained:
missing bytes are filled with zeros (for M1: with the missing part of `SCv2`,1,0,0,...), surplus bytes
are dropped.  The full claim (short inputs are rejected) is false, see `C11_violated`. -/
theorem C11_fixed_accept_partial (src : Bytes) (hne : src ≠ []) :
    (M2.ctor src = if src.head? = some 2 then
        .ok { data := src.take 38 ++ zeros (38 - src.length), opt := none } else .error .badPeer) ∧
    (M34.ctor .m3 src = if src.head? = some 3 then
        .ok { data := src.take 102 ++ zeros (102 - src.length), opt := none } else .error .badPeer) ∧
    (M34.ctor .m4 src = if src.head? = some 4 then
        .ok { data := src.take 102 ++ zeros (102 - src.length), opt := none } else .error .badPeer) ∧
    (∃ data opt, data = src.take 42 ++ (m1Head ++ zeros 37).drop src.length ∧
      opt = structFromBytes (zeros (32 * getBit data 5 0)) (src.drop 42) ∧
      M1.ctor src = if src.take 5 = m1Head.take src.length then .ok { data := data, opt := some opt }
        else .error .badPeer) :=
  ⟨M2_ctor_spec src hne, M34_ctor_spec .m3 3 rfl src hne, M34_ctor_spec .m4 4 rfl src hne,
    M1_ctor_spec src hne⟩

/-- **C11 violated, for every packet.** Every prefix, however short, of every valid M1, M2, M3, M4 is
accepted; and cutting an M2 before its key yields the all-zero key. -/
theorem C11_violated (n time : Nat) (key sig : Bytes) (srv : Option Bytes) (nss last : Bool)
    (hk : key.length = 32) :
    (∃ p, M1.ctor ((Spec.m1 time key srv).take n) = .ok p) ∧
    (∃ p, M2.ctor ((Spec.m2 nss last time key).take n) = .ok p ∧
      (n ≤ 6 → M2.serverEncKey p = zeros 32)) ∧
    (∃ p, M34.ctor .m3 ((Spec.m3 time key sig).take n) = .ok p) ∧
    (∃ p, M34.ctor .m4 ((Spec.m4 time key sig).take n) = .ok p) := by
  cases n with
  | zero => exact ⟨⟨_, rfl⟩, ⟨_, rfl, fun _ => by decide⟩, ⟨_, rfl⟩, ⟨_, rfl⟩⟩
  | succ n =>
    refine ⟨?_, ?_, ?_, ?_⟩
    · obtain ⟨d, o, -, -, h⟩ := M1_ctor_spec ((Spec.m1 time key srv).take (n + 1))
        (by cases srv <;> simp [Spec.m1])
      refine ⟨_, h.trans (if_pos ?_)⟩
      have h5 : (Spec.m1 time key srv).take 5 = m1Head := by cases srv <;> rfl
      have hl : 5 ≤ (Spec.m1 time key srv).length := by cases srv <;> simp [Spec.m1]
      have hm : m1Head.length = 5 := rfl
      rw [List.take_take, List.length_take, ← h5, List.take_take]
      by_cases hn : n + 1 < 5
      · rw [show min 5 (n + 1) = n + 1 by omega,
          show min (min (n + 1) (Spec.m1 time key srv).length) 5 = n + 1 by omega]
      · rw [show min 5 (n + 1) = 5 by omega,
          show min (min (n + 1) (Spec.m1 time key srv).length) 5 = 5 by omega]
    · have h := M2_ctor_spec ((Spec.m2 nss last time key).take (n + 1)) (by simp [Spec.m2])
      rw [if_pos (by simp [Spec.m2])] at h
      refine ⟨_, h, fun hn => ?_⟩
      have hl : ((Spec.m2 nss last time key).take (n + 1)).length = n + 1 := by
        simp [Spec.m2, hk]; omega
      simp only [M2.serverEncKey, getArr, slice_eq_drop_take]
      rw [hl, List.take_of_length_le (l := List.take _ _) (by omega), List.drop_append,
        List.drop_of_length_le (by omega), List.nil_append, hl]
      simp only [zeros, List.drop_replicate, List.take_replicate]
      congr 1; omega
    · have h := M34_ctor_spec .m3 3 rfl ((Spec.m3 time key sig).take (n + 1)) (by simp [Spec.m3])
      rw [if_pos (by simp [Spec.m3])] at h
      exact ⟨_, h⟩
    · have h := M34_ctor_spec .m4 4 rfl ((Spec.m4 time key sig).take (n + 1)) (by simp [Spec.m4])
      rw [if_pos (by simp [Spec.m4])] at h
      exact ⟨_, h⟩

/-- Concrete instance: two bytes are enough for an M2 with the zero key. -/
example : ∃ p, M2.ctor [2, 0] = .ok p ∧ M2.serverEncKey p = zeros 32 :=
  ⟨_, rfl, by decide⟩

/-! ### C12 -/

theorem A2_short_error (uw : Nat → Bool) (src : Bytes) (hne : src ≠ []) (hl : src.length < 3) :
    A2.ctor uw src = .error .valueError := by
  have hemp : src.isEmpty = false := by simpa using hne
  simp [A2.ctor, hemp, A2.fromBytes, hl]

theorem parseRest_error (n : Nat) (s : Bytes) (e : Err) (h : parseRest n s = .error e) :
    e = .valueError := by
  induction n generalizing s e with
  | zero => simp [parseRest] at h
  | succ n ih =>
    simp only [parseRest] at h
    split at h
    · exact (Except.error.inj h).symm
    · split at h
      · simp at h
      · rename_i e' he
        rw [← Except.error.inj h]; exact ih _ _ he

/-- **C12.** The only exceptions packet construction can raise, per class, for every byte string. -/
theorem C12_exceptions (uw : Nat → Bool) (src : Bytes) (e : Err) :
    (M1.ctor src = .error e → e = .badPeer) ∧
    (M2.ctor src = .error e → e = .badPeer) ∧
    (M34.ctor .m3 src = .error e → e = .badPeer) ∧
    (M34.ctor .m4 src = .error e → e = .badPeer) ∧
    (EncPkt.ctor src = .error e → e = .badPeer) ∧
    (AppPkt.ctor src = .error e → e = .badPeer) ∧
    (MultiApp.ctor src = .error e → e = .badPeer ∨ e = .valueError) ∧
    (A1.ctor src = .error e → e = .badPeer ∨ (e = .valueError ∧ src.length < 5)) ∧
    (A2.ctor uw src = .error e →
      e = .badPeer ∨ (e = .valueError ∧ src.length < 3) ∨ e = .unicodeDecodeError) := by
  by_cases hne : src = []
  · subst hne
    refine ⟨?_, ?_, ?_, ?_, ?_, ?_, ?_, ?_, ?_⟩ <;> intro h <;> cases h
  · refine ⟨?_, ?_, ?_, ?_, ?_, ?_, ?_, ?_, ?_⟩ <;> intro h
    · obtain ⟨_, _, -, -, hc⟩ := M1_ctor_spec src hne
      rw [hc] at h
      split at h <;> simp at h
      exact h.symm
    · rw [M2_ctor_spec src hne] at h
      split at h <;> simp at h
      exact h.symm
    · rw [M34_ctor_spec .m3 3 rfl src hne] at h
      split at h <;> simp at h
      exact h.symm
    · rw [M34_ctor_spec .m4 4 rfl src hne] at h
      split at h <;> simp at h
      exact h.symm
    · rw [EncPkt_ctor_spec src hne] at h
      split at h <;> simp at h
      exact h.symm
    · rw [AppPkt_ctor_spec src hne] at h
      split at h <;> simp at h
      exact h.symm
    · have hemp : src.isEmpty = false := by simpa using hne
      simp only [MultiApp.ctor, hemp, Bool.false_eq_true, if_false, MultiApp.fromBytes, bind,
        Except.bind, pure, Except.pure, parseMsgs_eq] at h
      split at h
      · rename_i e' he
        right; rw [← Except.error.inj h]; exact parseRest_error _ _ _ he
      · split at h
        · rename_i hv
          left
          rw [← Except.error.inj h]
          simp only [MultiApp.validate] at hv
          split at hv
          · exact (Except.error.inj hv).symm
          · split at hv
            · exact (Except.error.inj hv).symm
            · split at hv
              · exact (Except.error.inj hv).symm
              · simp at hv
        · simp at h
    · have hemp : src.isEmpty = false := by simpa using hne
      by_cases hl : src.length < 5
      · right
        simp [A1.ctor, hemp, A1.fromBytes, hl] at h
        exact ⟨h.symm, hl⟩
      · left
        obtain ⟨-, -, -, hr⟩ := C08_a1_accept src (by omega)
        rw [hr (by rintro ⟨p, hp⟩; rw [hp] at h; simp at h)] at h
        exact (Except.error.inj h).symm
    · by_cases hl : src.length < 3
      · right; left
        rw [A2_short_error uw src hne hl] at h
        exact ⟨(Except.error.inj h).symm, hl⟩
      · rcases C09_a2_reject uw src (by omega) e h with h | h
        · exact .inl h
        · exact .inr (.inr h.1)

/-- The non-BadPeer exceptions do occur. -/
example (uw : Nat → Bool) : MultiApp.ctor [11, 0, 0, 0, 0, 0, 1, 0] = .error .valueError ∧
    A1.ctor [8] = .error .valueError ∧ A2.ctor uw [9] = .error .valueError ∧
    A2.ctor uw ([9, 128, 1] ++ List.replicate 20 0xff) = .error .unicodeDecodeError :=
  ⟨rfl, rfl, rfl, rfl⟩

/-! ### C13 -/

/-- M1 objects reachable through the API. -/
inductive ReachM1 : Packet → Prop
  | ctor {src p} : M1.ctor src = .ok p → ReachM1 p
  | setFlag {p v} : ReachM1 p → ReachM1 (M1.setServerSigKeyIncluded p v)
  | setTime {p v} : ReachM1 p → ReachM1 (M1.setTime p v)
  | setKey {p q v} : ReachM1 p → M1.setClientEncKey p v = .ok q → ReachM1 q
  | createOpt {p} : ReachM1 p → ReachM1 (M1.createOptFields p)
  | setSrvKey {p q v} : ReachM1 p → M1.setServerSigKey p v = .ok q → ReachM1 q

/-- M2 objects reachable through the API (`bytes` updates the flag in place). -/
inductive ReachM2 : Packet → Prop
  | ctor {src p} : M2.ctor src = .ok p → ReachM2 p
  | setNss {p v} : ReachM2 p → ReachM2 (M2.setNoSuchServer p v)
  | setLast {p v} : ReachM2 p → ReachM2 (M2.setLastFlag p v)
  | setTime {p v} : ReachM2 p → ReachM2 (M2.setTime p v)
  | setKey {p q v} : ReachM2 p → M2.setServerEncKey p v = .ok q → ReachM2 q
  | bytes {p} : ReachM2 p → ReachM2 (M2.implyLast p)

theorem setBit_length (d : Bytes) (off k v : Nat) (h : off + 1 ≤ d.length) :
    (setBit d off k v).length = d.length := by
  unfold setBit setLE
  exact setBytes_length _ _ _ (by simpa using h)

theorem setLE_length (d : Bytes) (off w v : Nat) (h : off + w ≤ d.length) :
    (setLE d off w v).length = d.length := by
  unfold setLE
  exact setBytes_length _ _ _ (by simpa using h)

theorem setArr_length {d d' : Bytes} {off n : Nat} {v : Bytes} (h : off + n ≤ d.length)
    (hs : setArr d off n v = .ok d') : d'.length = d.length := by
  unfold setArr at hs
  split at hs
  · rename_i hv
    rw [← Except.ok.inj hs]
    exact setBytes_length _ _ _ (by omega)
  · simp at hs

theorem ReachM1_inv {p : Packet} (h : ReachM1 p) :
    p.data.length = 42 ∧ (p.optBytes.length = 0 ∨ p.optBytes.length = 32) := by
  induction h with
  | @ctor src p h =>
    by_cases hne : src = []
    · subst hne; cases h; exact ⟨by decide, .inl (by decide)⟩
    · obtain ⟨d, o, hd, ho, hc⟩ := M1_ctor_spec src hne
      rw [hc] at h
      split at h
      · rw [← Except.ok.inj h]
        refine ⟨?_, ?_⟩
        · simp [hd, m1Head]; omega
        · have hb : getBit d 5 0 < 2 := Nat.mod_lt _ (by decide)
          have : o.length = 32 * getBit d 5 0 := by rw [ho]; simp
          simp only [Packet.optBytes, Option.getD_some]
          omega
      · simp at h
  | setFlag _ ih =>
    exact ⟨by rw [M1.setServerSigKeyIncluded, setBit_length _ _ _ _ (by omega)]; exact ih.1, ih.2⟩
  | setTime _ ih => exact ⟨by rw [M1.setTime, setLE_length _ _ _ _ (by omega)]; exact ih.1, ih.2⟩
  | setKey _ hs ih =>
    unfold M1.setClientEncKey at hs
    split at hs
    · rename_i hd
      rw [← Except.ok.inj hs]
      exact ⟨by simp only; rw [setArr_length (by omega) hd]; exact ih.1, ih.2⟩
    · simp at hs
  | createOpt _ ih =>
    refine ⟨ih.1, ?_⟩
    rename_i p _
    have hb : getBit p.data 5 0 < 2 := Nat.mod_lt _ (by decide)
    simp only [M1.createOptFields, M1.optFactory, M1.serverSigKeyIncluded, Packet.optBytes,
      Option.getD_some, zeros_length]
    omega
  | setSrvKey _ hs ih =>
    unfold M1.setServerSigKey at hs
    split at hs
    · simp at hs
    · split at hs
      · rw [← Except.ok.inj hs]; exact ih
      · rename_i o ho
        split at hs
        · rename_i o' hd
          rw [← Except.ok.inj hs]
          refine ⟨ih.1, ?_⟩
          have := setArr_length (by omega) hd
          have h2 := ih.2
          simp only [Packet.optBytes, ho, Option.getD_some] at h2 ⊢
          omega
        · simp at hs

theorem ReachM2_inv {p : Packet} (h : ReachM2 p) : p.data.length = 38 ∧ p.opt = none := by
  induction h with
  | @ctor src p h =>
    by_cases hne : src = []
    · subst hne; cases h; exact ⟨by decide, rfl⟩
    · rw [M2_ctor_spec src hne] at h
      split at h
      · rw [← Except.ok.inj h]; exact ⟨by simp; omega, rfl⟩
      · simp at h
  | setNss _ ih => exact ⟨by rw [M2.setNoSuchServer, setBit_length _ _ _ _ (by omega)]; exact ih.1, ih.2⟩
  | setLast _ ih => exact ⟨by rw [M2.setLastFlag, setBit_length _ _ _ _ (by omega)]; exact ih.1, ih.2⟩
  | setTime _ ih => exact ⟨by rw [M2.setTime, setLE_length _ _ _ _ (by omega)]; exact ih.1, ih.2⟩
  | setKey _ hs ih =>
    unfold M2.setServerEncKey at hs
    split at hs
    · rename_i hd
      rw [← Except.ok.inj hs]
      exact ⟨by simp only; rw [setArr_length (by omega) hd]; exact ih.1, ih.2⟩
    · simp at hs
  | bytes _ ih =>
    unfold M2.implyLast
    split
    · exact ⟨by rw [M2.setLastFlag, setBit_length _ _ _ _ (by omega)]; exact ih.1, ih.2⟩
    · exact ih

/-- **C13.** `.size` is the length of `bytes(packet)`: for every reachable M1 (42 or 74) and M2 (38),
and for every object of the remaining classes. -/
theorem C13_size :
    (∀ p, ReachM1 p → p.size = p.toBytes.length ∧ (p.size = 42 ∨ p.size = 74)) ∧
    (∀ p, ReachM2 p → p.size = (M2.toBytes p).length ∧ p.size = 38) ∧
    (∀ p : Packet, p.size = p.toBytes.length) ∧
    (∀ p : MultiApp, p.size = p.toBytes.length) := by
  refine ⟨fun p h => ?_, fun p h => ?_, fun p => ?_, fun p => ?_⟩
  · obtain ⟨h1, h2⟩ := ReachM1_inv h
    refine ⟨by simp [Packet.size, Packet.toBytes], ?_⟩
    simp only [Packet.size]; omega
  · obtain ⟨h1, h2⟩ := ReachM2_inv h
    have h3 := (ReachM2_inv (.bytes h)).1
    simp only [Packet.size, Packet.optBytes, h2, M2.toBytes, h3, h1]
    simp
  · simp [Packet.size, Packet.toBytes]
  · simp [MultiApp.size, MultiApp.toBytes]

/-- Non-vacuity of C13: an M1 with the optional key is reachable and has size 74. -/
example : ∃ p, ReachM1 p ∧ p.size = 74 :=
  ⟨M1.createOptFields (M1.setServerSigKeyIncluded M1.fresh 1),
    .createOpt (.setFlag (.ctor (src := []) rfl)), by decide⟩

/-! ### C14 -/

theorem zeros_zero : zeros 0 = [] := rfl

/-- **C14.** `bytes(parse(x)) == x` for every accepted `x` of the exact packet length; for M2 the
serialisation in addition sets LastFlag (bit 7 of byte 1) when NoSuchServer is set. -/
theorem C14_reserialise (uw : Nat → Bool) (x : Bytes) (hne : x ≠ []) :
    (∀ p, M1.ctor x = .ok p → (∃ f, x[5]? = some f ∧ x.length = 42 + 32 * (f.toNat % 2)) →
      p.toBytes = x) ∧
    (∀ p a f rest, M2.ctor x = .ok p → x.length = 38 → x = a :: f :: rest →
      M2.toBytes p =
        if f.toNat % 2 = 1 then a :: UInt8.ofNat (f.toNat % 128 + 128) :: rest else x) ∧
    (∀ p, M34.ctor .m3 x = .ok p → x.length = 102 → p.toBytes = x) ∧
    (∀ p, M34.ctor .m4 x = .ok p → x.length = 102 → p.toBytes = x) ∧
    (∀ p, EncPkt.ctor x = .ok p → p.toBytes = x) ∧
    (∀ p v, AppPkt.ctor x v = .ok p → p.toBytes = x) ∧
    (∀ p, A1.ctor x = .ok p → p.toBytes = x) ∧
    (∀ p, A2.ctor uw x = .ok p → x.length % 20 = 3 → p.toBytes = x) ∧
    (∀ p, MultiApp.ctor x = .ok p →
      (∃ msgs : List Bytes, (∀ m ∈ msgs, m.length < 65536) ∧ 8 ≤ x.length ∧
        msgs.length = leNat ((x.drop 6).take 2) ∧
        x.drop 8 = (msgs.map fun m => Spec.le16 m.length ++ m).flatten) → p.toBytes = x) := by
  refine ⟨?_, ?_, ?_, ?_, ?_, ?_, ?_, ?_, ?_⟩
  · rintro p hp ⟨f, hf, hl⟩
    obtain ⟨d, o, hd, ho, hc⟩ := M1_ctor_spec x hne
    rw [hc] at hp
    split at hp
    · rw [← Except.ok.inj hp]
      have hd' : d = x.take 42 := by
        rw [hd, List.drop_of_length_le (by simp [m1Head]; omega), List.append_nil]
      have hb : getBit d 5 0 = f.toNat % 2 := by
        have : getLE d 5 1 = f.toNat := by
          apply getLE_one; rw [hd', List.getElem?_take_of_lt (by omega), hf]
        simp [getBit, this]
      have ho' : o = x.drop 42 := by
        rw [ho, hb]; apply structFromBytes_of_eq; simp; omega
      simp [Packet.toBytes, Packet.optBytes, hd', ho']
    · simp at hp
  · intro p a f rest hp hl hx
    have hpd : p = { data := x, opt := none } := by
      rw [M2_ctor_spec x hne] at hp
      split at hp
      · rw [← Except.ok.inj hp, hl, List.take_of_length_le (by omega)]
        simp [zeros]
      · simp at hp
    have hn : M2.noSuchServer p = f.toNat % 2 := by
      rw [hpd, hx]; simp [M2.noSuchServer, getBit, getLE, slice, leNat]
    unfold M2.toBytes M2.implyLast
    rw [hn]
    by_cases h0 : f.toNat % 2 = 1
    · rw [if_pos (by omega), if_pos h0, hpd, hx]
      have hf : f.toNat - f.toNat / 128 % 2 * 128 + 128 = f.toNat % 128 + 128 := by
        have := f.toNat_lt; omega
      simp [M2.setLastFlag, setBit, setLE, getBit, getLE, slice, leNat, setBytes, leBytes, hf]
      rw [Nat.mod_eq_of_lt (by omega)]
      simp
    · rw [if_neg (by omega), if_neg h0, hpd]
  · intro p hp hl
    rw [M34_ctor_spec .m3 3 rfl x hne] at hp
    split at hp
    · rw [← Except.ok.inj hp, hl, List.take_of_length_le (by omega)]
      simp [Packet.toBytes, Packet.optBytes, zeros]
    · simp at hp
  · intro p hp hl
    rw [M34_ctor_spec .m4 4 rfl x hne] at hp
    split at hp
    · rw [← Except.ok.inj hp, hl, List.take_of_length_le (by omega)]
      simp [Packet.toBytes, Packet.optBytes, zeros]
    · simp at hp
  · intro p hp
    rw [EncPkt_ctor_spec x hne] at hp
    split at hp
    · rw [← Except.ok.inj hp]; simp [Packet.toBytes, Packet.optBytes]
    · simp at hp
  · intro p v hp
    rw [AppPkt_ctor_spec x hne] at hp
    split at hp
    · rw [← Except.ok.inj hp]; simp [Packet.toBytes, Packet.optBytes]
    · simp at hp
  · intro p hp
    have hl := A1_accept_len hne hp
    match x, hl with
    | b0 :: b1 :: b2 :: b3 :: b4 :: addr, _ =>
      rw [A1_ctor_spec] at hp
      split at hp
      · rw [← Except.ok.inj hp]; simp [Packet.toBytes, Packet.optBytes]
      · simp at hp
  · intro p hp hl
    obtain ⟨f, ps, tl, hx, h1, h2, h3, h4, h5, rfl⟩ := (C09_a2_accept uw x hne p).1 hp
    have hpl := protBytes_length ps (fun q hq => ⟨(h5 q hq).1, (h5 q hq).2.1⟩)
    have htl : tl = [] := by
      have : x.length = 3 + 20 * ps.length + tl.length := by
        rw [hx]; simp only [List.length_append]; simp only [protBytes] at hpl; rw [hpl]; rfl
      apply List.length_eq_zero_iff.1; omega
    subst htl
    rw [hx]; simp [Packet.toBytes, Packet.optBytes]
  · rintro p hp ⟨msgs, hm, hl, hn, hx⟩
    rw [MultiApp_ctor_spec x hl, ← hn, hx] at hp
    have := parseRest_complete msgs hm []
    rw [List.append_nil] at this
    rw [this] at hp
    simp only at hp
    split at hp
    · rw [← Except.ok.inj hp]
      simp only [MultiApp.toBytes, Option.getD_some, optBytes_eq, ← hx, List.take_append_drop]
    · simp at hp

/-- Non-vacuity of C14: an accepted M1 with non-zero reserved flag bits. -/
example : ∃ p, M1.ctor ([0x53, 0x43, 0x76, 0x32, 1, 0xfe] ++ zeros 36) = .ok p ∧
    p.toBytes = [0x53, 0x43, 0x76, 0x32, 1, 0xfe] ++ zeros 36 :=
  ⟨_, rfl, rfl⟩

end Salt.Props
