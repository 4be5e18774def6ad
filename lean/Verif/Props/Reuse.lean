import Verif.Lemmas.Packets
import Verif.Model.A1A2

/-!
# C118: reading into a packet object that has been used before

`from_bytes` can be called on any packet object, also on one that has been filled before
(tests/a1a2/test_packets.py:28-38 does so).  The methods `SmartStructure.from_bytes` copy as many bytes
as there are; what is not covered by a short source keeps its old value.
-/

namespace Salt.Props

open Salt

theorem structFromBytes_forget {old new src : Bytes} (hl : old.length = new.length)
    (h : old.length ≤ src.length) : structFromBytes old src = structFromBytes new src := by
  rw [structFromBytes_of_le h, structFromBytes_of_le (hl ▸ h), hl]

/-- **C118** (the classes with a fixed part only, and M1).  If the source covers the fixed part, reading it into
any object of the class has the same outcome as reading it into a new one.  The full claim, for all sources,
is false: `C118_violated`. -/
theorem C118_fixed_partial (p : Packet) (src : Bytes) :
    (p.data.length = 42 → 42 ≤ src.length → M1.fromBytes p src = M1.fromBytes M1.fresh src) ∧
    (p.data.length = 38 → 38 ≤ src.length → M2.fromBytes p src = M2.fromBytes M2.fresh src) ∧
    (∀ t, p.data.length = 102 → 102 ≤ src.length → M34.fromBytes t p src = M34.fromBytes t (M34.fresh t) src) := by
  refine ⟨fun hp hs => ?_, fun hp hs => ?_, fun t hp hs => ?_⟩
  · have h := structFromBytes_forget (new := M1.fresh.data) (hp.trans rfl) (hp ▸ hs)
    simp only [M1.fromBytes, h]
    rfl
  · have h := structFromBytes_forget (new := M2.fresh.data) (hp.trans rfl) (hp ▸ hs)
    simp only [M2.fromBytes, h]
  · have h := structFromBytes_forget (new := (M34.fresh t).data) (by rw [hp]; cases t <;> rfl) (hp ▸ hs)
    simp only [M34.fromBytes, h]

/-- **C118** (the classes with a part of variable length).  For every source, reading it into any object of the
class has the same outcome as reading it into a new one: the same packet, or the same exception. -/
theorem C118_variable (p : Packet) (src : Bytes) (uw : Nat → Bool) :
    (p.data.length = 2 → EncPkt.fromBytes p src = EncPkt.fromBytes EncPkt.fresh src) ∧
    (p.data.length = 6 → ∀ v, AppPkt.fromBytes p src v = AppPkt.fromBytes AppPkt.fresh src v) ∧
    (p.data.length = 5 → A1.fromBytes p src = A1.fromBytes A1.fresh src) ∧
    (p.data.length = 3 → A2.fromBytes uw p src = A2.fromBytes uw A2.fresh src) := by
  refine ⟨fun hp => ?_, fun hp v => ?_, fun hp => ?_, fun hp => ?_⟩
  · by_cases hs : src.length < 2
    · simp only [EncPkt.fromBytes, hs, if_true]
    · have h := structFromBytes_forget (src := src) (new := EncPkt.fresh.data) (hp.trans rfl) (by omega)
      simp only [EncPkt.fromBytes, h]
  · by_cases hs : src.length < 6
    · simp only [AppPkt.fromBytes, hs, if_true]
    · have h := structFromBytes_forget (src := src) (new := AppPkt.fresh.data) (hp.trans rfl) (by omega)
      simp only [AppPkt.fromBytes, h]
  · by_cases hs : src.length < 5
    · simp only [A1.fromBytes, hs, if_true]
    · have h := structFromBytes_forget (src := src) (new := A1.fresh.data) (hp.trans rfl) (by omega)
      simp only [A1.fromBytes, h]
  · by_cases hs : src.length < 3
    · simp only [A2.fromBytes, hs, if_true]
    · have h := structFromBytes_forget (src := src) (new := A2.fresh.data) (hp.trans rfl) (by omega)
      simp only [A2.fromBytes, h]

theorem parseMsgs_nil (n : Nat) : MultiApp.parseMsgs [] (n + 1) 0 = .error .valueError := by
  simp [MultiApp.parseMsgs]

/-- **C118** (MultiAppPacket).  The outcome does not depend on what the object contained if the source covers
the fixed part; a shorter source is refused whatever the object contained. -/
theorem C118_multi (p : MultiApp) (hp : p.data.length = 8) (src : Bytes) :
    (8 ≤ src.length → MultiApp.fromBytes p src = MultiApp.fromBytes MultiApp.fresh src) ∧
    (src.length < 8 → ∃ e, MultiApp.fromBytes p src = .error e) := by
  refine ⟨fun hs => ?_, fun hs => ?_⟩
  · have h := structFromBytes_forget (new := MultiApp.fresh.data) (hp.trans rfl) (hp ▸ hs)
    simp only [MultiApp.fromBytes, h]
    rfl
  · have hd : src.drop 8 = [] := List.drop_of_length_le (by omega)
    by_cases he : src.isEmpty = true
    · exact ⟨.typeError, by simp only [MultiApp.fromBytes, he, if_true]⟩
    · simp only [MultiApp.fromBytes, he, Bool.false_eq_true, if_false, hd]
      rcases hc : MultiApp.count { p with data := structFromBytes p.data src } with _ | n
      · have hc' : MultiApp.count { data := structFromBytes p.data src, opt := some [] } < 1 := by
          have : MultiApp.count { data := structFromBytes p.data src, opt := some [] } = 0 := hc
          omega
        have hv : MultiApp.validate { data := structFromBytes p.data src, opt := some [] } = .error .badPeer := by
          unfold MultiApp.validate
          rw [if_pos hc', ite_self]
        simp only [MultiApp.parseMsgs, bind, Except.bind, hv]
        exact ⟨_, rfl⟩
      · simp only [parseMsgs_nil, bind, Except.bind]
        exact ⟨_, rfl⟩

/-- What a short source does to an object of the class: the bytes it does not cover are those of before. -/
theorem C118_kept (p : Packet) (src : Bytes) (hs : src ≠ []) :
    (p.data.length = 38 → src.length ≤ 38 → src.head? = some 2 →
      M2.fromBytes p src = .ok { data := src ++ p.data.drop src.length, opt := none }) ∧
    (∀ t : PacketType, p.data.length = 102 → src.length ≤ 102 → src.head? = some (UInt8.ofNat t.value) →
      M34.fromBytes t p src = .ok { data := src ++ p.data.drop src.length, opt := none }) := by
  obtain ⟨b, s, rfl⟩ : ∃ b s, src = b :: s := List.exists_cons_of_ne_nil hs
  refine ⟨fun hp hl hb => ?_, fun t hp hl hb => ?_⟩
  · have hb : b = 2 := by simpa using hb
    subst hb
    have h : structFromBytes p.data (2 :: s) = 2 :: s ++ p.data.drop (2 :: s).length := by
      rw [structFromBytes_eq, List.take_of_length_le (by omega)]
    simp only [M2.fromBytes, h]
    rfl
  · have hb : b = UInt8.ofNat t.value := by simpa using hb
    subst hb
    have h : structFromBytes p.data (UInt8.ofNat t.value :: s)
        = UInt8.ofNat t.value :: s ++ p.data.drop (UInt8.ofNat t.value :: s).length := by
      rw [structFromBytes_eq, List.take_of_length_le (by omega)]
    simp only [M34.fromBytes, h]
    cases t <;> rfl

/-- **C118 is violated** for the classes with a fixed part only: whatever key and signature an M3 (M4) object has
been given, reading the first six bytes of some other M3 into it is accepted and yields that key and signature; a
new object would have yielded zeros. -/
theorem C118_violated (t : PacketType) (time : Nat) (key sig : Bytes) (hk : key.length = 32)
    (hg : sig.length = 64) :
    ∃ p q r, M34.fromBytes t (M34.fresh t) (UInt8.ofNat t.value :: 0 :: Spec.le32 0 ++ key ++ sig) = .ok p ∧
      M34.fromBytes t p (UInt8.ofNat t.value :: 0 :: Spec.le32 time) = .ok q ∧
      M34.sigKey q = key ∧ M34.signature q = sig ∧
      M34.fromBytes t (M34.fresh t) (UInt8.ofNat t.value :: 0 :: Spec.le32 time) = .ok r ∧
      M34.sigKey r = zeros 32 ∧ M34.signature r = zeros 64 := by
  have hl0 : (Spec.le32 0).length = 4 := rfl
  have hlt : (Spec.le32 time).length = 4 := rfl
  have hf : (M34.fresh t).data.length = 102 := by cases t <;> rfl
  have h1 := (C118_kept (M34.fresh t) (UInt8.ofNat t.value :: 0 :: Spec.le32 0 ++ key ++ sig) (by simp)).2 t hf
    (by simp [hl0, hk, hg]) (by simp)
  have hd : (M34.fresh t).data.drop (UInt8.ofNat t.value :: 0 :: Spec.le32 0 ++ key ++ sig).length = [] :=
    List.drop_of_length_le (by rw [hf]; simp [hl0, hk, hg])
  rw [hd, List.append_nil] at h1
  refine ⟨_, _, _, h1, (C118_kept _ (UInt8.ofNat t.value :: 0 :: Spec.le32 time) (by simp)).2 t
    (by simp [hl0, hk, hg]) (by simp [hlt]) (by simp), ?_, ?_,
    (C118_kept _ (UInt8.ofNat t.value :: 0 :: Spec.le32 time) (by simp)).2 t hf (by simp [hlt]) (by simp), ?_, ?_⟩
  · simp [M34.sigKey, getArr, slice, hlt, hl0, hk, List.take_append]
  · simp [M34.signature, getArr, slice, hlt, hl0, hk, List.take_append, List.drop_append]
    rw [List.drop_of_length_le (by simp [hlt]), List.take_of_length_le (by omega), List.nil_append]
  · have : (M34.fresh t).data = UInt8.ofNat t.value :: zeros 101 := by cases t <;> rfl
    simp only [M34.sigKey, this]
    rfl
  · have : (M34.fresh t).data = UInt8.ofNat t.value :: zeros 101 := by cases t <;> rfl
    simp only [M34.signature, this]
    rfl

/-- An M2 object with a key, read again from a complete M2: as good as new. -/
example : M2.fromBytes { data := 2 :: 0 :: List.replicate 36 7, opt := none } (2 :: 0 :: List.replicate 36 9)
    = .ok { data := 2 :: 0 :: List.replicate 36 9, opt := none } :=
  ((C118_fixed_partial _ _).2.1 rfl (by decide)).trans rfl

/-- The same object, read again from the first six bytes of an M2: it still has the key of before. -/
example : M2.fromBytes { data := 2 :: 0 :: List.replicate 36 7, opt := none } [2, 0, 1, 0, 0, 0]
    = .ok { data := [2, 0, 1, 0, 0, 0] ++ List.replicate 32 7, opt := none } :=
  (C118_kept _ _ (by decide)).1 rfl (by decide) rfl

/-- An A1 object with an address, read again from an A1 for any server. -/
example : A1.fromBytes { data := [8, 0, 1, 32, 0], opt := some (List.replicate 32 7) } [8, 0, 0, 0, 0]
    = .ok { data := [8, 0, 0, 0, 0], opt := some [] } :=
  ((C118_variable _ _ (fun _ => false)).2.2.1 rfl).trans rfl

/-- A multi packet object with two messages, read again from seven bytes: refused. -/
example : ∃ e, MultiApp.fromBytes { data := [11, 0, 0, 0, 0, 0, 2, 0], opt := some [[1], [2]] }
    [11, 0, 0, 0, 0, 0, 1] = .error e :=
  (C118_multi _ rfl _).2 (by decide)

end Salt.Props
