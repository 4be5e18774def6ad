import Verif.Props.Packets4

/-!
# Assigning to fields (C66)
-/

set_option linter.unusedSimpArgs false

namespace Salt.Props

open Salt

/-- Two buffers of the same length that agree outside of `w` bytes at `off`. -/
def SameOutside (a b : Bytes) (off w : Nat) : Prop :=
  a.length = b.length ∧ ∀ i, i < off ∨ off + w ≤ i → a[i]? = b[i]?

theorem setBytes_outside (d v : Bytes) (off w : Nat) (hw : v.length = w) (h : off + w ≤ d.length) :
    SameOutside (setBytes d off v) d off w := by
  subst hw
  refine ⟨setBytes_length _ _ _ h, ?_⟩
  intro i hi
  unfold setBytes
  simp only [List.append_assoc, List.getElem?_append, List.length_take, List.getElem?_take,
    List.getElem?_drop]
  rcases hi with hi | hi
  · simp [show i < min off d.length by omega, hi]
  · have h1 : ¬ i < min off d.length := by omega
    have h2 : ¬ i - min off d.length < v.length := by omega
    simp only [h1, h2, if_false]
    congr 1; omega

theorem setBytes_inside (d v : Bytes) (off w : Nat) (hw : v.length = w) (h : off + w ≤ d.length) :
    slice (setBytes d off v) off (off + w) = v := by
  subst hw
  unfold setBytes
  exact slice_append_mid _ _ _ (by simp; omega) (by simp)

theorem setLE_outside (d : Bytes) (off w v : Nat) (h : off + w ≤ d.length) :
    SameOutside (setLE d off w v) d off w :=
  setBytes_outside d _ off w (by simp) h

/-- What assigning an integer to an unsigned field of `w` bytes at `off` does to the buffer. -/
def IntAssigned (d d' : Bytes) (off w v : Nat) : Prop :=
  SameOutside d' d off w ∧ leNat (slice d' off (off + w)) = v % 256 ^ w

/-- What assigning bytes to an array field of `w` bytes at `off` does to the buffer. -/
def BytesAssigned (d d' : Bytes) (off : Nat) (v : Bytes) : Prop :=
  SameOutside d' d off v.length ∧ slice d' off (off + v.length) = v

/-- What assigning an integer to the one-bit field `k` of byte `off` does to the buffer: only bit `k`
changes, to the lowest bit of the integer. -/
def BitAssigned (d d' : Bytes) (off k v : Nat) : Prop :=
  SameOutside d' d off 1 ∧ ∃ x y, d[off]? = some x ∧ d'[off]? = some y ∧ y.toNat / 2 ^ k % 2 = v % 2 ∧
    y.toNat % 2 ^ k = x.toNat % 2 ^ k ∧ y.toNat / 2 ^ (k + 1) = x.toNat / 2 ^ (k + 1)

theorem intAssigned (d : Bytes) (off w v : Nat) (h : off + w ≤ d.length) :
    IntAssigned d (setLE d off w v) off w v :=
  ⟨setLE_outside d off w v h, getLE_setLE_same d off w v h⟩

theorem setArr_spec (d v : Bytes) (off n : Nat) (h : off + n ≤ d.length) :
    (v.length ≠ n → setArr d off n v = .error .typeError) ∧
    (v.length = n → ∃ d', setArr d off n v = .ok d' ∧ BytesAssigned d d' off v) := by
  constructor
  · intro hn; simp [setArr, hn]
  · intro hn
    exact ⟨_, by simp [setArr, hn], setBytes_outside d v off _ rfl (by omega),
      setBytes_inside d v off _ rfl (by omega)⟩

theorem bit_arith (x k b : Nat) (hb : b < 2) :
    (x - x / 2 ^ k % 2 * 2 ^ k + b * 2 ^ k) / 2 ^ k % 2 = b ∧
    (x - x / 2 ^ k % 2 * 2 ^ k + b * 2 ^ k) % 2 ^ k = x % 2 ^ k ∧
    (x - x / 2 ^ k % 2 * 2 ^ k + b * 2 ^ k) / 2 ^ (k + 1) = x / 2 ^ (k + 1) := by
  have hp : 0 < 2 ^ k := Nat.two_pow_pos k
  generalize hP : 2 ^ k = P at *
  have e : x = P * (x / P) + x % P := (Nat.div_add_mod x P).symm
  have hr : x % P < P := Nat.mod_lt _ hp
  generalize x / P = q at *
  generalize x % P = r at *
  have hq : q % 2 < 2 := Nat.mod_lt _ (by decide)
  have hle : q % 2 * P ≤ P * q := by
    rw [Nat.mul_comm]; exact Nat.mul_le_mul_left _ (Nat.mod_le _ _)
  have hx : x - q % 2 * P + b * P = P * (2 * (q / 2) + b) + r := by
    have h2 : P * q = P * (2 * (q / 2)) + P * (q % 2) := by
      rw [← Nat.mul_add, Nat.div_add_mod]
    rw [Nat.mul_comm (q % 2) P, Nat.mul_comm b P, Nat.mul_add]
    rw [Nat.mul_comm (q % 2) P] at hle
    omega
  rw [Nat.pow_succ, hP]
  rw [hx, Nat.mul_add_mod, Nat.mul_add_div hp, Nat.div_eq_of_lt hr, Nat.mod_eq_of_lt hr, ← Nat.div_div_eq_div_mul,
    ← Nat.div_div_eq_div_mul]
  rw [Nat.mul_add_div hp, Nat.div_eq_of_lt hr]
  have : x / P = q := by rw [e, Nat.mul_add_div hp, Nat.div_eq_of_lt hr, Nat.add_zero]
  rw [this]
  omega

theorem bitAssigned (d : Bytes) (off k v : Nat) (h : off < d.length) (hk : k < 8) :
    BitAssigned d (setBit d off k v) off k v := by
  refine ⟨setLE_outside d off 1 _ (by omega), d[off], ?_⟩
  have hx : getLE d off 1 = d[off].toNat := getLE_one (List.getElem?_eq_getElem h)
  have hlt : d[off].toNat < 256 := d[off].toNat_lt
  obtain ⟨b1, b2, b3⟩ := bit_arith d[off].toNat k (v % 2) (Nat.mod_lt _ (by decide))
  unfold setBit
  simp only [getBit, hx] at *
  generalize hy : d[off].toNat - d[off].toNat / 2 ^ k % 2 * 2 ^ k + v % 2 * 2 ^ k = y at *
  have hylt : y < 256 := by
    have h8 : ∀ n, n / 2 ^ (k + 1) < 2 ^ (7 - k) ↔ n < 256 := by
      intro n
      rw [Nat.div_lt_iff_lt_mul (Nat.two_pow_pos _), ← Nat.pow_add, show 7 - k + (k + 1) = 8 by omega]
    rw [← h8, b3, h8]
    exact hlt
  refine ⟨UInt8.ofNat y, List.getElem?_eq_getElem h, ?_, ?_⟩
  · unfold setLE setBytes
    rw [leBytes_one, List.append_assoc, List.getElem?_append_right (by simp; omega)]
    simp [show off - min off d.length = 0 by omega]
  · rw [UInt8.toNat_ofNat', Nat.mod_eq_of_lt hylt]
    exact ⟨b1, b2, b3⟩

/-- Assigning bytes to an array field, as an operation on packets: TypeError unless the length is the
declared one; otherwise exactly the bytes of the field change and the optional part stays. -/
def ArrayField (set : Bytes → Except Err Packet) (get : Packet → Bytes) (p : Packet) (off n : Nat) :
    Prop :=
  ∀ v : Bytes, (v.length ≠ n → set v = .error .typeError) ∧
    (v.length = n → ∃ p', set v = .ok p' ∧ get p' = v ∧ p'.opt = p.opt ∧
      BytesAssigned p.data p'.data off v)

theorem arrayField {p : Packet} {off n : Nat} (h : off + n ≤ p.data.length) :
    ArrayField (fun v => match setArr p.data off n v with
      | .ok d => .ok { p with data := d }
      | .error e => .error e) (fun q => getArr q.data off n) p off n := by
  intro v
  obtain ⟨h1, h2⟩ := setArr_spec p.data v off n h
  constructor
  · intro hn; simp [h1 hn]
  · intro hn
    obtain ⟨d, e1, e2⟩ := h2 hn
    refine ⟨{ p with data := d }, by simp [e1], ?_, rfl, e2⟩
    have := e2.2
    rw [hn] at this
    exact this

/-- Assigning an integer to an unsigned field: the value is truncated to the width of the field, no
other byte changes and the optional part stays. -/
def IntField (set : Nat → Packet) (get : Packet → Nat) (p : Packet) (off w : Nat) : Prop :=
  ∀ v : Nat, get (set v) = v % 256 ^ w ∧ (set v).opt = p.opt ∧
    IntAssigned p.data (set v).data off w v

theorem intField {p : Packet} {off w : Nat} (h : off + w ≤ p.data.length) :
    IntField (fun v => { p with data := setLE p.data off w v }) (fun q => getLE q.data off w) p off w :=
  fun _ => ⟨getLE_setLE_same _ _ _ _ h, rfl, intAssigned _ _ _ _ h⟩

/-- Assigning an integer to a one-bit field: its lowest bit is stored, no other bit changes and the
optional part stays. -/
def BitField (set : Nat → Packet) (get : Packet → Nat) (p : Packet) (off k : Nat) : Prop :=
  ∀ v : Nat, get (set v) = v % 2 ∧ (set v).opt = p.opt ∧ BitAssigned p.data (set v).data off k v

theorem bitField {p : Packet} {off k : Nat} (h : off < p.data.length) (hk : k < 8) :
    BitField (fun v => { p with data := setBit p.data off k v }) (fun q => getBit q.data off k) p off k := by
  intro v
  have hb := bitAssigned p.data off k v h hk
  refine ⟨?_, rfl, hb⟩
  obtain ⟨-, x, y, -, hy, h1, -⟩ := hb
  show getLE (setBit p.data off k v) off 1 / 2 ^ k % 2 = v % 2
  rw [getLE_one hy, h1]

/-- C66, M1 (42 bytes). -/
theorem C66_m1 (p : Packet) (h : p.data.length = 42) :
    BitField (M1.setServerSigKeyIncluded p) M1.serverSigKeyIncluded p 5 0 ∧
    IntField (M1.setTime p) M1.time p 6 4 ∧
    ArrayField (M1.setClientEncKey p) M1.clientEncKey p 10 32 :=
  ⟨bitField (by omega) (by decide), intField (by omega), arrayField (by omega)⟩

/-- C66, the optional key of M1: the assignment is refused with AttributeError while the packet
announces no key; with a key announced and its space created, only a key of 32 bytes is accepted and
it is then the optional part. -/
theorem C66_m1_key (p : Packet) (v : Bytes) :
    (M1.serverSigKeyIncluded p = 0 → M1.setServerSigKey p v = .error .attributeError) ∧
    (M1.serverSigKeyIncluded p = 1 →
      (v.length ≠ 32 → M1.setServerSigKey (M1.createOptFields p) v = .error .typeError) ∧
      (v.length = 32 → M1.setServerSigKey (M1.createOptFields p) v = .ok { p with opt := some v })) := by
  refine ⟨fun h => by simp [M1.setServerSigKey, h], fun h => ?_⟩
  have hc : M1.serverSigKeyIncluded (M1.createOptFields p) = 1 := h
  have hz : M1.optFactory p = zeros 32 := by unfold M1.optFactory; rw [h]
  constructor
  · intro hn
    simp [M1.setServerSigKey, hc]
    simp [M1.createOptFields, hz, setArr, hn]
  · intro hn
    simp [M1.setServerSigKey, hc]
    simp [M1.createOptFields, hz, setArr, hn, setBytes]

/-- C66, M2 (38 bytes). -/
theorem C66_m2 (p : Packet) (h : p.data.length = 38) :
    BitField (M2.setNoSuchServer p) M2.noSuchServer p 1 0 ∧
    BitField (M2.setLastFlag p) M2.lastFlag p 1 7 ∧
    IntField (M2.setTime p) M2.time p 2 4 ∧
    ArrayField (M2.setServerEncKey p) M2.serverEncKey p 6 32 :=
  ⟨bitField (by omega) (by decide), bitField (by omega) (by decide), intField (by omega),
    arrayField (by omega)⟩

/-- C66, M3 and M4 (102 bytes). -/
theorem C66_m34 (p : Packet) (h : p.data.length = 102) :
    IntField (M34.setTime p) M34.time p 2 4 ∧
    ArrayField (M34.setSigKey p) M34.sigKey p 6 32 ∧
    ArrayField (M34.setSignature p) M34.signature p 38 64 :=
  ⟨intField (by omega), arrayField (by omega), arrayField (by omega)⟩

/-- C66, application packets (6 bytes), encrypted packets (2 bytes) and A1 (5 bytes). -/
theorem C66_other (p : Packet) :
    (p.data.length = 6 → IntField (AppPkt.setTime p) AppPkt.time p 2 4) ∧
    (p.data.length = 2 → BitField (EncPkt.setLastFlag p) EncPkt.lastFlag p 1 7) ∧
    (p.data.length = 5 → IntField (A1.setAddressType p) A1.addressType p 2 1 ∧
      IntField (A1.setAddressSize p) A1.addressSize p 3 2) :=
  ⟨fun _ => intField (by omega), fun _ => bitField (by omega) (by decide),
    fun _ => ⟨intField (by omega), intField (by omega)⟩⟩

/-- A time above 32 bits set on an M2 with both flags: truncated, key and flags kept. -/
example : M2.time (M2.setTime { data := 2 :: 0x81 :: List.replicate 36 7, opt := none } (2 ^ 32 + 5)) = 5 ∧
    (M2.setTime { data := 2 :: 0x81 :: List.replicate 36 7, opt := none } (2 ^ 32 + 5)).data =
      2 :: 0x81 :: 5 :: 0 :: 0 :: 0 :: List.replicate 32 7 := by decide

/-- A flag set on a byte with other bits set. -/
example : (M2.setNoSuchServer { data := 2 :: 0x82 :: List.replicate 36 7, opt := none } 1).data =
    2 :: 0x83 :: List.replicate 36 7 := by decide

/-- A key of 31 bytes is refused, one of 32 bytes stored. -/
example : M34.setSigKey (M34.fresh .m3) (List.replicate 31 1) = .error .typeError ∧
    (M34.setSigKey (M34.fresh .m3) (List.replicate 32 1)).map (fun p => slice p.data 5 39) =
      .ok (0 :: List.replicate 32 1 ++ [0]) := by decide

end Salt.Props
