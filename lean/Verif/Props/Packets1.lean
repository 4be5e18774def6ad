import Verif.Lemmas.Packets

/-!
# C01-C05: wire formats of the fixed packets, encrypted packets and app packets
-/

namespace Salt.Props

set_option linter.unusedSimpArgs false

open Salt

/-- Building an M1 as a user of the API does (tests/v2/test_packets.py:78-84). -/
def buildM1 (time : Nat) (key : Bytes) (srv : Option Bytes) : Except Err Packet :=
  match srv with
  | none => M1.setClientEncKey (M1.setTime M1.fresh time) key
  | some k => do
    let p := M1.setTime (M1.setServerSigKeyIncluded M1.fresh 1) time
    let p ← M1.setClientEncKey p key
    M1.setServerSigKey (M1.createOptFields p) k

theorem M1_setTime_key (f : UInt8) (o : Option Bytes) (time : Nat) (key : Bytes)
    (hk : key.length = 32) :
    M1.setClientEncKey (M1.setTime
      { data := [0x53, 0x43, 0x76, 0x32, 1, f] ++ zeros 4 ++ zeros 32, opt := o } time) key
      = .ok { data := [0x53, 0x43, 0x76, 0x32, 1, f] ++ Spec.le32 time ++ key, opt := o } := by
  have h1 : setLE ([0x53, 0x43, 0x76, 0x32, 1, f] ++ zeros 4 ++ zeros 32) 6 4 time
      = [0x53, 0x43, 0x76, 0x32, 1, f] ++ Spec.le32 time ++ zeros 32 := by
    unfold setLE
    rw [setBytes_append_mid _ _ _ _ (by simp) (by simp), leBytes_four]
  have h2 : setBytes ([0x53, 0x43, 0x76, 0x32, 1, f] ++ Spec.le32 time ++ zeros 32) 10 key
      = [0x53, 0x43, 0x76, 0x32, 1, f] ++ Spec.le32 time ++ key := by
    have := setBytes_append_mid ([0x53, 0x43, 0x76, 0x32, 1, f] ++ Spec.le32 time) (zeros 32) [] key
      (i := 10) (by simp) (by simp [hk])
    simpa using this
  simp only [M1.setClientEncKey, M1.setTime, setArr, hk, h1, h2, if_true]

/-- **C01.** M1 round trip: exact bytes and all fields recovered. -/
theorem C01_m1_roundtrip (time : Nat) (ht : time < 2 ^ 32) (key : Bytes) (hk : key.length = 32)
    (srv : Option Bytes) (hs : ∀ k, srv = some k → k.length = 32) :
    (∃ p, buildM1 time key srv = .ok p ∧ p.toBytes = Spec.m1 time key srv) ∧
    ∃ q, M1.ctor (Spec.m1 time key srv) = .ok q ∧ M1.time q = time ∧ M1.clientEncKey q = key ∧
      M1.serverSigKeyIncluded q = (if srv.isSome then 1 else 0) ∧
      M1.serverSigKey q = .ok (srv.getD []) ∧ q.toBytes = Spec.m1 time key srv := by
  have hle := leNat_le32 ht
  constructor
  · cases srv with
    | none =>
      refine ⟨{ data := [0x53, 0x43, 0x76, 0x32, 1, 0] ++ Spec.le32 time ++ key, opt := none },
        ?_, ?_⟩
      · unfold buildM1
        have hf : M1.fresh = { data := [0x53, 0x43, 0x76, 0x32, 1, 0] ++ zeros 4 ++ zeros 32,
                               opt := none } := by
          rw [← M1_fresh_data]; rfl
        simp only [hf]
        exact M1_setTime_key 0 none time key hk
      · simp [Packet.toBytes, Packet.optBytes, Spec.m1]
    | some k =>
      have hk2 := hs k rfl
      have hf : M1.setServerSigKeyIncluded M1.fresh 1
          = { data := [0x53, 0x43, 0x76, 0x32, 1, 1] ++ zeros 4 ++ zeros 32, opt := none } := by
        decide
      have hbit : M1.serverSigKeyIncluded
          { data := [0x53, 0x43, 0x76, 0x32, 1, 1] ++ Spec.le32 time ++ key, opt := none } = 1 := by
        simp [M1.serverSigKeyIncluded, getBit, getLE, slice, leNat]
      refine ⟨{ data := [0x53, 0x43, 0x76, 0x32, 1, 1] ++ Spec.le32 time ++ key, opt := some k },
        ?_, ?_⟩
      · simp only [buildM1, hf, M1_setTime_key 1 none time key hk, bind, Except.bind]
        simp only [M1.createOptFields, M1.optFactory, hbit, M1.setServerSigKey]
        have hbit' : M1.serverSigKeyIncluded
          { data := [0x53, 0x43, 0x76, 0x32, 1, 1] ++ Spec.le32 time ++ key,
            opt := some (zeros (32 * 1)) } = 1 := hbit
        simp only [hbit', setArr, zeros_length, hk2, ne_eq, not_true_eq_false, if_false]
        simp [setBytes, hk2, zeros]
      · simp [Packet.toBytes, Packet.optBytes, Spec.m1]
  · cases srv with
    | none =>
      refine ⟨{ data := Spec.m1 time key none, opt := some [] }, ?_⟩
      have hlen : (Spec.m1 time key none).length = 42 := by simp [Spec.m1, hk]
      have hne : (Spec.m1 time key none).isEmpty = false := by simp [Spec.m1]
      have hsf : structFromBytes M1.fresh.data (Spec.m1 time key none) = Spec.m1 time key none := by
        apply structFromBytes_of_eq; rw [hlen]; decide
      have hdrop : List.drop 42 (Spec.m1 time key none) = [] := by
        apply List.drop_of_length_le; omega
      have hb : M1.serverSigKeyIncluded { data := Spec.m1 time key none, opt := M1.fresh.opt } = 0 := by
        simp [M1.serverSigKeyIncluded, getBit, getLE, slice, leNat, Spec.m1]
      refine ⟨?_, ?_, ?_, ?_, ?_, ?_⟩
      · simp only [M1.ctor, hne, M1.fromBytes, hsf, hdrop, M1.optFactory, hb]
        simp [structFromBytes, zeros, M1.validate, Packet.validateType, getLE, slice, leNat, Spec.m1,
          PacketType.value, getArr, M1.indicator, bind, Except.bind, pure, Except.pure]
      · simp only [M1.time, getLE, Spec.m1]
        rw [slice_append_mid _ (Spec.le32 time) _ (by simp) (by simp), hle]
      · simp only [M1.clientEncKey, getArr, Spec.m1]
        have := slice_append_mid ([0x53, 0x43, 0x76, 0x32, 1, 0] ++ Spec.le32 time) key []
          (i := 10) (j := 42) (by simp) (by omega)
        simpa using this
      · exact hb
      · simp [M1.serverSigKey]
      · simp [Packet.toBytes, Packet.optBytes]
    | some k =>
      have hk2 := hs k rfl
      have hlen : (Spec.m1 time key (some k)).length = 74 := by simp [Spec.m1, hk, hk2]
      have hne : (Spec.m1 time key (some k)).isEmpty = false := by simp [Spec.m1]
      have htake : (Spec.m1 time key (some k)).take 42
          = [0x53, 0x43, 0x76, 0x32, 1, 1] ++ Spec.le32 time ++ key := by
        simp only [Spec.m1]
        apply List.take_left'; simp [hk]
      have hdrop : (Spec.m1 time key (some k)).drop 42 = k := by
        simp only [Spec.m1]
        apply List.drop_left'; simp [hk]
      have hsf : structFromBytes M1.fresh.data (Spec.m1 time key (some k))
          = [0x53, 0x43, 0x76, 0x32, 1, 1] ++ Spec.le32 time ++ key := by
        rw [structFromBytes_of_le (by rw [hlen]; decide)]; exact htake
      refine ⟨{ data := [0x53, 0x43, 0x76, 0x32, 1, 1] ++ Spec.le32 time ++ key, opt := some k }, ?_⟩
      have hb : ∀ o, M1.serverSigKeyIncluded
          { data := [0x53, 0x43, 0x76, 0x32, 1, 1] ++ Spec.le32 time ++ key, opt := o } = 1 := by
        intro o; simp [M1.serverSigKeyIncluded, getBit, getLE, slice, leNat]
      refine ⟨?_, ?_, ?_, ?_, ?_, ?_⟩
      · simp only [M1.ctor, hne, M1.fromBytes, hsf, hdrop, M1.optFactory, hb]
        rw [structFromBytes_of_eq (by simp [hk2])]
        simp [M1.validate, Packet.validateType, getLE, slice, leNat,
          PacketType.value, getArr, M1.indicator, bind, Except.bind, pure, Except.pure]
      · simp only [M1.time, getLE]
        rw [slice_append_mid _ (Spec.le32 time) _ (by simp) (by simp), hle]
      · simp only [M1.clientEncKey, getArr]
        have := slice_append_mid ([0x53, 0x43, 0x76, 0x32, 1, 1] ++ Spec.le32 time) key []
          (i := 10) (j := 42) (by simp) (by omega)
        simpa using this
      · exact hb _
      · simp [M1.serverSigKey]
      · simp [Packet.toBytes, Packet.optBytes, Spec.m1]

/-- A concrete instance of C01 (non-vacuity): server key included. -/
example : ∃ q, M1.ctor (Spec.m1 1 (List.replicate 32 7) (some (List.replicate 32 9))) = .ok q ∧
    M1.time q = 1 ∧ M1.clientEncKey q = List.replicate 32 7 := by
  obtain ⟨-, q, h1, h2, h3, -⟩ := C01_m1_roundtrip 1 (by decide) (List.replicate 32 7) (by decide)
    (some (List.replicate 32 9)) (by rintro k ⟨⟩; decide)
  exact ⟨q, h1, h2, h3⟩

/-! ### C02 -/

/-- Building an M2 (salt_server_session.py:93-95, 102-104; flags as Booleans). -/
def buildM2 (nss last : Bool) (time : Nat) (key : Bytes) : Except Err Packet :=
  M2.setServerEncKey (M2.setTime
    (M2.setLastFlag (M2.setNoSuchServer M2.fresh nss.toNat) last.toNat) time) key

/-- The flag byte of an M2. -/
def m2Flags (nss last : Bool) : UInt8 := (if nss then 1 else 0) + (if last then 128 else 0)

/-- **C02.** M2 round trip; NoSuchServer forces LastFlag in the serialised form only. -/
theorem C02_m2_roundtrip (nss last : Bool) (time : Nat) (ht : time < 2 ^ 32) (key : Bytes)
    (hk : key.length = 32) :
    (∃ p, buildM2 nss last time key = .ok p ∧
      M2.toBytes p = Spec.m2 nss (last || nss) time key) ∧
    ∃ q, M2.ctor (Spec.m2 nss last time key) = .ok q ∧ M2.noSuchServer q = nss.toNat ∧
      M2.lastFlag q = last.toNat ∧ M2.time q = time ∧ M2.serverEncKey q = key ∧
      M2.toBytes q = Spec.m2 nss (last || nss) time key := by
  have hle := leNat_le32 ht
  have hflags : M2.setLastFlag (M2.setNoSuchServer M2.fresh nss.toNat) last.toNat
      = { data := [2, m2Flags nss last] ++ zeros 4 ++ zeros 32, opt := none } := by
    cases nss <;> cases last <;> decide
  have hspec : Spec.m2 nss last time key = [2, m2Flags nss last] ++ Spec.le32 time ++ key := rfl
  have hlen : (Spec.m2 nss last time key).length = 38 := by simp [Spec.m2, hk]
  have htb : M2.toBytes { data := Spec.m2 nss last time key, opt := none }
      = Spec.m2 nss (last || nss) time key := by
    cases nss <;> cases last <;>
      simp [M2.toBytes, M2.implyLast, M2.noSuchServer, M2.setLastFlag, getBit, setBit, setLE, getLE,
        slice, leNat, Spec.m2, setBytes, leBytes]
  constructor
  · refine ⟨{ data := Spec.m2 nss last time key, opt := none }, ?_, htb⟩
    have h1 : setLE ([2, m2Flags nss last] ++ zeros 4 ++ zeros 32) 2 4 time
        = [2, m2Flags nss last] ++ Spec.le32 time ++ zeros 32 := by
      unfold setLE
      rw [setBytes_append_mid _ _ _ _ (by simp) (by simp), leBytes_four]
    have h2 : setBytes ([2, m2Flags nss last] ++ Spec.le32 time ++ zeros 32) 6 key
        = [2, m2Flags nss last] ++ Spec.le32 time ++ key := by
      have := setBytes_append_mid ([2, m2Flags nss last] ++ Spec.le32 time) (zeros 32) [] key
        (i := 6) (by simp) (by simp [hk])
      simpa using this
    simp only [buildM2, hflags, M2.setTime, h1, M2.setServerEncKey, setArr, hk, if_true, h2, hspec]
  · refine ⟨{ data := Spec.m2 nss last time key, opt := none }, ?_, ?_, ?_, ?_, ?_, htb⟩
    · have hne : (Spec.m2 nss last time key).isEmpty = false := by simp [Spec.m2]
      simp only [M2.ctor, hne, M2.fromBytes, Bool.false_eq_true, if_false]
      rw [structFromBytes_of_eq (by rw [hlen]; decide)]
      simp [Packet.validateType, getLE, slice, leNat, Spec.m2, PacketType.value, bind, Except.bind,
        pure, Except.pure]
    · cases nss <;> cases last <;>
        simp [M2.noSuchServer, getBit, getLE, slice, leNat, Spec.m2]
    · cases nss <;> cases last <;>
        simp [M2.lastFlag, getBit, getLE, slice, leNat, Spec.m2]
    · simp only [M2.time, getLE, Spec.m2]
      rw [slice_append_mid _ (Spec.le32 time) _ (by simp) (by simp), hle]
    · simp only [M2.serverEncKey, getArr, hspec]
      have := slice_append_mid ([2, m2Flags nss last] ++ Spec.le32 time) key []
        (i := 6) (j := 38) (by simp) (by omega)
      simpa using this

/-- Non-vacuity of C02: a NoSuchServer M2 comes out with both flag bits set. -/
example : ∃ p, buildM2 true false 1 (zeros 32) = .ok p ∧
    M2.toBytes p = [2, 129, 1, 0, 0, 0] ++ zeros 32 :=
  (C02_m2_roundtrip true false 1 (by decide) (zeros 32) (by decide)).1

/-! ### C03 -/

/-- Building an M3 / M4 (salt_server_session.py:122-126, salt_client_session.py:92-96). -/
def buildM34 (t : PacketType) (time : Nat) (key sig : Bytes) : Except Err Packet := do
  let p ← M34.setSigKey (M34.setTime (M34.fresh t) time) key
  M34.setSignature p sig

theorem M34_build_aux (t : PacketType) (x : UInt8) (hx : x.toNat = t.value) (time : Nat)
    (key sig : Bytes) (hk : key.length = 32) (hs : sig.length = 64) :
    buildM34 t time key sig
      = .ok { data := [x, 0] ++ Spec.le32 time ++ key ++ sig, opt := none } := by
  have h1 : setLE ([x, 0] ++ zeros 4 ++ zeros 32 ++ zeros 64) 2 4 time
      = [x, 0] ++ Spec.le32 time ++ zeros 32 ++ zeros 64 := by
    unfold setLE
    rw [List.append_assoc _ (zeros 32), setBytes_append_mid _ _ _ _ (by simp) (by simp), leBytes_four,
      ← List.append_assoc]
  have h2 : setBytes ([x, 0] ++ Spec.le32 time ++ zeros 32 ++ zeros 64) 6 key
      = [x, 0] ++ Spec.le32 time ++ key ++ zeros 64 :=
    setBytes_append_mid ([x, 0] ++ Spec.le32 time) (zeros 32) _ key (by simp) (by simp [hk])
  have h3 : setBytes ([x, 0] ++ Spec.le32 time ++ key ++ zeros 64) 38 sig
      = [x, 0] ++ Spec.le32 time ++ key ++ sig := by
    have := setBytes_append_mid ([x, 0] ++ Spec.le32 time ++ key) (zeros 64) [] sig
      (i := 38) (by simp [hk]) (by simp [hs])
    simpa using this
  have hf : M34.fresh t = { data := [x, 0] ++ zeros 4 ++ zeros 32 ++ zeros 64, opt := none } := by
    rw [← M34_fresh_data t x hx]; rfl
  simp only [buildM34, hf, M34.setTime, h1, M34.setSigKey, setArr, hk, if_true, h2, bind, Except.bind,
    M34.setSignature, hs, h3]

theorem M34_ctor_aux (t : PacketType) (x : UInt8) (hx : x.toNat = t.value) (time : Nat)
    (ht : time < 2 ^ 32) (key sig : Bytes) (hk : key.length = 32) (hs : sig.length = 64) :
    let w := [x, 0] ++ Spec.le32 time ++ key ++ sig
    M34.ctor t w = .ok { data := w, opt := none } ∧
      M34.time { data := w, opt := none } = time ∧ M34.sigKey { data := w, opt := none } = key ∧
      M34.signature { data := w, opt := none } = sig := by
  intro w
  have hlen : w.length = 102 := by simp [w, hk, hs]
  have hfl : (M34.fresh t).data.length = 102 := by
    rw [M34_fresh_data t x hx]; simp
  refine ⟨?_, ?_, ?_, ?_⟩
  · have hne : w.isEmpty = false := by simp [w]
    simp only [M34.ctor, hne, M34.fromBytes, Bool.false_eq_true, if_false]
    rw [structFromBytes_of_eq (by rw [hlen, hfl])]
    simp [Packet.validateType, getLE, slice, leNat, w, bind, Except.bind, pure, Except.pure, hx]
  · simp only [M34.time, getLE, w]
    rw [List.append_assoc _ key, slice_append_mid _ (Spec.le32 time) _ (by simp) (by simp),
      leNat_le32 ht]
  · exact slice_append_mid ([x, 0] ++ Spec.le32 time) key _ (by simp) (by omega)
  · have := slice_append_mid ([x, 0] ++ Spec.le32 time ++ key) sig []
      (i := 38) (j := 102) (by simp [hk]) (by omega)
    simpa [M34.signature, getArr, w] using this

/-- **C03.** M3 and M4 round trip. -/
theorem C03_m3_m4_roundtrip (time : Nat) (ht : time < 2 ^ 32) (key sig : Bytes)
    (hk : key.length = 32) (hs : sig.length = 64) :
    ((∃ p, buildM34 .m3 time key sig = .ok p ∧ p.toBytes = Spec.m3 time key sig) ∧
      ∃ q, M34.ctor .m3 (Spec.m3 time key sig) = .ok q ∧ M34.time q = time ∧ M34.sigKey q = key ∧
        M34.signature q = sig ∧ q.toBytes = Spec.m3 time key sig) ∧
    ((∃ p, buildM34 .m4 time key sig = .ok p ∧ p.toBytes = Spec.m4 time key sig) ∧
      ∃ q, M34.ctor .m4 (Spec.m4 time key sig) = .ok q ∧ M34.time q = time ∧ M34.sigKey q = key ∧
        M34.signature q = sig ∧ q.toBytes = Spec.m4 time key sig) := by
  refine ⟨⟨⟨_, M34_build_aux .m3 3 rfl time key sig hk hs, ?_⟩, _,
      (M34_ctor_aux .m3 3 rfl time ht key sig hk hs).1, ?_⟩,
    ⟨⟨_, M34_build_aux .m4 4 rfl time key sig hk hs, ?_⟩, _,
      (M34_ctor_aux .m4 4 rfl time ht key sig hk hs).1, ?_⟩⟩
  · simp [Packet.toBytes, Packet.optBytes, Spec.m3]
  · obtain ⟨-, h1, h2, h3⟩ := M34_ctor_aux .m3 3 rfl time ht key sig hk hs
    exact ⟨h1, h2, h3, by simp [Packet.toBytes, Packet.optBytes, Spec.m3]⟩
  · simp [Packet.toBytes, Packet.optBytes, Spec.m4]
  · obtain ⟨-, h1, h2, h3⟩ := M34_ctor_aux .m4 4 rfl time ht key sig hk hs
    exact ⟨h1, h2, h3, by simp [Packet.toBytes, Packet.optBytes, Spec.m4]⟩

/-- Non-vacuity of C03, with the 32-bit maximum as time. -/
example : ∃ q, M34.ctor .m4 (Spec.m4 4294967295 (List.replicate 32 5) (List.replicate 64 6)) = .ok q ∧
    M34.time q = 4294967295 ∧ M34.sigKey q = List.replicate 32 5 := by
  obtain ⟨-, -, q, h1, h2, h3, -⟩ := C03_m3_m4_roundtrip 4294967295 (by decide) (List.replicate 32 5)
    (List.replicate 64 6) (by decide) (by decide)
  exact ⟨q, h1, h2, h3⟩

/-! ### C04 -/

/-- Exact behaviour of `EncryptedPacket(src)` on a non-empty source. -/
theorem EncPkt_ctor_spec (src : Bytes) (hne : src ≠ []) :
    EncPkt.ctor src =
      if 18 ≤ src.length ∧ src.head? = some 6 then
        .ok { data := src.take 2, opt := some (src.drop 2) }
      else .error .badPeer := by
  have hemp : src.isEmpty = false := by simpa using hne
  by_cases hl : src.length < 2
  · have h6 : ¬ 18 ≤ src.length := by omega
    simp [EncPkt.ctor, EncPkt.fromBytes, hemp, hl, h6]
  · have h1 : structFromBytes EncPkt.fresh.data src = src.take 2 := by
      rw [structFromBytes_of_le (by simp [Enc_fresh_data]; omega), Enc_fresh_data]; simp
    have h2 : structFromBytes (zeros (src.length - 2)) (src.drop 2) = src.drop 2 :=
      structFromBytes_of_eq (by simp)
    obtain ⟨a, t, rfl⟩ := List.exists_cons_of_ne_nil hne
    have h3 : getLE ((a :: t).take 2) 0 1 = a.toNat := getLE_one (by simp)
    have h4 : (a.toNat ≠ 6) ↔ ¬ (a = 6) := by rw [← UInt8.toNat_inj]; simp
    simp only [EncPkt.ctor, EncPkt.fromBytes, hemp, Bool.false_eq_true, if_false, h1, hl, h2,
      bind, Except.bind, pure, Except.pure, EncPkt.validate, Packet.validateType, PacketType.value, h3,
      List.head?_cons, Option.some.injEq, EncPkt.body, List.length_drop]
    by_cases ha : a = 6
    · subst ha
      by_cases hb : (6 :: t).length - 2 < 16
      · rw [if_neg (show ¬ (18 ≤ (6 :: t).length ∧ (6 : UInt8) = 6) by omega)]
        simp only [hb]; simp
      · rw [if_pos (show (18 ≤ (6 :: t).length ∧ (6 : UInt8) = 6) from ⟨by omega, rfl⟩)]
        simp only [hb]; simp
    · simp [h4, ha]

/-- Wrapping as done by `EncryptedChannelV2.wrap`, encrypted_channel_v2.py:85-90. -/
def buildEnc (last : Bool) (body : Bytes) : Packet :=
  EncPkt.setLastFlag (EncPkt.setBody EncPkt.fresh body) last.toNat

/-- **C04.** Acceptance set of encrypted packets, the values read, and the round trip. -/
theorem C04_encrypted_packet :
    (∀ src : Bytes, src ≠ [] →
      (18 ≤ src.length ∧ src.head? = some 6 →
        ∃ p, EncPkt.ctor src = .ok p ∧ EncPkt.body p = .ok (src.drop 2) ∧
          ∀ b, src[1]? = some b → EncPkt.lastFlag p = b.toNat / 128) ∧
      (¬ (18 ≤ src.length ∧ src.head? = some 6) → EncPkt.ctor src = .error .badPeer)) ∧
    (∀ (last : Bool) (body : Bytes), (buildEnc last body).toBytes = Spec.encrypted last body ∧
      (16 ≤ body.length → ∃ p, EncPkt.ctor (Spec.encrypted last body) = .ok p ∧
        EncPkt.body p = .ok body ∧ EncPkt.lastFlag p = last.toNat)) := by
  have key : ∀ src : Bytes, src ≠ [] →
      (18 ≤ src.length ∧ src.head? = some 6 →
        ∃ p, EncPkt.ctor src = .ok p ∧ EncPkt.body p = .ok (src.drop 2) ∧
          ∀ b, src[1]? = some b → EncPkt.lastFlag p = b.toNat / 128) := by
    intro src hne h
    refine ⟨_, by rw [EncPkt_ctor_spec src hne, if_pos h], rfl, ?_⟩
    intro b hb
    have : getLE (src.take 2) 1 1 = b.toNat := getLE_one (by simp [hb])
    have hlt := b.toNat_lt
    simp only [EncPkt.lastFlag, getBit, this]
    omega
  refine ⟨fun src hne => ⟨key src hne, fun h => ?_⟩, fun last body => ⟨?_, fun hb => ?_⟩⟩
  · rw [EncPkt_ctor_spec src hne, if_neg h]
  · have : EncPkt.setLastFlag (EncPkt.setBody EncPkt.fresh body) last.toNat
        = { data := [6, if last then 128 else 0], opt := some body } := by
      simp only [EncPkt.setLastFlag, EncPkt.setBody, Enc_fresh_data]
      cases last <;> simp [setBit, setLE, getBit, getLE, slice, leNat, setBytes, leBytes]
    simp [buildEnc, this, Packet.toBytes, Packet.optBytes, Spec.encrypted]
  · obtain ⟨p, h1, h2, h3⟩ := key (Spec.encrypted last body) (by simp [Spec.encrypted])
      ⟨by simp [Spec.encrypted]; omega, by simp [Spec.encrypted]⟩
    refine ⟨p, h1, by simpa [Spec.encrypted] using h2, ?_⟩
    rw [h3 (if last then 128 else 0) (by simp [Spec.encrypted])]
    cases last <;> decide

/-- Non-vacuity of C04: both an accepted and a rejected input exist. -/
example : (∃ p, EncPkt.ctor (Spec.encrypted true (zeros 16)) = .ok p) ∧
    EncPkt.ctor (Spec.encrypted true (zeros 15)) = .error .badPeer := by
  exact ⟨((C04_encrypted_packet.2 true (zeros 16)).2 (by decide)).imp fun _ h => h.1, by decide⟩

/-! ### C05 -/

/-- Exact behaviour of `AppPacket(src)` on a non-empty source. -/
theorem AppPkt_ctor_spec (src : Bytes) (hne : src ≠ []) (v : Bool) :
    AppPkt.ctor src v =
      if 6 ≤ src.length ∧ (v = true → src.head? = some 5) then
        .ok { data := src.take 6, opt := some (src.drop 6) }
      else .error .badPeer := by
  have hemp : src.isEmpty = false := by simpa using hne
  by_cases hl : src.length < 6
  · have h6 : ¬ 6 ≤ src.length := by omega
    simp [AppPkt.ctor, AppPkt.fromBytes, hemp, hl, h6, bind, Except.bind]
  · have h6 : 6 ≤ src.length := by omega
    have h1 : structFromBytes AppPkt.fresh.data src = src.take 6 := by
      rw [structFromBytes_of_le (by simp [App_fresh_data]; omega), App_fresh_data]; simp
    have h2 : structFromBytes (zeros (src.length - 6)) (src.drop 6) = src.drop 6 :=
      structFromBytes_of_eq (by simp)
    obtain ⟨a, t, rfl⟩ := List.exists_cons_of_ne_nil hne
    have h3 : getLE ((a :: t).take 6) 0 1 = a.toNat := getLE_one (by simp)
    have h4 : (a.toNat ≠ 5) ↔ ¬ (a = 5) := by rw [← UInt8.toNat_inj]; simp
    simp only [AppPkt.ctor, AppPkt.fromBytes, hemp, Bool.false_eq_true, if_false, h1, hl, h2,
      bind, Except.bind, pure, Except.pure, AppPkt.validate, Packet.validateType, PacketType.value, h3,
      h6, true_and, List.head?_cons, Option.some.injEq]
    by_cases ha : a = 5
    · subst ha; cases v <;> simp
    · cases v <;> simp [h4, ha]

/-- Building an AppPacket (app_channel_v2.py:58-62). -/
def buildApp (time : Nat) (payload : Bytes) : Packet :=
  AppPkt.setPayload (AppPkt.setTime AppPkt.fresh time) payload

theorem AppPkt_build_bytes (time : Nat) (payload : Bytes) :
    (buildApp time payload).toBytes = Spec.app time payload := by
  have h1 : setLE ([5, 0] ++ zeros 4) 2 4 time = [5, 0] ++ Spec.le32 time := by
    unfold setLE
    have := setBytes_append_mid [5, 0] (zeros 4) [] (leBytes 4 time) (i := 2) (by simp) (by simp)
    simpa [leBytes_four] using this
  simp only [buildApp, AppPkt.setTime, AppPkt.setPayload, App_fresh_data, h1, Packet.toBytes,
    Packet.optBytes, Option.getD_some, Spec.app]

/-- **C05.** AppPacket round trip (empty payload included). -/
theorem C05_app_packet_roundtrip (time : Nat) (ht : time < 2 ^ 32) (payload : Bytes) :
    (buildApp time payload).toBytes = Spec.app time payload ∧
    ∀ v, ∃ q, AppPkt.ctor (Spec.app time payload) v = .ok q ∧ AppPkt.time q = time ∧
      AppPkt.payload q = .ok payload ∧ q.toBytes = Spec.app time payload := by
  refine ⟨AppPkt_build_bytes time payload, fun v => ?_⟩
  have hacc := AppPkt_ctor_spec (Spec.app time payload) (by simp [Spec.app]) v
  rw [if_pos ⟨by simp [Spec.app], fun _ => by simp [Spec.app]⟩] at hacc
  have ht6 : (Spec.app time payload).take 6 = [5, 0] ++ Spec.le32 time := by simp [Spec.app, Spec.le32]
  have hd6 : (Spec.app time payload).drop 6 = payload := by simp [Spec.app, Spec.le32]
  rw [ht6, hd6] at hacc
  refine ⟨_, hacc, ?_, rfl, ?_⟩
  · have := slice_append_mid [5, 0] (Spec.le32 time) [] (i := 2) (j := 6) (by simp) (by simp)
    simp only [AppPkt.time, getLE]
    rw [show (2 + 4) = 6 from rfl, ← List.append_nil ([5, 0] ++ Spec.le32 time), this, leNat_le32 ht]
  · simp [Packet.toBytes, Packet.optBytes, Spec.app]

/-- Non-vacuity of C05: the empty payload. -/
example : ∃ q, AppPkt.ctor (Spec.app 7 []) = .ok q ∧ AppPkt.time q = 7 ∧ AppPkt.payload q = .ok [] :=
  ((C05_app_packet_roundtrip 7 (by decide) []).2 true).imp fun _ h => ⟨h.1, h.2.1, h.2.2.1⟩

end Salt.Props
