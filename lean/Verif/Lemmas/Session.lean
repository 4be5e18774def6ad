import Verif.Spec.Session
import Verif.Model.Client
import Verif.Model.Server
import Verif.Lemmas.Channel
import Verif.Props.Packets4

/-!
# Lemmas about the handshakes: what each step does, in terms of the wire formats
-/

set_option linter.unusedSimpArgs false

namespace Salt

open Spec

theorem sig1_eq : sig1Prefix = scSig01 := by decide
theorem sig2_eq : sig2Prefix = scSig02 := by decide

@[simp] theorem field_length (raw : Bytes) (off n : Nat) : (field raw off n).length = n := by
  simp [field]

theorem slice_pad (src : Bytes) (N off n : Nat) (h : off + n ≤ N) :
    slice (src.take N ++ zeros (N - src.length)) off (off + n) = field src off n := by
  rw [slice_eq_drop_take]
  unfold field
  apply List.ext_getElem?
  intro i
  simp only [List.getElem?_take, List.getElem?_drop, List.getElem?_append, List.length_take,
    List.length_drop, zeros, List.getElem?_replicate]
  by_cases hi : i < n
  · simp only [hi, if_true]
    by_cases h1 : off + i < src.length
    · have h2 : off + i < min N src.length := by omega
      have h3 : i < src.length - off := by omega
      have h4 : off + i < N := by omega
      simp [h2, h3, h4]
    · have h2 : ¬ off + i < min N src.length := by omega
      have h3 : ¬ i < src.length - off := by omega
      have h4 : off + i - min N src.length < N - src.length := by omega
      have h5 : i - (src.length - off) < n := by omega
      simp [h2, h3, h4, h5]
  · simp [hi]

/-! ### Building packets -/

theorem build_m1 (t : Nat) (key : Bytes) :
    M1.setClientEncKey (M1.setTime (M1.createOptFields M1.fresh) t) key =
      if key.length = 32 then .ok ⟨Spec.m1 t key none, some []⟩ else .error .typeError := by
  have hf : M1.createOptFields M1.fresh =
      ⟨[0x53, 0x43, 0x76, 0x32, 1, 0] ++ zeros 4 ++ zeros 32, some []⟩ := by decide
  by_cases hk : key.length = 32
  · rw [if_pos hk, hf, Props.M1_setTime_key 0 (some []) t key hk]; rfl
  · rw [if_neg hk]
    simp only [M1.setClientEncKey, setArr, hk, if_false]

theorem build_m2 (t : Nat) (key : Bytes) :
    M2.setServerEncKey (M2.setTime M2.fresh t) key =
      if key.length = 32 then .ok ⟨Spec.m2 false false t key, none⟩ else .error .typeError := by
  by_cases hk : key.length = 32
  · rw [if_pos hk]
    have hf : M2.fresh = ⟨[2, 0] ++ zeros 4 ++ zeros 32, none⟩ := by decide
    have h1 : setLE ([2, 0] ++ zeros 4 ++ zeros 32) 2 4 t = [2, 0] ++ Spec.le32 t ++ zeros 32 := by
      unfold setLE
      rw [setBytes_append_mid _ _ _ _ (by simp) (by simp), leBytes_four]
    have h2 : setBytes ([2, 0] ++ Spec.le32 t ++ zeros 32) 6 key = [2, 0] ++ Spec.le32 t ++ key := by
      have := setBytes_append_mid ([2, 0] ++ Spec.le32 t) (zeros 32) [] key (i := 6) (by simp)
        (by simp [hk])
      simpa using this
    simp only [hf, M2.setTime, h1, M2.setServerEncKey, setArr, hk, if_true, h2]
    rfl
  · rw [if_neg hk]
    simp only [M2.setServerEncKey, setArr, hk, if_false]

theorem m2_toBytes (t : Nat) (key : Bytes) :
    M2.toBytes ⟨Spec.m2 false false t key, none⟩ = Spec.m2 false false t key := by
  have h : M2.noSuchServer ⟨Spec.m2 false false t key, none⟩ = 0 := by
    simp [M2.noSuchServer, getBit, getLE, slice, leNat, Spec.m2]
  simp [M2.toBytes, M2.implyLast, h]

theorem m2_setTime (t t' : Nat) (key : Bytes) :
    M2.setTime ⟨Spec.m2 false false t key, none⟩ t' = ⟨Spec.m2 false false t' key, none⟩ := by
  have h1 : setLE ([2, 0] ++ Spec.le32 t ++ key) 2 4 t' = [2, 0] ++ Spec.le32 t' ++ key := by
    unfold setLE
    rw [setBytes_append_mid _ _ _ _ (by simp) (by simp), leBytes_four]
  simp only [M2.setTime]
  rw [show Spec.m2 false false t key = [2, 0] ++ Spec.le32 t ++ key from rfl, h1]
  rfl

theorem m2_refusal (t : Nat) :
    M2.toBytes (M2.setNoSuchServer (M2.setTime M2.fresh t) 1) = Spec.m2 true true t (zeros 32) := by
  have hf : M2.fresh = ⟨[2, 0] ++ zeros 4 ++ zeros 32, none⟩ := by decide
  have h1 : setLE ([2, 0] ++ zeros 4 ++ zeros 32) 2 4 t = [2, 0] ++ Spec.le32 t ++ zeros 32 := by
    unfold setLE
    rw [setBytes_append_mid _ _ _ _ (by simp) (by simp), leBytes_four]
  simp only [hf, M2.setTime, h1]
  simp [M2.setNoSuchServer, M2.toBytes, M2.implyLast, M2.noSuchServer, M2.setLastFlag, setBit, getBit,
    getLE, slice, leNat, setLE, setBytes, leBytes, Spec.m2]

theorem build_m34_key (ty : PacketType) (x : UInt8) (hx : x.toNat = ty.value) (t : Nat) (key : Bytes) :
    M34.setSigKey (M34.setTime (M34.fresh ty) t) key =
      if key.length = 32 then .ok ⟨[x, 0] ++ Spec.le32 t ++ key ++ zeros 64, none⟩
      else .error .typeError := by
  by_cases hk : key.length = 32
  · rw [if_pos hk]
    have h1 : setLE ([x, 0] ++ zeros 4 ++ zeros 32 ++ zeros 64) 2 4 t
        = [x, 0] ++ Spec.le32 t ++ zeros 32 ++ zeros 64 := by
      unfold setLE
      rw [List.append_assoc _ (zeros 32), setBytes_append_mid _ _ _ _ (by simp) (by simp),
        leBytes_four, ← List.append_assoc]
    have h2 : setBytes ([x, 0] ++ Spec.le32 t ++ zeros 32 ++ zeros 64) 6 key
        = [x, 0] ++ Spec.le32 t ++ key ++ zeros 64 :=
      setBytes_append_mid ([x, 0] ++ Spec.le32 t) (zeros 32) _ key (by simp) (by simp [hk])
    have hf : M34.fresh ty = { data := [x, 0] ++ zeros 4 ++ zeros 32 ++ zeros 64, opt := none } := by
      rw [← M34_fresh_data ty x hx]; rfl
    simp only [hf, M34.setTime, h1, M34.setSigKey, setArr, hk, if_true, h2]
  · rw [if_neg hk]
    simp only [M34.setSigKey, setArr, hk, if_false]

theorem build_m34_sig (x : UInt8) (t : Nat) (key sig : Bytes) (hk : key.length = 32) :
    M34.setSignature ⟨[x, 0] ++ Spec.le32 t ++ key ++ zeros 64, none⟩ sig =
      if sig.length = 64 then .ok ⟨[x, 0] ++ Spec.le32 t ++ key ++ sig, none⟩
      else .error .typeError := by
  by_cases hs : sig.length = 64
  · rw [if_pos hs]
    have h3 : setBytes ([x, 0] ++ Spec.le32 t ++ key ++ zeros 64) 38 sig
        = [x, 0] ++ Spec.le32 t ++ key ++ sig := by
      have := setBytes_append_mid ([x, 0] ++ Spec.le32 t ++ key) (zeros 64) [] sig
        (i := 38) (by simp [hk]) (by simp [hs])
      simpa using this
    simp only [M34.setSignature, setArr, hs, if_true, h3]
  · rw [if_neg hs]
    simp only [M34.setSignature, setArr, hs, if_false]

/-! ### Reading packets -/

theorem m2_fields {raw : Bytes} {p : Packet} (h : M2.ctor raw = .ok p) :
    (raw = [] ∨ raw.head? = some 2) ∧ M2.packetType p = 2 ∧ M2.time p = leNat (field raw 2 4) ∧
    M2.serverEncKey p = field raw 6 32 ∧ M2.noSuchServer p = leNat (field raw 1 1) % 2 := by
  by_cases hne : raw = []
  · subst hne
    simp only [M2.ctor, List.isEmpty_nil, if_true, Except.ok.injEq] at h
    subst h
    refine ⟨.inl rfl, ?_⟩
    decide
  · rw [Props.M2_ctor_spec raw hne] at h
    split at h
    · rename_i h2
      simp only [Except.ok.injEq] at h
      subst h
      refine ⟨.inr h2, ?_, ?_, ?_, ?_⟩
      · obtain ⟨b, t, rfl⟩ := List.exists_cons_of_ne_nil hne
        simp only [List.head?_cons, Option.some.injEq] at h2
        subst h2
        exact getLE_one (x := 2) (by simp)
      · simp only [M2.time, getLE]; rw [slice_pad _ 38 2 4 (by omega)]
      · simp only [M2.serverEncKey, getArr]; rw [slice_pad _ 38 6 32 (by omega)]
      · simp only [M2.noSuchServer, getBit, getLE]
        rw [slice_pad _ 38 1 1 (by omega)]
        simp
    · simp at h

theorem m34_fields {ty : PacketType} (x : UInt8) (hx : x.toNat = ty.value) {raw : Bytes} {p : Packet}
    (h : M34.ctor ty raw = .ok p) :
    (raw = [] ∨ raw.head? = some x) ∧ M34.time p = leNat (field raw 2 4) ∧
    M34.sigKey p = field raw 6 32 ∧ M34.signature p = field raw 38 64 := by
  by_cases hne : raw = []
  · subst hne
    simp only [M34.ctor, List.isEmpty_nil, if_true, Except.ok.injEq] at h
    subst h
    have hf : M34.fresh ty = ⟨[x, 0] ++ zeros 4 ++ zeros 32 ++ zeros 64, none⟩ := by
      rw [← M34_fresh_data ty x hx]; rfl
    rw [hf]
    exact ⟨.inl rfl, rfl, rfl, rfl⟩
  · rw [Props.M34_ctor_spec ty x hx raw hne] at h
    split at h
    · rename_i h2
      simp only [Except.ok.injEq] at h
      subst h
      refine ⟨.inr h2, ?_, ?_, ?_⟩
      · simp only [M34.time, getLE]; rw [slice_pad _ 102 2 4 (by omega)]
      · simp only [M34.sigKey, getArr]; rw [slice_pad _ 102 6 32 (by omega)]
      · simp only [M34.signature, getArr]; rw [slice_pad _ 102 38 64 (by omega)]
    · simp at h

/-- The first five bytes of an M1. -/
def m1Start : Bytes := [0x53, 0x43, 0x76, 0x32, 1]

theorem slice_pad_head (hd src : Bytes) (off n k : Nat) (h1 : hd.length ≤ off)
    (h2 : off + n ≤ hd.length + k) :
    slice (src.take (hd.length + k) ++ (hd ++ zeros k).drop src.length) off (off + n)
      = field src off n := by
  rw [slice_eq_drop_take]
  unfold field
  apply List.ext_getElem?
  intro i
  simp only [List.getElem?_take, List.getElem?_drop, List.getElem?_append, List.length_take,
    List.length_drop, zeros, List.getElem?_replicate]
  by_cases hi : i < n
  · simp only [hi, if_true]
    by_cases h3 : off + i < src.length
    · have h4 : off + i < min (hd.length + k) src.length := by omega
      have h5 : i < src.length - off := by omega
      have h6 : off + i < hd.length + k := by omega
      simp [h4, h5, h6]
    · have h4 : ¬ off + i < min (hd.length + k) src.length := by omega
      have h5 : ¬ i < src.length - off := by omega
      have h6 : ¬ src.length + (off + i - min (hd.length + k) src.length) < hd.length := by omega
      have h7 : src.length + (off + i - min (hd.length + k) src.length) - hd.length < k := by omega
      have h8 : i - (src.length - off) < n := by omega
      simp [h4, h5, h6, h7, h8]
  · simp [hi]

theorem structFromBytes_zeros (n : Nat) (src : Bytes) :
    structFromBytes (zeros n) src = field src 0 n := by
  rw [structFromBytes_eq]
  unfold field
  apply List.ext_getElem?
  intro i
  simp only [List.getElem?_take, List.getElem?_drop, List.getElem?_append, List.length_take,
    List.length_drop, zeros, List.getElem?_replicate, List.length_replicate, List.drop_zero]
  by_cases hi : i < n
  · simp only [hi, if_true]
    by_cases h3 : i < src.length
    · have : i < min n src.length := by omega
      simp [h3, this]
    · have h4 : ¬ i < min n src.length := by omega
      have h5 : src.length + (i - min n src.length) < n := by omega
      have h6 : i - src.length < n := by omega
      simp [h3, h4, h5, h6]
  · have h4 : ¬ i < min n src.length := by omega
    have h5 : ¬ src.length + (i - min n src.length) < n := by omega
    simp [hi, h4, h5]

theorem m1_accept (raw : Bytes) :
    (∃ p, M1.ctor raw = .ok p) ∧ raw.take 5 = m1Start.take raw.length ∨
    M1.ctor raw = .error .badPeer ∧ raw.take 5 ≠ m1Start.take raw.length := by
  by_cases hne : raw = []
  · subst hne; exact .inl ⟨⟨_, rfl⟩, rfl⟩
  · obtain ⟨d, o, -, -, h⟩ := Props.M1_ctor_spec raw hne
    rw [h]
    by_cases hc : raw.take 5 = Props.m1Head.take raw.length
    · rw [if_pos hc]; exact .inl ⟨⟨_, rfl⟩, hc⟩
    · rw [if_neg hc]; exact .inr ⟨rfl, hc⟩

theorem m1_fields {raw : Bytes} {p : Packet} (h : M1.ctor raw = .ok p) :
    raw.take 5 = m1Start.take raw.length ∧ M1.time p = leNat (field raw 6 4) ∧
    M1.clientEncKey p = field raw 10 32 ∧
    M1.serverSigKeyIncluded p = leNat (field raw 5 1) % 2 ∧
    (M1.serverSigKeyIncluded p ≠ 0 → M1.serverSigKey p = .ok (field raw 42 32)) := by
  by_cases hne : raw = []
  · subst hne
    simp only [M1.ctor, List.isEmpty_nil, if_true, Except.ok.injEq] at h
    subst h
    decide
  · obtain ⟨d, o, hd, ho, hc⟩ := Props.M1_ctor_spec raw hne
    rw [hc] at h
    split at h
    · rename_i h2
      simp only [Except.ok.injEq] at h
      subst h
      have hs : ∀ off n, 5 ≤ off → off + n ≤ 42 → slice d off (off + n) = field raw off n := by
        intro off n h3 h4
        rw [hd]
        exact slice_pad_head m1Start raw off n 37 h3 h4
      have hi : getBit d 5 0 = leNat (field raw 5 1) % 2 := by
        simp only [getBit, getLE]; rw [hs 5 1 (by omega) (by omega)]; simp
      refine ⟨h2, ?_, ?_, ?_, ?_⟩
      · simp only [M1.time, getLE]; rw [hs 6 4 (by omega) (by omega)]
      · simp only [M1.clientEncKey, getArr]; rw [hs 10 32 (by omega) (by omega)]
      · exact hi
      · intro hn
        simp only [M1.serverSigKeyIncluded] at hn
        have h1 : getBit d 5 0 = 1 := by rw [hi] at hn ⊢; omega
        simp only [M1.serverSigKey, ho, h1, structFromBytes_zeros]
        simp [field, List.drop_drop]
    · simp at h

/-! ### The steps of the client -/

theorem c_doM1_run (kp : KeyPair) (s : ClientSt) :
    Client.doM1 kp s = .op (S := env) .firstTime fun
      | .error e => .ret (.error e, s)
      | .ok t =>
        if kp.pub.length = 32 then
          .op (S := env) (.hash (Spec.m1 t kp.pub none)) fun
          | .error e => .ret (.error e, { s with m1 := some ⟨Spec.m1 t kp.pub none, some []⟩ })
          | .ok h => .op (S := env) (.write [Spec.m1 t kp.pub none] false) fun r =>
              .ret (r, { s with m1 := some ⟨Spec.m1 t kp.pub none, some []⟩, m1Hash := h })
        else .ret (.error .typeError, s) := by
  simp only [Client.doM1, Py.bind_run, Py.call_run, IT.op_bind, IT.ret_bind, Py.lift_run, build_m1]
  congr 1
  funext r
  cases r with
  | error e => rfl
  | ok t =>
    by_cases hk : kp.pub.length = 32
    · have hb : Packet.toBytes ⟨Spec.m1 t kp.pub none, some []⟩ = Spec.m1 t kp.pub none := by
        simp [Packet.toBytes, Packet.optBytes]
      simp only [hk, if_true, Py.modifySt_run, IT.ret_bind]
      rw [hb]
      congr 1
      funext r
      cases r <;> rfl
    · simp only [hk, if_false]

theorem c_doM2_run (s : ClientSt) :
    Client.doM2 s = .op (S := env) .read fun
      | .error e => .ret (.error e, s)
      | .ok raw => match M2.ctor raw with
        | .error e => .ret (.error e, s)
        | .ok m2 => .op (S := env) (.report (leNat (field raw 2 4))) fun
          | .error e => .ret (.error e, { s with m2 := some m2 })
          | .ok _ => .op (S := env) (.hash raw) fun
            | .error e => .ret (.error e, { s with m2 := some m2 })
            | .ok h =>
              if leNat (field raw 1 1) % 2 = 0 then
                .ret (.ok true, { s with m2 := some m2, m2Hash := h })
              else .ret (.error .noSuchServer, { s with m2 := some m2, m2Hash := h }) := by
  simp only [Client.doM2, Py.bind_run, Py.call_run, IT.op_bind, IT.ret_bind, Py.lift_run]
  congr 1
  funext r
  cases r with
  | error e => rfl
  | ok raw =>
    simp only []
    cases hc : M2.ctor raw with
    | error e => rfl
    | ok m2 =>
      obtain ⟨-, h1, h2, -, h3⟩ := m2_fields hc
      have h1' : ¬ (M2.packetType m2 ≠ PacketType.m2.value) := by rw [h1]; decide
      simp only [IT.ret_bind, Py.modifySt_run]
      rw [if_neg h1', h2, h3]
      simp only [Py.bind_run, Py.call_run, IT.op_bind, IT.ret_bind]
      congr 1
      funext r
      cases r with
      | error e => rfl
      | ok _ =>
        simp only [IT.op_bind, IT.ret_bind]
        congr 1
        funext r
        cases r with
        | error e => rfl
        | ok h =>
          simp only [Py.modifySt_run, IT.ret_bind]
          by_cases hz : leNat (field raw 1 1) % 2 = 0
          · simp [hz]
          · simp [hz]

/-- The encrypted channel of a fresh session. -/
def encInit (key : Bytes) (role : Role) : EncSt :=
  { key := key, sessionNonce := zeros 8, readNonce := if role = .client then 2 else 1,
    writeNonce := if role = .client then 1 else 2, pushback := [], lastFlag := false }

theorem Enc_init_eq (key : Bytes) (role : Role) :
    Enc.init key role = if key.length = 32 then .ok (encInit key role) else .error .typeError := by
  unfold Enc.init encInit boxSecretKeyBytes
  by_cases h : key.length = 32 <;> simp [h]

theorem shared_run {σ : Type} (sk pk : Bytes) (h : pk.length = 32) (s : σ) :
    (computeSharedKey sk pk : Py env σ Bytes) s =
      if sk.length = 32 then .op (S := env) (.beforenm pk sk) fun r => .ret (r, s)
      else .ret (.error .valueError, s) := by
  unfold computeSharedKey boxSecretKeyBytes boxPublicKeyBytes
  by_cases h2 : sk.length = 32
  · rw [if_neg (by simp [h2]), if_neg (by simp [h]), if_pos h2]; rfl
  · rw [if_pos h2, if_neg h2]; rfl

theorem c_create_run (kp : KeyPair) (s : ClientSt) (raw : Bytes) (m2 : Packet)
    (hm : M2.ctor raw = .ok m2) (hs : s.m2 = some m2) :
    Client.createEncryptedChannel kp s =
      if kp.sec.length = 32 then .op (S := env) (.beforenm (field raw 6 32) kp.sec) fun
        | .error e => .ret (.error e, s)
        | .ok k =>
          if k.length = 32 then
            .ret (.ok (), { s with sessionKey := k, chan := some (App.init (encInit k .client)) })
          else .ret (.error .typeError, { s with sessionKey := k })
      else .ret (.error .valueError, s) := by
  obtain ⟨-, -, -, hk, -⟩ := m2_fields hm
  simp only [Client.createEncryptedChannel, Py.bind_run, Py.getSt_run, IT.ret_bind, hs]
  rw [hk, shared_run _ _ (field_length ..)]
  by_cases h : kp.sec.length = 32
  · simp only [h, if_true, IT.op_bind, IT.ret_bind]
    congr 1
    funext r
    cases r with
    | error e => rfl
    | ok k =>
      simp only [Py.bind_run, Py.modifySt_run, IT.ret_bind, Py.lift_run, Enc_init_eq]
      by_cases h : k.length = 32 <;> simp [h, hs]
  · simp only [h, if_false, IT.ret_bind]

theorem c_onEnc_run {α : Type} (m : Py env EncSt α) (s : ClientSt) (c : AppSt) (h : s.chan = some c) :
    Client.onEnc m s = (m c.enc).bind fun (r, e) => .ret (r, { s with chan := some { c with enc := e } }) := by
  simp only [Client.onEnc, Py.zoom_run, h, App.onEnc, IT.bind_assoc, IT.ret_bind]

theorem c_doM3_run (s : ClientSt) (c : AppSt) (h : s.chan = some c) :
    Client.doM3 s = (Enc.read c.enc).bind fun (r, e) =>
      let s1 := { s with chan := some { c with enc := e } }
      match r with
      | .error x => .ret (.error x, s1)
      | .ok chunk =>
        if chunk.length = 102 then match M34.ctor .m3 chunk with
          | .error x => .ret (.error x, s1)
          | .ok m3 => .op (S := env) (.check (leNat (field chunk 2 4))) fun
            | .error x => .ret (.error x, { s1 with m3 := some m3 })
            | .ok _ => .ret (.ok (), { s1 with m3 := some m3 })
        else .ret (.error .assertionError, s1) := by
  simp only [Client.doM3, Py.bind_run, c_onEnc_run _ s c h, IT.bind_assoc, IT.ret_bind]
  congr 1
  funext ⟨r, e⟩
  cases r with
  | error x => rfl
  | ok chunk =>
    simp only []
    by_cases hl : chunk.length = 102
    · simp only [hl, ne_eq, not_true_eq_false, if_false, if_true, Py.bind_run, Py.lift_run, IT.ret_bind]
      cases hc : M34.ctor .m3 chunk with
      | error x => rfl
      | ok m3 =>
        obtain ⟨-, ht, -⟩ := m34_fields 3 rfl hc
        simp only [IT.ret_bind, Py.modifySt_run, Py.call_run, IT.op_bind]
        rw [ht]
        congr 1
        funext r
        cases r <;> rfl
    · simp only [hl, ne_eq, not_false_eq_true, if_true, if_false, Py.raise_run]

/-- How `sign_open` errors are reported (the try/except in validate_signature1/2). -/
def sigErr (e : Err) : Err := if e = .badSignature then .badPeer else e

theorem c_validate_run (s : ClientSt) (chunk : Bytes) (m3 : Packet) (hm : M34.ctor .m3 chunk = .ok m3)
    (hs : s.m3 = some m3) :
    Client.validateSignature1 s =
      .op (S := env) (.signOpen (field chunk 38 64 ++ scSig01 ++ s.m1Hash ++ s.m2Hash)
        (field chunk 6 32)) fun
      | .error e => .ret (.error (sigErr e), s)
      | .ok _ => .ret (.ok (), s) := by
  obtain ⟨-, -, h1, h2⟩ := m34_fields 3 rfl hm
  simp only [Client.validateSignature1, Py.bind_run, Py.getSt_run, IT.ret_bind, hs, Py.onError]
  rw [h1, h2, sig1_eq]
  simp only [Py.call_run, IT.op_bind]
  congr 1
  funext r
  cases r with
  | error e =>
    simp only [IT.ret_bind, sigErr]
    by_cases he : e = .badSignature <;> simp [he]
  | ok _ => rfl

theorem c_doM4_run (cfg : ClientCfg) (s : ClientSt) (c : AppSt) (h : s.chan = some c) :
    Client.doM4 cfg s = .op (S := env) .time fun
      | .error e => .ret (.error e, s)
      | .ok t =>
        if cfg.sigKp.pub.length = 32 then
          .op (S := env) (.sign (scSig02 ++ s.m1Hash ++ s.m2Hash) cfg.sigKp.sec) fun
          | .error e => .ret (.error e, s)
          | .ok sm =>
            if 64 ≤ sm.length then
              let m4 := Spec.m4 t cfg.sigKp.pub (sm.take 64)
              let s1 := { s with m4 := some ⟨m4, none⟩ }
              if cfg.bufferM4 then
                .ret (.ok (), { s1 with chan := some { c with bufferedM4 := some ⟨m4, none⟩ } })
              else (Enc.write [m4] false c.enc).bind fun (r, e) =>
                .ret (r, { s1 with chan := some { c with enc := e } })
            else .ret (.error .typeError, s)
        else .ret (.error .typeError, s) := by
  simp only [Client.doM4, Py.bind_run, Py.call_run, IT.op_bind, IT.ret_bind, Py.lift_run,
    build_m34_key .m4 4 rfl]
  congr 1
  funext r
  cases r with
  | error e => rfl
  | ok t =>
    by_cases hk : cfg.sigKp.pub.length = 32
    · simp only [hk, if_true, Py.getSt_run, IT.ret_bind]
      rw [sig2_eq]
      congr 1
      funext r
      cases r with
      | error e => rfl
      | ok sm =>
        simp only [build_m34_sig 4 t _ _ hk, signBytes]
        by_cases hl : 64 ≤ sm.length
        · have hl' : (sm.take 64).length = 64 := by simp [hl]
          simp only [hl, hl', if_true, IT.ret_bind, Py.modifySt_run]
          cases cfg.bufferM4 with
          | true => simp only [if_true, Py.zoom_run, h, Py.modifySt_run, IT.ret_bind]; rfl
          | false =>
            simp only [Bool.false_eq_true, if_false]
            refine (c_onEnc_run _ { s with
              m4 := some ⟨[4, 0] ++ Spec.le32 t ++ cfg.sigKp.pub ++ sm.take 64, none⟩ } c h).trans ?_
            simp only [Packet.toBytes, Packet.optBytes, Option.getD_none, List.append_nil]
            rfl
        · have hl' : ¬ (sm.take 64).length = 64 := by simp; omega
          simp only [hl, hl', if_false]
    · simp only [hk, if_false]

/-! ### The steps of the server -/

theorem s_onEnc_run {α : Type} (m : Py env EncSt α) (s : ServerSt) (c : AppSt) (h : s.chan = some c) :
    Server.onEnc m s = (m c.enc).bind fun (r, e) => .ret (r, { s with chan := some { c with enc := e } }) := by
  simp only [Server.onEnc, Py.zoom_run, h, App.onEnc, IT.bind_assoc, IT.ret_bind]

theorem s_doM1_run (cfg : ServerCfg) (s : ServerSt) :
    Server.doM1 cfg s = .op (S := env) .read fun
      | .error e => .ret (.error e, s)
      | .ok raw => match M1.ctor raw with
        | .error _ => .ret (.ok (some raw), { s with m1 := none })
        | .ok m1 => .op (S := env) (.report (leNat (field raw 6 4))) fun
          | .error e => .ret (.error e, { s with m1 := some m1 })
          | .ok _ => .op (S := env) (.hash raw) fun
            | .error e => .ret (.error e, { s with m1 := some m1 })
            | .ok h =>
              let s1 := { s with m1 := some m1, m1Hash := h }
              if leNat (field raw 5 1) % 2 = 1 ∧ field raw 42 32 ≠ cfg.sigKp.pub then
                .op (S := env) .firstTime fun
                | .error e => .ret (.error e, s1)
                | .ok t => .op (S := env) (.write [Spec.m2 true true t (zeros 32)] true) fun
                  | .error e => .ret (.error e, s1)
                  | .ok _ => .ret (.error .noSuchServer, s1)
              else .ret (.ok none, s1) := by
  simp only [Server.doM1, Py.bind_run, Py.call_run, IT.op_bind, IT.ret_bind]
  congr 1
  funext r
  cases r with
  | error e => rfl
  | ok raw =>
    simp only []
    rcases m1_accept raw with ⟨⟨m1, hc⟩, -⟩ | ⟨hc, -⟩
    · obtain ⟨-, h1, -, h2, h3⟩ := m1_fields hc
      simp only [hc, Py.bind_run, Py.modifySt_run, IT.ret_bind]
      rw [h1]
      simp only [Py.call_run, IT.op_bind]
      congr 1
      funext r
      cases r with
      | error e => rfl
      | ok _ =>
        simp only [IT.ret_bind, IT.op_bind]
        congr 1
        funext r
        cases r with
        | error e => rfl
        | ok h =>
          simp only [Py.modifySt_run, IT.ret_bind]
          by_cases hz : M1.serverSigKeyIncluded m1 = 0
          · have hz' : ¬ leNat (field raw 5 1) % 2 = 1 := by rw [← h2, hz]; decide
            simp only [hz, hz', ne_eq, not_true_eq_false, if_false, false_and]
            rfl
          · have hz' : leNat (field raw 5 1) % 2 = 1 := by rw [h2] at hz; omega
            simp only [hz, ne_eq, not_false_eq_true, if_true, Py.bind_run, h3 hz, Py.lift_run,
              IT.ret_bind, Py.pure_run, hz', true_and]
            by_cases he : field raw 42 32 = cfg.sigKp.pub
            · simp [he]
            · have he' : (cfg.sigKp.pub != field raw 42 32) = true := by
                simpa using fun h => he h.symm
              simp only [he', if_true, he, not_false_eq_true, Py.bind_run, Py.call_run, IT.op_bind,
                IT.ret_bind]
              congr 1
              funext r
              cases r with
              | error e => rfl
              | ok t =>
                simp only []
                rw [m2_refusal]
                congr 1
                funext r
                cases r <;> rfl
    · simp only [hc, Py.bind_run, Py.modifySt_run, IT.ret_bind, Py.pure_run]

theorem s_doA2_run (cfg : ServerCfg) (raw : Bytes) (s : ServerSt) :
    Server.doA2 cfg raw s = match A1.ctor raw with
      | .error e => .ret (.error e, s)
      | .ok _ => .op (S := env) (.write [(cfg.a2.getD (A2.ofCase .default)).toBytes] true) fun r =>
          .ret (r, s) := by
  simp only [Server.doA2, Py.bind_run, Py.lift_run, IT.ret_bind]
  cases A1.ctor raw with
  | error e => rfl
  | ok a1 =>
    have : Server.chooseA2 cfg a1 = cfg.a2.getD (A2.ofCase .default) := by
      unfold Server.chooseA2
      cases cfg.a2 <;> simp
    simp only []
    rw [this]
    rfl

theorem s_doM2_run (cfg : ServerCfg) (kp : KeyPair) (s : ServerSt) :
    Server.doM2 cfg kp s = .op (S := env) .firstTime fun
      | .error e => .ret (.error e, s)
      | .ok t =>
        if kp.pub.length = 32 then
          let m2 := Spec.m2 false false t kp.pub
          let s1 := { s with m2 := some ⟨m2, none⟩ }
          if cfg.bufferM2 then .ret (.ok (), s1)
          else .op (S := env) (.write [m2] false) fun
            | .error e => .ret (.error e, s1)
            | .ok _ => .op (S := env) (.hash m2) fun
              | .error e => .ret (.error e, s1)
              | .ok h => .ret (.ok (), { s1 with m2Hash := h })
        else .ret (.error .typeError, s) := by
  simp only [Server.doM2, Py.bind_run, Py.call_run, IT.op_bind, IT.ret_bind, Py.lift_run, build_m2]
  congr 1
  funext r
  cases r with
  | error e => rfl
  | ok t =>
    by_cases hk : kp.pub.length = 32
    · simp only [hk, if_true, Py.modifySt_run, IT.ret_bind]
      cases cfg.bufferM2 with
      | true => rfl
      | false =>
        simp only [Bool.false_eq_true, if_false]
        rw [m2_toBytes]
        simp only [Py.bind_run, Py.call_run, IT.op_bind, IT.ret_bind]
        congr 1
        funext r
        cases r with
        | error e => rfl
        | ok _ =>
          simp only [IT.op_bind, IT.ret_bind]
          congr 1
          funext r
          cases r <;> rfl
    · simp only [hk, if_false]

theorem s_create_run (kp : KeyPair) (s : ServerSt) (raw : Bytes) (m1 : Packet)
    (hm : M1.ctor raw = .ok m1) (hs : s.m1 = some m1) :
    Server.createEncryptedChannel kp s =
      if kp.sec.length = 32 then .op (S := env) (.beforenm (field raw 10 32) kp.sec) fun
        | .error e => .ret (.error e, s)
        | .ok k =>
          if k.length = 32 then
            .ret (.ok (), { s with sessionKey := k, chan := some (App.init (encInit k .server)) })
          else .ret (.error .typeError, { s with sessionKey := k })
      else .ret (.error .valueError, s) := by
  obtain ⟨-, -, hk, -⟩ := m1_fields hm
  simp only [Server.createEncryptedChannel, Py.bind_run, Py.getSt_run, IT.ret_bind, hs]
  rw [hk, shared_run _ _ (field_length ..)]
  by_cases h : kp.sec.length = 32
  · simp only [h, if_true, IT.op_bind, IT.ret_bind]
    congr 1
    funext r
    cases r with
    | error e => rfl
    | ok k =>
      simp only [Py.bind_run, Py.modifySt_run, IT.ret_bind, Py.lift_run, Enc_init_eq]
      by_cases h : k.length = 32 <;> simp [h, hs]
  · simp only [h, if_false, IT.ret_bind]

theorem s_doM3Head_run (cfg : ServerCfg) (s : ServerSt) (t0 : Nat) (key : Bytes)
    (hs : s.m2 = some ⟨Spec.m2 false false t0 key, none⟩) :
    Server.doM3Head cfg s =
      if cfg.bufferM2 then .op (S := env) .firstTime fun
        | .error e => .ret (.error e, s)
        | .ok t =>
          let m2 := Spec.m2 false false t key
          let s1 := { s with m2 := some ⟨m2, none⟩ }
          .op (S := env) (.hash m2) fun
          | .error e => .ret (.error e, s1)
          | .ok h => .ret (.ok ([m2], t), { s1 with m2Hash := h })
      else .op (S := env) .time fun
        | .error e => .ret (.error e, s)
        | .ok t => .ret (.ok ([], t), s) := by
  unfold Server.doM3Head
  cases cfg.bufferM2 with
  | true =>
    simp only [if_true, Py.bind_run, Py.call_run, IT.op_bind, IT.ret_bind]
    congr 1
    funext r
    cases r with
    | error e => rfl
    | ok t =>
      simp only [Py.getSt_run, IT.ret_bind, hs, Py.bind_run, Py.modifySt_run]
      rw [m2_setTime, m2_toBytes]
      simp only [Py.call_run, IT.op_bind, IT.ret_bind]
      congr 1
      funext r
      cases r <;> rfl
  | false =>
    simp only [Bool.false_eq_true, if_false, Py.bind_run, Py.call_run, IT.op_bind, IT.ret_bind]
    congr 1
    funext r
    cases r <;> rfl

/-- The part of `do_m3` after the time has been taken. -/
def m3Tail (cfg : ServerCfg) (msgList : List Bytes) (t : Nat) (c : AppSt) (s : ServerSt) :
    IT env (Except Err Unit × ServerSt) :=
  if cfg.sigKp.pub.length = 32 then
    .op (S := env) (.sign (scSig01 ++ s.m1Hash ++ s.m2Hash) cfg.sigKp.sec) fun
    | .error e => .ret (.error e, s)
    | .ok sm =>
      if 64 ≤ sm.length then match nonceBytes c.enc.writeNonce c.enc.sessionNonce with
        | .error e => .ret (.error e, s)
        | .ok n => .op (S := env) (.box (Spec.m3 t cfg.sigKp.pub (sm.take 64)) n c.enc.key) fun
          | .error e => .ret (.error e, s)
          | .ok x => .op (S := env) (.write (msgList ++ [Spec.encrypted false x]) false) fun r =>
              .ret (r, { s with
                chan := some { c with enc := { c.enc with writeNonce := c.enc.writeNonce + 2 } } })
      else .ret (.error .typeError, s)
  else .ret (.error .typeError, s)

theorem s_doM3_run (cfg : ServerCfg) (s : ServerSt) (t0 : Nat) (key : Bytes) (c : AppSt)
    (hs : s.m2 = some ⟨Spec.m2 false false t0 key, none⟩) (hc : s.chan = some c) :
    Server.doM3 cfg s = (Server.doM3Head cfg s).bind fun
      | (.error e, s1) => .ret (.error e, s1)
      | (.ok (msgList, t), s1) => m3Tail cfg msgList t c s1 := by
  simp only [Server.doM3, Py.bind_run]
  have key : ∀ msgList t (s1 : ServerSt), s1.chan = some c →
      ((Py.lift (M34.setSigKey (M34.setTime (M34.fresh .m3) t) cfg.sigKp.pub) >>= fun p =>
        Py.getSt >>= fun s => Py.env (.sign (sig1Prefix ++ s.m1Hash ++ s.m2Hash) cfg.sigKp.sec) >>=
        fun sm => Py.lift (M34.setSignature p (sm.take signBytes)) >>= fun p =>
        Server.onEnc (do
          let c ← Enc.encrypt p.toBytes
          Py.modifySt Enc.advanceWrite
          return Enc.wrap c false) >>= fun w =>
        Py.env (.write (msgList ++ [w]) false)) : Py env ServerSt Unit) s1
      = m3Tail cfg msgList t c s1 := by
    intro msgList t s1 hc1
    unfold m3Tail
    simp only [Py.bind_run, Py.lift_run, build_m34_key .m3 3 rfl]
    by_cases hk : cfg.sigKp.pub.length = 32
    · simp only [hk, if_true, IT.ret_bind, Py.getSt_run]
      rw [sig1_eq]
      simp only [Py.call_run, IT.op_bind, IT.ret_bind]
      congr 1
      funext r
      cases r with
      | error e => rfl
      | ok sm =>
        simp only [build_m34_sig 3 t _ _ hk, signBytes]
        by_cases hl : 64 ≤ sm.length
        · have hl' : (sm.take 64).length = 64 := by simp [hl]
          simp only [hl, hl', if_true, IT.ret_bind]
          rw [s_onEnc_run _ s1 c hc1]
          have hb : Packet.toBytes ⟨[3, 0] ++ Spec.le32 t ++ cfg.sigKp.pub ++ sm.take 64, none⟩
              = Spec.m3 t cfg.sigKp.pub (sm.take 64) := by
            simp [Packet.toBytes, Packet.optBytes, Spec.m3]
          rw [hb]
          simp only [Py.bind_run, Enc.encrypt, Py.getSt_run, IT.ret_bind, Py.lift_run]
          cases nonceBytes c.enc.writeNonce c.enc.sessionNonce with
          | error e =>
            simp only [IT.ret_bind]
            cases s1; cases c
            simp only at hc1
            subst hc1
            rfl
          | ok n =>
            simp only [IT.ret_bind, Py.call_run, IT.op_bind]
            congr 1
            funext r
            cases r with
            | error e =>
              simp only [IT.ret_bind]
              cases s1; cases c
              simp only at hc1
              subst hc1
              rfl
            | ok x =>
              simp only [IT.ret_bind, Py.modifySt_run, Py.pure_run]
              rw [wrap_eq]
              rfl
        · have hl' : ¬ (sm.take 64).length = 64 := by simp; omega
          simp only [hl, hl', if_false, IT.ret_bind]
    · simp only [hk, if_false, IT.ret_bind]
  rw [s_doM3Head_run cfg s t0 _ hs]
  cases cfg.bufferM2 with
  | true =>
    simp only [if_true, IT.op_bind]
    congr 1
    funext r
    cases r with
    | error e => rfl
    | ok t =>
      simp only [IT.op_bind]
      congr 1
      funext r
      cases r with
      | error e => rfl
      | ok h => exact key _ _ _ hc
  | false =>
    simp only [Bool.false_eq_true, if_false, IT.op_bind]
    congr 1
    funext r
    cases r with
    | error e => rfl
    | ok t => exact key _ _ _ hc

theorem s_doM4_run (s : ServerSt) (c : AppSt) (h : s.chan = some c) :
    Server.doM4 s = (Enc.read c.enc).bind fun (r, e) =>
      let s1 := { s with chan := some { c with enc := e } }
      match r with
      | .error x => .ret (.error x, s1)
      | .ok chunk => match M34.ctor .m4 chunk with
          | .error x => .ret (.error x, s1)
          | .ok m4 => .op (S := env) (.check (leNat (field chunk 2 4))) fun
            | .error x => .ret (.error x, { s1 with m4 := some m4 })
            | .ok _ => .ret (.ok (),
                { s1 with m4 := some m4, clientSigKey := some (field chunk 6 32) }) := by
  simp only [Server.doM4, Py.bind_run, s_onEnc_run _ s c h, IT.bind_assoc, IT.ret_bind]
  congr 1
  funext ⟨r, e⟩
  cases r with
  | error x => rfl
  | ok chunk =>
    simp only [Py.lift_run, IT.ret_bind]
    cases hc : M34.ctor .m4 chunk with
    | error x => rfl
    | ok m4 =>
      obtain ⟨-, ht, hk, -⟩ := m34_fields 4 rfl hc
      simp only [IT.ret_bind, Py.modifySt_run, Py.call_run, IT.op_bind, hk]
      rw [ht]
      congr 1
      funext r
      cases r <;> rfl

theorem s_validate_run (s : ServerSt) (chunk : Bytes) (m4 : Packet) (hm : M34.ctor .m4 chunk = .ok m4)
    (hs : s.m4 = some m4) :
    Server.validateSignature2 s =
      .op (S := env) (.signOpen (field chunk 38 64 ++ scSig02 ++ s.m1Hash ++ s.m2Hash)
        (field chunk 6 32)) fun
      | .error e => .ret (.error (sigErr e), s)
      | .ok _ => .ret (.ok (), s) := by
  obtain ⟨-, -, h1, h2⟩ := m34_fields 4 rfl hm
  simp only [Server.validateSignature2, Py.bind_run, Py.getSt_run, IT.ret_bind, hs, Py.onError]
  rw [h1, h2, sig2_eq]
  simp only [Py.call_run, IT.op_bind]
  congr 1
  funext r
  cases r with
  | error e =>
    simp only [IT.ret_bind, sigErr]
    by_cases he : e = .badSignature <;> simp [he]
  | ok _ => rfl

end Salt
