import Verif.Lemmas.Channel
import Verif.Spec.CryptoLaws

/-!
# Properties of the encrypted channel (C20, C22-C26)
-/

set_option linter.unusedSimpArgs false

namespace Salt.Props

open Salt Spec

/-! ### C20: nonces -/

theorem nonce_length (v : Nat) : (Spec.nonce v).length = 24 := by simp [Spec.nonce]

theorem nonce_inj {v w : Nat} (hv : v < 2 ^ 64) (hw : w < 2 ^ 64)
    (h : Spec.nonce v = Spec.nonce w) : v = w := by
  unfold Spec.nonce at h
  have h8 := List.append_cancel_right h
  have := congrArg leNat h8
  rw [leNat_leBytes, leNat_leBytes] at this
  rw [Nat.mod_eq_of_lt hv, Nat.mod_eq_of_lt hw] at this
  exact this

/-- C20: a nonce is the counter (8 bytes, little-endian), the session nonce, 8 zero bytes; distinct
counters below 2^64 give distinct nonces; from 2^64 on a write raises OverflowError without
encrypting or sending anything. -/
theorem C20_nonce :
    (∀ v sn, sn.length = 8 → v < 2 ^ 64 →
      ∃ c, nonceBytes v sn = .ok (c ++ sn ++ List.replicate 8 0) ∧ c.length = 8 ∧ leNat c = v ∧
        (c ++ sn ++ List.replicate 8 0).length = 24) ∧
    (∀ v w sn, v < 2 ^ 64 → w < 2 ^ 64 → nonceBytes v sn = nonceBytes w sn → v = w) ∧
    (∀ (s : EncSt) (m : Bytes) (ms : List Bytes) (l : Bool) tr r s', 2 ^ 64 ≤ s.writeNonce →
      Call (Enc.write (m :: ms) l) s tr r s' → tr = [] ∧ r = .error .overflowError ∧ s' = s) := by
  refine ⟨?_, ?_, ?_⟩
  · intro v sn hsn hv
    refine ⟨leBytes 8 v, ?_, by simp, ?_, by simp [hsn]⟩
    · simp [nonceBytes, hv, zeros]
    · rw [leNat_leBytes, Nat.mod_eq_of_lt hv]
  · intro v w sn hv hw h
    simp only [nonceBytes, hv, hw, if_true, Except.ok.injEq, List.append_assoc] at h
    have h8 : leBytes 8 v = leBytes 8 w := by
      have := congrArg (List.take 8) h
      simpa using this
    have := congrArg leNat h8
    rw [leNat_leBytes, leNat_leBytes, Nat.mod_eq_of_lt hv, Nat.mod_eq_of_lt hw] at this
    exact this
  · intro s m ms l tr r s' hs h
    unfold Call at h
    have hn : nonceBytes s.writeNonce s.sessionNonce = .error .overflowError := by
      simp [nonceBytes, Nat.not_lt.mpr hs]
    rw [Enc_write_run, encryptAll_cons_run, hn] at h
    simp only [IT.ret_bind, Exec_ret, Prod.mk.injEq] at h
    exact ⟨h.1, h.2.1.symm, h.2.2.symm⟩

example : nonceBytes 258 (zeros 8) = .ok (2 :: 1 :: List.replicate 22 0) := by decide

/-! ### Reads -/

/-- A fresh or used channel: session nonce zero, nothing pushed back. -/
def Std (s : EncSt) : Prop := s.sessionNonce = zeros 8 ∧ s.pushback = []

theorem init_ok {key : Bytes} {role : Role} {s : EncSt} (h : Enc.init key role = .ok s) :
    key.length = 32 ∧ s = ⟨key, zeros 8, if role = .client then 2 else 1,
      if role = .client then 1 else 2, [], false⟩ := by
  unfold Enc.init at h
  split at h
  · simp at h
  · rename_i hk
    simp only [Except.ok.injEq] at h
    exact ⟨by simpa [boxSecretKeyBytes] using hk, h.symm⟩

theorem Std.adv {s s' : EncSt} {tr : List (Ev env)} (h : Std s) (ha : Adv s tr s') : Std s' :=
  ⟨ha.sn.trans h.1, ha.pb.trans h.2⟩

/-- Every outcome of a read. -/
theorem read_call {s : EncSt} (hs : Std s) {tr : List (Ev env)} {r : Except Err Bytes} {s' : EncSt}
    (h : Call Enc.read s tr r s') :
    (∃ e, tr = [⟨.read, .error e⟩] ∧ r = .error e ∧ s' = s) ∨
    (∃ raw e, tr = [⟨.read, .ok raw⟩] ∧ r = .error e ∧ s'.readNonce = s.readNonce ∧
      ¬ (18 ≤ raw.length ∧ raw.head? = some 6 ∧ s.readNonce < 2 ^ 64)) ∨
    (∃ raw x, tr = [⟨.read, .ok raw⟩,
        ⟨.boxOpen (raw.drop 2) (Spec.nonce s.readNonce) s.key, x⟩] ∧
      18 ≤ raw.length ∧ raw.head? = some 6 ∧ s.readNonce < 2 ^ 64 ∧
      s'.lastFlag = decide (128 ≤ (raw.getD 1 0).toNat) ∧
      match x with
      | .ok m => r = .ok m ∧ s'.readNonce = s.readNonce + 2
      | .error e => r = .error (if e = .badEncryptedData then .badPeer else e) ∧
          s'.readNonce = s.readNonce) := by
  unfold Call at h
  have hn : nonceBytes s.readNonce s.sessionNonce =
      if s.readNonce < 2 ^ 64 then .ok (Spec.nonce s.readNonce) else .error .overflowError := by
    rw [hs.1, nonceBytes_eq]
  rw [Enc_read_run] at h
  simp only [hs.2, ne_eq, not_true_eq_false, if_false, Exec_op] at h
  obtain ⟨x, tr', rfl, h⟩ := h
  cases x with
  | error e =>
    simp only [Exec_ret, Prod.mk.injEq] at h
    obtain ⟨rfl, rfl, rfl⟩ := h
    exact .inl ⟨e, rfl, rfl, rfl⟩
  | ok raw =>
    refine .inr ?_
    simp only [openPkt] at h
    split at h
    · rename_i hne
      simp only [Exec_ret, Prod.mk.injEq] at h
      obtain ⟨rfl, rfl, rfl⟩ := h
      exact .inl ⟨raw, _, rfl, rfl, rfl, by simp [hne]⟩
    · split at h
      · rename_i hacc
        rw [hn] at h
        by_cases hlt : s.readNonce < 2 ^ 64
        · simp only [hlt, if_true, Exec_op] at h
          obtain ⟨x, tr'', rfl, h⟩ := h
          refine .inr ⟨raw, x, ?_⟩
          cases x with
          | error e =>
            simp only [Exec_ret, Prod.mk.injEq] at h
            obtain ⟨rfl, rfl, rfl⟩ := h
            exact ⟨rfl, hacc.1, hacc.2, hlt, rfl, rfl, rfl⟩
          | ok m =>
            simp only [Exec_ret, Prod.mk.injEq] at h
            obtain ⟨rfl, rfl, rfl⟩ := h
            exact ⟨rfl, hacc.1, hacc.2, hlt, rfl, rfl, rfl⟩
        · simp only [hlt, if_false, Exec_ret, Prod.mk.injEq] at h
          obtain ⟨rfl, rfl, rfl⟩ := h
          exact .inl ⟨raw, _, rfl, rfl, rfl, fun h => hlt h.2.2⟩
      · rename_i hacc
        simp only [Exec_ret, Prod.mk.injEq] at h
        obtain ⟨rfl, rfl, rfl⟩ := h
        exact .inl ⟨raw, _, rfl, rfl, rfl, fun h => hacc ⟨h.1, h.2.1⟩⟩

/-- A packet with a type byte of 6 and a body of at least 16 bytes is opened at the current
position. -/
theorem read_run_packet {s : EncSt} (hs : Std s) (hlt : s.readNonce < 2 ^ 64) (l : Bool) (c m : Bytes)
    (hc : 16 ≤ c.length) :
    Call Enc.read s [⟨.read, .ok (Spec.encrypted l c)⟩,
        ⟨.boxOpen c (Spec.nonce s.readNonce) s.key, .ok m⟩] (.ok m)
      { s with lastFlag := l, readNonce := s.readNonce + 2 } := by
  unfold Call
  have hn : nonceBytes s.readNonce s.sessionNonce = .ok (Spec.nonce s.readNonce) := by
    rw [hs.1, nonceBytes_eq, if_pos hlt]
  rw [Enc_read_run, if_neg (by simp [hs.2])]
  refine .op _ _ _ _ _ ?_
  simp only [openPkt]
  rw [if_neg (by simp [Spec.encrypted]), if_pos (by simp [Spec.encrypted]; omega), hn]
  refine .op _ _ _ _ _ ?_
  simp only [Exec_ret, Prod.mk.injEq, true_and]
  cases l <;> simp [Spec.encrypted]

/-! ### C22: an adversarial network -/

theorem readMsgs_cons (d : Done) (ds : List Done) : readMsgs (d :: ds) = readMsgs [d] ++ readMsgs ds := by
  rcases d with ⟨_ | _⟩ | ⟨_, _, _⟩ <;> simp [readMsgs]

theorem wroteMsgs_cons (d : Done) (ds : List Done) :
    wroteMsgs (d :: ds) = wroteMsgs [d] ++ wroteMsgs ds := by
  rcases d with ⟨_⟩ | ⟨_, _, _ | _⟩ <;> simp [wroteMsgs]

theorem callAll_wp (ops : List AppOp) (s : EncSt) (hs : Std s) :
    wp (callAll encOps ops s) fun tr b => Adv s tr b.2 ∧
      (opens tr).map (·.msg) = readMsgs b.1 ∧
      (WritesOk b.1 → (seals tr).map (·.msg) = wroteMsgs b.1) := by
  induction ops generalizing s with
  | nil => simp [callAll, opens, seals, readMsgs, wroteMsgs]; exact .refl _
  | cons op ops ih =>
    cases op with
    | read =>
      simp only [callAll, wp_bind, encOps]
      refine wp_mono _ (Enc_read_wp s hs.1 hs.2) ?_
      rintro tr ⟨r, s'⟩ ⟨ha, hse, -, hr⟩
      refine wp_mono _ (ih s' (hs.adv ha)) ?_
      rintro tr' ⟨ds, s''⟩ ⟨ha', ho, hw⟩
      simp only [wp_ret, List.append_nil]
      refine ⟨ha.trans ha', ?_, ?_⟩
      · rw [opens_append, List.map_append, ho, readMsgs_cons]
        congr 1
        cases r with
        | error e => have hr : opens tr = [] := hr; simp [readMsgs, hr]
        | ok m => simp only at hr; rw [hr]; rfl
      · intro h
        rw [seals_append, hse, wroteMsgs_cons]
        exact hw fun ms l r hm => h ms l r (List.mem_cons_of_mem _ hm)
    | write ms l =>
      simp only [callAll, wp_bind, encOps]
      refine wp_mono _ (Enc_write_wp l ms s hs.1) ?_
      rintro tr ⟨r, s'⟩ ⟨ha, hop, -, hr⟩
      refine wp_mono _ (ih s' (hs.adv ha)) ?_
      rintro tr' ⟨ds, s''⟩ ⟨ha', ho, hw⟩
      simp only [wp_ret, List.append_nil]
      refine ⟨ha.trans ha', ?_, ?_⟩
      · rw [opens_append, hop, readMsgs_cons]; exact ho
      · intro h
        have hr' : r = .ok () := h ms l r (List.mem_cons_self ..)
        subst hr'
        rw [seals_append, List.map_append, wroteMsgs_cons,
          hw fun ms l r hm => h ms l r (List.mem_cons_of_mem _ hm)]
        rcases hr with hr | hr
        · rw [hr.1]; simp [wroteMsgs]
        · exact absurd rfl hr.1

/-- Decryptions of one side match, position by position, encryptions of the other. -/
theorem opens_prefix {a a' b b' : EncSt} {trA trB : List (Ev env)} (hA : Adv a trA a')
    (hB : Adv b trB b') (hpos : a.readNonce = b.writeNonce)
    (hpar : a.writeNonce % 2 ≠ b.writeNonce % 2)
    (hint : ∀ x ∈ opens trA, x ∈ seals trA ∨ x ∈ seals trB) :
    opens trA <+: seals trB := by
  have key : ∀ (i : Nat) x, (opens trA)[i]? = some x → (seals trB)[i]? = some x := by
    intro i x hx
    have ho := hA.openAt i x hx
    rcases hint x (List.mem_of_getElem? hx) with h | h
    · obtain ⟨j, hj⟩ := List.getElem?_of_mem h
      have hsj := hA.sealAt j x hj
      have := nonce_inj ho.2.1 hsj.2.1 (ho.2.2.symm.trans hsj.2.2)
      omega
    · obtain ⟨j, hj⟩ := List.getElem?_of_mem h
      have hsj := hB.sealAt j x hj
      have := nonce_inj ho.2.1 hsj.2.1 (ho.2.2.symm.trans hsj.2.2)
      have : i = j := by omega
      subst this
      exact hj
  rw [List.prefix_iff_eq_take]
  apply List.ext_getElem?
  intro i
  by_cases hi : i < (opens trA).length
  · rw [List.getElem?_take_of_lt hi, key i _ (List.getElem?_eq_getElem hi), List.getElem?_eq_getElem hi]
  · rw [List.getElem?_eq_none (by omega), List.getElem?_eq_none (by simp; omega)]

/-- C22: a client and a server channel with the same key, any sequence of calls on each side, any
answers of the network (the read events of the traces are arbitrary).  If every ciphertext that was
opened had been produced by one of the two channels with that nonce for that message (ciphertext
integrity), then what each side read is a prefix of what the other side encrypted; and that is what it
wrote, if no write call raised. -/
theorem C22_received_prefix_of_sent (key : Bytes) (c0 s0 c1 s1 : EncSt)
    (hc : Enc.init key .client = .ok c0) (hs : Enc.init key .server = .ok s0)
    (cops sops : List AppOp) (cdone sdone : List Done) (ctr str : List (Ev env))
    (hcx : Exec (callAll encOps cops c0) ctr (cdone, c1))
    (hsx : Exec (callAll encOps sops s0) str (sdone, s1))
    (integrity : ∀ x ∈ opens ctr ++ opens str, x ∈ seals ctr ++ seals str) :
    (readMsgs cdone <+: (seals str).map (·.msg) ∧ readMsgs sdone <+: (seals ctr).map (·.msg)) ∧
    (WritesOk sdone → readMsgs cdone <+: wroteMsgs sdone) ∧
    (WritesOk cdone → readMsgs sdone <+: wroteMsgs cdone) := by
  obtain ⟨-, rfl⟩ := init_ok hc
  obtain ⟨-, rfl⟩ := init_ok hs
  obtain ⟨ha, hr, hw⟩ := callAll_wp cops _ ⟨rfl, rfl⟩ _ _ hcx
  obtain ⟨ha', hr', hw'⟩ := callAll_wp sops _ ⟨rfl, rfl⟩ _ _ hsx
  have h1 := opens_prefix ha ha' rfl (by simp) fun x hx => by
    simpa using integrity x (List.mem_append_left _ hx)
  have h2 := opens_prefix ha' ha rfl (by simp) fun x hx => by
    simpa [or_comm] using integrity x (List.mem_append_right _ hx)
  have h1' := h1.map (·.msg)
  have h2' := h2.map (·.msg)
  rw [hr] at h1'
  rw [hr'] at h2'
  exact ⟨⟨h1', h2'⟩, fun h => hw' h ▸ h1', fun h => hw h ▸ h2'⟩

/-! A run with an active attacker: the client writes two messages; the server is given an injected
packet (rejected), then the first packet of the client, then the same packet again (rejected). -/

/-- A key for the examples. -/
def exKey : Bytes := List.replicate 32 7
/-- A client channel. -/
def exC : EncSt := ⟨exKey, zeros 8, 2, 1, [], false⟩
/-- A server channel. -/
def exS : EncSt := ⟨exKey, zeros 8, 1, 2, [], false⟩
/-- First ciphertext. -/
def exC1 : Bytes := toyTag (Spec.nonce 1) exKey ++ [10]
/-- Second ciphertext. -/
def exC2 : Bytes := toyTag (Spec.nonce 3) exKey ++ [11]
/-- Trace of the client. -/
def exCtr : List (Ev env) :=
  [⟨.box [10] (Spec.nonce 1) exKey, .ok exC1⟩, ⟨.box [11] (Spec.nonce 3) exKey, .ok exC2⟩,
   ⟨.write [Spec.encrypted false exC1, Spec.encrypted false exC2] false, .ok ()⟩]
/-- Trace of the server. -/
def exStr : List (Ev env) :=
  [⟨.read, .ok (6 :: 0 :: zeros 16)⟩,
   ⟨.boxOpen (zeros 16) (Spec.nonce 1) exKey, .error .badEncryptedData⟩,
   ⟨.read, .ok (Spec.encrypted true exC1)⟩, ⟨.boxOpen exC1 (Spec.nonce 1) exKey, .ok [10]⟩,
   ⟨.read, .ok (Spec.encrypted false exC1)⟩,
   ⟨.boxOpen exC1 (Spec.nonce 3) exKey, .error .badEncryptedData⟩]

example :
    Enc.init exKey .client = .ok exC ∧ Enc.init exKey .server = .ok exS ∧
    (∃ c1, Exec (callAll encOps [.write [[10], [11]] false] exC) exCtr
      ([.write [[10], [11]] false (.ok ())], c1)) ∧
    (∃ s1, Exec (callAll encOps [.read, .read, .read] exS) exStr
      ([.read (.error .badPeer), .read (.ok [10]), .read (.error .badPeer)], s1)) ∧
    (∀ x ∈ opens exCtr ++ opens exStr, x ∈ seals exCtr ++ seals exStr) := by
  refine ⟨by decide, by decide, ⟨⟨exKey, zeros 8, 2, 5, [], false⟩, ?_⟩,
    ⟨⟨exKey, zeros 8, 3, 2, [], false⟩, ?_⟩, by decide⟩
  · exact .op _ _ _ _ _ (.op _ _ _ _ _ (.op _ _ _ _ _ (.ret _)))
  · exact .op _ _ _ _ _ (.op _ _ _ _ _ (.op _ _ _ _ _ (.op _ _ _ _ _ (.op _ _ _ _ _
      (.op _ _ _ _ _ (.ret _))))))

/-! ### C23: rejected packets -/

theorem Enc_read_error_keeps {s : EncSt} (hs : Std s) {tr : List (Ev env)} {e : Err} {s' : EncSt}
    (h : Call Enc.read s tr (.error e) s') :
    s'.readNonce = s.readNonce ∧ s'.writeNonce = s.writeNonce ∧ s'.key = s.key ∧ Std s' := by
  obtain ⟨ha, -, hw, ho⟩ := Enc_read_wp s hs.1 hs.2 _ _ h
  have ho : opens tr = [] := ho
  exact ⟨by have := ha.r; rw [ho] at this; simpa using this, hw, ha.key, hs.adv ha⟩

/-- C23: a read that raises changes neither counter nor the key.  After any calls among which no read
succeeded (rejected packets, and writes in between), a packet made for the position the channel had
before them is opened at that position and its message is returned. -/
theorem C23_rejected_packets_harmless :
    (∀ (s s' : EncSt) tr e, Std s → Call Enc.read s tr (.error e) s' →
      s'.readNonce = s.readNonce ∧ s'.writeNonce = s.writeNonce ∧ s'.key = s.key) ∧
    (∀ (s s' : EncSt) ops ds tr, Std s → Exec (callAll encOps ops s) tr (ds, s') → readMsgs ds = [] →
      s'.readNonce = s.readNonce ∧ s'.key = s.key ∧
      ∀ (L : Lib) l c m, BoxLaw L → s.key.length = 32 → s.readNonce < 2 ^ 64 →
        L.box m (Spec.nonce s.readNonce) s.key = .ok c →
        Exec (withLib L (Enc.read s')) [⟨.read, .ok (Spec.encrypted l c)⟩]
          (.ok m, { s' with lastFlag := l, readNonce := s.readNonce + 2 })) := by
  refine ⟨fun s s' tr e hs h => ?_, fun s s' ops ds tr hs hx hno => ?_⟩
  · obtain ⟨h1, h2, h3, -⟩ := Enc_read_error_keeps hs h
    exact ⟨h1, h2, h3⟩
  · obtain ⟨ha, ho, -⟩ := callAll_wp ops s hs _ _ hx
    have ho' : opens tr = [] := by
      have : (opens tr).map (·.msg) = [] := ho.trans hno
      simpa using this
    have hr : s'.readNonce = s.readNonce := by have := ha.r; rw [ho'] at this; simpa using this
    refine ⟨hr, ha.key, fun L l c m hL hk hlt hb => ?_⟩
    have hs' : Std s' := hs.adv ha
    have hkey : s'.key = s.key := ha.key
    obtain ⟨c', hc', hlen⟩ := hL.total m _ _ (nonce_length s.readNonce) hk
    rw [hb, Except.ok.injEq] at hc'
    subst hc'
    have := read_run_packet hs' (by omega) l c m (by omega)
    rw [hr] at this
    refine (Exec_withLib L _ _ _).2 ⟨_, this, ?_, rfl⟩
    rw [hkey]
    intro ev hev
    simp only [List.mem_cons, List.not_mem_nil, or_false] at hev
    rcases hev with rfl | rfl
    · trivial
    · exact ((hL.open_iff _ _ _ _ (nonce_length _) hk).2 hb).symm

/-! The server of the example above, after its two rejected packets around an accepted one. -/
example : ∃ s1, Exec (callAll encOps [.read, .write [[5]] true] exS)
    [⟨.read, .ok (6 :: 0 :: zeros 16)⟩,
     ⟨.boxOpen (zeros 16) (Spec.nonce 1) exKey, .error .badEncryptedData⟩,
     ⟨.box [5] (Spec.nonce 2) exKey, .ok [1, 2, 3]⟩,
     ⟨.write [Spec.encrypted true [1, 2, 3]] true, .ok ()⟩]
    ([.read (.error .badPeer), .write [[5]] true (.ok ())], s1) :=
  ⟨_, .op _ _ _ _ _ (.op _ _ _ _ _ (.op _ _ _ _ _ (.op _ _ _ _ _ (.ret _))))⟩

/-! ### C24: the last flag -/

/-- C24, sending: if `write(m1..mn, is_last=b)` reaches the underlying channel it makes one write with
`n` packets and the same flag; packet `i` consists of the type byte, a byte with the flag as its top bit
(and nothing else), set exactly on packet `n` when `b`, and the encryption of `m_i`.
Receiving: after a successful read, the flag is the top bit of the second byte of the packet that was
read. -/
theorem C24_last_flag :
    (∀ (s s' : EncSt) ms l tr r, s.sessionNonce = zeros 8 → Call (Enc.write ms l) s tr r s' →
      ∀ ps b, (ps, b) ∈ writesOf tr →
        b = l ∧ ps.length = ms.length ∧ (seals tr).map (·.msg) = ms ∧
        ∀ i p, ps[i]? = some p → ∃ x, (seals tr)[i]? = some x ∧
          p = 6 :: (if l = true ∧ i + 1 = ms.length then 128 else 0) :: x.cipher) ∧
    (∀ (s s' : EncSt) tr m, Std s → Call Enc.read s tr (.ok m) s' →
      ∃ t f body, readsOf tr = [t :: f :: body] ∧ (s'.lastFlag = true ↔ 128 ≤ f.toNat)) := by
  refine ⟨fun s s' ms l tr r hs h ps b hmem => ?_, fun s s' tr m hs h => ?_⟩
  · obtain ⟨-, -, -, hh⟩ := Enc_write_wp l ms s hs _ _ h
    rcases hh with ⟨h1, h2⟩ | ⟨-, h2, -⟩
    · rw [h2] at hmem
      simp only [List.mem_cons, List.not_mem_nil, or_false, Prod.mk.injEq] at hmem
      obtain ⟨rfl, rfl⟩ := hmem
      have hlen : (seals tr).length = ms.length := by
        have := congrArg List.length h1; simpa using this
      refine ⟨rfl, by simpa using hlen, h1, fun i p hp => ?_⟩
      rw [List.getElem?_mapIdx, Option.map_eq_some_iff] at hp
      obtain ⟨x, hx, rfl⟩ := hp
      refine ⟨x, hx, ?_⟩
      cases b <;> by_cases hi : i + 1 = ms.length <;> simp [Spec.encrypted, hi]
    · rw [h2] at hmem; simp at hmem
  · rcases read_call hs h with ⟨e, -, h', -⟩ | ⟨raw, e, -, h', -⟩ | ⟨raw, x, rfl, hl, -, -, hf, -⟩
    · simp at h'
    · simp at h'
    · match raw, hl with
      | t :: f :: body, _ =>
        refine ⟨t, f, body, by simp [readsOf], ?_⟩
        rw [hf]; simp

example : ∃ s', Call (Enc.write [[1], [2], [3]] true) exC
    [⟨.box [1] (Spec.nonce 1) exKey, .ok [1, 1]⟩, ⟨.box [2] (Spec.nonce 3) exKey, .ok [2, 2]⟩,
     ⟨.box [3] (Spec.nonce 5) exKey, .ok [3, 3]⟩,
     ⟨.write [[6, 0, 1, 1], [6, 0, 2, 2], [6, 128, 3, 3]] true, .ok ()⟩] (.ok ()) s' :=
  ⟨_, .op _ _ _ _ _ (.op _ _ _ _ _ (.op _ _ _ _ _ (.op _ _ _ _ _ (.ret _))))⟩

/-! ### C25: the last flag is not authentic -/

/-- The packet with its last flag replaced. -/
def setFlag (l : Bool) (raw : Bytes) : Bytes := raw.set 1 (if l then 128 else 0)

/-- C25, the full claim: over a network that can change packets but not forge ciphertexts, a reader
sees the last flag only if the peer has sent a packet carrying it.  Quantified over all pairs of
channels with the same key, all calls, all network answers. -/
def C25_claim : Prop :=
  ∀ (key : Bytes) (c0 s0 c1 s1 : EncSt), Enc.init key .client = .ok c0 → Enc.init key .server = .ok s0 →
    ∀ cops sops cdone sdone ctr str, Exec (callAll encOps cops c0) ctr (cdone, c1) →
      Exec (callAll encOps sops s0) str (sdone, s1) →
      (∀ x ∈ opens ctr ++ opens str, x ∈ seals ctr ++ seals str) →
      s1.lastFlag = true → ∃ ms, AppOp.write ms true ∈ cops

/-- C25 is violated: the client never sets the flag, the server sees it. -/
theorem C25_violated : ¬ C25_claim := by
  intro h
  obtain ⟨ms, hm⟩ := h exKey exC exS _ _ (by decide) (by decide) [.write [[10]] false] [.read] _ _
    [⟨.box [10] (Spec.nonce 1) exKey, .ok exC1⟩, ⟨.write [Spec.encrypted false exC1] false, .ok ()⟩]
    [⟨.read, .ok (Spec.encrypted true exC1)⟩, ⟨.boxOpen exC1 (Spec.nonce 1) exKey, .ok [10]⟩]
    (.op _ _ _ _ _ (.op _ _ _ _ _ (.ret _))) (.op _ _ _ _ _ (.op _ _ _ _ _ (.ret _)))
    (by decide) rfl
  simp at hm

/-- The attack works on every packet: if a packet is accepted, so are its versions with the flag set
and cleared, with the same message, and the flag the reader sees is the attacker's choice. -/
theorem C25_flag_malleable (s s' : EncSt) (hs : Std s) (raw m : Bytes) (tr : List (Ev env)) (l : Bool)
    (h : Call Enc.read s (⟨.read, .ok raw⟩ :: tr) (.ok m) s') :
    Call Enc.read s (⟨.read, .ok (setFlag l raw)⟩ :: tr) (.ok m) { s' with lastFlag := l } := by
  rcases read_call hs h with ⟨e, h', -⟩ | ⟨raw, e, -, h', -⟩ | ⟨raw', x, htr, hl, hh, hlt, hf, hx⟩
  · simp at h'
  · simp at h'
  · simp only [List.cons.injEq] at htr
    obtain ⟨h0, rfl⟩ := htr
    simp only [Ev.mk.injEq, heq_eq_eq, Except.ok.injEq, true_and] at h0
    subst h0
    have hadv := (Enc_read_wp s hs.1 hs.2 _ _ h).1
    cases x with
    | error e => simp at hx
    | ok m' =>
      obtain ⟨h1, h2⟩ := hx
      simp only [Except.ok.injEq] at h1
      subst h1
      match raw, hl, hh with
      | t :: f :: body, hl, hh =>
        simp only [List.head?_cons, Option.some.injEq] at hh
        subst hh
        have hp := read_run_packet hs hlt l body m (by simpa using hl)
        have he : setFlag l (6 :: f :: body) = Spec.encrypted l body := by
          cases l <;> simp [setFlag, Spec.encrypted]
        rw [he]
        have hst : ({ s' with lastFlag := l } : EncSt) =
            { s with lastFlag := l, readNonce := s.readNonce + 2 } := by
          have hw : s'.writeNonce = s.writeNonce := by simpa [seals] using hadv.w
          have := hadv.key; have := hadv.sn; have := hadv.pb
          cases s; cases s'; simp_all
        rw [hst]
        exact hp

/-- C25, what holds: a network that delivers a packet unmodified delivers the flag; a successful read of
a packet `encrypted l c` leaves `lastFlag = l`. -/
theorem C25_last_flag_honest_partial (s s' : EncSt) (hs : Std s) (l : Bool) (c m : Bytes)
    (tr : List (Ev env))
    (h : Call Enc.read s (⟨.read, .ok (Spec.encrypted l c)⟩ :: tr) (.ok m) s') : s'.lastFlag = l := by
  rcases read_call hs h with ⟨e, h', -⟩ | ⟨raw, e, -, h', -⟩ | ⟨raw', x, htr, -, -, -, hf, -⟩
  · simp at h'
  · simp at h'
  · simp only [List.cons.injEq, Ev.mk.injEq, heq_eq_eq, Except.ok.injEq, true_and] at htr
    obtain ⟨rfl, -⟩ := htr
    rw [hf]
    cases l <;> simp [Spec.encrypted]

/-! ### C26: what a successful read implies -/

/-- C26: a successful read took exactly one packet from the network, of type 6 with a body of at least
16 bytes, and the library opened exactly this body under the channel's key and the nonce of the current
position, giving the returned message; the position then advances by one step.  With a library obeying
the box laws the body is the encryption of that message for that key and position, and the packet is 18
bytes longer than the message. -/
theorem C26_read_binding (s s' : EncSt) (hs : Std s) (tr : List (Ev env)) (m : Bytes)
    (h : Call Enc.read s tr (.ok m) s') :
    ∃ f body, tr = [⟨.read, .ok (6 :: f :: body)⟩,
        ⟨.boxOpen body (Spec.nonce s.readNonce) s.key, .ok m⟩] ∧ 16 ≤ body.length ∧
      s'.readNonce = s.readNonce + 2 ∧
      ∀ L, BoxLaw L → s.key.length = 32 →
        L.boxOpen body (Spec.nonce s.readNonce) s.key = .ok m →
        L.box m (Spec.nonce s.readNonce) s.key = .ok body ∧
        (6 :: f :: body).length = m.length + 18 := by
  rcases read_call hs h with ⟨e, -, h', -⟩ | ⟨raw, e, -, h', -⟩ | ⟨raw, x, rfl, hl, hh, hlt, hf, hx⟩
  · simp at h'
  · simp at h'
  · cases x with
    | error e => simp at hx
    | ok m' =>
      obtain ⟨h1, h2⟩ := hx
      simp only [Except.ok.injEq] at h1
      subst h1
      match raw, hl, hh with
      | t :: f :: body, hl, hh =>
        simp only [List.head?_cons, Option.some.injEq] at hh
        subst hh
        refine ⟨f, body, rfl, by simpa using hl, h2, fun L hL hk ho => ?_⟩
        have hb := (hL.open_iff _ _ _ _ (nonce_length _) hk).1 ho
        obtain ⟨c, hc, hlen⟩ := hL.total m _ _ (nonce_length s.readNonce) hk
        rw [hb, Except.ok.injEq] at hc
        subst hc
        exact ⟨hb, by simp [hlen]⟩

example : Call Enc.read exS [⟨.read, .ok (6 :: 0 :: exC1)⟩,
    ⟨.boxOpen exC1 (Spec.nonce 1) exKey, .ok [10]⟩] (.ok [10]) ⟨exKey, zeros 8, 3, 2, [], false⟩ :=
  .op _ _ _ _ _ (.op _ _ _ _ _ (.ret _))

end Salt.Props
