import Verif.Props.Nacl1
import Verif.Props.Session3

/-!
# C90: public keys of small order in a handshake

With libsodium, whose `crypto_box_beforenm` may or may not check the shared secret (the two values of `b` in `naclSodium c b`).
-/

set_option linter.unusedSimpArgs false

namespace Salt.Props

open Salt Salt.Spec

/-- The key that everybody can compute: HSalsa20 of zeros. -/
def zeroKey : Bytes := hsalsa20 (zeros 32) (zeros 16)

/-- The native backend with the standard algorithms. -/
noncomputable def naclLib (c : Nat) (b : Bool) : Lib := (nativeApi (naclSodium c b)).toLib

theorem nacl_beforenm_zero (c : Nat) (b : Bool) (pk sk u : Bytes) (h : x25519 sk pk = u) (hu : u = zeros 32) :
    (naclSodium c b).boxBeforenm pk sk = if b then (-1, []) else (0, hsalsa20 u (zeros 16)) := by
  subst h
  simp only [naclSodium]
  cases b with
  | true => rw [if_pos ⟨rfl, hu⟩, if_pos rfl]
  | false => rw [if_neg (fun h => Bool.noConfusion h.1), if_neg (fun h => Bool.noConfusion h)]

theorem native_beforenm_ok (S : Sodium) (pk sk k : Bytes) (hk : k.length = 32) (h : S.boxBeforenm pk sk = (0, k)) :
    Native.boxBeforenm S pk sk = .ok k := by
  unfold Native.boxBeforenm
  simp only [h]
  show Except.ok (bufferRaw 32 k) = Except.ok k
  rw [bufferRaw_eq _ _ hk]

theorem native_beforenm_fail (S : Sodium) (pk sk k : Bytes) (h : S.boxBeforenm pk sk = (-1, k)) :
    Native.boxBeforenm S pk sk = .error .valueError := by
  unfold Native.boxBeforenm
  simp only [h]
  rfl

theorem beforenm_small (c : Nat) (b : Bool) (pk sk : Bytes) (hs : sk.length = 32) (h : decodeU pk ∈ smallOrderU) :
    (naclLib c b).beforenm pk sk = if b then .error .valueError else .ok zeroKey := by
  have e : x25519 sk pk = zeros 32 := (C88_zero_iff sk pk hs).mpr h
  have hz : zeroKey.length = 32 := hsalsa20_length _ (zeros_length 32)
  have hn := nacl_beforenm_zero c b pk sk (zeros 32) e rfl
  show Native.boxBeforenm (naclSodium c b) pk sk = _
  cases b with
  | true => exact native_beforenm_fail _ _ _ _ hn
  | false => exact native_beforenm_ok _ _ _ _ hz hn

theorem naclLib_hash (c : Nat) (b : Bool) (m : Bytes) : (naclLib c b).hash m = .ok (Spec.sha512 m) := by
  have h : (naclSodium c b).sha512 m m.length = (0, Spec.sha512 m) := by
    simp only [naclSodium]
    rw [List.take_length]
  show Native.hash (naclSodium c b) m = _
  unfold Native.hash
  simp only [h]
  show Except.ok (bufferRaw 64 _) = _
  rw [bufferRaw_eq _ _ (Tweet.sha512_length m)]

theorem naclLib_sign (c : Nat) (b : Bool) (seed m : Bytes) (hs : seed.length = 32) :
    (naclLib c b).sign m (seed ++ edPublic seed) = .ok (edSign seed (edPublic seed) m ++ m) := by
  have h : (naclSodium c b).sign m m.length (seed ++ edPublic seed) = (0, edSign seed (edPublic seed) m ++ m) := by
    simp only [naclSodium]
    rw [List.take_length, List.take_left' hs, List.drop_left' hs]
  have hl := C84_length seed (edPublic seed) m
  show Native.sign (naclSodium c b) m _ = _
  unfold Native.sign
  simp only [h]
  show Except.ok (bufferRaw _ _) = _
  rw [bufferRaw_eq _ _ (by rw [List.length_append, hl]; omega)]

theorem naclLib_box (c : Nat) (b : Bool) (m n k : Bytes) (hn : n.length = 24) (hk : k.length = 32) :
    (naclLib c b).box m n k = .ok (Spec.secretbox k n m) := by
  have h : (naclSodium c b).boxAfternm (zeros 32 ++ m) (zeros 32 ++ m).length n k = (0, zeros 16 ++ Spec.secretbox k n m) := by
    simp only [naclSodium]
    rw [if_neg (by rw [List.length_append, zeros_length]; omega), List.take_length, List.drop_left' (zeros_length 32)]
  have hl := secretbox_length' hk hn m
  show Native.boxAfternm (naclSodium c b) m n k = _
  unfold Native.boxAfternm
  simp only [h]
  show Except.ok ((bufferRaw _ _).drop 16) = _
  rw [bufferRaw_eq _ _ (by rw [List.length_append, List.length_append, hl, zeros_length, zeros_length]; omega), List.drop_left' (zeros_length 16)]

/-- Where a run stops if a certain answer of the script was not given. -/
theorem Cut.before {S : Sig} {A B tr : List (Ev S)} {ev : Ev S} (h : Cut (A ++ ev :: B) tr) (hn : ev ∉ tr) :
    ∀ x ∈ tr, (∃ y ∈ A, y.op = x.op) ∨ x.op = ev.op := by
  induction A generalizing tr with
  | nil =>
    rcases h.cons_inv with rfl | ⟨e, rfl⟩ | ⟨tr', rfl, -⟩
    · simp
    · intro x hx
      rw [List.mem_singleton] at hx
      subst hx
      exact .inr rfl
    · exact absurd List.mem_cons_self hn
  | cons a A ih =>
    rcases Cut.cons_inv h with rfl | ⟨e, rfl⟩ | ⟨tr', rfl, h'⟩
    · simp
    · intro x hx
      rw [List.mem_singleton] at hx
      subst hx
      exact .inl ⟨a, List.mem_cons_self, rfl⟩
    · intro x hx
      rcases List.mem_cons.1 hx with rfl | hx
      · exact .inl ⟨_, List.mem_cons_self, rfl⟩
      · rcases ih h' (fun hm => hn (List.mem_cons_of_mem _ hm)) x hx with ⟨y, hy, e⟩ | e
        · exact .inl ⟨y, List.mem_cons_of_mem _ hy, e⟩
        · exact .inr e

/-- Nothing was signed, encrypted or decrypted in the run, and no encrypted packet was written. -/
structure NothingUsed (tr : List (Ev env)) : Prop where
  sign : ∀ ev ∈ tr, ∀ m sk, ev.op ≠ .sign m sk
  box : ∀ ev ∈ tr, ∀ m n k, ev.op ≠ .box m n k
  boxOpen : ∀ ev ∈ tr, ∀ c n k, ev.op ≠ .boxOpen c n k
  clear : ∀ w ∈ writesOf tr, ∀ m ∈ w.1, m.head? ≠ some 6

theorem writesOf_mem {tr : List (Ev env)} {w : List Bytes × Bool} (h : w ∈ writesOf tr) : ∃ ev ∈ tr, ev.op = .write w.1 w.2 := by
  induction tr with
  | nil => simp [writesOf] at h
  | cons ev tr ih =>
    obtain ⟨op, r⟩ := ev
    cases op
    case write ms l =>
      simp only [writesOf, List.mem_cons] at h
      rcases h with rfl | h
      · exact ⟨_, List.mem_cons_self, rfl⟩
      · obtain ⟨ev, h1, h2⟩ := ih h
        exact ⟨ev, List.mem_cons_of_mem _ h1, h2⟩
    all_goals
      simp only [writesOf] at h
      obtain ⟨ev, h1, h2⟩ := ih h
      exact ⟨ev, List.mem_cons_of_mem _ h1, h2⟩

/-- The operations that `NothingUsed` allows. -/
def Plain : EnvOp → Prop
  | .sign _ _ | .box _ _ _ | .boxOpen _ _ _ => False
  | .write ms _ => ∀ m ∈ ms, m.head? ≠ some 6
  | _ => True

theorem nothingUsed_of {tr : List (Ev env)} (h : ∀ ev ∈ tr, Plain ev.op) : NothingUsed tr where
  sign ev he m sk e := by have := h ev he; rw [e] at this; exact this
  box ev he m n k e := by have := h ev he; rw [e] at this; exact this
  boxOpen ev he m n k e := by have := h ev he; rw [e] at this; exact this
  clear w hw m hm := by
    obtain ⟨ev, he, e⟩ := writesOf_mem hw
    have := h ev he
    rw [e] at this
    exact this m hm

theorem plain_of_before {A B tr : List (Ev env)} {pk sk k : Bytes} (h : Cut (A ++ ⟨.beforenm pk sk, .ok k⟩ :: B) tr)
    (hn : (⟨.beforenm pk sk, .ok k⟩ : Ev env) ∉ tr) (hA : ∀ ev ∈ A, Plain ev.op) : NothingUsed tr := by
  refine nothingUsed_of fun ev he => ?_
  rcases Cut.before h hn ev he with ⟨y, hy, e⟩ | e
  · rw [← e]
    exact hA y hy
  · rw [e]
    trivial

/-- C90, server, with a checking library: if the encryption key in the first message (zeros where the message is too short)
is of small order, the handshake raises, and nothing is signed, encrypted or decrypted. -/
theorem C90_server_partial (c : Nat) {cfg : ServerCfg} {kp : KeyPair} (hkp : cfg.encKp = some kp) (hs : kp.sec.length = 32) {s s' : ServerSt}
    {raw : Bytes} {tr : List (Ev env)} {r : Except Err Unit} (hm : LikeM1 raw) (hsmall : decodeU (field raw 10 32) ∈ smallOrderU)
    (hL : ∀ ev ∈ tr, AnsweredBy (naclLib c true) ev)
    (h : Call (Server.handshake cfg) s (⟨.read, .ok raw⟩ :: tr) r s') :
    (∃ e, r = .error e) ∧ NothingUsed tr := by
  have hb : ∀ k, (⟨.beforenm (field raw 10 32) kp.sec, .ok k⟩ : Ev env) ∉ tr := by
    intro k hk
    have := hL _ hk
    simp only [AnsweredBy] at this
    rw [beforenm_small c true _ _ hs hsmall] at this
    simp at this
  obtain ⟨m, hm1⟩ := ctor_of_likeM1 hm
  have used : NothingUsed (⟨.read, .ok raw⟩ :: tr) := by
    generalize hg : (⟨.read, .ok raw⟩ :: tr : List (Ev env)) = full at h
    cases server_cut hkp h with
    | shake p hc _ hx =>
      rcases hx with ⟨e, hx, -⟩ | ⟨m, tr', -, hx, -⟩
      · rw [← hg] at hx
        simp at hx
      rw [← hg] at hx
      have hraw : raw = p.raw1 := by
        have := (List.cons.inj hx).1
        simpa using this
      have hnot : (⟨.beforenm (field p.raw1 10 32) kp.sec, .ok p.k⟩ : Ev env) ∉ full := by
        rw [← hg, ← hraw]
        simp only [List.mem_cons, not_or]
        exact ⟨by simp, hb _⟩
      cases hB : cfg.bufferM2 with
      | true =>
        refine plain_of_before (A := serverHead p ++ [⟨.firstTime, .ok p.t0⟩]) (by
          simpa [serverFull, hB, serverBuffered] using hc) hnot ?_
        simp [serverHead, Plain]
      | false =>
        refine plain_of_before (A := serverHead p ++ [⟨.firstTime, .ok p.t2⟩, ⟨.write [Spec.m2 false false p.t2 kp.pub] false, .ok ()⟩,
          ⟨.hash (Spec.m2 false false p.t2 kp.pub), .ok p.h2⟩]) (by simpa [serverFull, hB, serverPlain] using hc) hnot ?_
        simp [serverHead, Plain, Spec.m2]
    | refuse p e m hm hf hk hc _ _ =>
      refine nothingUsed_of fun ev he => ?_
      obtain ⟨y, hy, e⟩ := hc.mem_op he
      rw [← e]
      revert y
      simp [serverRefuse, serverHead, Plain, Spec.m2]
    | bad raw' e x hm' _ _ =>
      have := (List.cons.inj hg).1
      simp only [Ev.mk.injEq, heq_eq_eq, Except.ok.injEq, true_and] at this
      rw [this, hm'] at hm1
      cases hm1
    | a1 raw' x a hm' _ _ _ =>
      have := (List.cons.inj hg).1
      simp only [Ev.mk.injEq, heq_eq_eq, Except.ok.injEq, true_and] at this
      rw [this, hm'] at hm1
      cases hm1
  constructor
  · cases r with
    | error e => exact ⟨e, rfl⟩
    | ok u =>
      rcases (server_ok h).ex with ⟨raw', e, a1, hm', -, hx, -⟩ | ⟨kp', raw1, m1, h1, m2, h2, k, mid, p4, m4, m4p, x, hkp', -, -, -, -, -, -, hmid, -, -, -, hx, -⟩
      · have := (List.cons.inj hx).1
        simp only [Ev.mk.injEq, heq_eq_eq, Except.ok.injEq, true_and] at this
        rw [this, hm'] at hm1
        cases hm1
      · exact absurd rfl (used.boxOpen ⟨.boxOpen (p4.drop 2) (Spec.nonce 1) k, .ok m4⟩ (by rw [hx]; simp) _ _ _)
  · exact ⟨fun ev he => used.sign ev (List.mem_cons_of_mem _ he), fun ev he => used.box ev (List.mem_cons_of_mem _ he),
      fun ev he => used.boxOpen ev (List.mem_cons_of_mem _ he), used.clear⟩

/-- C90, client, with a checking library: likewise for the key in the first message it reads. -/
theorem C90_client_partial (c : Nat) {cfg : ClientCfg} {kp : KeyPair} (hkp : cfg.encKp = some kp) (hs : kp.sec.length = 32) {s s' : ClientSt}
    {raw : Bytes} {tr : List (Ev env)} {r : Except Err Unit} (hraw : (readsOf tr).head? = some raw) (hsmall : decodeU (field raw 6 32) ∈ smallOrderU)
    (hL : ∀ ev ∈ tr, AnsweredBy (naclLib c true) ev)
    (h : Call (Client.handshake cfg) s tr r s') :
    (∃ e, r = .error e) ∧ NothingUsed tr := by
  have hb : ∀ k, (⟨.beforenm (field raw 6 32) kp.sec, .ok k⟩ : Ev env) ∉ tr := by
    intro k hk
    have := hL _ hk
    simp only [AnsweredBy] at this
    rw [beforenm_small c true _ _ hs hsmall] at this
    simp at this
  obtain ⟨p, hc⟩ := client_cut hkp h
  have hp : (⟨.beforenm (field p.raw2 6 32) kp.sec, .ok p.k⟩ : Ev env) ∉ tr := by
    intro hmem
    have e : (readsOf tr).head? = some p.raw2 := by
      clear hraw hsmall hL h hb
      simp only [clientPre, clientPost, List.cons_append, List.nil_append] at hc
      rcases hc.cons_inv with rfl | ⟨e, rfl⟩ | ⟨tr0, rfl, hc0⟩ <;> try (simp at hmem; done)
      rcases hc0.cons_inv with rfl | ⟨e, rfl⟩ | ⟨tr1, rfl, hc1⟩ <;> try (simp at hmem; done)
      rcases hc1.cons_inv with rfl | ⟨e, rfl⟩ | ⟨tr2, rfl, hc2⟩ <;> try (simp at hmem; done)
      rcases hc2.cons_inv with rfl | ⟨e, rfl⟩ | ⟨tr3, rfl, hc3⟩ <;> try (simp at hmem; done)
      simp [readsOf]
    rw [hraw] at e
    exact hb p.k (by rw [Option.some.inj e]; exact hmem)
  have used : NothingUsed tr := by
    refine plain_of_before (A := [⟨.firstTime, .ok p.t1⟩, ⟨.hash (Spec.m1 p.t1 kp.pub none), .ok p.h1⟩,
      ⟨.write [Spec.m1 p.t1 kp.pub none] false, .ok ()⟩,
      ⟨.read, .ok p.raw2⟩, ⟨.report (leNat (field p.raw2 2 4)), .ok ()⟩, ⟨.hash p.raw2, .ok p.h2⟩]) (by simpa [clientPre] using hc) hp ?_
    simp [Plain, Spec.m1, ascii]
  refine ⟨?_, used⟩
  cases r with
  | error e => exact ⟨e, rfl⟩
  | ok u =>
    obtain ⟨kp', t1, h1, raw2, m2, h2, k, p3, m3, m3p, x, t4, sm, tail, hkp', -, -, -, -, -, -, -, -, -, -, -, hx, -⟩ := (client_ok h).ex
    exact absurd rfl (used.boxOpen ⟨.boxOpen (p3.drop 2) (Spec.nonce 2) k, .ok m3⟩ (by rw [hx]; simp) _ _ _)

/-! ### Without the check -/

/-- C90, with a library that does not check: in a completed handshake with such a key, the session key is the same for all
secret keys. -/
theorem C90_constant_server (c : Nat) {cfg : ServerCfg} {kp : KeyPair} (hkp : cfg.encKp = some kp) {s s' : ServerSt}
    {raw : Bytes} {tr : List (Ev env)} (hm : LikeM1 raw) (hsmall : decodeU (field raw 10 32) ∈ smallOrderU)
    (hL : ∀ ev ∈ tr, AnsweredBy (naclLib c false) ev)
    (h : Call (Server.handshake cfg) s (⟨.read, .ok raw⟩ :: tr) (.ok ()) s') : s'.sessionKey = zeroKey := by
  obtain ⟨m, hm1⟩ := ctor_of_likeM1 hm
  rcases (server_ok h).ex with ⟨raw', e, a1, hm', -, hx, -⟩ | ⟨kp', raw1, m1, h1, m2, h2, k, mid, p4, m4, m4p, x, hkp', -, hs, -, -, -, -, hmid, -, -, -, hx, rfl⟩
  · have := (List.cons.inj hx).1
    simp only [Ev.mk.injEq, heq_eq_eq, Except.ok.injEq, true_and] at this
    rw [this, hm'] at hm1
    cases hm1
  · rw [hkp, Option.some.injEq] at hkp'
    subst hkp'
    simp only [List.cons_append, List.nil_append] at hx
    obtain ⟨hr, hx⟩ := List.cons.inj hx
    simp only [Ev.mk.injEq, heq_eq_eq, Except.ok.injEq, true_and] at hr
    have hmem : (⟨.beforenm (field raw 10 32) kp.sec, .ok k⟩ : Ev env) ∈ tr := by
      rw [hx, hr]
      cases hmid <;> simp
    have := hL _ hmem
    simp only [AnsweredBy] at this
    rw [beforenm_small c false _ _ hs hsmall] at this
    exact Except.ok.inj this

/-- C90, client without the check. -/
theorem C90_constant_client (c : Nat) {cfg : ClientCfg} {s s' : ClientSt}
    {raw : Bytes} {tr : List (Ev env)} (hraw : (readsOf tr).head? = some raw) (hsmall : decodeU (field raw 6 32) ∈ smallOrderU)
    (hL : ∀ ev ∈ tr, AnsweredBy (naclLib c false) ev)
    (h : Call (Client.handshake cfg) s tr (.ok ()) s') : s'.sessionKey = zeroKey := by
  obtain ⟨kp', t1, h1, raw2, m2, h2, k, p3, m3, m3p, x, t4, sm, tail, hkp', -, hs, -, -, -, -, -, -, -, -, -, hx, hk, -⟩ := (client_ok h).ex
  have e : raw2 = raw := by
    rw [hx] at hraw
    simpa [readsOf] using hraw
  subst e
  have := hL ⟨.beforenm (field raw2 6 32) kp'.sec, .ok k⟩ (by rw [hx]; simp)
  simp only [AnsweredBy] at this
  rw [beforenm_small c false _ _ hs hsmall] at this
  rw [hk]
  exact Except.ok.inj this

theorem m4_fields' (t : Nat) (pk sig : Bytes) (hp : pk.length = 32) (hs : sig.length = 64) :
    field (Spec.m4 t pk sig) 6 32 = pk ∧ field (Spec.m4 t pk sig) 38 64 = sig := by
  constructor
  · have := field_at (a := [4, 0] ++ le32 t) (b := pk) (c := sig) (off := 6) rfl hp
    simpa [Spec.m4] using this
  · have := field_at (a := [4, 0] ++ le32 t ++ pk) (b := sig) (c := []) (off := 38) (by simp [hp]) hs
    simp only [Spec.m4]
    rw [List.append_nil] at this
    exact this

/-- With any library that follows the laws, a server completes a handshake with whatever key `crypto_box_beforenm` gave,
if the peer encrypts an M4 with that key. -/
theorem server_completes {L : Lib} (hbox : BoxLaw L) (hhash : HashLaw L) {cfg : ServerCfg} {kp sc : KeyPair} (hkp : cfg.encKp = some kp)
    (hp : kp.pub.length = 32) (hs : kp.sec.length = 32) (hg : SigLaw L cfg.sigKp) (hc : SigLaw L sc) (s : ServerSt) {raw k : Bytes}
    (hm : LikeM1 raw) (hn : namedServer raw = none ∨ namedServer raw = some cfg.sigKp.pub)
    (hk : k.length = 32) (hb : L.beforenm (field raw 10 32) kp.sec = .ok k) (t0 t2 t3 t4 : Nat) :
    ∃ tr s' h1 h2 sig c4, Call (Server.handshake cfg) s (⟨.read, .ok raw⟩ :: tr) (.ok ()) s' ∧ (∀ ev ∈ tr, AnsweredBy L ev) ∧
      readsOf tr = [Spec.encrypted false c4] ∧ L.hash raw = .ok h1 ∧ L.hash (Spec.m2 false false t2 kp.pub) = .ok h2 ∧
      L.sign (scSig02 ++ h1 ++ h2) sc.sec = .ok (sig ++ (scSig02 ++ h1 ++ h2)) ∧
      L.box (Spec.m4 t4 sc.pub sig) (Spec.nonce 1) k = .ok c4 ∧ s'.sessionKey = k ∧ s'.clientSigKey = some sc.pub := by
  obtain ⟨h1, e1⟩ := hhash raw
  obtain ⟨h2, e2⟩ := hhash (Spec.m2 false false t2 kp.pub)
  obtain ⟨sg, es1, es2, es3⟩ := hg.works (scSig01 ++ h1 ++ h2)
  obtain ⟨sig, ec1, ec2, ec3⟩ := hc.works (scSig02 ++ h1 ++ h2)
  let tm := if cfg.bufferM2 then t2 else t3
  obtain ⟨c3, eb3, el3⟩ := hbox.total (Spec.m3 tm cfg.sigKp.pub ((sg ++ (scSig01 ++ h1 ++ h2)).take 64)) (Spec.nonce 2) k (nonce_length 2) hk
  obtain ⟨c4, eb4, el4⟩ := hbox.total (Spec.m4 t4 sc.pub sig) (Spec.nonce 1) k (nonce_length 1) hk
  have eo4 := (hbox.open_iff _ _ _ _ (nonce_length 1) hk).2 eb4
  obtain ⟨f1, f2⟩ := m4_fields' t4 sc.pub sig hc.pub ec1
  have hz : ¬ (leNat (field raw 5 1) % 2 = 1 ∧ field raw 42 32 ≠ cfg.sigKp.pub) := by
    rintro ⟨ha, hb⟩
    unfold namedServer at hn
    rw [if_pos ha] at hn
    rcases hn with hn | hn
    · cases hn
    · exact hb (Option.some.inj hn)
  let p : SP := ⟨raw, h1, t0, t2, t3, h2, k, sg ++ (scSig01 ++ h1 ++ h2), c3, Spec.encrypted false c4, Spec.m4 t4 sc.pub sig, scSig02 ++ h1 ++ h2⟩
  have g : SGood cfg kp p :=
    { enc := hkp
      pub := hp
      sec := hs
      sig := hg.pub
      m1 := (likeM1_iff raw).1 hm
      key := hz
      k := hk
      p4 := by show 18 ≤ (Spec.encrypted false c4).length; simp [Spec.encrypted]; omega
      p4h := rfl
      m4 := .inr rfl
      sm := by show 64 ≤ (sg ++ _).length; rw [List.length_append, es1]; omega }
  obtain ⟨s', hcall, hd⟩ := server_runs' g s
  have hso : L.signOpen (field (Spec.m4 t4 sc.pub sig) 38 64 ++ scSig02 ++ h1 ++ h2) (field (Spec.m4 t4 sc.pub sig) 6 32) = .ok (scSig02 ++ h1 ++ h2) := by
    rw [f1, f2]
    simpa only [List.append_assoc] using ec3
  have hdrop : (Spec.encrypted false c4).drop 2 = c4 := rfl
  have hpeer := hd.peer
  rw [show field p.m4 6 32 = sc.pub from f1] at hpeer
  cases hB : cfg.bufferM2 with
  | true =>
    have e3 : tm = t2 := by simp only [tm, hB, if_true]
    rw [e3] at eb3
    simp only [serverFull, serverHead, serverBuffered, serverTail, hB, if_true, List.cons_append, List.nil_append] at hcall
    refine ⟨_, s', h1, h2, sig, c4, hcall, ?_, by simp [readsOf, p], e1, e2, ec2, eb4, hd.key, hpeer⟩
    intro ev hev
    simp only [List.mem_cons, List.not_mem_nil, or_false] at hev
    rcases hev with rfl | rfl | rfl | rfl | rfl | rfl | rfl | rfl | rfl | rfl | rfl | rfl | rfl
    · trivial
    · exact e1.symm
    · trivial
    · exact hb.symm
    · trivial
    · exact e2.symm
    · exact es2.symm
    · exact eb3.symm
    · trivial
    · trivial
    · show _ = L.boxOpen ((Spec.encrypted false c4).drop 2) _ _
      rw [hdrop]; exact eo4.symm
    · trivial
    · exact hso.symm
  | false =>
    have e3 : tm = t3 := by simp only [tm, hB, Bool.false_eq_true, if_false]
    rw [e3] at eb3
    simp only [serverFull, serverHead, serverPlain, serverTail, hB, Bool.false_eq_true, if_false, List.cons_append, List.nil_append] at hcall
    refine ⟨_, s', h1, h2, sig, c4, hcall, ?_, by simp [readsOf, p], e1, e2, ec2, eb4, hd.key, hpeer⟩
    intro ev hev
    simp only [List.mem_cons, List.not_mem_nil, or_false] at hev
    rcases hev with rfl | rfl | rfl | rfl | rfl | rfl | rfl | rfl | rfl | rfl | rfl | rfl | rfl | rfl
    · trivial
    · exact e1.symm
    · trivial
    · trivial
    · exact e2.symm
    · exact hb.symm
    · trivial
    · exact es2.symm
    · exact eb3.symm
    · trivial
    · trivial
    · show _ = L.boxOpen ((Spec.encrypted false c4).drop 2) _ _
      rw [hdrop]; exact eo4.symm
    · trivial
    · exact hso.symm

/-- C90 fails without the check, for every server and every such first message: whoever has a signing key pair of their
own completes the handshake with an M4 encrypted with the constant key; the session key is the constant one. -/
theorem C90_completed (c : Nat) {cfg : ServerCfg} {kp : KeyPair} (hkp : cfg.encKp = some kp) (hp : kp.pub.length = 32) (hs : kp.sec.length = 32)
    (seed mine : Bytes) (hseed : seed.length = 32) (hmine : mine.length = 32) (hg : cfg.sigKp = ⟨seed ++ edPublic seed, edPublic seed⟩)
    (s : ServerSt) {raw : Bytes} (hm : LikeM1 raw) (hn : namedServer raw = none ∨ namedServer raw = some cfg.sigKp.pub)
    (hsmall : decodeU (field raw 10 32) ∈ smallOrderU) (t0 t2 t3 t4 : Nat) :
    ∃ tr s' sig c4, Call (Server.handshake cfg) s (⟨.read, .ok raw⟩ :: tr) (.ok ()) s' ∧ (∀ ev ∈ tr, AnsweredBy (naclLib c false) ev) ∧
      readsOf tr = [Spec.encrypted false c4] ∧
      sig = edSign mine (edPublic mine) (scSig02 ++ Spec.sha512 raw ++ Spec.sha512 (Spec.m2 false false t2 kp.pub)) ∧
      c4 = Spec.secretbox zeroKey (Spec.nonce 1) (Spec.m4 t4 (edPublic mine) sig) ∧ s'.sessionKey = zeroKey := by
  have hb := beforenm_small c false (field raw 10 32) kp.sec hs hsmall
  rw [if_neg (fun h => Bool.noConfusion h)] at hb
  have hz : zeroKey.length = 32 := hsalsa20_length _ (zeros_length 32)
  have L1 : BoxLaw (naclLib c false) := C52_native_box _ (C89_box c false)
  have L2 : HashLaw (naclLib c false) := C52_native_hash _ (C89_hash c false)
  have L3 : SigLaw (naclLib c false) cfg.sigKp := by rw [hg]; exact C52_native_sign _ _ (C89_sign c false seed hseed)
  have L4 : SigLaw (naclLib c false) ⟨mine ++ edPublic mine, edPublic mine⟩ := C52_native_sign _ _ (C89_sign c false mine hmine)
  obtain ⟨tr, s', h1, h2, sig, c4, r1, r2, r3, r4, r5, r6, r7, r8, -⟩ := server_completes L1 L2 hkp hp hs L3 L4 s hm hn hz hb t0 t2 t3 t4
  refine ⟨tr, s', sig, c4, r1, r2, r3, ?_, ?_, r8⟩
  · rw [naclLib_hash] at r4 r5
    have r4 := Except.ok.inj r4
    have r5 := Except.ok.inj r5
    subst r4 r5
    rw [naclLib_sign c false mine _ hmine] at r6
    exact (List.append_cancel_right (Except.ok.inj r6)).symm
  · rw [naclLib_box c false _ _ _ (nonce_length 1) hz] at r7
    exact (Except.ok.inj r7).symm

/-- C90 as one would want it: a server that is sent a public key of small order does not complete the handshake. -/
def C90_claim : Prop := ∀ (c : Nat) (b : Bool) (cfg : ServerCfg) (kp : KeyPair) (s s' : ServerSt) (raw : Bytes) (tr : List (Ev env)) (r : Except Err Unit),
    cfg.encKp = some kp → kp.sec.length = 32 → LikeM1 raw → decodeU (field raw 10 32) ∈ smallOrderU →
    (∀ ev ∈ tr, AnsweredBy (naclLib c b) ev) → Call (Server.handshake cfg) s (⟨.read, .ok raw⟩ :: tr) r s' → ∃ e, r = .error e

/-- A server with keys made from secrets that repeat one byte. -/
noncomputable def naclServer : ServerCfg where
  sigKp := ⟨List.replicate 32 3 ++ edPublic (List.replicate 32 3), edPublic (List.replicate 32 3)⟩
  encKp := some ⟨List.replicate 32 4, x25519 (List.replicate 32 4) base9⟩
  bufferM2 := false
  a2 := none

/-- An M1 with the key of all zeros, one with the u-coordinate p - 1, and the empty message: they start as an M1 and their key
is of small order. -/
theorem small_m1 : ∀ raw ∈ [Spec.m1 1 (zeros 32) none, Spec.m1 1 (0xec :: List.replicate 30 0xff ++ [0x7f]) none, []],
    LikeM1 raw ∧ decodeU (field raw 10 32) ∈ smallOrderU ∧ namedServer raw = none := by
  intro raw h
  simp only [List.mem_cons, List.not_mem_nil, or_false] at h
  rcases h with rfl | rfl | rfl
  · exact ⟨by decide, by decide +kernel, by decide⟩
  · exact ⟨by decide, by decide +kernel, by decide⟩
  · exact ⟨by decide, by decide +kernel, by decide⟩

theorem C90_violated : ¬ C90_claim := by
  intro hc
  obtain ⟨h1, h2, h3⟩ := small_m1 [] (by simp)
  obtain ⟨tr, s', sig, c4, hcall, hL, -⟩ := C90_completed 8 (cfg := naclServer) (kp := ⟨List.replicate 32 4, x25519 (List.replicate 32 4) base9⟩) rfl (x25519_length (List.replicate 32 4) base9) List.length_replicate
    (List.replicate 32 3) (List.replicate 32 5) List.length_replicate List.length_replicate rfl Server.init h1 (.inl h3) h2 0 1 2 3
  obtain ⟨e, he⟩ := hc 8 false _ _ _ _ _ _ _ rfl List.length_replicate h1 h2 hL hcall
  cases he

/-- With the check the exception is ValueError, not BadPeer; a server that does not buffer M2 has sent it before. -/
theorem C90_value_error (c : Nat) {cfg : ServerCfg} {kp : KeyPair} (hkp : cfg.encKp = some kp) (hp : kp.pub.length = 32) (hs : kp.sec.length = 32)
    (hB : cfg.bufferM2 = false) (s : ServerSt) {raw : Bytes} (hm : LikeM1 raw) (hn : namedServer raw = none ∨ namedServer raw = some cfg.sigKp.pub)
    (hsmall : decodeU (field raw 10 32) ∈ smallOrderU) (t2 : Nat) :
    ∃ tr s', Call (Server.handshake cfg) s (⟨.read, .ok raw⟩ :: tr) (.error .valueError) s' ∧ (∀ ev ∈ tr, AnsweredBy (naclLib c true) ev) ∧
      writesOf tr = [([Spec.m2 false false t2 kp.pub], false)] := by
  have hz : ¬ (leNat (field raw 5 1) % 2 = 1 ∧ field raw 42 32 ≠ cfg.sigKp.pub) := by
    rintro ⟨ha, hb⟩
    unfold namedServer at hn
    rw [if_pos ha] at hn
    rcases hn with hn | hn
    · cases hn
    · exact hb (Option.some.inj hn)
  have hb := beforenm_small c true (field raw 10 32) kp.sec hs hsmall
  rw [if_pos rfl] at hb
  obtain ⟨m1, hm1⟩ := ctor_of_likeM1 hm
  let h1 := Spec.sha512 raw
  let h2 := Spec.sha512 (Spec.m2 false false t2 kp.pub)
  let s1 : ServerSt := { s with m1 := some m1, m1Hash := h1 }
  let s2 : ServerSt := { s1 with m2 := some ⟨Spec.m2 false false t2 kp.pub, none⟩, m2Hash := h2 }
  have hv : ∀ s, Exec (Server.validate cfg s) [] (.ok kp, s) := by
    intro s; unfold Server.validate; rw [hkp]; exact .ret _
  have d1 : Exec (Server.doM1 cfg s) [⟨.read, .ok raw⟩, ⟨.report (leNat (field raw 6 4)), .ok ()⟩, ⟨.hash raw, .ok h1⟩] (.ok none, s1) := by
    rw [s_doM1_run]
    simp only [Exec_op_cons, hm1, if_neg hz, Exec_ret, s1, and_self]
  have d2 : Exec (Server.doM2 cfg kp s1) [⟨.firstTime, .ok t2⟩, ⟨.write [Spec.m2 false false t2 kp.pub] false, .ok ()⟩,
      ⟨.hash (Spec.m2 false false t2 kp.pub), .ok h2⟩] (.ok (), s2) := by
    rw [s_doM2_run]
    refine .op _ _ _ _ _ ?_
    simp only [hp, hB, if_true, Bool.false_eq_true, if_false]
    exact .op _ _ _ _ _ (.op _ _ _ _ _ (.ret _))
  have d3 : Exec (Server.createEncryptedChannel kp s2) [⟨.beforenm (field raw 10 32) kp.sec, .error .valueError⟩] (.error .valueError, s2) := by
    rw [s_create_run kp s2 raw m1 hm1 rfl]
    simp only [hs, if_true, Exec_op_cons, Exec_ret, and_self]
  refine ⟨[⟨.report (leNat (field raw 6 4)), .ok ()⟩, ⟨.hash raw, .ok h1⟩, ⟨.firstTime, .ok t2⟩,
    ⟨.write [Spec.m2 false false t2 kp.pub] false, .ok ()⟩, ⟨.hash (Spec.m2 false false t2 kp.pub), .ok h2⟩,
    ⟨.beforenm (field raw 10 32) kp.sec, .error .valueError⟩], s2, ?_, ?_, rfl⟩
  · unfold Call Server.handshake
    refine (Exec_py_bind_err ..).2 (.inr ⟨[], kp, s, _, rfl, hv s, ?_⟩)
    refine (Exec_py_bind_err ..).2 (.inr ⟨[_, _, _], none, s1, [_, _, _, _], rfl, d1, ?_⟩)
    refine (Exec_py_bind_err ..).2 (.inr ⟨[], kp, s1, _, rfl, hv s1, ?_⟩)
    refine (Exec_py_bind_err ..).2 (.inr ⟨[_, _, _], (), s2, [_], rfl, d2, ?_⟩)
    exact (Exec_py_bind_err ..).2 (.inl d3)
  · intro ev hev
    simp only [List.mem_cons, List.not_mem_nil, or_false] at hev
    rcases hev with rfl | rfl | rfl | rfl | rfl | rfl
    · trivial
    · exact (naclLib_hash c true raw).symm
    · trivial
    · trivial
    · exact (naclLib_hash c true _).symm
    · exact hb.symm

/-- The hypotheses of the partial claims are met: the example server, sent an empty message. -/
example : ∃ tr s', Call (Server.handshake naclServer) Server.init (⟨.read, .ok []⟩ :: tr) (.error .valueError) s' ∧
    (∀ ev ∈ tr, AnsweredBy (naclLib 8 true) ev) ∧ NothingUsed tr := by
  obtain ⟨h1, h2, h3⟩ := small_m1 [] (by simp)
  obtain ⟨tr, s', h, hL, -⟩ := C90_value_error 8 (cfg := naclServer) (kp := ⟨List.replicate 32 4, x25519 (List.replicate 32 4) base9⟩) rfl (x25519_length (List.replicate 32 4) base9) List.length_replicate rfl Server.init h1 (.inl h3) h2 1
  exact ⟨tr, s', h, hL, (C90_server_partial 8 rfl List.length_replicate h1 h2 hL h).2⟩

/-! ### Clients -/

/-- The same for the client: with any library that follows the laws it completes a handshake with whatever key
`crypto_box_beforenm` gave, if the peer encrypts an M3 with that key. -/
theorem client_completes {L : Lib} (hbox : BoxLaw L) (hhash : HashLaw L) {cfg : ClientCfg} {kp ss : KeyPair} (hkp : cfg.encKp = some kp)
    (hp : kp.pub.length = 32) (hs : kp.sec.length = 32) (hg : SigLaw L cfg.sigKp) (hc : SigLaw L ss) (s : ClientSt) {raw k : Bytes}
    (hm : raw = [] ∨ raw.head? = some 2) (hn : leNat (field raw 1 1) % 2 = 0)
    (hk : k.length = 32) (hb : L.beforenm (field raw 6 32) kp.sec = .ok k) (t1 t3 t4 : Nat) :
    ∃ tr s', Call (Client.handshake cfg) s tr (.ok ()) s' ∧ (∀ ev ∈ tr, AnsweredBy L ev) ∧ (readsOf tr).head? = some raw ∧ s'.sessionKey = k := by
  obtain ⟨h1, e1⟩ := hhash (Spec.m1 t1 kp.pub none)
  obtain ⟨h2, e2⟩ := hhash raw
  obtain ⟨sg, es1, es2, es3⟩ := hg.works (scSig02 ++ h1 ++ h2)
  obtain ⟨sig, ec1, ec2, ec3⟩ := hc.works (scSig01 ++ h1 ++ h2)
  obtain ⟨c3, eb3, el3⟩ := hbox.total (Spec.m3 t3 ss.pub sig) (Spec.nonce 2) k (nonce_length 2) hk
  obtain ⟨c4, eb4, el4⟩ := hbox.total (Spec.m4 t4 cfg.sigKp.pub ((sg ++ (scSig02 ++ h1 ++ h2)).take 64)) (Spec.nonce 1) k (nonce_length 1) hk
  have eo3 := (hbox.open_iff _ _ _ _ (nonce_length 2) hk).2 eb3
  have f1 : field (Spec.m3 t3 ss.pub sig) 6 32 = ss.pub := by
    have := field_at (a := [3, 0] ++ le32 t3) (b := ss.pub) (c := sig) (off := 6) rfl hc.pub
    simpa [Spec.m3] using this
  have f2 : field (Spec.m3 t3 ss.pub sig) 38 64 = sig := by
    have := field_at (a := [3, 0] ++ le32 t3 ++ ss.pub) (b := sig) (c := []) (off := 38) (by simp [hc.pub]) ec1
    simp only [Spec.m3]
    rw [List.append_nil] at this
    exact this
  let p : CP := ⟨t1, h1, raw, h2, k, Spec.encrypted false c3, Spec.m3 t3 ss.pub sig, scSig01 ++ h1 ++ h2, t4, sg ++ (scSig02 ++ h1 ++ h2), c4⟩
  have g : CGood cfg kp p :=
    { enc := hkp
      pub := hp
      sec := hs
      sig := hg.pub
      m2 := hm
      nss := hn
      k := hk
      p3 := by show 18 ≤ (Spec.encrypted false c3).length; simp [Spec.encrypted]; omega
      p3h := rfl
      m3 := by show (Spec.m3 t3 ss.pub sig).length = 102; simp [Spec.m3, le32, hc.pub, ec1]
      m3h := rfl
      sm := by show 64 ≤ (sg ++ _).length; rw [List.length_append, es1]; omega }
  obtain ⟨s', hcall, hd⟩ := client_runs' g s
  have hso : L.signOpen (field (Spec.m3 t3 ss.pub sig) 38 64 ++ scSig01 ++ h1 ++ h2) (field (Spec.m3 t3 ss.pub sig) 6 32) = .ok (scSig01 ++ h1 ++ h2) := by
    rw [f1, f2]
    simpa only [List.append_assoc] using ec3
  have hall : ∀ ev ∈ clientPre kp p ++ clientPost cfg p, AnsweredBy L ev := by
    intro ev hev
    simp only [clientPre, clientPost, List.cons_append, List.nil_append, List.mem_cons, List.not_mem_nil, or_false] at hev
    rcases hev with rfl | rfl | rfl | rfl | rfl | rfl | rfl | rfl | rfl | rfl | rfl | rfl | rfl | rfl | rfl
    · trivial
    · exact e1.symm
    · trivial
    · trivial
    · trivial
    · exact e2.symm
    · exact hb.symm
    · trivial
    · exact eo3.symm
    · trivial
    · exact hso.symm
    · trivial
    · exact es2.symm
    · exact eb4.symm
    · trivial
  refine ⟨_, s', hcall, fun ev hev => hall ev ?_, by simp [clientPre, readsOf, p], hd.key⟩
  rcases List.mem_append.1 hev with h | h
  · exact List.mem_append_left _ h
  · refine List.mem_append_right _ ?_
    split at h
    · exact List.mem_of_mem_take h
    · exact h

/-- C90 fails without the check for clients too: whatever their keys, a peer with a signing key pair of their own completes the
handshake with an M2 whose key is of small order. -/
theorem C90_completed_client (c : Nat) {cfg : ClientCfg} {kp : KeyPair} (hkp : cfg.encKp = some kp) (hp : kp.pub.length = 32) (hs : kp.sec.length = 32)
    (seed mine : Bytes) (hseed : seed.length = 32) (hmine : mine.length = 32) (hg : cfg.sigKp = ⟨seed ++ edPublic seed, edPublic seed⟩)
    (s : ClientSt) {raw : Bytes} (hm : raw = [] ∨ raw.head? = some 2) (hn : leNat (field raw 1 1) % 2 = 0)
    (hsmall : decodeU (field raw 6 32) ∈ smallOrderU) (t1 t3 t4 : Nat) :
    ∃ tr s', Call (Client.handshake cfg) s tr (.ok ()) s' ∧ (∀ ev ∈ tr, AnsweredBy (naclLib c false) ev) ∧
      (readsOf tr).head? = some raw ∧ s'.sessionKey = zeroKey := by
  have hb := beforenm_small c false (field raw 6 32) kp.sec hs hsmall
  rw [if_neg (fun h => Bool.noConfusion h)] at hb
  exact client_completes (C52_native_box _ (C89_box c false)) (C52_native_hash _ (C89_hash c false)) hkp hp hs
    (by rw [hg]; exact C52_native_sign _ _ (C89_sign c false seed hseed)) (C52_native_sign _ _ (C89_sign c false mine hmine)) s hm hn
    (hsalsa20_length _ (zeros_length 32)) hb t1 t3 t4

/-- With the check the client raises ValueError, after M1. -/
theorem C90_value_error_client (c : Nat) {cfg : ClientCfg} {kp : KeyPair} (hkp : cfg.encKp = some kp) (hp : kp.pub.length = 32) (hs : kp.sec.length = 32)
    (s : ClientSt) {raw : Bytes} (hm : raw = [] ∨ raw.head? = some 2) (hn : leNat (field raw 1 1) % 2 = 0)
    (hsmall : decodeU (field raw 6 32) ∈ smallOrderU) (t1 : Nat) :
    ∃ tr s', Call (Client.handshake cfg) s tr (.error .valueError) s' ∧ (∀ ev ∈ tr, AnsweredBy (naclLib c true) ev) ∧
      readsOf tr = [raw] ∧ writesOf tr = [([Spec.m1 t1 kp.pub none], false)] := by
  have hb := beforenm_small c true (field raw 6 32) kp.sec hs hsmall
  rw [if_pos rfl] at hb
  obtain ⟨m2, hm2⟩ := m2_ctor_of hm
  let h1 := Spec.sha512 (Spec.m1 t1 kp.pub none)
  let h2 := Spec.sha512 raw
  let s1 : ClientSt := { s with m1 := some ⟨Spec.m1 t1 kp.pub none, some []⟩, m1Hash := h1 }
  let s2 : ClientSt := { s1 with m2 := some m2, m2Hash := h2 }
  have hv : Exec (Client.validate cfg s) [] (.ok kp, s) := by
    unfold Client.validate; rw [hkp]; exact .ret _
  have d1 : Exec (Client.doM1 kp s) [⟨.firstTime, .ok t1⟩, ⟨.hash (Spec.m1 t1 kp.pub none), .ok h1⟩,
      ⟨.write [Spec.m1 t1 kp.pub none] false, .ok ()⟩] (.ok (), s1) := by
    rw [c_doM1_run]
    simp only [Exec_op_cons, hp, if_true, Exec_ret, s1, and_self]
  have d2 : Exec (Client.doM2 s1) [⟨.read, .ok raw⟩, ⟨.report (leNat (field raw 2 4)), .ok ()⟩,
      ⟨.hash raw, .ok h2⟩] (.ok true, s2) := by
    rw [c_doM2_run]
    simp only [Exec_op_cons, hm2, hn, if_true, Exec_ret, s2, and_self]
  have d3 : Exec (Client.createEncryptedChannel kp s2) [⟨.beforenm (field raw 6 32) kp.sec, .error .valueError⟩]
      (.error .valueError, s2) := by
    rw [c_create_run kp s2 raw m2 hm2 rfl]
    simp only [hs, if_true, Exec_op_cons, Exec_ret, and_self]
  refine ⟨[⟨.firstTime, .ok t1⟩, ⟨.hash (Spec.m1 t1 kp.pub none), .ok h1⟩, ⟨.write [Spec.m1 t1 kp.pub none] false, .ok ()⟩,
    ⟨.read, .ok raw⟩, ⟨.report (leNat (field raw 2 4)), .ok ()⟩, ⟨.hash raw, .ok h2⟩, ⟨.beforenm (field raw 6 32) kp.sec, .error .valueError⟩],
    s2, ?_, ?_, rfl, rfl⟩
  · unfold Call Client.handshake
    refine (Exec_py_bind_err ..).2 (.inr ⟨[], kp, s, _, rfl, hv, ?_⟩)
    refine (Exec_py_bind_err ..).2 (.inr ⟨[_, _, _], (), s1, [_, _, _, _], rfl, d1, ?_⟩)
    refine (Exec_py_bind_err ..).2 (.inr ⟨[_, _, _], true, s2, [_], rfl, d2, ?_⟩)
    simp only [not_true_eq_false, if_false]
    exact (Exec_py_bind_err ..).2 (.inl d3)
  · intro ev hev
    simp only [List.mem_cons, List.not_mem_nil, or_false] at hev
    rcases hev with rfl | rfl | rfl | rfl | rfl | rfl | rfl
    · trivial
    · exact (naclLib_hash c true _).symm
    · trivial
    · trivial
    · trivial
    · exact (naclLib_hash c true raw).symm
    · exact hb.symm

/-- Messages to a client with a key of small order: an M2 with the key of all zeros and the empty message. -/
example : ∀ raw ∈ [Spec.m2 false false 1 (zeros 32), []],
    (raw = [] ∨ raw.head? = some 2) ∧ leNat (field raw 1 1) % 2 = 0 ∧ decodeU (field raw 6 32) ∈ smallOrderU := by
  intro raw h
  simp only [List.mem_cons, List.not_mem_nil, or_false] at h
  rcases h with rfl | rfl
  · exact ⟨by decide, by decide, by decide +kernel⟩
  · exact ⟨by decide, by decide, by decide +kernel⟩

end Salt.Props
