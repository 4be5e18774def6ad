import Verif.Lemmas.SockNet
import Verif.Lemmas.NetSession
import Verif.Lemmas.Ops

/-!
# The sizes of the messages a session writes
-/

set_option linter.unusedSimpArgs false

namespace Salt

open Spec

variable {L : Lib} {α β : Type}

/-- All writes of the trace are short. -/
def FitsAll (tr : List (Ev env)) : Prop := ∀ w ∈ writesOf tr, Fits w.1

theorem FitsAll.append {a b : List (Ev env)} (ha : FitsAll a) (hb : FitsAll b) : FitsAll (a ++ b) := by
  intro w hw
  rw [writesOf_append] at hw
  rcases List.mem_append.1 hw with hw | hw
  · exact ha w hw
  · exact hb w hw

/-- Whatever is read, the program, using library `L`, writes short messages only. -/
def Writes (L : Lib) (t : IT env β) : Prop := wp t fun tr _ => (∀ ev ∈ tr, AnsweredBy L ev) → FitsAll tr

theorem Writes.bind {t : IT env α} {f : α → IT env β} (h : Writes L t)
    (hf : ∀ tr a, Exec t tr a → Writes L (f a)) : Writes L (t.bind f) := by
  intro tr b hx ha
  rw [Exec_bind] at hx
  obtain ⟨tr1, a, tr2, rfl, h1, h2⟩ := hx
  exact (h tr1 a h1 fun ev hev => ha ev (List.mem_append_left _ hev)).append
    (hf tr1 a h1 tr2 b h2 fun ev hev => ha ev (List.mem_append_right _ hev))

theorem Exec_answered (L : Lib) (t : IT env β) : ∃ tr b, Exec t tr b ∧ ∀ ev ∈ tr, AnsweredBy L ev := by
  obtain ⟨tr, b, h⟩ := Exec_total (withLib L t)
  obtain ⟨tr', h1, h2, -⟩ := (Exec_withLib L t tr b).1 h
  exact ⟨tr', b, h1, h2⟩

theorem party_short (c : Clock) (t : IT env β) (h : Writes L t) (i : Nat) : ShortWritesP (party L c t i) := by
  induction t generalizing i with
  | ret b => trivial
  | op e k ih =>
    have hk : ∀ r, AnsweredBy L ⟨e, r⟩ → Writes L (k r) := by
      intro r hr tr b hx ha w hw
      refine h (⟨e, r⟩ :: tr) b (.op _ _ _ _ _ hx) ?_ w ?_
      · intro ev hev
        rcases List.mem_cons.1 hev with rfl | hev
        · exact hr
        · exact ha ev hev
      · cases e <;> first | exact hw | exact List.mem_cons_of_mem _ hw
    cases e with
    | read => exact fun r => ih r (hk r trivial) i
    | write ms l =>
      refine ⟨?_, fun r => ih r (hk r trivial) i⟩
      obtain ⟨tr, b, h1, h2⟩ := Exec_answered L (k (.ok ()))
      refine h (⟨.write ms l, .ok ()⟩ :: tr) b (.op _ _ _ _ _ h1) ?_ (ms, l) (List.mem_cons_self ..)
      intro ev hev
      rcases List.mem_cons.1 hev with rfl | hev
      · trivial
      · exact h2 ev hev
    | firstTime => exact ih _ (hk _ trivial) _
    | time => exact ih _ (hk _ trivial) _
    | report => exact ih _ (hk _ trivial) _
    | check => exact ih _ (hk _ trivial) _
    | sign => exact ih _ (hk _ rfl) _
    | signOpen => exact ih _ (hk _ rfl) _
    | hash => exact ih _ (hk _ rfl) _
    | beforenm => exact ih _ (hk _ rfl) _
    | box => exact ih _ (hk _ rfl) _
    | boxOpen => exact ih _ (hk _ rfl) _

/-! ### Channels -/

theorem writesOf_nil_of_noWrite {tr : List (Ev env)} (h : ∀ ev ∈ tr, EnvOp.noWrite ev.op) : writesOf tr = [] := by
  induction tr with
  | nil => rfl
  | cons ev tr ih =>
    have h1 := h ev (List.mem_cons_self ..)
    have h2 := ih fun x hx => h x (List.mem_cons_of_mem _ hx)
    obtain ⟨op, res⟩ := ev
    cases op <;> first | exact h1.elim | simpa [writesOf] using h2

theorem Writes.of_noWrite {σ : Type} {m : Py env σ α} (h : OpsIn (S := env) EnvOp.noWrite m) (s : σ) : Writes L (m s) := by
  intro tr b hx _ w hw
  rw [writesOf_nil_of_noWrite (h s tr b hx)] at hw
  simp at hw

theorem encryptAll_size (hL : BoxSize L) (l : Bool) (ms : List Bytes) (s : EncSt) :
    wp (Enc.encryptAll l ms s) fun tr b => (∀ ev ∈ tr, AnsweredBy L ev) →
      ∀ ps, b.1 = .ok ps → ∀ p ∈ ps, ∃ m ∈ ms, p.length ≤ m.length + 18 := by
  induction ms generalizing s with
  | nil => simp [encryptAll_nil_run]
  | cons m ms ih =>
    rw [encryptAll_cons_run]
    cases hn : nonceBytes s.writeNonce s.sessionNonce with
    | error e => simp
    | ok n =>
      simp only []
      rw [wp_op]
      intro r
      cases r with
      | error e => simp
      | ok c =>
        simp only []
        rw [wp_bind]
        refine wp_mono _ (ih _) ?_
        rintro tr ⟨r, s'⟩ h
        cases r with
        | error e => simp
        | ok rest =>
          simp only [wp_ret, List.append_nil, Except.ok.injEq]
          rintro ha ps rfl p hp
          have hc : (L.box m n s.key) = .ok c := (ha _ (List.mem_cons_self ..)).symm
          rcases List.mem_cons.1 hp with rfl | hp
          · exact ⟨m, List.mem_cons_self .., by have := hL _ _ _ _ hc; simp [encrypted]; omega⟩
          · obtain ⟨m', h1, h2⟩ := h (fun ev hev => ha ev (List.mem_cons_of_mem _ hev)) rest rfl p hp
            exact ⟨m', List.mem_cons_of_mem _ h1, h2⟩

theorem Enc_write_size (hL : BoxSize L) (l : Bool) (ms : List Bytes) (s : EncSt) (h : ∀ m ∈ ms, m.length + 18 < 2 ^ 31) :
    Writes L (Enc.write ms l s) := by
  intro tr b hx ha
  rw [Enc_write_run, Exec_bind] at hx
  obtain ⟨tr1, ⟨r, s'⟩, tr2, rfl, h1, h2⟩ := hx
  have hw := writesOf_nil_of_noWrite (Enc_encryptAll_noWrite l ms s tr1 _ h1)
  have hs := encryptAll_size hL l ms s tr1 _ h1 fun ev hev => ha ev (List.mem_append_left _ hev)
  refine FitsAll.append (fun w h => by rw [hw] at h; simp at h) ?_
  cases r with
  | error e =>
    simp only [Exec_ret] at h2
    obtain ⟨rfl, -⟩ := h2
    intro w h
    simp [writesOf] at h
  | ok ps =>
    simp only [Exec_op, Exec_ret] at h2
    obtain ⟨r, tr', rfl, rfl, -⟩ := h2
    intro w hw p hp
    simp only [writesOf, List.mem_singleton] at hw
    subst hw
    obtain ⟨m, h3, h4⟩ := hs ps rfl p hp
    have := h m h3
    omega

/-- The pending M4 is short. -/
def PendFits (s : AppSt) : Prop := ∀ t, ∀ m ∈ pending s t, m.length + 18 < 2 ^ 31

theorem App_read_noWrite : OpsIn (S := env) EnvOp.noWrite App.read := by
  intro s
  cases hq : s.readQ with
  | cons m q => rw [App_read_queued s m q hq]; simp
  | nil =>
    rw [App_read_run s hq, wp_bind]
    refine wp_mono _ (Enc_read_noWrite s.enc) ?_
    rintro tr ⟨r, e⟩ h
    cases r with
    | error x => simpa using h
    | ok raw =>
      simp only []
      split
      · simpa using h
      · rw [wp_op]
        intro r
        cases r with
        | error x =>
          simp only [wp_ret]
          intro ev hev
          rcases List.mem_append.1 hev with hev | hev
          · exact h ev hev
          · simp at hev; subst hev; trivial
        | ok _ =>
          simp only []
          split
          · simp only [wp_ret]
            intro ev hev
            rcases List.mem_append.1 hev with hev | hev
            · exact h ev hev
            · simp at hev; subst hev; trivial
          · simp only [wp_ret]
            intro ev hev
            rcases List.mem_append.1 hev with hev | hev
            · exact h ev hev
            · simp at hev; subst hev; trivial

theorem App_read_m4 (s : AppSt) : wp (App.read s) fun _ b => b.2.bufferedM4 = s.bufferedM4 := by
  cases hq : s.readQ with
  | cons m q => rw [App_read_queued s m q hq]; simp
  | nil =>
    rw [App_read_run s hq, wp_bind]
    intro tr1 ⟨r, e⟩ _
    cases r with
    | error x => simp
    | ok raw =>
      simp only []
      split
      · simp
      · rw [wp_op]
        intro r
        cases r with
        | error x => simp
        | ok _ => simp only []; split <;> simp

theorem App_write_m4 (ms : List Bytes) (l : Bool) (s : AppSt) :
    wp (App.write ms l s) fun _ b => b.2.bufferedM4 = s.bufferedM4 ∨ b.2.bufferedM4 = none := by
  rw [App_write_run, wp_op]
  intro r
  cases r with
  | error x => simp
  | ok t =>
    simp only []
    rw [wp_bind]
    intro tr1 ⟨r, e⟩ _
    simp

theorem sum_map_mem {ms : List Bytes} {m : Bytes} (h : m ∈ ms) :
    m.length + 2 ≤ (ms.map fun m => m.length + 2).sum := by
  induction ms with
  | nil => simp at h
  | cons a ms ih =>
    simp only [List.map_cons, List.sum_cons]
    rcases List.mem_cons.1 h with rfl | h
    · omega
    · have := ih h; omega

theorem items_length (ms : List Bytes) :
    ((ms.map fun m => le16 m.length ++ m).flatten).length = (ms.map fun m => m.length + 2).sum := by
  induction ms with
  | nil => rfl
  | cons a ms ih =>
    rw [List.map_cons, List.flatten_cons, List.length_append, ih]
    simp [le16]

theorem appPackets_size (t : Nat) (ms : List Bytes) : ∀ p ∈ appPackets t ms,
    p.length ≤ (ms.map fun m => m.length + 2).sum + 8 := by
  intro p hp
  unfold appPackets at hp
  split at hp
  · simp only [List.mem_singleton] at hp
    subst hp
    have := items_length ms
    simp only [multiApp, List.length_append, this]
    simp [le32, le16]; omega
  · rw [List.mem_map] at hp
    obtain ⟨m, hm, rfl⟩ := hp
    have := sum_map_mem hm
    simp [app, le32]; omega

theorem App_write_size (hL : BoxSize L) (ms : List Bytes) (l : Bool) (h : (ms.map fun m => m.length + 2).sum ≤ 2 ^ 31 - 27)
    (s : AppSt) (hs : PendFits s) : Writes L (App.write ms l s) := by
  rw [App_write_run]
  intro tr b hx ha
  rw [Exec_op] at hx
  obtain ⟨r, tr, rfl, hx⟩ := hx
  have ha' : ∀ ev ∈ tr, AnsweredBy L ev := fun ev hev => ha ev (List.mem_cons_of_mem _ hev)
  show FitsAll tr
  cases r with
  | error x => simp only [Exec_ret] at hx; obtain ⟨rfl, -⟩ := hx; intro w hw; simp [writesOf] at hw
  | ok t =>
    simp only [Exec_bind, Exec_ret] at hx
    obtain ⟨tr1, ⟨r, e⟩, tr2, rfl, h1, rfl, -⟩ := hx
    rw [List.append_nil] at ha' ⊢
    refine Enc_write_size hL l _ s.enc ?_ tr1 _ h1 ha'
    intro m hm
    rcases List.mem_append.1 hm with hm | hm
    · exact hs t m hm
    · have := appPackets_size t ms m hm
      omega

theorem App_run_size (hL : BoxSize L) (prog : IT appSig β) (hp : CallsWithin (2 ^ 31 - 27) prog) (s : AppSt)
    (hs : PendFits s) : Writes L (App.run prog s) := by
  induction prog generalizing s with
  | ret b => intro tr b' hx _ w hw; simp only [App.run, Exec_ret] at hx; obtain ⟨rfl, -⟩ := hx; simp [writesOf] at hw
  | op e k ih =>
    simp only [App.run]
    cases e with
    | read =>
      refine Writes.bind (.of_noWrite App_read_noWrite s) ?_
      rintro tr ⟨r, s'⟩ hx
      have hm := App_read_m4 s tr _ hx
      refine ih r (hp r) s' ?_
      intro t
      have : pending s' t = pending s t := by unfold pending; rw [hm]
      rw [this]; exact hs t
    | write ms l =>
      refine Writes.bind ?_ ?_
      · exact App_write_size hL ms l hp.1 s hs
      · rintro tr ⟨r, s'⟩ hx
        refine ih r (hp.2 r) s' ?_
        rcases App_write_m4 ms l s tr _ hx with hm | hm
        · intro t
          have : pending s' t = pending s t := by unfold pending; rw [hm]
          rw [this]; exact hs t
        · intro t m h
          have : pending s' t = [] := by unfold pending; rw [hm]
          rw [this] at h; simp at h

/-! ### Handshakes -/

/-- The writes of the script are short, as long as library `L` answers. -/
def GoodScript (L : Lib) : List (Ev env) → Prop
  | [] => True
  | ev :: f => FitsAll [ev] ∧ (AnsweredBy L ev → GoodScript L f)

theorem GoodScript.cut {f tr : List (Ev env)} (hc : Cut f tr) (h : GoodScript L f) (ha : ∀ ev ∈ tr, AnsweredBy L ev) :
    FitsAll tr := by
  induction hc with
  | stop _ => intro w hw; simp [writesOf] at hw
  | raised op r e full =>
    have h1 := h.1
    cases op <;> first | exact h1 | (intro w hw; simp [writesOf] at hw)
  | next ev _ ih =>
    have := ih (h.2 (ha ev (List.mem_cons_self ..))) fun x hx => ha x (List.mem_cons_of_mem _ hx)
    exact FitsAll.append (a := [ev]) h.1 this

theorem fits_none {op : EnvOp} {r : Except Err op.Resp} (h : EnvOp.noWrite op) : FitsAll [⟨op, r⟩] := by
  intro w hw
  cases op <;> first | exact h.elim | simp [writesOf] at hw

theorem fits_write {ms : List Bytes} {l : Bool} {r : Except Err Unit} (h : Fits ms) : FitsAll [⟨.write ms l, r⟩] := by
  intro w hw
  simp only [writesOf, List.mem_singleton] at hw
  subst hw
  exact h

theorem fits_one {m : Bytes} (h : m.length ≤ 500) : Fits [m] := by
  intro x hx
  simp only [List.mem_singleton] at hx
  subst hx
  omega

/-- One step along a script. -/
macro "script" : tactic => `(tactic| repeat (refine ⟨fits_none trivial, fun _ => ?_⟩))

theorem client_script (hL : BoxSize L) {cfg : ClientCfg} {kp : KeyPair} (hk : kp.pub.length = 32)
    (hs : cfg.sigKp.pub.length = 32) (p : CP) : GoodScript L (clientPre kp p ++ clientPost cfg p) := by
  simp only [clientPre, clientPost, List.cons_append, List.nil_append]
  script
  refine ⟨fits_write (fits_one (by simp [Spec.m1, le32, hk])), fun _ => ?_⟩
  refine ⟨fits_none trivial, fun _ => ⟨fits_none trivial, fun _ => ⟨fits_none trivial, fun _ => ⟨fits_none trivial, fun _ =>
    ⟨fits_none trivial, fun _ => ⟨fits_none trivial, fun _ => ⟨fits_none trivial, fun _ => ⟨fits_none trivial, fun _ =>
    ⟨fits_none trivial, fun _ => ⟨fits_none trivial, fun _ => ⟨fits_none trivial, fun hbox => ?_⟩⟩⟩⟩⟩⟩⟩⟩⟩⟩⟩
  refine ⟨fits_write (fits_one ?_), fun _ => trivial⟩
  have := hL _ _ _ _ (Eq.symm hbox)
  simp [Spec.m4, le32, hs] at this
  simp [encrypted]
  omega

theorem server_script (hL : BoxSize L) {cfg : ServerCfg} {kp : KeyPair} (hk : kp.pub.length = 32)
    (hs : cfg.sigKp.pub.length = 32) (p : SP) : GoodScript L (serverFull cfg kp p) := by
  have h2 : ∀ a b t, (Spec.m2 a b t kp.pub).length ≤ 500 := by simp [Spec.m2, le32, hk]
  have h3 : ∀ t m n k c, m = Spec.m3 t cfg.sigKp.pub (p.sm.take 64) → AnsweredBy L ⟨.box m n k, .ok c⟩ →
      (encrypted false c).length ≤ 500 := by
    rintro t m n k c rfl hbox
    have := hL _ _ _ _ (Eq.symm hbox)
    simp [Spec.m3, le32, hs] at this
    simp [encrypted]
    omega
  unfold serverFull
  split
  · simp only [serverHead, serverBuffered, serverTail, List.cons_append, List.nil_append]
    refine ⟨fits_none trivial, fun _ => ⟨fits_none trivial, fun _ => ⟨fits_none trivial, fun _ => ⟨fits_none trivial, fun _ =>
      ⟨fits_none trivial, fun _ => ⟨fits_none trivial, fun _ => ⟨fits_none trivial, fun _ => ⟨fits_none trivial, fun _ =>
      ⟨fits_none trivial, fun hbox => ?_⟩⟩⟩⟩⟩⟩⟩⟩⟩
    refine ⟨fits_write ?_, fun _ => ⟨fits_none trivial, fun _ => ⟨fits_none trivial, fun _ => ⟨fits_none trivial, fun _ =>
      ⟨fits_none trivial, fun _ => trivial⟩⟩⟩⟩⟩
    intro x hx
    simp only [List.mem_cons, List.not_mem_nil, or_false] at hx
    rcases hx with rfl | rfl
    · have := h2 false false p.t2; omega
    · have := h3 _ _ _ _ _ rfl hbox; omega
  · simp only [serverHead, serverPlain, serverTail, List.cons_append, List.nil_append]
    refine ⟨fits_none trivial, fun _ => ⟨fits_none trivial, fun _ => ⟨fits_none trivial, fun _ => ⟨fits_none trivial, fun _ =>
      ⟨fits_write (fits_one (h2 _ _ _)), fun _ => ⟨fits_none trivial, fun _ => ⟨fits_none trivial, fun _ =>
      ⟨fits_none trivial, fun _ => ⟨fits_none trivial, fun _ =>
      ⟨fits_none trivial, fun hbox => ?_⟩⟩⟩⟩⟩⟩⟩⟩⟩⟩
    exact ⟨fits_write (fits_one (h3 _ _ _ _ _ rfl hbox)), fun _ => ⟨fits_none trivial, fun _ => ⟨fits_none trivial, fun _ =>
      ⟨fits_none trivial, fun _ => ⟨fits_none trivial, fun _ => trivial⟩⟩⟩⟩⟩

theorem client_size (hL : BoxSize L) {cfg : ClientCfg} {kp : KeyPair} (hkp : cfg.encKp = some kp) (hk : kp.pub.length = 32)
    (hs : cfg.sigKp.pub.length = 32) (prog : IT appSig β) (hp : CallsWithin (2 ^ 31 - 27) prog) :
    Writes L (clientSession cfg prog) := by
  refine Writes.bind ?_ ?_
  · rintro tr ⟨r, s'⟩ hx ha
    obtain ⟨p, hc⟩ := client_cut hkp hx
    exact (client_script hL hk hs p).cut hc ha
  · rintro tr ⟨r, s'⟩ hx
    have hret : ∀ x : Except Err β × ClientSt, Writes L (.ret x) := by
      intro x tr b hx _ w hw; simp only [Exec_ret] at hx; obtain ⟨rfl, -⟩ := hx; simp [writesOf] at hw
    cases r with
    | error e => exact hret _
    | ok u =>
      simp only [clientAfter]
      cases hch : s'.chan with
      | none => exact hret _
      | some c =>
        refine Writes.bind (App_run_size hL prog hp c ?_) fun _ _ _ => hret _
        obtain ⟨kp', t1, h1, raw2, m2, h2, k, p3, m3, m3p, x, t4, sm, tail, -, -, -, -, -, -, -, -, -, -,
          -, -, -, -, -, -, -, -, -, -, hend⟩ := (client_ok hx).ex
        intro t m hm
        rcases hend with ⟨-, -, he⟩ | ⟨-, he, -⟩
        · rw [hch, Option.some.injEq] at he
          subst he
          simp only [pending, List.mem_singleton] at hm
          subst hm
          simp only [M34.setTime, Packet.toBytes, Packet.optBytes, setLE, List.length_append]
          rw [setBytes_length _ _ _ (by simp [Spec.m4, le32])]
          simp [Spec.m4, le32, hs]
          omega
        · rw [hch, Option.some.injEq] at he
          subst he
          simp [pending] at hm

theorem server_size (hL : BoxSize L) {cfg : ServerCfg} {kp : KeyPair} (hkp : cfg.encKp = some kp) (hk : kp.pub.length = 32)
    (hs : cfg.sigKp.pub.length = 32) (ha2 : ((cfg.a2.getD (A2.ofCase .default)).toBytes).length < 2 ^ 31)
    (prog : IT appSig β) (hp : CallsWithin (2 ^ 31 - 27) prog) :
    Writes L (serverSession cfg prog) := by
  refine Writes.bind ?_ ?_
  · rintro tr ⟨r, s'⟩ hx ha
    have hone : ∀ m : Bytes, m.length < 2 ^ 31 → Fits [m] := by
      intro m hm x hx
      simp only [List.mem_singleton] at hx
      subst hx
      exact hm
    cases server_cut hkp hx with
    | shake p h _ _ => exact (server_script hL hk hs p).cut h ha
    | refuse p e m _ _ _ h _ _ =>
      refine GoodScript.cut (L := L) h ?_ ha
      simp only [serverRefuse, serverHead, List.cons_append, List.nil_append]
      exact ⟨fits_none trivial, fun _ => ⟨fits_none trivial, fun _ => ⟨fits_none trivial, fun _ => ⟨fits_none trivial, fun _ =>
        ⟨fits_write (fits_one (by simp [Spec.m2, le32, zeros])), fun _ => trivial⟩⟩⟩⟩⟩
    | bad raw e x _ _ _ => exact fits_none trivial
    | a1 raw x a _ _ r _ => exact FitsAll.append (a := [_]) (fits_none trivial) (fits_write (hone _ ha2))
  · rintro tr ⟨r, s'⟩ hx
    have hret : ∀ x : Except Err β × ServerSt, Writes L (.ret x) := by
      intro x tr b hx _ w hw; simp only [Exec_ret] at hx; obtain ⟨rfl, -⟩ := hx; simp [writesOf] at hw
    cases r with
    | error e => exact hret _
    | ok u =>
      simp only [serverAfter]
      cases hch : s'.chan with
      | none => exact hret _
      | some c =>
        refine Writes.bind (App_run_size hL prog hp c ?_) fun _ _ _ => hret _
        intro t m hm
        rcases (server_ok hx).ex with ⟨raw, e, a1, -, -, -, rfl⟩ | ⟨kp', raw1, m1, h1, m2, h2, k, mid, p4,
          m4, m4p, x, -, -, -, -, -, -, -, -, -, -, -, -, rfl⟩
        · simp [Server.init] at hch
        · simp only [Option.some.injEq] at hch
          subst hch
          simp [pending] at hm

/-! ### Sessions -/

theorem Local.answered {c : Clock} {i j : Nat} {tr : List (Ev env)} (h : Local L c i tr j) : ∀ ev ∈ tr, AnsweredBy L ev := by
  induction h with
  | nil => simp
  | crypto ev _ ha _ ih => exact List.forall_mem_cons.2 ⟨ha, ih⟩
  | _ => rename_i ih; exact List.forall_mem_cons.2 ⟨trivial, ih⟩

theorem fits_calls {tr : List (Ev env)} {ps : List Bytes} {l : Bool} (h : FitsAll tr)
    (hc : callsOf tr = [⟨AppOp.write ps l, .ok ()⟩]) : Fits ps := by
  induction tr with
  | nil => cases hc
  | cons ev tr ih =>
    obtain ⟨e, r⟩ := ev
    cases e with
    | write ms l' =>
      injection hc with hc _
      cases hc
      exact h (ps, l) (by simp [writesOf])
    | read => injection hc with hc _; cases hc
    | _ => exact ih h hc

theorem app_sized (hL : BoxSize L) : Sized L App.handle (AppDir L) CallFits fun m => m.length < 2 ^ 31 := by
  intro cw cr w r raw q n d ms l i tr w' ps j hms hx hl hc
  refine fits_calls (App_write_size hL ms l hms w ?_ tr _ hx hl.answered) hc
  intro t m hm
  simp [pending, d.m4] at hm

theorem shake_sized (hL : BoxSize L) {cc cs : Clock} {cfgC : ClientCfg} {cfgS : ServerCfg} {kc ks : KeyPair}
    (S : Setup L cc cs cfgC cfgS kc ks) : ShakeSized L cc cs cfgC cfgS kc ks CallFits fun m => m.length < 2 ^ 31 := by
  have hh := S.honest
  have k1 := hh.dh.aPub
  have k2 := hh.dh.bPub
  have k3 := hh.sigC.pub
  have k4 := hh.sigS.pub
  refine ⟨by simp [HS.m1, Spec.m1, le32, k1], by simp [HS.m2, Spec.m2, le32, k2], ?_, ?_, ?_⟩
  · have := hL _ _ _ _ (HS.hc3 (sessTimes cc cs cfgS.bufferM2) hh).1
    simp only [HS.m3, Spec.m3, le32, List.length_append, List.length_take, k4, leBytes_length] at this
    simp [encrypted] at this ⊢
    omega
  · have := hL _ _ _ _ (HS.hc4 { sessTimes cc cs cfgS.bufferM2 with t4 := cc.now 3 } hh).1
    simp only [HS.m4, Spec.m4, le32, List.length_append, List.length_take, k3, leBytes_length] at this
    simp [encrypted] at this ⊢
    omega
  · intro s t sm hs ms l i tr w' ps j hms hx hl hc
    refine fits_calls (App_write_size hL ms l hms s ?_ tr _ hx hl.answered) hc
    intro t' m hm
    simp only [pending, hs, List.mem_singleton] at hm
    subst hm
    simp only [M34.setTime, Packet.toBytes, Packet.optBytes, setLE, List.length_append]
    rw [setBytes_length _ _ _ (by simp [Spec.m4, le32])]
    simp [Spec.m4, le32, k3]
    omega

/-- The network of a client and a server ends as the direct one does, and only short messages are sent. -/
theorem session_short (hL : BoxSize L) {cc cs : Clock} {cfgC : ClientCfg} {cfgS : ServerCfg} {kc ks : KeyPair}
    (S : Setup L cc cs cfgC cfgS kc ks) (pA : IT appSig α) (pB : IT appSig β) {n : Nat}
    (hn : n ≤ 2 ^ 62) (hA : Modest 65535 pA n) (hB : Modest 65535 pB n)
    (hb : cfgC.bufferM4 = true → ∃ ms l k, pA = .op (S := appSig) (.write ms l) k)
    (hc : Net.Calls CallFits (Net.start pA pB)) :
    ∃ key h1 h2, KeysOf L cc cs cfgS.bufferM2 kc ks key h1 h2 ∧ SameOutcome
      (ClientEnd key h1 h2 cfgS.sigKp.pub) (ServerEnd key h1 h2 cfgC.sigKp.pub)
      (Net.start pA pB)
      (Net.start (party L cc (clientSession cfgC pA) 0) (party L cs (serverSession cfgS pB) 0)) ∧
      Net.Calls Fits (Net.start (party L cc (clientSession cfgC pA) 0) (party L cs (serverSession cfgS pB) 0)) :=
  session_main S pA pB hn hA hB hb (shake_sized hL S) (app_sized hL) hc

end Salt
