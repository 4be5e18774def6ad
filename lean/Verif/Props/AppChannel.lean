import Verif.Lemmas.App

/-!
# Properties of the application channel (C28-C32)
-/

set_option linter.unusedSimpArgs false

namespace Salt.Props

open Salt Spec

theorem timesOf_append (a b : List (Ev env)) : timesOf (a ++ b) = timesOf a ++ timesOf b := by
  induction a with
  | nil => rfl
  | cons e a ih =>
    rcases e with ⟨op, res⟩
    cases op <;> cases res <;> simp [timesOf, ih]

/-- The encrypted channel never asks for the time. -/
theorem Enc_write_no_time (ms : List Bytes) (l : Bool) (s : EncSt) :
    wp (Enc.write ms l s) fun tr _ => timesOf tr = [] := by
  have h : ∀ (ms : List Bytes) (s : EncSt),
      wp (Enc.encryptAll l ms s) fun tr _ => timesOf tr = [] := by
    intro ms
    induction ms with
    | nil => intro s; simp [encryptAll_nil_run, timesOf]
    | cons m ms ih =>
      intro s
      rw [encryptAll_cons_run]
      split
      · simp [timesOf]
      · rw [wp_op]
        intro r
        cases r with
        | error e => simp [timesOf]
        | ok c =>
          simp only [wp_bind]
          refine wp_mono _ (ih _) ?_
          rintro tr ⟨r, s'⟩ h
          cases r <;> simpa [timesOf] using h
  rw [Enc_write_run, wp_bind]
  refine wp_mono _ (h ms s) ?_
  rintro tr ⟨r, s'⟩ h
  cases r with
  | error e => simpa using h
  | ok ps => simp only [wp_op, wp_ret]; intro r; rw [timesOf_append, h]; rfl

/-- Exactly what a write call does. -/
theorem App_write_wp (ms : List Bytes) (l : Bool) (s : AppSt) (hs : Std s.enc) :
    wp (App.write ms l s) fun tr b =>
      Adv s.enc tr b.2.enc ∧ opens tr = [] ∧ b.2.readQ = s.readQ ∧
      ((∃ e, tr = [⟨.time, .error e⟩] ∧ b = (.error e, s)) ∨
       (∃ t, timesOf tr = [t] ∧ b.2.bufferedM4 = none ∧
         (((seals tr).map (·.msg) = pending s t ++ appPackets t ms ∧
            ∃ ps, writesOf tr = [(ps, l)] ∧ ps.length = (pending s t ++ appPackets t ms).length) ∨
          (b.1 ≠ .ok () ∧ writesOf tr = [] ∧ (seals tr).map (·.msg) <+: pending s t ++ appPackets t ms)))) := by
  rw [App_write_run, wp_op]
  intro r
  cases r with
  | error e =>
    simp only [wp_ret, opens, seals]
    exact ⟨.inert ⟨rfl, rfl⟩ rfl rfl rfl rfl rfl, trivial, trivial, .inl ⟨e, rfl, rfl⟩⟩
  | ok t =>
    simp only [wp_bind]
    intro tr b hx
    obtain ⟨ha, ho, -, hw⟩ := Enc_write_wp l _ s.enc hs.1 tr b hx
    have ht := Enc_write_no_time _ _ _ tr b hx
    rcases b with ⟨r, e⟩
    simp only [wp_ret, List.append_nil, opens, seals, timesOf, writesOf]
    have hi : Adv s.enc [⟨.time, .ok t⟩] s.enc := .inert ⟨rfl, rfl⟩ rfl rfl rfl rfl rfl
    refine ⟨hi.trans ha, ho, trivial, .inr ⟨t, by rw [ht], trivial, ?_⟩⟩
    rcases hw with ⟨h1, h2⟩ | ⟨h1, h2, h3, -⟩
    · refine .inl ⟨h1, _, h2, ?_⟩
      have := congrArg List.length h1
      simpa using this
    · exact .inr ⟨h1, h2, h3⟩

/-- Every outcome of a read. -/
theorem App_read_wp (s : AppSt) (hs : Std s.enc) :
    wp (App.read s) fun tr b =>
      Adv s.enc tr b.2.enc ∧ seals tr = [] ∧ b.2.bufferedM4 = s.bufferedM4 ∧ timesOf tr = [] ∧
      writesOf tr = [] ∧
      match b.1 with
      | .ok m =>
        (s.readQ = m :: b.2.readQ ∧ tr = [] ∧ b.2.enc = s.enc) ∨
        (s.readQ = [] ∧ ∃ x t, opens tr = [x] ∧ appParse x.msg = .ok (t, .ok (m, b.2.readQ)))
      | .error _ => s.readQ = [] ∧ b.2.readQ = [] ∧
        (opens tr = [] ∨ ∃ x, opens tr = [x] ∧
          ((∃ t e, ⟨EnvOp.check t, .error e⟩ ∈ tr) ∨
            ¬ ∃ t m q, appParse x.msg = .ok (t, .ok (m, q)))) := by
  cases hq : s.readQ with
  | cons m q =>
    rw [App_read_queued s m q hq]
    simp only [wp_ret, seals, timesOf, writesOf]
    exact ⟨.refl _, trivial, trivial, trivial, trivial, .inl ⟨trivial, trivial, trivial⟩⟩
  | nil =>
    rw [App_read_run s hq, wp_bind]
    rintro tr ⟨r, e⟩ hx
    have hA := Enc_read_wp s.enc hs.1 hs.2 _ _ hx
    obtain ⟨ha, hse, -, ho⟩ := hA
    have hc := read_call hs hx
    have hquiet : timesOf tr = [] ∧ writesOf tr = [] ∧ ∀ t r, ⟨EnvOp.check t, r⟩ ∉ tr := by
      rcases hc with ⟨e, rfl, -⟩ | ⟨raw, e, rfl, -⟩ | ⟨raw, x, rfl, -⟩ <;> simp [timesOf, writesOf]
    obtain ⟨ht, hw, hchk⟩ := hquiet
    have hchk' : ∀ t r, Inert [⟨EnvOp.check t, r⟩] := fun _ _ => ⟨rfl, rfl⟩
    cases r with
    | error x =>
      simp only [wp_ret, List.append_nil]
      exact ⟨ha, hse, trivial, ht, hw, trivial, hq, .inl ho⟩
    | ok raw =>
      obtain ⟨xx, ho', hraw⟩ : ∃ xx, opens tr = [xx] ∧ raw = xx.msg := ⟨_, ho, rfl⟩
      clear ho
      subst hraw
      simp only []
      cases hp : appParse xx.msg with
      | error x =>
        simp only [wp_ret, List.append_nil]
        exact ⟨ha, hse, trivial, ht, hw, trivial, hq, .inr ⟨xx, ho', .inr (by simp [hp])⟩⟩
      | ok tres =>
        obtain ⟨t, res⟩ := tres
        simp only [wp_op]
        intro r
        have hadv : Adv s.enc (tr ++ [⟨.check t, r⟩]) e :=
          ha.trans (.inert (hchk' t r) rfl rfl rfl rfl rfl)
        have h1 : seals (tr ++ [⟨.check t, r⟩]) = [] := by
          rw [seals_append, hse, (hchk' t r).1]; rfl
        have h2 : opens (tr ++ [⟨.check t, r⟩]) = [xx] := by
          rw [opens_append, ho', (hchk' t r).2]; rfl
        have h3 : timesOf (tr ++ [⟨.check t, r⟩]) = [] := by rw [timesOf_append, ht]; rfl
        have h4 : writesOf (tr ++ [⟨.check t, r⟩]) = [] := by rw [writesOf_append, hw]; rfl
        cases r with
        | error x =>
          simp only [wp_ret]
          exact ⟨hadv, h1, trivial, h3, h4, trivial, hq, .inr ⟨xx, h2, .inl ⟨t, x, by simp⟩⟩⟩
        | ok u =>
          cases res with
          | error x =>
            simp only [wp_ret]
            exact ⟨hadv, h1, trivial, h3, h4, trivial, hq, .inr ⟨xx, h2, .inr (by simp [hp])⟩⟩
          | ok mq =>
            obtain ⟨m, q⟩ := mq
            simp only [wp_ret]
            exact ⟨hadv, h1, trivial, h3, h4, .inr ⟨trivial, xx, t, h2, hp⟩⟩

/-! ### C28, C30: what is sent -/

/-- C28: a write call that reaches the network sends, in one channel write, one multi packet if it
carries at least two messages of at most 65535 bytes each, otherwise one app packet per message, in
order, stamped with the time asked for in this call (no M4 being buffered). -/
theorem C28_packets_of_a_write (s s' : AppSt) (hs : Std s.enc) (hb : s.bufferedM4 = none)
    (ms : List Bytes) (l : Bool) (tr : List (Ev env)) (h : Call (App.write ms l) s tr (.ok ()) s') :
    ∃ t ps, timesOf tr = [t] ∧ writesOf tr = [(ps, l)] ∧
      (2 ≤ ms.length → (∀ m ∈ ms, m.length ≤ 65535) →
        (seals tr).map (·.msg) = [multiApp t ms] ∧ ps.length = 1) ∧
      (¬ (2 ≤ ms.length ∧ ∀ m ∈ ms, m.length ≤ 65535) →
        (seals tr).map (·.msg) = ms.map (app t) ∧ ps.length = ms.length) := by
  obtain ⟨-, -, -, h⟩ := App_write_wp ms l s hs _ _ h
  rcases h with ⟨e, -, h⟩ | ⟨t, ht, -, h⟩
  · simp at h
  · simp only [pending, hb, List.nil_append] at h
    rcases h with ⟨h1, ps, h2, h3⟩ | ⟨h1, -⟩
    · refine ⟨t, ps, ht, h2, fun ha hb => ?_, fun hn => ?_⟩
      · rw [h1, h3, appPackets, if_pos ⟨ha, hb⟩]; simp
      · rw [h1, h3, appPackets, if_neg hn]; simp
    · simp at h1

/-- A channel for the examples. -/
def exApp : AppSt := ⟨exC, none, []⟩

example : ∃ s', Call (App.write [[1], [2]] false) exApp
    [⟨.time, .ok 7⟩, ⟨.box (multiApp 7 [[1], [2]]) (Spec.nonce 1) exKey, .ok [1, 1]⟩,
     ⟨.write [[6, 0, 1, 1]] false, .ok ()⟩] (.ok ()) s' :=
  ⟨_, .op _ _ _ _ _ (.op _ _ _ _ _ (.op _ _ _ _ _ (.ret _)))⟩

/-- The M4 that is still to be sent, as a function of the time it will carry. -/
def m4Of (s : AppSt) : Option (Nat → Bytes) :=
  s.bufferedM4.map fun m4 t => (M34.setTime m4 t).toBytes

theorem pending_eq (s : AppSt) (t : Nat) : pending s t = ((m4Of s).map fun f => f t).toList := by
  unfold pending m4Of
  cases s.bufferedM4 <;> rfl

theorem CarryAll.append {ps qs ms ns : List Bytes} (h : CarryAll ps ms) (h' : CarryAll qs ns) :
    CarryAll (ps ++ qs) (ms ++ ns) := by
  induction h with
  | nil => exact h'
  | cons hc _ ih => rw [List.cons_append, List.append_assoc]; exact .cons hc ih

theorem appPackets_carry (t : Nat) (ms : List Bytes) (h : ms.length ≤ 65535) :
    CarryAll (appPackets t ms) ms := by
  unfold appPackets
  split
  · rename_i hc
    have := CarryAll.cons (.multi t ms (by omega) h hc.2) .nil
    rwa [List.append_nil] at this
  · induction ms with
    | nil => exact .nil
    | cons m ms ih =>
      refine CarryAll.cons (ms := [m]) (.app t m) ?_
      clear ih
      rename_i h1; clear h1 h
      induction ms with
      | nil => exact .nil
      | cons m ms ih => exact CarryAll.cons (ms := [m]) (.app t m) ih

theorem carries_parse {p : Bytes} {ms : List Bytes} (h : Carries p ms) :
    ∃ t m q, ms = m :: q ∧ appParse p = .ok (t, .ok (m, q)) := by
  cases h with
  | app t m => exact ⟨_, m, [], rfl, appParse_app t m⟩
  | multi t ms h1 h2 h3 =>
    match ms, h1 with
    | m :: q, _ => exact ⟨_, m, q, rfl, appParse_multi t m q h2 h3⟩

/-- What a sequence of calls sends and returns. -/
theorem appAll_wp (ops : List AppOp) (s : AppSt) (hs : Std s.enc) :
    wp (callAll appOps ops s) fun tr b => Adv s.enc tr b.2.enc ∧
      (s.bufferedM4 = none → b.2.bufferedM4 = none) ∧
      (WritesOk b.1 → (seals tr).map (·.msg) = plaintexts (m4Of s) ops (timesOf tr)) ∧
      (s.bufferedM4 = none → ShortWrites ops → WritesOk b.1 →
        CarryAll ((seals tr).map (·.msg)) (wroteMsgs b.1)) ∧
      (ChecksOk tr → ∀ msgs, CarryAll ((opens tr).map (·.msg)) msgs →
        readMsgs b.1 ++ b.2.readQ = s.readQ ++ msgs) := by
  induction ops generalizing s with
  | nil =>
    simp only [callAll, wp_ret, opens, seals, readMsgs, wroteMsgs, plaintexts, List.map_nil]
    refine ⟨.refl _, fun h => h, fun _ => trivial, fun _ _ _ => .nil, fun _ msgs h => ?_⟩
    cases h
    simp
  | cons op ops ih =>
    cases op with
    | read =>
      simp only [callAll, wp_bind, appOps]
      refine wp_mono _ (App_read_wp s hs) ?_
      rintro tr ⟨r, s'⟩ ⟨ha, hse, hb, ht, hw, hr⟩
      refine wp_mono _ (ih s' (hs.adv ha)) ?_
      rintro tr' ⟨ds, s''⟩ ⟨ha', h1, h2, h3, h4⟩
      simp only [wp_ret, List.append_nil] at *
      have hW : WritesOk (.read r :: ds) → WritesOk ds :=
        fun h ms l r hm => h ms l r (List.mem_cons_of_mem _ hm)
      have hm4 : m4Of s' = m4Of s := by simp [m4Of, hb]
      refine ⟨ha.trans ha', fun h => h1 (hb.trans h), fun h => ?_, fun hn hsw h => ?_, ?_⟩
      · rw [seals_append, hse, timesOf_append, ht, List.nil_append, List.nil_append, h2 (hW h), hm4]
        rfl
      · rw [seals_append, hse, wroteMsgs_cons]
        exact h3 (hb.trans hn) (fun ms l hm => hsw ms l (List.mem_cons_of_mem _ hm)) (hW h)
      · intro hck msgs hc
        have hck1 : ChecksOk tr := fun t r h => hck t r (List.mem_append_left _ h)
        have hck2 : ChecksOk tr' := fun t r h => hck t r (List.mem_append_right _ h)
        rw [opens_append, List.map_append] at hc
        rw [readMsgs_cons]
        cases r with
        | error e =>
          obtain ⟨hq, hq', ho⟩ := hr
          have ho : opens tr = [] := by
            rcases ho with ho | ⟨x, hx, ⟨t, e, hm⟩ | hbad⟩
            · exact ho
            · have := hck1 t _ hm; simp at this
            · rw [hx] at hc
              cases hc with
              | cons hcar _ =>
                obtain ⟨t, m, q, -, hp⟩ := carries_parse hcar
                exact absurd ⟨t, m, q, hp⟩ hbad
          rw [ho] at hc
          have := h4 hck2 msgs hc
          simp only [readMsgs, List.nil_append, hq, this, hq']
        | ok m =>
          simp only [readMsgs, List.cons_append, List.nil_append]
          rcases hr with ⟨hq, htr, -⟩ | ⟨hq, x, t, hx, hp⟩
          · rw [htr] at hc
            have := h4 hck2 msgs hc
            rw [this, hq]; rfl
          · rw [hx] at hc
            generalize hps : (opens tr').map (·.msg) = ps at hc
            cases hc with
            | cons hcar hrest =>
              obtain ⟨t', m', q', rfl, hp'⟩ := carries_parse hcar
              rw [hp'] at hp
              simp only [Except.ok.injEq, Prod.mk.injEq] at hp
              obtain ⟨-, rfl, rfl⟩ := hp
              have hrest : CarryAll ps _ := hrest
              have := h4 hck2 _ (hps ▸ hrest)
              rw [this, hq]; rfl
    | write ms l =>
      simp only [callAll, wp_bind, appOps]
      refine wp_mono _ (App_write_wp ms l s hs) ?_
      rintro tr ⟨r, s'⟩ ⟨ha, ho, hq, hr⟩
      refine wp_mono _ (ih s' (hs.adv ha)) ?_
      rintro tr' ⟨ds, s''⟩ ⟨ha', h1, h2, h3, h4⟩
      simp only [wp_ret, List.append_nil] at *
      have hW : WritesOk (.write ms l r :: ds) → WritesOk ds :=
        fun h ms l r hm => h ms l r (List.mem_cons_of_mem _ hm)
      have hW' : WritesOk (.write ms l r :: ds) → r = .ok () :=
        fun h => h ms l r (List.mem_cons_self ..)
      refine ⟨ha.trans ha', fun hn => ?_, fun h => ?_, fun hn hsw h => ?_, ?_⟩
      · rcases hr with ⟨e, -, hb⟩ | ⟨t, -, hb, -⟩
        · simp only [Prod.mk.injEq] at hb; exact h1 (hb.2 ▸ hn)
        · exact h1 hb
      · have := hW' h; subst this
        rcases hr with ⟨e, -, hb⟩ | ⟨t, ht, hb, hr⟩
        · simp at hb
        · rcases hr with ⟨hse, -⟩ | ⟨hbad, -⟩
          · have hm : m4Of s' = none := by simp [m4Of, hb]
            rw [seals_append, List.map_append, hse, timesOf_append, ht, h2 (hW h), hm, pending_eq]
            simp [plaintexts]
          · simp at hbad
      · have := hW' h; subst this
        rcases hr with ⟨e, -, hb⟩ | ⟨t, ht, hb, hr⟩
        · simp at hb
        · rcases hr with ⟨hse, -⟩ | ⟨hbad, -⟩
          · rw [seals_append, List.map_append, hse, wroteMsgs_cons]
            refine CarryAll.append ?_ (h3 hb (fun ms l hm => hsw ms l (List.mem_cons_of_mem _ hm)) (hW h))
            simp only [pending, hn, List.nil_append, wroteMsgs, List.append_nil]
            exact appPackets_carry t ms (hsw ms l (List.mem_cons_self ..))
          · simp at hbad
      · intro hck msgs hc
        have hck2 : ChecksOk tr' := fun t r h => hck t r (List.mem_append_right _ h)
        rw [opens_append, ho, List.nil_append] at hc
        rw [readMsgs_cons, ← hq]
        exact h4 hck2 msgs hc

/-! ### C27: first in, first out -/

theorem CarryAll.prefix {ps qs ms ns : List Bytes} (hp : ps <+: qs) (h : CarryAll ps ms)
    (h' : CarryAll qs ns) : ms <+: ns := by
  induction h generalizing qs ns with
  | nil => simp
  | cons hc _ ih =>
    cases h' with
    | nil => simp at hp
    | @cons p' ms' ps' msgs' hc' hr' =>
      rw [List.cons_prefix_cons] at hp
      obtain ⟨rfl, hp⟩ := hp
      obtain ⟨t, m, q, rfl, h1⟩ := carries_parse hc
      obtain ⟨t', m', q', rfl, h2⟩ := carries_parse hc'
      rw [h1] at h2
      simp only [Except.ok.injEq, Prod.mk.injEq] at h2
      obtain ⟨-, rfl, rfl⟩ := h2
      exact (List.prefix_append_right_inj _).2 (ih hp hr')

theorem CarryAll.of_prefix {ps qs ns : List Bytes} (hp : ps <+: qs) (h' : CarryAll qs ns) :
    ∃ ms, CarryAll ps ms := by
  induction h' generalizing ps with
  | nil => have : ps = [] := by simpa using hp
           subst this; exact ⟨_, .nil⟩
  | @cons p ms qs msgs hc _ ih =>
    cases ps with
    | nil => exact ⟨_, .nil⟩
    | cons a ps =>
      rw [List.cons_prefix_cons] at hp
      obtain ⟨rfl, hp⟩ := hp
      obtain ⟨ms', h⟩ := ih hp
      exact ⟨_, .cons hc h⟩

/-- C27: one side performs any calls, its writes succeed and carry at most 65535 messages each; the other
side performs any calls, and the packets it decrypts are the first ones the writer sent, in order (a
reliable network; which ones it decrypts depends on how often it reads), and the time checker does not
complain.  Then the messages it has returned, followed by the ones waiting in its queue, are a prefix of
the messages written, one per successful read call; if it has decrypted everything and its queue is
empty, they are all of them. -/
theorem C27_app_fifo (w w' r r' : AppSt) (hw : Std w.enc) (hr : Std r.enc) (hb : w.bufferedM4 = none)
    (hq : r.readQ = []) (wops rops : List AppOp) (wd rd : List Done) (wtr rtr : List (Ev env))
    (hwx : Exec (callAll appOps wops w) wtr (wd, w')) (hrx : Exec (callAll appOps rops r) rtr (rd, r'))
    (hsw : ShortWrites wops) (hwok : WritesOk wd) (hck : ChecksOk rtr)
    (delivered : (opens rtr).map (·.msg) <+: (seals wtr).map (·.msg)) :
    readMsgs rd ++ r'.readQ <+: wroteMsgs wd ∧
    ((opens rtr).length = (seals wtr).length → r'.readQ = [] → readMsgs rd = wroteMsgs wd) := by
  obtain ⟨-, -, -, h3, -⟩ := appAll_wp wops w hw _ _ hwx
  obtain ⟨-, -, -, -, h4⟩ := appAll_wp rops r hr _ _ hrx
  have hc := h3 hb hsw hwok
  obtain ⟨msgs, hm⟩ := CarryAll.of_prefix delivered hc
  have he := h4 hck msgs hm
  rw [hq, List.nil_append] at he
  simp only at he
  refine ⟨he ▸ CarryAll.prefix delivered hm hc, fun hlen hq' => ?_⟩
  have heq := delivered.eq_of_length (by simpa using hlen)
  have h1 : msgs <+: wroteMsgs wd := CarryAll.prefix delivered hm hc
  have h2 : wroteMsgs wd <+: msgs := CarryAll.prefix (heq ▸ List.prefix_refl _) hc hm
  rw [hq', List.append_nil] at he
  rw [he]
  exact h1.eq_of_length (Nat.le_antisymm h1.length_le h2.length_le)

/-! Two writes (one multi packet, one app packet); three reads. -/

/-- Ciphertexts of the example. -/
def exP1 : Bytes := toyTag (Spec.nonce 1) exKey ++ multiApp 7 [[1], [2]]
/-- Second ciphertext. -/
def exP2 : Bytes := toyTag (Spec.nonce 3) exKey ++ app 8 [3]
/-- Trace of the writer. -/
def exWtr : List (Ev env) :=
  [⟨.time, .ok 7⟩, ⟨.box (multiApp 7 [[1], [2]]) (Spec.nonce 1) exKey, .ok exP1⟩,
   ⟨.write [Spec.encrypted false exP1] false, .ok ()⟩,
   ⟨.time, .ok 8⟩, ⟨.box (app 8 [3]) (Spec.nonce 3) exKey, .ok exP2⟩,
   ⟨.write [Spec.encrypted false exP2] false, .ok ()⟩]
/-- Trace of the reader. -/
def exRtr : List (Ev env) :=
  [⟨.read, .ok (Spec.encrypted false exP1)⟩,
   ⟨.boxOpen exP1 (Spec.nonce 1) exKey, .ok (multiApp 7 [[1], [2]])⟩, ⟨.check 7, .ok ()⟩,
   ⟨.read, .ok (Spec.encrypted false exP2)⟩,
   ⟨.boxOpen exP2 (Spec.nonce 3) exKey, .ok (app 8 [3])⟩, ⟨.check 8, .ok ()⟩]

example :
    (∃ w', Exec (callAll appOps [.write [[1], [2]] false, .write [[3]] false] exApp) exWtr
      ([.write [[1], [2]] false (.ok ()), .write [[3]] false (.ok ())], w')) ∧
    (∃ r', Exec (callAll appOps [.read, .read, .read] ⟨exS, none, []⟩) exRtr
      ([.read (.ok [1]), .read (.ok [2]), .read (.ok [3])], r')) ∧
    (opens exRtr).map (·.msg) <+: (seals exWtr).map (·.msg) := by
  refine ⟨⟨_, .op _ _ _ _ _ (.op _ _ _ _ _ (.op _ _ _ _ _ (.op _ _ _ _ _ (.op _ _ _ _ _
      (.op _ _ _ _ _ (.ret _))))))⟩,
    ⟨_, .op _ _ _ _ _ (.op _ _ _ _ _ (.op _ _ _ _ _ (.op _ _ _ _ _ (.op _ _ _ _ _
      (.op _ _ _ _ _ (.ret _))))))⟩, by decide⟩

/-! ### C58: the application channel over an adversarial network -/

/-- C58: two application channels with the same key, any calls on both sides, any network.  If every
ciphertext that was opened had been produced by one of the two channels with that nonce for that message,
no write raised, no write carried more than 65535 messages, and no time check failed, then the messages
each side has read are a prefix of those the other has written. -/
theorem C58_app_received_prefix_of_sent (key : Bytes) (c0 s0 : EncSt) (c1 s1 : AppSt)
    (hc : Enc.init key .client = .ok c0) (hs : Enc.init key .server = .ok s0)
    (cops sops : List AppOp) (cdone sdone : List Done) (ctr str : List (Ev env))
    (hcx : Exec (callAll appOps cops (App.init c0)) ctr (cdone, c1))
    (hsx : Exec (callAll appOps sops (App.init s0)) str (sdone, s1))
    (integrity : ∀ x ∈ opens ctr ++ opens str, x ∈ seals ctr ++ seals str)
    (hshort : ShortWrites (cops ++ sops)) (hwok : WritesOk (cdone ++ sdone))
    (hck : ChecksOk (ctr ++ str)) :
    readMsgs cdone <+: wroteMsgs sdone ∧ readMsgs sdone <+: wroteMsgs cdone := by
  obtain ⟨-, rfl⟩ := init_ok hc
  obtain ⟨-, rfl⟩ := init_ok hs
  have ha := (appAll_wp cops _ (⟨rfl, rfl⟩ : Std (App.init _).enc) _ _ hcx).1
  have ha' := (appAll_wp sops _ (⟨rfl, rfl⟩ : Std (App.init _).enc) _ _ hsx).1
  have h1 := opens_prefix ha ha' rfl (by simp [App.init]) fun x hx => by
    simpa using integrity x (List.mem_append_left _ hx)
  have h2 := opens_prefix ha' ha rfl (by simp [App.init]) fun x hx => by
    simpa [or_comm] using integrity x (List.mem_append_right _ hx)
  constructor
  · have := (C27_app_fifo _ _ _ _ (⟨rfl, rfl⟩ : Std (App.init _).enc) ⟨rfl, rfl⟩ rfl rfl _ _ _ _ _ _
      hsx hcx (fun ms l h => hshort ms l (List.mem_append_right _ h))
      (fun ms l r h => hwok ms l r (List.mem_append_right _ h))
      (fun t r h => hck t r (List.mem_append_left _ h)) (h1.map (·.msg))).1
    exact (List.prefix_append _ _).trans this
  · have := (C27_app_fifo _ _ _ _ (⟨rfl, rfl⟩ : Std (App.init _).enc) ⟨rfl, rfl⟩ rfl rfl _ _ _ _ _ _
      hcx hsx (fun ms l h => hshort ms l (List.mem_append_left _ h))
      (fun ms l r h => hwok ms l r (List.mem_append_left _ h))
      (fun t r h => hck t r (List.mem_append_right _ h)) (h2.map (·.msg))).1
    exact (List.prefix_append _ _).trans this

/-! The run above meets the hypotheses (`exApp` is `App.init exC`). -/
example : App.init exC = exApp ∧ (∀ x ∈ opens exWtr ++ opens exRtr, x ∈ seals exWtr ++ seals exRtr) :=
  ⟨rfl, by decide⟩

/-! ### C30: a buffered M4 -/

theorem m4_setTime (t0 t : Nat) (key sig : Bytes) :
    (M34.setTime ⟨Spec.m4 t0 key sig, none⟩ t).toBytes = Spec.m4 t key sig := by
  simp only [M34.setTime, Packet.toBytes, Packet.optBytes, Option.getD_none, List.append_nil, Spec.m4,
    setLE, List.append_assoc]
  have := setBytes_append_mid [4, 0] (Spec.le32 t0) (key ++ sig) (leBytes 4 t) (i := 2) (by simp)
    (by simp)
  simpa [leBytes_four] using this

/-- C30: an application channel holding a buffered M4.
1. A read neither sends anything nor touches the M4.
2. A write call either stops because no time could be obtained, with nothing sent and the M4 still
   buffered, or the M4 is no longer buffered afterwards and what was encrypted is (if the call succeeded:
   exactly, and sent in one channel write) the M4 with the time of this call followed by the packets of
   this call.
3. Without a buffered M4, none appears.
4. Over any sequence of calls whose writes succeed, exactly the M4 once before the packets of the first
   write, and the packets of all writes, are encrypted. -/
theorem C30_buffered_m4_once (s : AppSt) (hs : Std s.enc) (t0 : Nat) (key sig : Bytes)
    (hb : s.bufferedM4 = some ⟨Spec.m4 t0 key sig, none⟩) :
    (∀ tr r s', Call App.read s tr r s' →
      seals tr = [] ∧ writesOf tr = [] ∧ s'.bufferedM4 = s.bufferedM4) ∧
    (∀ ms l tr r s', Call (App.write ms l) s tr r s' →
      (r ≠ .ok () ∧ seals tr = [] ∧ writesOf tr = [] ∧ s' = s) ∨
      (∃ t, timesOf tr = [t] ∧ s'.bufferedM4 = none ∧
        (seals tr).map (·.msg) <+: Spec.m4 t key sig :: appPackets t ms ∧
        (r = .ok () → (seals tr).map (·.msg) = Spec.m4 t key sig :: appPackets t ms ∧
          ∃ ps, writesOf tr = [(ps, l)] ∧ ps.length = 1 + (appPackets t ms).length))) ∧
    (∀ (u : AppSt) ops tr ds u', Std u.enc → u.bufferedM4 = none →
      Exec (callAll appOps ops u) tr (ds, u') → u'.bufferedM4 = none ∧
      (WritesOk ds → (seals tr).map (·.msg) = plaintexts none ops (timesOf tr))) ∧
    (∀ ops tr ds s', Exec (callAll appOps ops s) tr (ds, s') → WritesOk ds →
      (seals tr).map (·.msg) = plaintexts (some fun t => Spec.m4 t key sig) ops (timesOf tr)) := by
  have hp : ∀ t, pending s t = [Spec.m4 t key sig] := by
    intro t; simp only [pending, hb, m4_setTime]
  refine ⟨fun tr r s' h => ?_, fun ms l tr r s' h => ?_, fun u ops tr ds u' hu hn h => ?_,
    fun ops tr ds s' h hok => ?_⟩
  · obtain ⟨-, h1, h2, -, h3, -⟩ := App_read_wp s hs _ _ h
    exact ⟨h1, h3, h2⟩
  · obtain ⟨-, -, -, hh⟩ := App_write_wp ms l s hs _ _ h
    clear h
    rcases hh with ⟨e, rfl, h⟩ | ⟨t, ht, hn, h⟩
    · have h0 := congrArg Prod.fst h
      have h' := congrArg Prod.snd h
      simp only at h0 h'
      exact .inl ⟨by simp [h0], rfl, rfl, h'⟩
    · rw [hp t] at h
      refine .inr ⟨t, ht, hn, ?_⟩
      rcases h with ⟨h1, ps, h2, h3⟩ | ⟨h1, h2, h3⟩
      · exact ⟨h1 ▸ List.prefix_refl _, fun _ => ⟨h1, ps, h2, by rw [h3]; simp; omega⟩⟩
      · exact ⟨h3, fun h => absurd h h1⟩
  · obtain ⟨-, h1, h2, -, -⟩ := appAll_wp ops u hu _ _ h
    have : m4Of u = none := by simp [m4Of, hn]
    exact ⟨h1 hn, fun hok => by rw [h2 hok, this]⟩
  · obtain ⟨-, -, h2, -, -⟩ := appAll_wp ops s hs _ _ h
    have : m4Of s = some fun t => Spec.m4 t key sig := by
      simp only [m4Of, hb, Option.map_some]
      congr 1
      funext t
      exact m4_setTime t0 t key sig
    rw [h2 hok, this]

example : ∃ s', Exec (callAll appOps [.write [[1]] false, .write [[2]] false]
      ⟨exC, some ⟨Spec.m4 0 (zeros 32) (zeros 64), none⟩, []⟩)
    [⟨.time, .ok 7⟩, ⟨.box (Spec.m4 7 (zeros 32) (zeros 64)) (Spec.nonce 1) exKey, .ok [4]⟩,
     ⟨.box (app 7 [1]) (Spec.nonce 3) exKey, .ok [5]⟩, ⟨.write [[6, 0, 4], [6, 0, 5]] false, .ok ()⟩,
     ⟨.time, .ok 8⟩, ⟨.box (app 8 [2]) (Spec.nonce 5) exKey, .ok [6]⟩,
     ⟨.write [[6, 0, 6]] false, .ok ()⟩]
    ([.write [[1]] false (.ok ()), .write [[2]] false (.ok ())], s') :=
  ⟨_, .op _ _ _ _ _ (.op _ _ _ _ _ (.op _ _ _ _ _ (.op _ _ _ _ _ (.op _ _ _ _ _
      (.op _ _ _ _ _ (.op _ _ _ _ _ (.ret _)))))))⟩

/-! ### C31: queued messages -/

theorem read_queue (q q' : List Bytes) (s : AppSt) (hq : s.readQ = q ++ q') :
    callAll appOps (List.replicate q.length .read) s =
      .ret (q.map fun m => .read (.ok m), { s with readQ := q' }) := by
  induction q generalizing s with
  | nil =>
    cases s
    simp only [List.nil_append] at hq
    subst hq
    rfl
  | cons m q ih =>
    simp only [List.length_cons, List.replicate_succ, callAll, appOps]
    rw [App_read_queued s m (q ++ q') hq]
    simp only [IT.ret_bind]
    rw [ih _ rfl]
    rfl

/-- C31: an empty queue, and the next packet holds `n` messages in a multi packet: `n` successive reads
touch the network (and the library, and the time checker) exactly once, and return the `n` messages in
order. -/
theorem C31_queue_before_network (s s' : AppSt) (hs : Std s.enc) (hq : s.readQ = []) (t : Nat)
    (msgs : List Bytes) (h1 : 1 ≤ msgs.length) (h2 : msgs.length ≤ 65535)
    (h3 : ∀ m ∈ msgs, m.length ≤ 65535) (raw c n k : Bytes) (tr : List (Ev env)) (ds : List Done)
    (hx : Exec (callAll appOps (List.replicate msgs.length .read) s)
      (⟨.read, .ok raw⟩ :: ⟨.boxOpen c n k, .ok (multiApp t msgs)⟩ :: ⟨.check (t % 2 ^ 32), .ok ()⟩ :: tr)
      (ds, s')) :
    tr = [] ∧ ds = msgs.map (fun m => .read (.ok m)) ∧ s'.readQ = [] := by
  match msgs, h1 with
  | m :: q, _ =>
    simp only [List.length_cons, List.replicate_succ, callAll, appOps] at hx
    rw [App_read_run s hq, IT.bind_assoc, Exec_bind] at hx
    obtain ⟨tr1, ⟨r, e⟩, tr2, htr, hr, hx⟩ := hx
    rcases read_call hs hr with ⟨e', rfl, -⟩ | ⟨raw', e', rfl, rfl, -⟩ | ⟨raw', x, rfl, -, -, -, -, hx'⟩
    · simp at htr
    · simp only [List.cons_append, List.nil_append, List.cons.injEq] at htr
      obtain ⟨-, rfl⟩ := htr
      have he : Std e := hs.adv (Enc_read_wp s.enc hs.1 hs.2 _ _ hr).1
      simp only [IT.ret_bind] at hx
      cases q with
      | nil => simp [callAll] at hx
      | cons m' q =>
        simp only [List.length_cons, List.replicate_succ, callAll, appOps] at hx
        rw [App_read_run ⟨e, s.bufferedM4, s.readQ⟩ hq, Enc_read_run, if_neg (by simp [he.2])] at hx
        simp [Exec_op] at hx
    · simp only [List.cons_append, List.nil_append, List.cons.injEq, Ev.mk.injEq] at htr
      obtain ⟨-, ⟨h4, h5⟩, rfl⟩ := htr
      simp only [EnvOp.boxOpen.injEq] at h4
      obtain ⟨rfl, rfl, rfl⟩ := h4
      rw [heq_eq_eq] at h5
      subst h5
      obtain ⟨rfl, -⟩ := hx'
      simp only [appParse_multi t m q h2 h3, IT.op_bind, Exec_op_cons, IT.ret_bind] at hx
      have := read_queue q [] { s with enc := e, readQ := q } (by simp)
      rw [this] at hx
      simp only [IT.ret_bind, Exec_ret, Prod.mk.injEq] at hx
      obtain ⟨rfl, rfl, rfl⟩ := hx
      exact ⟨rfl, rfl, rfl⟩

example : ∃ s', Exec (callAll appOps [.read, .read] ⟨exS, none, []⟩)
    [⟨.read, .ok (Spec.encrypted false exP1)⟩,
     ⟨.boxOpen exP1 (Spec.nonce 1) exKey, .ok (multiApp 7 [[1], [2]])⟩, ⟨.check 7, .ok ()⟩]
    ([.read (.ok [1]), .read (.ok [2])], s') :=
  ⟨_, .op _ _ _ _ _ (.op _ _ _ _ _ (.op _ _ _ _ _ (.ret _)))⟩

/-! ### C32: failed reads -/

/-- C32: a read that raises had an empty queue and leaves it empty, keeps a buffered M4, sends nothing,
leaves the write position and the key; it leaves the read position as well, unless the packet was
authentic (then it is consumed). -/
theorem C32_failed_read_keeps_state (s s' : AppSt) (hs : Std s.enc) (tr : List (Ev env)) (e : Err)
    (h : Call App.read s tr (.error e) s') :
    s.readQ = [] ∧ s'.readQ = [] ∧ s'.bufferedM4 = s.bufferedM4 ∧ writesOf tr = [] ∧
    s'.enc.writeNonce = s.enc.writeNonce ∧ s'.enc.key = s.enc.key ∧
    s'.enc.readNonce = s.enc.readNonce + 2 * (opens tr).length ∧ (opens tr).length ≤ 1 := by
  obtain ⟨ha, h1, h2, -, h3, h4, h5, h6⟩ := App_read_wp s hs _ _ h
  refine ⟨h4, h5, h2, h3, ?_, ha.key, ha.r, ?_⟩
  · have := ha.w; rw [h1] at this; simpa using this
  · rcases h6 with h | ⟨x, h, -⟩ <;> rw [h] <;> simp

/-- Hence a run of calls in which only reads fail returns the same messages as if the failed reads had
not been made: every message of every accepted packet, once, in order. -/
theorem C32_messages_of_accepted_packets (s s' : AppSt) (hs : Std s.enc) (ops : List AppOp)
    (tr : List (Ev env)) (ds : List Done) (hx : Exec (callAll appOps ops s) tr (ds, s'))
    (hck : ChecksOk tr) (msgs : List Bytes) (hc : CarryAll ((opens tr).map (·.msg)) msgs) :
    readMsgs ds ++ s'.readQ = s.readQ ++ msgs :=
  (appAll_wp ops s hs _ _ hx).2.2.2.2 hck msgs hc

example : ∃ s', Call App.read ⟨exS, none, []⟩ [⟨.read, .ok [1, 2, 3]⟩] (.error .badPeer) s' :=
  ⟨_, .op _ _ _ _ _ (.ret _)⟩

/-! ### C29: more than 65535 messages -/

/-- What a reader makes of a multi packet built from any number of messages: the 16-bit count keeps only
the remainder modulo 65536. -/
theorem multi_count_wraps (t : Nat) (msgs : List Bytes) (h3 : ∀ m ∈ msgs, m.length ≤ 65535) :
    (msgs.length % 65536 = 0 → appParse (multiApp t msgs) = .error .badPeer) ∧
    (∀ m q, msgs.take (msgs.length % 65536) = m :: q →
      appParse (multiApp t msgs) = .ok (t % 2 ^ 32, .ok (m, q))) := by
  have hd6 : ((Spec.multiApp t msgs).drop 6).take 2 = Spec.le16 msgs.length := by
    simp [Spec.multiApp, Spec.le32, Spec.le16]
  have hc : leNat (Spec.le16 msgs.length) = msgs.length % 65536 := by
    rw [← leBytes_two, leNat_leBytes]
  have hd8 : (Spec.multiApp t msgs).drop 8
      = ((msgs.take (msgs.length % 65536)).map fun m => Spec.le16 m.length ++ m).flatten ++
        ((msgs.drop (msgs.length % 65536)).map fun m => Spec.le16 m.length ++ m).flatten := by
    rw [← List.flatten_append, ← List.map_append, List.take_append_drop]
    simp [Spec.multiApp, Spec.le32, Spec.le16]
  have hlen : (msgs.take (msgs.length % 65536)).length = msgs.length % 65536 := by
    rw [List.length_take]; have := Nat.mod_le msgs.length 65536; omega
  have hpr : parseRest (msgs.length % 65536) ((Spec.multiApp t msgs).drop 8)
      = .ok (msgs.take (msgs.length % 65536)) := by
    have := parseRest_complete (msgs.take (msgs.length % 65536))
      (fun m h => by have := h3 m (List.mem_of_mem_take h); omega)
      ((msgs.drop (msgs.length % 65536)).map fun m => Spec.le16 m.length ++ m).flatten
    rw [hlen, ← hd8] at this
    exact this
  have hs := AppPkt_ctor_spec (Spec.multiApp t msgs) (by simp [Spec.multiApp]) false
  rw [if_pos (by simp [Spec.multiApp])] at hs
  have hty : AppPkt.packetType
      { data := (Spec.multiApp t msgs).take 6, opt := some ((Spec.multiApp t msgs).drop 6) } = 11 := by
    simp only [AppPkt.packetType, Spec.multiApp]; exact getLE_one (x := 11) (by simp)
  have hm := MultiApp_ctor_spec (Spec.multiApp t msgs) (by simp [Spec.multiApp]; omega)
  rw [hd6, hc, hpr] at hm
  simp only [hlen] at hm
  unfold appParse
  simp only [hs, hty, PacketType.value]
  constructor
  · intro h0
    rw [if_neg (by omega)] at hm
    rw [hm]; rfl
  · intro m q hq
    have hpos : 1 ≤ msgs.length % 65536 := by
      rw [← hlen, hq]; simp
    rw [if_pos (by simp [Spec.multiApp]; omega)] at hm
    rw [hm]
    have ht : MultiApp.time
        ⟨(Spec.multiApp t msgs).take 8, some (msgs.take (msgs.length % 65536))⟩ = t % 2 ^ 32 := by
      simp only [MultiApp.time, getLE]
      have : (Spec.multiApp t msgs).take 8 = [11, 0] ++ Spec.le32 t ++ Spec.le16 msgs.length := by
        simp [Spec.multiApp, Spec.le32, Spec.le16]
      rw [this, slice_append_mid _ (Spec.le32 t) _ (by simp) (by simp), ← leBytes_four, leNat_leBytes]
    rw [hq] at ht
    simp [ht, hq]

/-- The full claim C29: whenever a write call returns normally, and the peer has made any calls during
which it received and decrypted exactly the packets that call encrypted, with no time check failing, then
the messages the peer has read, with those waiting in its queue, are exactly the messages of the call. -/
def C29_claim : Prop :=
  ∀ (w w' r r' : AppSt) ms l rops wtr rtr rd, Std w.enc → Std r.enc → w.bufferedM4 = none →
    r.readQ = [] → Call (App.write ms l) w wtr (.ok ()) w' →
    Exec (callAll appOps rops r) rtr (rd, r') →
    (opens rtr).map (·.msg) = (seals wtr).map (·.msg) → ChecksOk rtr →
    readMsgs rd ++ r'.readQ = ms

/-- C29, proved for at most 65535 messages in the call.  Missing: calls with more messages, for which the
claim is false (`C29_violated`). -/
theorem C29_delivery_partial (w w' r r' : AppSt) (ms : List Bytes) (l : Bool) (rops : List AppOp)
    (wtr rtr : List (Ev env)) (rd : List Done) (hw : Std w.enc) (hr : Std r.enc)
    (hb : w.bufferedM4 = none) (hq : r.readQ = [])
    (hlen : ms.length ≤ 65535) (hwx : Call (App.write ms l) w wtr (.ok ()) w')
    (hrx : Exec (callAll appOps rops r) rtr (rd, r'))
    (hd : (opens rtr).map (·.msg) = (seals wtr).map (·.msg)) (hck : ChecksOk rtr) :
    readMsgs rd ++ r'.readQ = ms := by
  have hwx' : Exec (callAll appOps [.write ms l] w) wtr ([.write ms l (.ok ())], w') := by
    simp only [callAll, appOps]
    rw [Exec_bind]
    exact ⟨wtr, _, [], by simp, hwx, by simp⟩
  obtain ⟨-, -, -, h3, -⟩ := appAll_wp _ w hw _ _ hwx'
  obtain ⟨-, -, -, -, h4⟩ := appAll_wp _ r hr _ _ hrx
  have hc := h3 hb (by intro ms' l' h; simp at h; rw [h.1]; exact hlen) (by
    intro ms' l' r' h; simp at h; exact h.2.2)
  simp only [wroteMsgs, List.append_nil] at hc
  have := h4 hck ms (hd ▸ hc)
  rwa [hq, List.nil_append] at this

example : (∃ w', Call (App.write [[1], [2]] false) exApp (exWtr.take 3) (.ok ()) w') ∧
    (∃ r', Exec (callAll appOps [.read, .read] ⟨exS, none, []⟩) (exRtr.take 3)
      ([.read (.ok [1]), .read (.ok [2])], r')) ∧
    (opens (exRtr.take 3)).map (·.msg) = (seals (exWtr.take 3)).map (·.msg) :=
  ⟨⟨_, .op _ _ _ _ _ (.op _ _ _ _ _ (.op _ _ _ _ _ (.ret _)))⟩,
    ⟨_, .op _ _ _ _ _ (.op _ _ _ _ _ (.op _ _ _ _ _ (.ret _)))⟩, by decide⟩

theorem failing_reads (n : Nat) (s : AppSt) (hs : s.enc.pushback = []) (hq : s.readQ = []) :
    Exec (callAll appOps (List.replicate n .read) s)
      (List.replicate n ⟨.read, .error .comException⟩)
      (List.replicate n (.read (.error .comException)), s) := by
  induction n with
  | zero => exact .ret _
  | succ n ih =>
    simp only [List.replicate_succ, callAll, appOps]
    rw [App_read_run s hq, Enc_read_run, if_neg (by simp [hs])]
    refine .op _ _ _ _ _ ?_
    simp only [IT.ret_bind]
    rw [Exec_bind]
    exact ⟨_, _, [], by simp, ih, by simp⟩

/-- C29 is violated: with 65537 messages the call returns normally, the peer gets the first message, and
the other 65536 are lost. -/
theorem C29_violated : ¬ C29_claim := by
  intro h
  obtain ⟨M, hMlen, hms, htk⟩ : ∃ M : List Bytes, M.length = 65537 ∧ (∀ m ∈ M, m.length ≤ 65535) ∧
      M.take 1 = [[]] := by
    refine ⟨List.replicate 65537 [], List.length_replicate, fun m hm => ?_, ?_⟩
    · rw [List.eq_of_mem_replicate hm]; simp
    · rw [List.take_replicate]; rfl
  obtain ⟨n, hn⟩ : ∃ n, M.length = n + 1 := ⟨65536, hMlen⟩
  have hpk : appPackets 0 M = [multiApp 0 M] := by
    unfold appPackets; rw [if_pos ⟨by omega, hms⟩]
  have hpar : appParse (multiApp 0 M) = .ok (0, .ok ([], [])) := by
    refine (multi_count_wraps 0 M hms).2 [] [] ?_
    rw [hMlen]; exact htk
  have hn1 : nonceBytes exC.writeNonce exC.sessionNonce = .ok (Spec.nonce 1) := by decide
  let c : Bytes := zeros 16
  have hw : Call (App.write M false) exApp
      [⟨.time, .ok 0⟩, ⟨.box (multiApp 0 M) (Spec.nonce 1) exKey, .ok c⟩,
       ⟨.write [Spec.encrypted false c] false, .ok ()⟩] (.ok ())
      { exApp with enc := { exC with writeNonce := 3 } } := by
    unfold Call
    rw [App_write_run]
    refine .op _ _ _ _ _ ?_
    simp only [hpk, pending, exApp, List.nil_append]
    rw [Enc_write_run, encryptAll_cons_run, hn1]
    refine .op _ _ _ _ _ ?_
    simp only [encryptAll_nil_run, IT.ret_bind]
    exact .op _ _ _ _ _ (.ret _)
  let r : AppSt := ⟨exS, none, []⟩
  let r' : AppSt := ⟨{ exS with readNonce := 3 }, none, []⟩
  have hr : Exec (callAll appOps (List.replicate M.length .read) r)
      ([⟨.read, .ok (Spec.encrypted false c)⟩, ⟨.boxOpen c (Spec.nonce 1) exKey, .ok (multiApp 0 M)⟩,
        ⟨.check 0, .ok ()⟩] ++ List.replicate n ⟨.read, .error .comException⟩)
      (.read (.ok []) :: List.replicate n (.read (.error .comException)), r') := by
    have hfirst : Call App.read r
        [⟨.read, .ok (Spec.encrypted false c)⟩, ⟨.boxOpen c (Spec.nonce 1) exKey, .ok (multiApp 0 M)⟩,
          ⟨.check 0, .ok ()⟩] (.ok []) r' := by
      unfold Call
      rw [App_read_run r rfl, Exec_bind]
      refine ⟨_, _, _, rfl, read_run_packet (s := exS) ⟨rfl, rfl⟩ (by decide) false c _ (by decide), ?_⟩
      simp only [hpar]
      exact .op _ _ _ _ _ (.ret _)
    rw [hn]
    simp only [List.replicate_succ, callAll, appOps]
    rw [Exec_bind]
    refine ⟨_, _, _, rfl, hfirst, ?_⟩
    rw [Exec_bind]
    exact ⟨_, _, [], by simp, failing_reads n r' rfl rfl, by simp⟩
  have hops : opens ([⟨.read, .ok (Spec.encrypted false c)⟩,
        ⟨.boxOpen c (Spec.nonce 1) exKey, .ok (multiApp 0 M)⟩,
        ⟨.check 0, .ok ()⟩] ++ List.replicate n (⟨.read, .error .comException⟩ : Ev env))
      = [⟨multiApp 0 M, Spec.nonce 1, exKey, c⟩] := by
    have : ∀ n, opens (List.replicate n (⟨.read, .error .comException⟩ : Ev env)) = [] := by
      intro n'; induction n' with
      | zero => rfl
      | succ n ih => rw [List.replicate_succ]; exact ih
    rw [opens_append, this]; rfl
  have hread : ∀ n, readMsgs (List.replicate n (.read (.error .comException))) = [] := by
    intro n'; induction n' with
    | zero => rfl
    | succ n ih => rw [List.replicate_succ]; exact ih
  have := h exApp _ r r' M false _ _ _ _ ⟨rfl, rfl⟩ ⟨rfl, rfl⟩ rfl rfl hw hr
    (by rw [hops]; rfl) (by
      intro t x hx
      simp only [List.cons_append, List.nil_append, List.mem_cons, Ev.mk.injEq, reduceCtorEq, false_and,
        false_or, List.mem_replicate, and_false, or_false, EnvOp.check.injEq] at hx
      obtain ⟨rfl, hx⟩ := hx
      rw [heq_eq_eq] at hx
      exact hx)
  rw [readMsgs, hread] at this
  have := congrArg List.length this
  rw [hMlen] at this
  simp at this

end Salt.Props
