import Verif.Props.AppChannel
import Verif.Lemmas.Raises

/-!
# The end of a conversation (C76) and pushed back packets (C77)
-/

set_option linter.unusedSimpArgs false

namespace Salt.Props

open Salt Salt.Spec

/-- C76, the full claim: `last` is seen only when everything has been read, that is, if two channels are
connected, one writes messages in a call marked as last, and the other has read a message and sees `last`, then
the message was the last one of the call. -/
def C76_claim : Prop :=
  ∀ (w w' r r' : AppSt) (ms : List Bytes) (m : Bytes) (wtr rtr : List (Ev env)), Std w.enc → Std r.enc →
    w.bufferedM4 = none → r.readQ = [] →
    Call (App.write ms true) w wtr (.ok ()) w' → (∀ p ∈ readsOf rtr, ∃ x ∈ writesOf wtr, p ∈ x.1) →
    (∀ x ∈ opens rtr, x ∈ seals wtr) →
    Call App.read r rtr (.ok m) r' → App.last r' = true → ms.getLast? = some m

/-- What holds of C76: after a successful read, `last` is the flag of the packet that was read from the network,
that is the top bit of its second byte; a read served from the queue leaves `last` as it is. -/
theorem C76_last_partial (s s' : AppSt) (hs : Std s.enc) (tr : List (Ev env)) (m : Bytes)
    (h : Call App.read s tr (.ok m) s') :
    (s.readQ = m :: s'.readQ ∧ tr = [] ∧ App.last s' = App.last s) ∨
    (s.readQ = [] ∧ ∃ t f body, readsOf tr = [t :: f :: body] ∧ (App.last s' = true ↔ 128 ≤ f.toNat)) := by
  unfold Call at h
  cases hq : s.readQ with
  | cons m0 q =>
    rw [App_read_queued s m0 q hq, Exec_ret] at h
    obtain ⟨rfl, h⟩ := h
    simp only [Prod.mk.injEq, Except.ok.injEq] at h
    obtain ⟨rfl, rfl⟩ := h
    exact .inl ⟨rfl, rfl, rfl⟩
  | nil =>
    refine .inr ⟨rfl, ?_⟩
    rw [App_read_run s hq, Exec_bind] at h
    obtain ⟨tr1, ⟨r, e⟩, tr2, rfl, h1, h2⟩ := h
    cases r with
    | error x => simp at h2
    | ok raw =>
      obtain ⟨t, f, body, h3, h4⟩ := C24_last_flag.2 _ _ _ _ hs h1
      refine ⟨t, f, body, ?_⟩
      have key : readsOf tr2 = [] ∧ s'.enc = e := by
        revert h2
        simp only
        cases appParse raw with
        | error x => simp
        | ok v =>
          obtain ⟨t, res⟩ := v
          simp only [Exec_op]
          rintro ⟨r, tr', rfl, h2⟩
          cases r with
          | error x => simp at h2
          | ok u =>
            cases res with
            | error x => simp at h2
            | ok v =>
              simp only [Exec_ret, Prod.mk.injEq] at h2
              obtain ⟨rfl, -, rfl⟩ := h2
              exact ⟨rfl, rfl⟩
      rw [readsOf_append, key.1, h3, List.append_nil, App.last, key.2]
      exact ⟨rfl, h4⟩

/-- An instance of both cases. -/
example : (∃ s', Call App.read ⟨exS, none, [[5]]⟩ [] (.ok [5]) s') ∧
    ∃ s', Call App.read ⟨exS, none, []⟩ [⟨.read, .ok (Spec.encrypted true exP1)⟩,
      ⟨.boxOpen exP1 (Spec.nonce 1) exKey, .ok (multiApp 7 [[1], [2]])⟩, ⟨.check 7, .ok ()⟩] (.ok [1]) s' :=
  ⟨⟨_, .ret _⟩, ⟨_, .op _ _ _ _ _ (.op _ _ _ _ _ (.op _ _ _ _ _ (.ret _)))⟩⟩

/-- The general reason: if a call marked as last carries several messages in one packet, the reader sees `last`
already with the first of them, and the others are still to be read. -/
theorem C76_early (s s' : AppSt) (hs : Std s.enc) (hq : s.readQ = []) (t : Nat) (m m1 : Bytes) (q : List Bytes)
    (hl : (m1 :: q).length ≤ 65534) (h3 : ∀ x ∈ m :: m1 :: q, x.length ≤ 65535) (c n k : Bytes) (r : Except Err Bytes)
    (tr : List (Ev env))
    (h : Call App.read s (⟨.read, .ok (Spec.encrypted true c)⟩ :: ⟨.boxOpen c n k, .ok (multiApp t (m :: m1 :: q))⟩ ::
      ⟨.check (t % 2 ^ 32), .ok ()⟩ :: tr) r s') :
    tr = [] ∧ r = .ok m ∧ App.last s' = true ∧ s'.readQ = m1 :: q := by
  unfold Call at h
  rw [App_read_run s hq, Exec_bind] at h
  obtain ⟨tr1, ⟨r1, e⟩, tr2, htr, h1, h2⟩ := h
  rcases read_call hs h1 with ⟨e', rfl, -⟩ | ⟨raw', e', rfl, rfl, -⟩ | ⟨raw', x, rfl, -, -, -, hf, hx'⟩
  · simp at htr
  · simp only [List.cons_append, List.nil_append, List.cons.injEq] at htr
    obtain ⟨-, rfl⟩ := htr
    simp at h2
  · simp only [List.cons_append, List.nil_append, List.cons.injEq, Ev.mk.injEq] at htr
    obtain ⟨⟨-, h4⟩, ⟨h5, h6⟩, rfl⟩ := htr
    rw [heq_eq_eq, Except.ok.injEq] at h4
    subst h4
    simp only [EnvOp.boxOpen.injEq] at h5
    obtain ⟨-, rfl, rfl⟩ := h5
    rw [heq_eq_eq] at h6
    subst h6
    obtain ⟨rfl, -⟩ := hx'
    simp only [appParse_multi t m (m1 :: q) (by simp only [List.length_cons] at hl ⊢; omega) h3, Exec_op_cons, Exec_ret,
      Prod.mk.injEq] at h2
    obtain ⟨rfl, rfl, rfl⟩ := h2
    refine ⟨rfl, rfl, ?_, rfl⟩
    simp [App.last, hf, Spec.encrypted]

/-- C76 is violated. -/
theorem C76_violated : ¬ C76_claim := by
  intro h
  have := h exApp _ ⟨exS, none, []⟩ _ [[1], [2]] [1]
    [⟨.time, .ok 7⟩, ⟨.box (multiApp 7 [[1], [2]]) (Spec.nonce 1) exKey, .ok exP1⟩,
      ⟨.write [Spec.encrypted true exP1] true, .ok ()⟩]
    [⟨.read, .ok (Spec.encrypted true exP1)⟩, ⟨.boxOpen exP1 (Spec.nonce 1) exKey, .ok (multiApp 7 [[1], [2]])⟩,
      ⟨.check 7, .ok ()⟩] ⟨rfl, rfl⟩ ⟨rfl, rfl⟩ rfl rfl (.op _ _ _ _ _ (.op _ _ _ _ _ (.op _ _ _ _ _ (.ret _))))
    (by simp [readsOf, writesOf]) (by decide) (.op _ _ _ _ _ (.op _ _ _ _ _ (.op _ _ _ _ _ (.ret _)))) rfl
  simp at this

theorem openPkt_quiet (raw : Bytes) (s s' : EncSt) (tr : List (Ev env)) (r : Except Err Bytes)
    (h : Exec (openPkt raw s) tr (r, s')) : s'.pushback = s.pushback ∧ readsOf tr = [] := by
  unfold openPkt at h
  split at h
  · simp only [Exec_ret, Prod.mk.injEq] at h
    obtain ⟨rfl, -, rfl⟩ := h
    exact ⟨rfl, rfl⟩
  · split at h
    · split at h
      · simp only [Exec_ret, Prod.mk.injEq] at h
        obtain ⟨rfl, -, rfl⟩ := h
        exact ⟨rfl, rfl⟩
      · rw [Exec_op] at h
        obtain ⟨x, tr', rfl, h⟩ := h
        cases x <;>
        · simp only [Exec_ret, Prod.mk.injEq] at h
          obtain ⟨rfl, -, rfl⟩ := h
          exact ⟨rfl, rfl⟩
    · simp only [Exec_ret, Prod.mk.injEq] at h
      obtain ⟨rfl, -, rfl⟩ := h
      exact ⟨rfl, rfl⟩

/-- **C77.** A packet that was pushed back is what the next read processes, exactly as if it came from the network,
which is not touched; and it is processed once. -/
theorem C77_pushback (s s' : EncSt) (hp : s.pushback ≠ []) (tr : List (Ev env)) (r : Except Err Bytes) :
    (Call Enc.read s tr r s' → s'.pushback = [] ∧ readsOf tr = []) ∧
    (Call Enc.read s tr r s' ↔ Call Enc.read { s with pushback := [] } (⟨.read, .ok s.pushback⟩ :: tr) r s') := by
  unfold Call
  rw [Enc_read_run, if_pos hp, Enc_read_run, if_neg (by simp), Exec_op_cons]
  exact ⟨openPkt_quiet _ _ _ _ _, Iff.rfl⟩

/-- A pushed back packet that is read. -/
example : Call Enc.read { exS with pushback := Spec.encrypted true exC1 }
    [⟨.boxOpen exC1 (Spec.nonce 1) exKey, .ok [10]⟩] (.ok [10]) { exS with readNonce := 3, lastFlag := true } :=
  .op _ _ _ _ _ (.ret _)

/-- **C77.** Making a channel with a key of the wrong length raises an exception (TypeError: building the message
of the intended ValueError fails). -/
theorem C77_key_length (key : Bytes) (role : Role) :
    (key.length = 32 ↔ ∃ s, Enc.init key role = .ok s) ∧
    (key.length ≠ 32 → Enc.init key role = .error .typeError) := by
  constructor
  · constructor
    · intro h; exact ⟨_, by simp [Enc.init, boxSecretKeyBytes, h]; rfl⟩
    · rintro ⟨s, h⟩
      by_cases hk : key.length = 32
      · exact hk
      · simp [Enc.init, boxSecretKeyBytes, hk] at h
  · intro h; simp [Enc.init, boxSecretKeyBytes, h]

end Salt.Props
