import Verif.Spec.Dev
import Verif.Lemmas.Prog

set_option linter.unusedSimpArgs false

/-!
# Development channels (C55, C56, C63, C64)
-/

namespace Salt.Props

open Salt Salt.Spec

/-! ### Executions of the methods of MitmChannel -/

theorem chanEvents_append (a b : List (Ev mitmSig)) :
    chanEvents (a ++ b) = chanEvents a ++ chanEvents b := by
  induction a with
  | nil => rfl
  | cons e a ih =>
    obtain ⟨o, r⟩ := e
    cases o <;> simp [chanEvents, ih]

theorem logged_append (a b : List (Ev mitmSig)) : logged (a ++ b) = logged a ++ logged b := by
  induction a with
  | nil => rfl
  | cons e a ih =>
    obtain ⟨o, r⟩ := e
    cases o <;> simp [logged, ih]

theorem LogOk_append (a b : List (Ev mitmSig)) : LogOk (a ++ b) ↔ LogOk a ∧ LogOk b := by
  simp only [LogOk, List.mem_append]
  constructor
  · intro h; exact ⟨fun e he => h e (.inl he), fun e he => h e (.inr he)⟩
  · rintro ⟨h1, h2⟩ e (he | he)
    · exact h1 e he
    · exact h2 e he

theorem logEvent_eq (r : LogRecord) (s : MitmSt) (hl : s.log = true) :
    Mitm.logEvent r false s =
      if s.logBuffering then .ret (.ok (), { s with time0 := r.time })
      else .op (S := mitmSig) (.info r) fun
        | .ok _ => .ret (.ok (), { s with time0 := r.time })
        | .error e => .ret (.error e, if s.time0 = 0 then { s with time0 := r.time } else s) := by
  obtain ⟨log, q, t0, lb, cr, cw⟩ := s
  subst hl
  by_cases ht : t0 = 0
  · cases lb
    · simp [Mitm.logEvent, bind, Py.andThen, Py.modifySt, Py.getSt, IT.bind, ht, Mitm.op, Py.call, pure,
        Py.ret]
      funext x; cases x <;> rfl
    · simp [Mitm.logEvent, bind, Py.andThen, Py.modifySt, Py.getSt, IT.bind, ht, Mitm.op, Py.call, pure,
        Py.ret]
  · cases lb
    · simp [Mitm.logEvent, bind, Py.andThen, Py.modifySt, Py.getSt, IT.bind, ht, Mitm.op, Py.call, pure,
        Py.ret]
      funext x; cases x <;> rfl
    · simp [Mitm.logEvent, bind, Py.andThen, Py.modifySt, Py.getSt, IT.bind, ht, Mitm.op, Py.call, pure,
        Py.ret]

/-- A run of logging steps: no channel operation, no exception; the log gets `recs` unless buffering;
only `time0` changes. -/
def Logs (t : IT mitmSig (Except Err Unit × MitmSt)) (s : MitmSt)
    (recs : List (MitmEventType × Bytes)) : Prop :=
  (∀ tr x s', Exec t tr (x, s') → LogOk tr →
    x = .ok () ∧ chanEvents tr = [] ∧ (∃ t0, s' = { s with time0 := t0 }) ∧
      logged tr = if s.logBuffering then [] else recs) ∧
  ∃ tr s', Exec t tr (.ok (), s') ∧ LogOk tr

theorem logs_event (t : Nat) (ty : MitmEventType) (d : Bytes) (s : MitmSt) (hl : s.log = true) :
    Logs (Mitm.logEvent ⟨t, ty, d⟩ false s) s [(ty, d)] := by
  rw [logEvent_eq _ _ hl]
  by_cases hb : s.logBuffering
  · rw [if_pos hb]
    refine ⟨?_, [], _, Exec.ret _, by simp [LogOk]⟩
    intro tr x s' h _
    simp only [Exec_ret, Prod.mk.injEq] at h
    obtain ⟨rfl, rfl, rfl⟩ := h
    exact ⟨rfl, rfl, ⟨_, rfl⟩, by simp [hb, logged]⟩
  · rw [if_neg hb]
    refine ⟨?_, [⟨.info ⟨t, ty, d⟩, .ok ()⟩], _, Exec.op _ _ _ _ _ (Exec.ret _), by simp [LogOk]⟩
    intro tr x s' h hok
    rw [Exec_op] at h
    obtain ⟨r, tr', rfl, h⟩ := h
    have : r = .ok () := hok _ (List.mem_cons_self ..)
    subst this
    simp only [Exec_ret, Prod.mk.injEq] at h
    obtain ⟨rfl, rfl, rfl⟩ := h
    exact ⟨rfl, rfl, ⟨_, rfl⟩, by simp [hb, logged]⟩

theorem logs_bind {m1 : Py mitmSig MitmSt Unit} {m2 : Py mitmSig MitmSt Unit} (s : MitmSt)
    (r1 r2 : List (MitmEventType × Bytes)) (h1 : Logs (m1 s) s r1)
    (h2 : ∀ t0, Logs (m2 { s with time0 := t0 }) { s with time0 := t0 } r2) :
    Logs ((m1 >>= fun _ => m2) s) s (r1 ++ r2) := by
  constructor
  · intro tr x s' h hok
    simp only [bind, Py.andThen, Exec_bind] at h
    obtain ⟨tr1, ⟨y, s1⟩, tr2, rfl, ha, hb⟩ := h
    rw [LogOk_append] at hok
    obtain ⟨rfl, hc, ⟨t0, rfl⟩, hlg⟩ := h1.1 _ _ _ ha hok.1
    obtain ⟨rfl, hc2, ⟨t1, rfl⟩, hlg2⟩ := (h2 t0).1 _ _ _ hb hok.2
    refine ⟨rfl, by rw [chanEvents_append, hc, hc2]; rfl, ⟨t1, rfl⟩, ?_⟩
    rw [logged_append, hlg, hlg2]
    cases s.logBuffering <;> simp
  · obtain ⟨tr1, s1, e1, o1⟩ := h1.2
    obtain ⟨-, -, ⟨t0, rfl⟩, -⟩ := h1.1 _ _ _ e1 o1
    obtain ⟨tr2, s2, e2, o2⟩ := (h2 t0).2
    refine ⟨tr1 ++ tr2, s2, ?_, (LogOk_append _ _).mpr ⟨o1, o2⟩⟩
    simp only [bind, Py.andThen, Exec_bind]
    exact ⟨tr1, _, tr2, rfl, e1, e2⟩

theorem logs_clock (f : Nat → Py mitmSig MitmSt Unit) (s : MitmSt)
    (recs : List (MitmEventType × Bytes)) (h : ∀ t, Logs (f t s) s recs) :
    Logs ((Mitm.op .clock >>= f) s) s recs := by
  constructor
  · intro tr x s' hx hok
    simp only [bind, Py.andThen, Mitm.op, Py.call, IT.bind] at hx
    rw [Exec_op] at hx
    obtain ⟨r, tr', rfl, hx⟩ := hx
    have := hok _ (List.mem_cons_self ..)
    obtain ⟨t, rfl⟩ : ∃ t, r = .ok t := this
    have hok' : LogOk tr' := fun e he => hok e (List.mem_cons_of_mem _ he)
    obtain ⟨a, b, c, d⟩ := (h t).1 _ _ _ hx hok'
    exact ⟨a, by simpa [chanEvents] using b, c, by simpa [logged] using d⟩
  · obtain ⟨tr, s', e, o⟩ := (h 0).2
    refine ⟨⟨.clock, .ok 0⟩ :: tr, s', ?_, ?_⟩
    · simp only [bind, Py.andThen, Mitm.op, Py.call, IT.bind]
      exact Exec.op _ _ _ _ _ e
    · intro ev hev
      rcases List.mem_cons.mp hev with rfl | hev
      · exact ⟨0, rfl⟩
      · exact o ev hev

theorem logs_ret (s : MitmSt) : Logs ((pure () : Py mitmSig MitmSt Unit) s) s [] := by
  refine ⟨?_, [], s, Exec.ret _, by simp [LogOk]⟩
  intro tr x s' h _
  simp only [pure, Py.ret, Exec_ret, Prod.mk.injEq] at h
  obtain ⟨rfl, rfl, rfl⟩ := h
  exact ⟨rfl, rfl, ⟨s.time0, rfl⟩, by simp [logged]⟩

theorem logs_args (ms : List Bytes) (s : MitmSt) (hl : s.log = true) :
    Logs (Mitm.logArgs ms s) s (ms.map fun x => (.writeWithPrevious, x)) := by
  induction ms generalizing s with
  | nil => exact logs_ret s
  | cons m ms ih =>
    refine logs_clock _ s _ fun t => ?_
    exact logs_bind s [_] _ (logs_event t _ m s hl) (fun t0 => ih _ hl)

/-- Bytes counted for one event on the channel. -/
def addRead : Ev appSig → Nat
  | ⟨.read, .ok m⟩ => m.length
  | _ => 0

def addWrite : Ev appSig → Nat
  | ⟨.write ms _, .ok _⟩ => (ms.map List.length).sum
  | _ => 0

theorem bytesRead_cons (e : Ev appSig) (tr : List (Ev appSig)) :
    bytesRead (e :: tr) = addRead e + bytesRead tr := by
  obtain ⟨o, r⟩ := e
  cases o <;> cases r <;> simp [bytesRead, addRead]

theorem bytesWritten_cons (e : Ev appSig) (tr : List (Ev appSig)) :
    bytesWritten (e :: tr) = addWrite e + bytesWritten tr := by
  obtain ⟨o, r⟩ := e
  cases o <;> cases r <;> simp [bytesWritten, addWrite]

theorem expectedLog_cons (e : Ev appSig) (tr : List (Ev appSig)) :
    expectedLog (e :: tr) = expectedLog [e] ++ expectedLog tr := by
  obtain ⟨o, r⟩ := e
  cases o with
  | read => cases r <;> simp [expectedLog]
  | write ms l => cases ms <;> cases r <;> simp [expectedLog]

/-- One operation on a `MitmChannel` is the same operation on the channel below. -/
def Relays (o : AppOp) (t : IT mitmSig (Except Err o.Resp × MitmSt)) (s : MitmSt) : Prop :=
  (∀ tr x s', Exec t tr (x, s') → LogOk tr →
    chanEvents tr = [⟨o, x⟩] ∧
    (∃ t0, s' = { s with time0 := t0,
                         counterRead := s.counterRead + addRead ⟨o, x⟩,
                         counterWrite := s.counterWrite + addWrite ⟨o, x⟩ }) ∧
    logged tr = if s.log && !s.logBuffering then expectedLog [⟨o, x⟩] else []) ∧
  ∀ x, ∃ tr s', Exec t tr (x, s') ∧ LogOk tr

/-- What follows the read of the channel below. -/
theorem read_eq (s : MitmSt) :
    Mitm.read s = .op (S := mitmSig) .read fun
      | .error e => .ret (.error e, s)
      | .ok d =>
        ((if s.log then (Mitm.op .clock >>= fun t => Mitm.logEvent ⟨t, .read, d⟩ false) else pure () :
            Py mitmSig MitmSt Unit) { s with counterRead := s.counterRead + d.length }).bind fun
          | (.ok _, s') => .ret (.ok d, s')
          | (.error e, s') => .ret (.error e, s') := by
  simp only [Mitm.read, bind, Py.andThen, Mitm.op, Py.call, IT.bind, Py.modifySt, Py.getSt]
  congr 1
  funext r
  cases r with
  | error e => rfl
  | ok d =>
    simp only [IT.bind]
    cases hl : s.log
    · simp [hl, pure, Py.ret, IT.bind]
    · simp only [hl, if_true, pure, Py.ret, bind, Py.andThen, IT.bind, Py.call]
      congr 1
      funext r
      cases r with
      | error e => rfl
      | ok a =>
        simp only
        congr 1
        funext x
        rcases x with ⟨_ | _, _⟩ <;> rfl

theorem relays_read (s : MitmSt) : Relays .read (Mitm.read s) s := by
  rw [read_eq]
  have hlogs : ∀ d : Bytes, Logs
      ((if s.log then (Mitm.op .clock >>= fun t => Mitm.logEvent ⟨t, .read, d⟩ false) else pure () :
            Py mitmSig MitmSt Unit) { s with counterRead := s.counterRead + d.length })
      { s with counterRead := s.counterRead + d.length }
      (if s.log then [(.read, d)] else []) := by
    intro d
    cases hl : s.log
    · exact logs_ret _
    · exact logs_clock _ _ _ fun t => logs_event t _ d _ rfl
  constructor
  · intro tr x s' h hok
    rw [Exec_op] at h
    obtain ⟨r, tr', rfl, h⟩ := h
    have hok' : LogOk tr' := fun e he => hok e (List.mem_cons_of_mem _ he)
    cases r with
    | error e =>
      simp only [Exec_ret, Prod.mk.injEq] at h
      obtain ⟨rfl, rfl, rfl⟩ := h
      exact ⟨rfl, ⟨s.time0, rfl⟩, by simp [logged, expectedLog]⟩
    | ok d =>
      simp only [Exec_bind] at h
      obtain ⟨tr1, ⟨y, s1⟩, tr2, rfl, ha, hb⟩ := h
      rw [LogOk_append] at hok'
      obtain ⟨rfl, hc, ⟨t0, rfl⟩, hlg⟩ := (hlogs d).1 _ _ _ ha hok'.1
      simp only [Exec_ret, Prod.mk.injEq] at hb
      obtain ⟨rfl, rfl, rfl⟩ := hb
      refine ⟨by simp [chanEvents, hc], ⟨t0, rfl⟩, ?_⟩
      simp only [logged, List.append_nil, hlg]
      cases s.log <;> cases s.logBuffering <;> rfl
  · intro x
    cases x with
    | error e => exact ⟨[⟨.read, .error e⟩], s, Exec.op _ _ _ _ _ (Exec.ret _), by simp [LogOk]⟩
    | ok d =>
      obtain ⟨tr, s', he, ho⟩ := (hlogs d).2
      refine ⟨⟨.read, .ok d⟩ :: tr, s', Exec.op _ _ _ _ _ ?_, ?_⟩
      · rw [Exec_bind]
        exact ⟨tr, _, [], by simp, he, Exec.ret _⟩
      · intro ev hev
        rcases List.mem_cons.mp hev with rfl | hev
        · trivial
        · exact ho ev hev

theorem foldl_len (ms : List Bytes) (n : Nat) :
    ms.foldl (fun n m => n + m.length) n = n + (ms.map List.length).sum := by
  induction ms generalizing n with
  | nil => simp
  | cons m ms ih => simp [ih]; omega

/-- The logging part of `write`. -/
def writeLog (ms : List Bytes) (log : Bool) : Py mitmSig MitmSt Unit :=
  if log then
    match ms with
    | [] => pure ()
    | msg :: args => Mitm.op .clock >>= fun t => Mitm.logEvent ⟨t, .write, msg⟩ false >>= fun _ =>
        Mitm.logArgs args
  else pure ()

theorem write_eq (ms : List Bytes) (l : Bool) (s : MitmSt) :
    Mitm.write ms l s = .op (S := mitmSig) (.write ms l) fun
      | .error e => .ret (.error e, s)
      | .ok _ => writeLog ms s.log
          { s with counterWrite := s.counterWrite + (ms.map List.length).sum } := by
  simp only [Mitm.write, bind, Py.andThen, Mitm.op, Py.call, IT.bind, Py.modifySt, Py.getSt, foldl_len]
  congr 1
  funext r
  cases r with
  | error e => rfl
  | ok d =>
    simp only [IT.bind, writeLog]
    cases hl : s.log
    · simp
    · cases ms <;> simp [bind, Py.andThen, Mitm.op, Py.call]

theorem relays_write (ms : List Bytes) (l : Bool) (s : MitmSt) :
    Relays (.write ms l) (Mitm.write ms l s) s := by
  rw [write_eq]
  have hlogs : Logs (writeLog ms s.log
      { s with counterWrite := s.counterWrite + (ms.map List.length).sum })
      { s with counterWrite := s.counterWrite + (ms.map List.length).sum }
      (if s.log then expectedLog [⟨.write ms l, .ok ()⟩] else []) := by
    unfold writeLog
    cases hl : s.log
    · exact logs_ret _
    · cases ms with
      | nil => exact logs_ret _
      | cons m ms =>
        simp only [if_true, expectedLog, List.append_nil]
        refine logs_clock _ _ _ fun t => ?_
        exact logs_bind _ [_] _ (logs_event t _ m _ rfl) (fun t0 => logs_args ms _ rfl)
  constructor
  · intro tr x s' h hok
    rw [Exec_op] at h
    obtain ⟨r, tr', rfl, h⟩ := h
    have hok' : LogOk tr' := fun e he => hok e (List.mem_cons_of_mem _ he)
    cases r with
    | error e =>
      simp only [Exec_ret, Prod.mk.injEq] at h
      obtain ⟨rfl, rfl, rfl⟩ := h
      refine ⟨rfl, ⟨s.time0, rfl⟩, ?_⟩
      cases ms <;> simp [logged, expectedLog]
    | ok d =>
      obtain ⟨rfl, hc, ⟨t0, rfl⟩, hlg⟩ := hlogs.1 _ _ _ h hok'
      refine ⟨by simp [chanEvents, hc], ⟨t0, rfl⟩, ?_⟩
      simp only [logged, hlg]
      cases s.log <;> cases s.logBuffering <;> rfl
  · intro x
    cases x with
    | error e => exact ⟨[⟨.write ms l, .error e⟩], s, Exec.op _ _ _ _ _ (Exec.ret _), by simp [LogOk]⟩
    | ok d =>
      obtain ⟨tr, s', he, ho⟩ := hlogs.2
      refine ⟨⟨.write ms l, .ok ()⟩ :: tr, s', Exec.op _ _ _ _ _ he, ?_⟩
      intro ev hev
      rcases List.mem_cons.mp hev with rfl | hev
      · trivial
      · exact ho ev hev

/-- Everything about a program running on a `MitmChannel`. -/
theorem mitm_run {β : Type} (P : IT appSig β) (s : MitmSt) (tr : List (Ev mitmSig)) (b : β)
    (s' : MitmSt) (h : Exec (Mitm.run P s) tr (b, s')) (hok : LogOk tr) :
    Exec P (chanEvents tr) b ∧
    s'.log = s.log ∧ s'.logBuffering = s.logBuffering ∧ s'.queue = s.queue ∧
    s'.counterRead = s.counterRead + bytesRead (chanEvents tr) ∧
    s'.counterWrite = s.counterWrite + bytesWritten (chanEvents tr) ∧
    logged tr = if s.log && !s.logBuffering then expectedLog (chanEvents tr) else [] := by
  induction P generalizing s tr with
  | ret b' =>
    simp only [Mitm.run, Exec_ret, Prod.mk.injEq] at h
    obtain ⟨rfl, rfl, rfl⟩ := h
    exact ⟨Exec.ret _, rfl, rfl, rfl, rfl, rfl, by simp [logged, chanEvents, expectedLog]⟩
  | op o k ih =>
    have key : ∀ (t : IT mitmSig (Except Err o.Resp × MitmSt)), Relays o t s →
        Exec (t.bind fun (r, s') => Mitm.run (k r) s') tr (b, s') →
        Exec (.op (S := appSig) o k) (chanEvents tr) b ∧
        s'.log = s.log ∧ s'.logBuffering = s.logBuffering ∧ s'.queue = s.queue ∧
        s'.counterRead = s.counterRead + bytesRead (chanEvents tr) ∧
        s'.counterWrite = s.counterWrite + bytesWritten (chanEvents tr) ∧
        logged tr = if s.log && !s.logBuffering then expectedLog (chanEvents tr) else [] := by
      intro t ht hx
      rw [Exec_bind] at hx
      obtain ⟨tr1, ⟨x, s1⟩, tr2, rfl, ha, hb⟩ := hx
      rw [LogOk_append] at hok
      obtain ⟨hc, ⟨t0, rfl⟩, hlg⟩ := ht.1 _ _ _ ha hok.1
      obtain ⟨a1, a2, a3, a4, a5, a6, a7⟩ := ih x _ _ hb hok.2
      rw [chanEvents_append, hc, logged_append, hlg]
      refine ⟨Exec.op _ _ _ _ _ a1, a2, a3, a4, ?_, ?_, ?_⟩
      · simp only [List.singleton_append, bytesRead_cons, a5]; omega
      · simp only [List.singleton_append, bytesWritten_cons, a6]; omega
      · rw [a7, List.singleton_append, expectedLog_cons _ (chanEvents tr2)]
        simp only
        cases s.log <;> cases s.logBuffering <;> rfl
    cases o with
    | read => exact key _ (relays_read s) h
    | write ms l => exact key _ (relays_write ms l s) h

/-! ### C55 -/

/-- C55: a program running on a `MitmChannel` does to the channel below exactly what it does when
running on that channel directly, with the same outcome; and the counters grow by the number of bytes
of the successful reads and writes.  (If the log raised an exception, it would reach the program:
`LogOk` excludes this.) -/
theorem C55_transparent {β : Type} (P : IT appSig β) (s s' : MitmSt) (tr : List (Ev mitmSig)) (b : β)
    (h : Exec (Mitm.run P s) tr (b, s')) (hok : LogOk tr) :
    Exec P (chanEvents tr) b ∧
    s'.counterRead = s.counterRead + bytesRead (chanEvents tr) ∧
    s'.counterWrite = s.counterWrite + bytesWritten (chanEvents tr) := by
  obtain ⟨a, -, -, -, b, c, -⟩ := mitm_run P s tr b s' h hok
  exact ⟨a, b, c⟩

/-- C55: conversely everything a program can do on the channel directly it can do on a `MitmChannel`
around it. -/
theorem C55_complete {β : Type} (P : IT appSig β) (s : MitmSt) (tr : List (Ev appSig)) (b : β)
    (h : Exec P tr b) :
    ∃ tr' s', Exec (Mitm.run P s) tr' (b, s') ∧ LogOk tr' ∧ chanEvents tr' = tr := by
  induction P generalizing s tr with
  | ret b' =>
    simp only [Exec_ret] at h
    obtain ⟨rfl, rfl⟩ := h
    exact ⟨[], s, Exec.ret _, by simp [LogOk], rfl⟩
  | op o k ih =>
    rw [Exec_op] at h
    obtain ⟨r, tr', rfl, h⟩ := h
    have key : ∀ (t : IT mitmSig (Except Err o.Resp × MitmSt)), Relays o t s →
        ∃ tr2 s', Exec (t.bind fun (r, s') => Mitm.run (k r) s') tr2 (b, s') ∧ LogOk tr2 ∧
          chanEvents tr2 = ⟨o, r⟩ :: tr' := by
      intro t ht
      obtain ⟨tr1, s1, he, ho⟩ := ht.2 r
      obtain ⟨tr2, s2, he2, ho2, hc2⟩ := ih r s1 tr' h
      refine ⟨tr1 ++ tr2, s2, ?_, (LogOk_append _ _).mpr ⟨ho, ho2⟩, ?_⟩
      · rw [Exec_bind]; exact ⟨tr1, _, tr2, rfl, he, he2⟩
      · rw [chanEvents_append, (ht.1 _ _ _ he ho).1, hc2]; rfl
    cases o with
    | read => exact key _ (relays_read s)
    | write ms l => exact key _ (relays_write ms l s)

/-- A program that reads a message and echoes it twice. -/
def exEcho2 : IT appSig (Except Err Unit) :=
  .op (S := appSig) .read fun
    | .ok m => .op (S := appSig) (.write [m, m] true) fun r => .ret r
    | .error e => .ret (.error e)

example : ∃ tr' s', Exec (Mitm.run exEcho2 { log := true }) tr' (.ok (), s') ∧ LogOk tr' ∧
    s'.counterRead = 2 ∧ s'.counterWrite = 4 ∧
    logged tr' = [(.read, [7, 8]), (.write, [7, 8]), (.writeWithPrevious, [7, 8])] := by
  obtain ⟨tr', s', h, ho, hc⟩ := C55_complete exEcho2 { log := true }
    [⟨.read, .ok [7, 8]⟩, ⟨.write [[7, 8], [7, 8]] true, .ok ()⟩] (.ok ())
    (Exec.op _ _ _ _ _ (Exec.op _ _ _ _ _ (Exec.ret _)))
  obtain ⟨-, -, -, -, h1, h2, h3⟩ := mitm_run _ _ _ _ _ h ho
  rw [hc] at h1 h2 h3
  exact ⟨tr', s', h, ho, h1, h2, h3⟩

/-! ### C63, C64: the log -/

/-- C63: with a log and no buffering, the log gets one record per message read or written
successfully, in order and with the message; without a log nothing is logged. -/
theorem C63_log {β : Type} (P : IT appSig β) (s s' : MitmSt) (tr : List (Ev mitmSig)) (b : β)
    (h : Exec (Mitm.run P s) tr (b, s')) (hok : LogOk tr) (hb : s.logBuffering = false) :
    logged tr = if s.log then expectedLog (chanEvents tr) else [] := by
  obtain ⟨-, -, -, -, -, -, c⟩ := mitm_run P s tr b s' h hok
  rw [c, hb]
  cases s.log <;> rfl

/-- C64, violated: what happens while the log is buffered is neither logged nor kept: the queue stays
as it was. -/
theorem C64_lost {β : Type} (P : IT appSig β) (s s' : MitmSt) (tr : List (Ev mitmSig)) (b : β)
    (h : Exec (Mitm.run P s) tr (b, s')) (hok : LogOk tr) (hb : s.logBuffering = true) :
    logged tr = [] ∧ s'.queue = s.queue := by
  obtain ⟨-, -, -, q, -, -, c⟩ := mitm_run P s tr b s' h hok
  rw [c, hb]
  exact ⟨by cases s.log <;> rfl, q⟩

theorem logEvent_force (r : LogRecord) (s : MitmSt) (hl : s.log = true) :
    Mitm.logEvent r true s =
      .op (S := mitmSig) (.info r) fun
        | .ok _ => .ret (.ok (), { s with time0 := r.time })
        | .error e => .ret (.error e, if s.time0 = 0 then { s with time0 := r.time } else s) := by
  obtain ⟨log, q, t0, lb, cr, cw⟩ := s
  subst hl
  by_cases ht : t0 = 0
  · simp [Mitm.logEvent, bind, Py.andThen, Py.modifySt, Py.getSt, IT.bind, ht, Mitm.op, Py.call, pure,
        Py.ret]
    funext x; cases x <;> rfl
  · simp [Mitm.logEvent, bind, Py.andThen, Py.modifySt, Py.getSt, IT.bind, ht, Mitm.op, Py.call, pure,
        Py.ret]
    funext x; cases x <;> rfl

theorem flushLoop_run (rs : List LogRecord) (s s' : MitmSt) (tr : List (Ev mitmSig))
    (hl : s.log = true) (x : Except Err Unit) (h : Exec (Mitm.flushLoop rs s) tr (x, s'))
    (hok : LogOk tr) :
    x = .ok () ∧ tr = rs.map (fun r => (⟨.info r, .ok ()⟩ : Ev mitmSig)) ∧
      ∃ t0, s' = { s with time0 := t0 } := by
  induction rs generalizing s tr with
  | nil =>
    simp only [Mitm.flushLoop, pure, Py.ret, Exec_ret, Prod.mk.injEq] at h
    obtain ⟨rfl, rfl, rfl⟩ := h
    exact ⟨rfl, rfl, _, rfl⟩
  | cons r rs ih =>
    simp only [Mitm.flushLoop, bind, Py.andThen, logEvent_force r s hl, IT.bind] at h
    rw [Exec_op] at h
    obtain ⟨res, tr', rfl, h⟩ := h
    have hres : res = .ok () := hok ⟨.info r, res⟩ (by simp)
    subst hres
    simp only [IT.bind] at h
    obtain ⟨h1, h2, t0, h3⟩ := ih { s with time0 := r.time } tr' hl h
      (fun e he => hok e (List.mem_cons_of_mem _ he))
    exact ⟨h1, by simp [h2], t0, h3⟩

/-- C64, the part that holds: flushing gives the records waiting in the queue to the log, in order, and
empties the queue.  Missing: nothing ever gets into the queue of a channel with a log (`C64_lost`). -/
theorem C64_flush_partial (s s' : MitmSt) (tr : List (Ev mitmSig)) (x : Except Err Unit)
    (hl : s.log = true) (h : Call Mitm.flushLogBuffer s tr x s') (hok : LogOk tr) :
    x = .ok () ∧ logged tr = s.queue.map (fun r => (r.type, r.data)) ∧ s'.queue = [] := by
  simp only [Call, Mitm.flushLogBuffer, bind, Py.andThen, Py.getSt, IT.bind] at h
  rw [Exec_bind] at h
  obtain ⟨tr1, ⟨x1, s1⟩, tr2, rfl, h1, h2⟩ := h
  obtain ⟨rfl, rfl, t0, rfl⟩ := flushLoop_run _ _ _ _ hl _ h1 (fun e he => hok e (by simp [he]))
  simp only [Py.modifySt, Exec_ret, Prod.mk.injEq] at h2
  obtain ⟨rfl, rfl, rfl⟩ := h2
  refine ⟨rfl, ?_, rfl⟩
  rw [List.append_nil]
  generalize s.queue = q
  induction q with
  | nil => rfl
  | cons r q ih => simp [logged, ih]

example : ∃ tr s', Call Mitm.flushLogBuffer { log := true, queue := [⟨5, .read, [1]⟩, ⟨6, .write, [2]⟩] }
    tr (.ok ()) s' ∧ LogOk tr ∧ logged tr = [(.read, [1]), (.write, [2])] := by
  refine ⟨[⟨.info ⟨5, .read, [1]⟩, .ok ()⟩, ⟨.info ⟨6, .write, [2]⟩, .ok ()⟩], _,
    Exec.op _ _ _ _ _ (Exec.op _ _ _ _ _ (Exec.ret _)), ?_, rfl⟩
  intro e he
  simp only [List.mem_cons, List.not_mem_nil, or_false] at he
  rcases he with rfl | rfl <;> rfl

/-- C64: what the claim asks for: after an activity with buffering, flushing logs the records of that
activity. -/
def C64_claim : Prop :=
  ∀ (P : IT appSig (Except Err Unit)) (b : Except Err Unit) (tr tr2 : List (Ev mitmSig)) (s' s2 : MitmSt),
    Exec (Mitm.run P { log := true, logBuffering := true }) tr (b, s') → LogOk tr →
    Call Mitm.flushLogBuffer s' tr2 (.ok ()) s2 →
    logged (tr ++ tr2) = expectedLog (chanEvents tr)

theorem C64_violated : ¬ C64_claim := by
  intro hcl
  obtain ⟨tr', s', h, ho, hc⟩ := C55_complete exEcho2 { log := true, logBuffering := true }
    [⟨.read, .ok [7, 8]⟩, ⟨.write [[7, 8], [7, 8]] true, .ok ()⟩] (.ok ())
    (Exec.op _ _ _ _ _ (Exec.op _ _ _ _ _ (Exec.ret _)))
  have hl := C64_lost _ _ _ _ _ h ho rfl
  have hq : s'.queue = [] := hl.2
  have hf : Call Mitm.flushLogBuffer s' [] (.ok ()) { s' with queue := [] } := by
    simp [Call, Mitm.flushLogBuffer, bind, Py.andThen, Py.getSt, IT.bind, hq, Mitm.flushLoop, pure,
      Py.ret, Py.modifySt]
  have := hcl exEcho2 _ _ _ _ _ h ho hf
  rw [List.append_nil, hl.1, hc] at this
  simp [expectedLog] at this

/-! ### C56: Tunnel -/

/-- C56, violated: writing bytes to a channel of a tunnel always raises TypeError and changes
nothing. -/
theorem C56_violated (s : TunnelSt) (e : TunnelEnd) (m : Bytes) (args : List Bytes) :
    Tunnel.write s e (.bytes m) args = (.error .typeError, s) ∧
    TunnelMP.write (.bytes m) args = .error .typeError := ⟨rfl, rfl⟩

/-- C56: so in every history of a new tunnel in which messages are bytes, every write raises
TypeError and every read IndexError. -/
theorem C56_nothing_delivered (ops : List TunnelOp)
    (h : ∀ o ∈ ops, ∀ e msg args, o = .write e msg args → ∃ m, msg = .bytes m) :
    (∀ x ∈ (Tunnel.run ops {}).1,
      (∃ e, x = (.read e, .error .indexError)) ∨
      ∃ e msg args, x = (.write e msg args, .error .typeError)) ∧
    (Tunnel.run ops {}).2 = {} := by
  induction ops with
  | nil => simp [Tunnel.run]
  | cons o ops ih =>
    obtain ⟨h1, h2⟩ := ih fun o ho => h o (List.mem_cons_of_mem _ ho)
    cases o with
    | read e =>
      have : Tunnel.read {} e = (.error .indexError, {}) := by cases e <;> rfl
      simp only [Tunnel.run, this, h2, and_true]
      intro x hx
      rcases List.mem_cons.mp hx with rfl | hx
      · exact .inl ⟨e, rfl⟩
      · exact h1 x hx
    | write e msg args =>
      obtain ⟨m, rfl⟩ := h _ (List.mem_cons_self ..) e msg args rfl
      simp only [Tunnel.run, (C56_violated {} e m args).1, h2, and_true]
      intro x hx
      rcases List.mem_cons.mp hx with rfl | hx
      · exact .inr ⟨e, _, args, rfl⟩
      · exact h1 x hx

/-- C56, the part that holds: in every history of a tunnel, the messages read at an end followed by
those still waiting are those that waited at the beginning followed by the ones successfully written at
the other end, in order.  Missing: writes of bytes fail (`C56_violated`), so this only says something
for callers passing a tuple of messages as first argument. -/
theorem C56_fifo_partial (ops : List TunnelOp) (s : TunnelSt) (e : TunnelEnd) :
    Tunnel.inQ s e ++ tunnelWritten (otherEnd e) (Tunnel.run ops s).1 =
      tunnelRead e (Tunnel.run ops s).1 ++ Tunnel.inQ (Tunnel.run ops s).2 e := by
  induction ops generalizing s with
  | nil => simp [Tunnel.run, tunnelWritten, tunnelRead]
  | cons o ops ih =>
    cases o with
    | read e' =>
      simp only [Tunnel.run]
      have := ih (Tunnel.read s e').2
      cases hq : Tunnel.inQ s e' with
      | nil =>
        have hr : Tunnel.read s e' = (.error .indexError, s) := by simp [Tunnel.read, hq]
        rw [hr] at this ⊢
        simpa [tunnelWritten, tunnelRead, Except.map] using this
      | cons m q =>
        have hr : Tunnel.read s e' = (.ok m, Tunnel.setInQ s e' q) := by simp [Tunnel.read, hq]
        rw [hr] at this ⊢
        simp only [Except.map, tunnelWritten, tunnelRead]
        by_cases he : e' = e
        · subst he
          have hi : Tunnel.inQ (Tunnel.setInQ s e' q) e' = q := by cases e' <;> rfl
          simp only [hi] at this
          rw [if_pos rfl, List.cons_append, hq, List.cons_append, this]
        · rw [if_neg he, ← this]
          congr 1
          cases e <;> cases e' <;> first | rfl | exact absurd rfl he
    | write e' msg args =>
      simp only [Tunnel.run]
      have := ih (Tunnel.write s e' msg args).2
      cases msg with
      | bytes m =>
        rw [(C56_violated s e' m args).1] at this ⊢
        simpa [tunnelWritten, tunnelRead, Except.map] using this
      | tuple l =>
        have hw : Tunnel.write s e' (.tuple l) args =
            (.ok (), Tunnel.setInQ s (Tunnel.other e') (Tunnel.inQ s (Tunnel.other e') ++ (l ++ args))) :=
          rfl
        rw [hw] at this ⊢
        simp only [Except.map, tunnelWritten, tunnelRead]
        rw [← this]
        cases e <;> cases e' <;> simp [otherEnd, Tunnel.other, Tunnel.inQ, Tunnel.setInQ]

example : (Tunnel.run [.write .one (.tuple [[1], [2]]) [[3]], .read .two, .read .two] {}).1.map (·.2) =
    [.ok none, .ok (some [1]), .ok (some [2])] := by decide

end Salt.Props
