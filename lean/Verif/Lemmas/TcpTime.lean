import Verif.Spec.TcpTime
import Verif.Lemmas.AnyTime

/-!
# TCP connections in a process where all sessions have the same time objects: lemmas
-/

namespace Salt.Spec

open Salt

variable {σ α β γ : Type} {L : Lib} {T : TimeObj σ}

/-- The answer of an object other than the channel for a party with a clock of its own. -/
def clockReply (L : Lib) (c : Clock) (i : Nat) : (e : EnvOp) → Except Err e.Resp
  | .read => .error .typeError
  | .write _ _ => .error .typeError
  | .firstTime => .ok (c.first i)
  | .time => .ok (c.now i)
  | .report t => c.report i t
  | .check t => c.check i t
  | .sign m sk => L.sign m sk
  | .signOpen sm pk => L.signOpen sm pk
  | .hash m => L.hash m
  | .beforenm pk sk => L.beforenm pk sk
  | .box m n key => L.box m n key
  | .boxOpen d n key => L.boxOpen d n key

/-- How many readings of the clock a call takes. -/
def readings : EnvOp → Nat
  | .firstTime | .time | .report _ | .check _ => 1
  | _ => 0

/-- A program whose party has a clock of its own. -/
def settle (L : Lib) (c : Clock) : IT sockTime α → Nat → IT sock α
  | .ret v, _ => .ret v
  | .op (.own e) k, i => settle L c (k (clockReply L c i e)) (i + readings e)
  | .op (.sock o) k, i => .op (S := sock) o fun r => settle L c (k r) i

theorem settle_just (c : Clock) (p : IT sock γ) (f : γ → IT sockTime α) (i : Nat) :
    settle L c ((justSock p).bind f) i = p.bind fun v => settle L c (f v) i := by
  induction p with
  | ret v => rfl
  | op o k ih =>
    show IT.op _ _ = IT.op _ _
    congr 1
    funext r
    exact ih r

/-- It is the session of that party over the socket. -/
theorem settle_session (c : Clock) (t : IT env α) (i : Nat) : settle L c (sessionOnSocket t) i = onSocket (party L c t i) := by
  induction t generalizing i with
  | ret v => rfl
  | op e k ih =>
    cases e with
    | read =>
      rw [sessionOnSocket, settle_just, party, onSocket]
      congr 1; funext v; exact ih _ _
    | write ms l =>
      rw [sessionOnSocket, settle_just, party, onSocket]
      congr 1; funext v; exact ih _ _
    | _ => exact ih _ _

theorem ticks_reply (e : EnvOp) (s : σ) :
    (∀ x ∈ ticks e (ownReply L T e s), x.Of T) ∧ (ticks e (ownReply L T e s)).length = readings e ∧
    ∀ c i, ByClock c i (ticks e (ownReply L T e s)) → clockReply L c i e = ownReply L T e s := by
  refine ⟨?_, ?_, ?_⟩
  · rcases own_or L T e s with rfl | ⟨ms, l, rfl⟩ | ⟨r, s', hr⟩
    · simp [ticks]
    · simp [ticks]
    · have : ownReply L T e s = r := by simp [ownReply, hr]
      rw [this]
      exact ticks_of hr
  · cases e <;> rfl
  · intro c i h
    cases e with
    | firstTime => exact congrArg Except.ok h.1
    | time => exact congrArg Except.ok h.1
    | report t => exact h.1
    | check t => exact h.1
    | _ => rfl

/-- The rest of a connection when both sides have the given clocks. -/
def TcpTime.net (L : Lib) (cc cs : Clock) (i j : Nat) (x : TcpTime α β) : SockNet α β :=
  ⟨settle L cc x.a i, settle L cs x.b j, x.ab, x.ba⟩

/-- What a step is for a side with a clock of its own. -/
theorem TcpTimeStep.replay {x y : TcpTime α β} (h : TcpTimeStep L T x y) :
    ∃ g : List Tick, (∀ t ∈ g, t.Of T) ∧ ∀ cc cs i j, ByClock cc i g →
      x.net L cc cs i j = y.net L cc cs (i + g.length) j ∨ TcpStep (x.net L cc cs i j) (y.net L cc cs (i + g.length) j) := by
  cases h with
  | own e k s =>
    obtain ⟨h1, h2, h3⟩ := ticks_reply (L := L) (T := T) e s
    refine ⟨_, h1, fun cc cs i j hb => .inl ?_⟩
    rw [h2]
    simp only [TcpTime.net, settle, h3 cc i hb]
  | send d k => exact ⟨[], by simp, fun cc cs i j _ => .inr (.send d _)⟩
  | recv n chunk k h1 h2 => exact ⟨[], by simp, fun cc cs i j _ => .inr (.recv n chunk _ h1 h2)⟩
  | eof n k => exact ⟨[], by simp, fun cc cs i j _ => .inr (.eof n _)⟩
  | broken d k e h1 => exact ⟨[], by simp, fun cc cs i j _ => .inr (.broken d _ e h1)⟩
  | reset n k e h1 => exact ⟨[], by simp, fun cc cs i j _ => .inr (.reset n _ e h1)⟩

theorem TcpTime.replay {x z : TcpTime α β} (h : (tcpTime L T).Reach x z) :
    ∃ g h : List Tick, (∀ t ∈ g, t.Of T) ∧ (∀ t ∈ h, t.Of T) ∧ ∀ cc cs i j, ByClock cc i g → ByClock cs j h →
      tcp.Reach (x.net L cc cs i j) (z.net L cc cs (i + g.length) (j + h.length)) := by
  induction h with
  | refl => exact ⟨[], [], by simp, by simp, fun _ _ _ _ _ _ => .refl _⟩
  | step _ hs ih =>
    obtain ⟨g, h, hg, hh, ih⟩ := ih
    rcases hs with hs | hs
    · obtain ⟨g', hg', ht⟩ := TcpTimeStep.replay hs
      refine ⟨g ++ g', h, fun t m => (List.mem_append.1 m).elim (hg t) (hg' t), hh, fun cc cs i j b1 b2 => ?_⟩
      obtain ⟨b3, b4⟩ := b1.append
      have hn := ih cc cs i j b3 b2
      rw [List.length_append, ← Nat.add_assoc]
      rcases ht cc cs _ (j + h.length) b4 with e | e
      · rw [← e]; exact hn
      · exact .step hn (.inl e)
    · obtain ⟨g', hg', ht⟩ := TcpTimeStep.replay hs
      refine ⟨g, h ++ g', hg, fun t m => (List.mem_append.1 m).elim (hh t) (hg' t), fun cc cs i j b1 b2 => ?_⟩
      obtain ⟨b3, b4⟩ := b2.append
      have hn := ih cc cs i j b1 b3
      rw [List.length_append, ← Nat.add_assoc]
      rcases ht cs cc _ (i + g.length) b4 with e | e
      · simp only [TcpTime.net, TcpTime.swap, SockNet.mk.injEq] at e
        simp only [TcpTime.net] at hn ⊢
        rw [← e.1, ← e.2.1, ← e.2.2.1, ← e.2.2.2]; exact hn
      · exact .step hn (.inr e)

/-- The same while the server has not accepted the connection. -/
theorem TcpTime.replayC {x z : TcpTime α β} (h : (tcpTime L T).ReachC x z) :
    ∃ g : List Tick, (∀ t ∈ g, t.Of T) ∧ ∀ cc cs i j, ByClock cc i g →
      tcp.ReachC (x.net L cc cs i j) (z.net L cc cs (i + g.length) j) := by
  induction h with
  | refl => exact ⟨[], by simp, fun _ _ _ _ _ => .refl _⟩
  | step _ hs ih =>
    obtain ⟨g, hg, ih⟩ := ih
    obtain ⟨g', hg', ht⟩ := TcpTimeStep.replay hs
    refine ⟨g ++ g', fun t m => (List.mem_append.1 m).elim (hg t) (hg' t), fun cc cs i j b1 => ?_⟩
    obtain ⟨b3, b4⟩ := b1.append
    have hn := ih cc cs i j b3
    rw [List.length_append, ← Nat.add_assoc]
    rcases ht cc cs _ j b4 with e | e
    · rw [← e]; exact hn
    · exact .step hn e

theorem tcpTime_lawful : (tcpTime (α := α) (β := β) L T).Lawful := by
  have no : ∀ {α β : Type} {x y : TcpTime α β}, (∃ r, x.a = .ret r) → ¬ TcpTimeStep L T x y := by
    rintro α β x y ⟨r, hr⟩ h
    cases h <;> cases hr
  have keep : ∀ {α β : Type} {x y : TcpTime α β}, TcpTimeStep L T x y → y.b = x.b := by
    intro α β x y h
    cases h <;> rfl
  refine ⟨fun x y h => no h, fun x y h => no (x := x.swap) h, ?_, ?_⟩
  · rintro x y ⟨r, h⟩ hs
    exact ⟨r, (keep hs).trans h⟩
  · rintro x y ⟨r, h⟩ hs
    exact ⟨r, (keep hs).trans h⟩

theorem tcpTime_terminates (x : TcpTime α β) : (tcpTime L T).Terminates x := by
  have key : ∀ a : IT sockTime α, ∀ b : IT sockTime β, ∀ ab ba, (tcpTime L T).Terminates ⟨a, b, ab, ba⟩ := by
    intro a
    induction a with
    | ret v =>
      intro b
      induction b with
      | ret w =>
        refine fun ab ba => ⟨_, ?_⟩
        rintro y (h | h)
        · cases h
        · have h : TcpTimeStep L T ⟨.ret w, .ret v, ba, ab⟩ y.swap := h
          generalize y.swap = u at h
          cases h
      | op e k ih =>
        refine fun ab ba => ⟨_, ?_⟩
        rintro ⟨a', b', ab', ba'⟩ (h | h)
        · cases h
        · have h : TcpTimeStep L T ⟨.op e k, .ret v, ba, ab⟩ ⟨b', a', ba', ab'⟩ := h
          cases h <;> exact ih _ _ _
    | op e k iha =>
      intro b
      induction b with
      | ret w =>
        refine fun ab ba => ⟨_, ?_⟩
        rintro ⟨a', b', ab', ba'⟩ (h | h)
        · cases h <;> exact iha _ _ _ _
        · have h : TcpTimeStep L T ⟨.ret w, .op e k, ba, ab⟩ ⟨b', a', ba', ab'⟩ := h
          cases h
      | op e' k' ih =>
        refine fun ab ba => ⟨_, ?_⟩
        rintro ⟨a', b', ab', ba'⟩ (h | h)
        · cases h <;> exact iha _ _ _ _
        · have h : TcpTimeStep L T ⟨.op e' k', .op e k, ba, ab⟩ ⟨b', a', ba', ab'⟩ := h
          cases h <;> exact ih _ _ _
  exact key x.a x.b x.ab x.ba

/-- How the first side is when it cannot go on. -/
theorem tcpTime_waits (s : σ) {x : TcpTime α β} (h : ∀ y, ¬ TcpTimeStep L T x y) :
    (∃ v, x.a = .ret v) ∨ ∃ o k, x.a = .op (S := sockTime) (.sock o) k := by
  obtain ⟨a, b, ab, ba⟩ := x
  cases a with
  | ret v => exact .inl ⟨v, rfl⟩
  | op e k =>
    cases e with
    | own e => exact absurd (.own e k s) (h _)
    | sock o => exact .inr ⟨o, k, rfl⟩

theorem tcpTime_stuck_a {x : TcpTime α β} (h : ∀ y, ¬ TcpTimeStep L T x y) (s : σ)
    (hb : (∃ v, x.b = .ret v) ∨ ∃ o k, x.b = .op (S := sockTime) (.sock o) k) (cc cs : Clock) (i j : Nat) :
    ∀ Y, ¬ TcpStep (x.net L cc cs i j) Y := by
  intro Y hY
  have ha := tcpTime_waits s h
  obtain ⟨a, b, ab, ba⟩ := x
  simp only at ha hb
  rcases ha with ⟨v, rfl⟩ | ⟨o, k, rfl⟩
  · simp only [TcpTime.net, settle] at hY
    cases hY
  · rcases hb with ⟨w, rfl⟩ | ⟨o', k', rfl⟩ <;> simp only [TcpTime.net, settle] at hY
    · cases hY with
      | send d => exact h _ (.send d k)
      | recv n chunk _ h1 h2 => exact h _ (.recv n chunk k h1 h2)
      | eof n => exact h _ (.eof n k)
      | broken d _ e h1 => exact h _ (.broken d k e h1)
      | reset n _ e h1 => exact h _ (.reset n k e h1)
    · cases hY with
      | send d => exact h _ (.send d k)
      | recv n chunk _ h1 h2 => exact h _ (.recv n chunk k h1 h2)

theorem tcpTime_stuck (s : σ) {z : TcpTime α β} (h : (tcpTime L T).Stuck z) :
    ((∃ v, z.a = .ret v) ∨ ∃ o k, z.a = .op (S := sockTime) (.sock o) k) ∧
    ((∃ v, z.b = .ret v) ∨ ∃ o k, z.b = .op (S := sockTime) (.sock o) k) ∧
    ∀ cc cs i j, tcp.Stuck (z.net L cc cs i j) := by
  have h1 : ∀ y, ¬ TcpTimeStep L T z y := fun y hy => h y (.inl hy)
  have h2 : ∀ y, ¬ TcpTimeStep L T z.swap y := fun y hy => h y.swap (.inr hy)
  have w1 := tcpTime_waits s h1
  have w2 := tcpTime_waits s h2
  refine ⟨w1, w2, fun cc cs i j Y hY => ?_⟩
  rcases hY with hY | hY
  · exact tcpTime_stuck_a h1 s w2 cc cs i j _ hY
  · exact tcpTime_stuck_a h2 s w1 cs cc j i _ hY

/-- What holds over TCP for parties with clocks of their own that return times of `T`, holds for parties with common time
objects. -/
theorem tcpTime_ends (s : σ) {x : TcpTime α β} {Q : α → β → Prop}
    (h : ∀ cc cs, (∃ g, (∀ t ∈ g, t.Of T) ∧ cc = clockOf T s g) → (∃ g, (∀ t ∈ g, t.Of T) ∧ cs = clockOf T s g) →
      tcp.Ends (fun z => ∃ v w, Results v w z ∧ Q v w) (x.net L cc cs 0 0)) :
    (tcpTime L T).Ends (fun z => ∃ v w, z.a = .ret v ∧ z.b = .ret w ∧ Q v w) x := by
  refine ⟨tcpTime_terminates x, fun z hz hs => ?_⟩
  obtain ⟨g, h', hg, hh, hr⟩ := TcpTime.replay hz
  obtain ⟨w1, w2, hst⟩ := tcpTime_stuck s hs
  obtain ⟨-, -, v, w, ⟨e1, e2⟩, hq⟩ := (h (clockOf T s g) (clockOf T s h') ⟨g, hg, rfl⟩ ⟨h', hh, rfl⟩).2 _
    (hr _ _ 0 0 (byClock_clockOf T s g) (byClock_clockOf T s h')) (hst _ _ _ _)
  have h1 : z.a = .ret v := by
    rcases w1 with ⟨u, hu⟩ | ⟨o, k, hu⟩ <;> simp only [TcpTime.net, hu, settle] at e1
    · cases e1; exact hu
    · cases e1
  have h2 : z.b = .ret w := by
    rcases w2 with ⟨u, hu⟩ | ⟨o, k, hu⟩ <;> simp only [TcpTime.net, hu, settle] at e2
    · cases e2; exact hu
    · cases e2
  exact ⟨⟨v, h1⟩, ⟨w, h2⟩, v, w, h1, h2, hq⟩

theorem tcpTime_needs (s : σ) {x : TcpTime α β} (cs : Clock)
    (h : ∀ cc, (∃ g, (∀ t ∈ g, t.Of T) ∧ cc = clockOf T s g) → tcp.NeedsServer (x.net L cc cs 0 0)) :
    (tcpTime L T).NeedsServer x := by
  rintro z hz ⟨v, hv⟩
  obtain ⟨g, hg, hr⟩ := TcpTime.replayC hz
  exact h _ ⟨g, hg, rfl⟩ _ (hr _ cs 0 0 (byClock_clockOf T s g)) ⟨v, by simp [TcpTime.net, hv, settle]⟩

end Salt.Spec
