import Verif.Spec.SharedTime

/-!
# Two parties that share their time objects: every run is one with time objects of their own
-/

namespace Salt.Spec

open Salt

/-- A call of the time objects and its result. -/
inductive Tick
  | first (t : Nat)
  | now (t : Nat)
  | report (t : Nat) (r : Except Err Unit)
  | check (t : Nat) (r : Except Err Unit)

/-- The call number `i` of `c` would have this result. -/
def Tick.By (c : Clock) (i : Nat) : Tick → Prop
  | .first t => c.first i = t
  | .now t => c.now i = t
  | .report t r => c.report i t = r
  | .check t r => c.check i t = r

/-- The calls from number `i` on have these results. -/
def ByClock (c : Clock) : Nat → List Tick → Prop
  | _, [] => True
  | i, x :: h => x.By c i ∧ ByClock c (i + 1) h

variable {σ α β : Type}

/-- The result can come from `T`. -/
def Tick.Of (T : TimeObj σ) : Tick → Prop
  | .first t => ∃ s, (T.first s).1 = t
  | .now t => ∃ s, (T.now s).1 = t
  | .report t r => ∃ s, (T.report t s).1 = r
  | .check t r => ∃ s, (T.check t s).1 = r

/-- The calls that an operation makes. -/
def ticks : (e : EnvOp) → Except Err e.Resp → List Tick
  | .firstTime, .ok t => [.first t]
  | .time, .ok t => [.now t]
  | .report t, r => [.report t r]
  | .check t, r => [.check t r]
  | _, _ => []

theorem ticks_of {L : Lib} {T : TimeObj σ} {e : EnvOp} {s s' : σ} {r : Except Err e.Resp} (h : ownAnswer L T e s = some (r, s')) :
    ∀ x ∈ ticks e r, x.Of T := by
  cases e <;> simp only [ownAnswer, Option.some.injEq, Prod.mk.injEq, reduceCtorEq] at h <;>
    first
    | (obtain ⟨rfl, -⟩ := h; simp [ticks, Tick.Of]; done)
    | skip
  all_goals
    intro x hx
    simp only [ticks, List.mem_singleton] at hx
    subst hx
    exact ⟨s, by rw [h]⟩

theorem party_own {L : Lib} {T : TimeObj σ} {e : EnvOp} {s s' : σ} {r : Except Err e.Resp} (h : ownAnswer L T e s = some (r, s'))
    {c : Clock} {i : Nat} (hc : ByClock c i (ticks e r)) (k : Except Err e.Resp → IT env α) :
    party L c (.op (S := env) e k) i = party L c (k r) (i + (ticks e r).length) := by
  cases e <;> simp only [ownAnswer, Option.some.injEq, Prod.mk.injEq, reduceCtorEq] at h
  case report t => cases hc.1; rfl
  case check t => cases hc.1; rfl
  all_goals
    obtain ⟨rfl, -⟩ := h
    first
    | rfl
    | (have := hc.1; simp only [Tick.By] at this; simp only [party, this]; rfl)

theorem ByClock.append {c : Clock} : ∀ {g h : List Tick} {i : Nat}, ByClock c i (g ++ h) →
    ByClock c i g ∧ ByClock c (i + g.length) h
  | [], _, _, hh => ⟨trivial, hh⟩
  | x :: g, h, i, hh => by
    obtain ⟨h1, h2⟩ := ByClock.append (g := g) hh.2
    exact ⟨⟨hh.1, h1⟩, by rw [List.length_cons, show i + (g.length + 1) = i + 1 + g.length by omega]; exact h2⟩

/-- What remains when both sides have the given clocks. -/
def SharedTime.net (L : Lib) (cc cs : Clock) (i j : Nat) (x : SharedTime σ α β) : Net α β :=
  ⟨party L cc x.a i, party L cs x.b j, x.ab, x.ba⟩

theorem SharedTime.Logged.replay {L : Lib} {T : TimeObj σ} {x z : SharedTime σ α β} {la lb} (h : SharedTime.Logged L T x la lb z) :
    ∃ g h : List Tick, (∀ t ∈ g, t.Of T) ∧ (∀ t ∈ h, t.Of T) ∧ ∀ cc cs i j, ByClock cc i g → ByClock cs j h →
      Net.Logged (x.net L cc cs i j) la lb (z.net L cc cs (i + g.length) (j + h.length)) := by
  induction h with
  | refl x => exact ⟨[], [], by simp, by simp, fun _ _ _ _ _ _ => .refl _⟩
  | aOwn e r k he _ ih =>
    obtain ⟨g, h, hg, hh, ih⟩ := ih
    refine ⟨ticks e r ++ g, h, fun t ht => (List.mem_append.1 ht).elim (ticks_of he t) (hg t), hh, fun cc cs i j h1 h2 => ?_⟩
    obtain ⟨h3, h4⟩ := h1.append
    have := ih cc cs _ j h4 h2
    rw [List.length_append, ← Nat.add_assoc]
    unfold SharedTime.net at this ⊢
    simp only at this ⊢
    rw [party_own he h3]
    exact this
  | bOwn e r k he _ ih =>
    obtain ⟨g, h, hg, hh, ih⟩ := ih
    refine ⟨g, ticks e r ++ h, hg, fun t ht => (List.mem_append.1 ht).elim (ticks_of he t) (hh t), fun cc cs i j h1 h2 => ?_⟩
    obtain ⟨h3, h4⟩ := h2.append
    have := ih cc cs i _ h1 h4
    rw [List.length_append, ← Nat.add_assoc]
    unfold SharedTime.net at this ⊢
    simp only at this ⊢
    rw [party_own he h3]
    exact this
  | aWrite ms l k _ ih =>
    obtain ⟨g, h, hg, hh, ih⟩ := ih
    exact ⟨g, h, hg, hh, fun cc cs i j h1 h2 => .aWrite ms l _ (ih cc cs i j h1 h2)⟩
  | aRead m k _ ih =>
    obtain ⟨g, h, hg, hh, ih⟩ := ih
    exact ⟨g, h, hg, hh, fun cc cs i j h1 h2 => .aRead m _ (ih cc cs i j h1 h2)⟩
  | bWrite ms l k _ ih =>
    obtain ⟨g, h, hg, hh, ih⟩ := ih
    exact ⟨g, h, hg, hh, fun cc cs i j h1 h2 => .bWrite ms l _ (ih cc cs i j h1 h2)⟩
  | bRead m k _ ih =>
    obtain ⟨g, h, hg, hh, ih⟩ := ih
    exact ⟨g, h, hg, hh, fun cc cs i j h1 h2 => .bRead m _ (ih cc cs i j h1 h2)⟩

/-- A clock that gives the results `h`, and those of `T` in the state `s` for all other calls. -/
def clockOf (T : TimeObj σ) (s : σ) (h : List Tick) : Clock where
  first i := match h[i]? with
    | some (.first t) => t
    | _ => (T.first s).1
  now i := match h[i]? with
    | some (.now t) => t
    | _ => (T.now s).1
  report i t := match h[i]? with
    | some (.report t' r) => if t = t' then r else (T.report t s).1
    | _ => (T.report t s).1
  check i t := match h[i]? with
    | some (.check t' r) => if t = t' then r else (T.check t s).1
    | _ => (T.check t s).1

theorem byClock_clockOf (T : TimeObj σ) (s : σ) (h : List Tick) : ByClock (clockOf T s h) 0 h := by
  suffices ∀ g i, (∀ n, h[i + n]? = g[n]?) → ByClock (clockOf T s h) i g from this h 0 (by simp)
  intro g
  induction g with
  | nil => intros; trivial
  | cons x g ih =>
    intro i hi
    refine ⟨?_, ih (i + 1) fun n => by have := hi (n + 1); rwa [List.getElem?_cons_succ, ← Nat.add_assoc, Nat.add_right_comm] at this⟩
    have h0 : h[i]? = some x := by simpa using hi 0
    cases x <;> simp [Tick.By, clockOf, h0]

theorem clockOf_range (T : TimeObj σ) (s : σ) {h : List Tick} (hh : ∀ t ∈ h, t.Of T) :
    (∀ i, ∃ s', (T.first s').1 = (clockOf T s h).first i) ∧ (∀ i, ∃ s', (T.now s').1 = (clockOf T s h).now i) ∧
    (∀ i t, ∃ s', (T.report t s').1 = (clockOf T s h).report i t) ∧
    ∀ i t, ∃ s', (T.check t s').1 = (clockOf T s h).check i t := by
  have hm : ∀ {i : Nat} {x : Tick}, h[i]? = some x → x.Of T := fun hx => hh _ (List.mem_of_getElem? hx)
  refine ⟨fun i => ?_, fun i => ?_, fun i t => ?_, fun i t => ?_⟩ <;> simp only [clockOf]
  · split
    · rename_i hx; exact hm hx
    · exact ⟨s, rfl⟩
  · split
    · rename_i hx; exact hm hx
    · exact ⟨s, rfl⟩
  · split
    · rename_i hx
      split
      · rename_i ht; subst ht; exact hm hx
      · exact ⟨s, rfl⟩
    · exact ⟨s, rfl⟩
  · split
    · rename_i hx
      split
      · rename_i ht; subst ht; exact hm hx
      · exact ⟨s, rfl⟩
    · exact ⟨s, rfl⟩

theorem SharedTime.terminates (L : Lib) (T : TimeObj σ) (x : SharedTime σ α β) : x.Terminates L T := by
  obtain ⟨a, b, ab, ba, s⟩ := x
  unfold SharedTime.Terminates
  induction a generalizing b ab ba s with
  | ret v =>
    induction b generalizing ab ba s with
    | ret w => exact ⟨_, fun y hy => by cases hy⟩
    | op e k ih => exact ⟨_, fun y hy => by cases hy <;> exact ih _ _ _ _⟩
  | op e k iha =>
    induction b generalizing ab ba s with
    | ret w => exact ⟨_, fun y hy => by cases hy <;> exact iha _ _ _ _ _⟩
    | op e k ih => exact ⟨_, fun y hy => by cases hy <;> first | exact iha _ _ _ _ _ | exact ih _ _ _ _⟩

theorem own_or (L : Lib) (T : TimeObj σ) (e : EnvOp) (s : σ) :
    e = .read ∨ (∃ ms l, e = .write ms l) ∨ ∃ r s', ownAnswer L T e s = some (r, s') := by
  cases e <;> simp [ownAnswer] <;> exact ⟨_, _, rfl⟩

theorem SharedTime.Stuck.net {L : Lib} {T : TimeObj σ} {z : SharedTime σ α β} (h : z.Stuck L T) :
    ((∃ v, z.a = .ret v) ∨ ∃ k, z.a = .op (S := env) .read k ∧ z.ba = []) ∧
    ((∃ v, z.b = .ret v) ∨ ∃ k, z.b = .op (S := env) .read k ∧ z.ab = []) := by
  obtain ⟨a, b, ab, ba, s⟩ := z
  constructor
  · cases a with
    | ret v => exact .inl ⟨v, rfl⟩
    | op e k =>
      rcases own_or L T e s with rfl | ⟨ms, l, rfl⟩ | ⟨r, s', hr⟩
      · cases ba with
        | nil => exact .inr ⟨k, rfl, rfl⟩
        | cons m ba => exact absurd (.aRead m k) (h _)
      · exact absurd (.aWrite ms l k) (h _)
      · exact absurd (.aOwn e r k hr) (h _)
  · cases b with
    | ret v => exact .inl ⟨v, rfl⟩
    | op e k =>
      rcases own_or L T e s with rfl | ⟨ms, l, rfl⟩ | ⟨r, s', hr⟩
      · cases ab with
        | nil => exact .inr ⟨k, rfl, rfl⟩
        | cons m ab => exact absurd (.bRead m k) (h _)
      · exact absurd (.bWrite ms l k) (h _)
      · exact absurd (.bOwn e r k hr) (h _)

theorem SharedTime.Stuck.stuck_net {L : Lib} {T : TimeObj σ} {z : SharedTime σ α β} (h : z.Stuck L T) (cc cs : Clock) (i j : Nat) :
    Net.Stuck (z.net L cc cs i j) := by
  obtain ⟨h1, h2⟩ := h.net
  obtain ⟨a, b, ab, ba, s⟩ := z
  simp only at h1 h2
  intro y hy
  rcases h1 with ⟨v, rfl⟩ | ⟨k, rfl, rfl⟩ <;> rcases h2 with ⟨w, rfl⟩ | ⟨k', rfl, rfl⟩ <;>
    (simp only [SharedTime.net, party] at hy; cases hy)

end Salt.Spec
