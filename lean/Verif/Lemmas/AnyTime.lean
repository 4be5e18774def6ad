import Verif.Spec.AnyTime
import Verif.Lemmas.SharedTime
import Verif.Lemmas.SockNet
import Verif.Lemmas.Farm

/-!
# Connections in a process where all sessions have the same time objects: lemmas
-/

namespace Salt.Spec

open Salt

variable {σ α β : Type} {L : Lib} {T : TimeObj σ}

theorem ByClock.concat {c : Clock} : ∀ {g h : List Tick} {i : Nat}, ByClock c i g → ByClock c (i + g.length) h → ByClock c i (g ++ h)
  | [], _, _, _, hh => hh
  | x :: g, h, i, hg, hh => ⟨hg.1, ByClock.concat hg.2 (by
      rw [List.length_cons, show i + (g.length + 1) = i + 1 + g.length by omega] at hh; exact hh)⟩

/-- The rest of a connection when both sides have the given clocks. -/
def AnyTime.net (L : Lib) (cc cs : Clock) (i j : Nat) (x : AnyTime α β) : Net α β :=
  ⟨party L cc x.a i, party L cs x.b j, x.ab, x.ba⟩

/-- What a turn is for a side with a clock of its own. -/
theorem Turn.replay {s s' : σ} {t t' : IT env α} {inn inn' out : List Bytes} (h : Turn L T s s' t inn t' inn' out) :
    ∃ g : List Tick, (∀ x ∈ g, x.Of T) ∧ ∀ c i, ByClock c i g →
      (party L c t i = party L c t' (i + g.length) ∧ inn' = inn ∧ out = []) ∨
      (∃ ms l k, party L c t i = .op (S := appSig) (.write ms l) k ∧ party L c t' (i + g.length) = k (.ok ()) ∧ inn' = inn ∧ out = ms) ∨
      (∃ m k, party L c t i = .op (S := appSig) .read k ∧ party L c t' (i + g.length) = k (.ok m) ∧ inn = m :: inn' ∧ out = []) := by
  cases h with
  | own e r k he => exact ⟨ticks e r, ticks_of he, fun c i h => .inl ⟨party_own he h k, rfl, rfl⟩⟩
  | write _ l k => exact ⟨[], by simp, fun c i _ => .inr (.inl ⟨_, l, _, rfl, rfl, rfl, rfl⟩)⟩
  | read m k => exact ⟨[], by simp, fun c i _ => .inr (.inr ⟨m, _, rfl, rfl, rfl, rfl⟩)⟩

theorem AnyTime.replay {x z : AnyTime α β} (h : (anyTime L T).Reach x z) :
    ∃ g h : List Tick, (∀ t ∈ g, t.Of T) ∧ (∀ t ∈ h, t.Of T) ∧ ∀ cc cs i j, ByClock cc i g → ByClock cs j h →
      ∃ n, Net.Run n (x.net L cc cs i j) (z.net L cc cs (i + g.length) (j + h.length)) := by
  induction h with
  | refl => exact ⟨[], [], by simp, by simp, fun _ _ _ _ _ _ => ⟨0, .refl _⟩⟩
  | step _ hs ih =>
    rename_i y z _
    obtain ⟨g, h, hg, hh, ih⟩ := ih
    obtain ⟨a, b, ab, ba⟩ := y
    obtain ⟨a', b', ab', ba'⟩ := z
    rcases hs with ⟨s, s', out, ht, h1, h2⟩ | ⟨s, s', out, ht, h1, h2⟩ <;> simp only at ht h1 h2 <;> subst h1 <;> subst h2
    · obtain ⟨g', hg', ht⟩ := ht.replay
      refine ⟨g ++ g', h, fun t m => (List.mem_append.1 m).elim (hg t) (hg' t), hh, fun cc cs i j b1 b2 => ?_⟩
      obtain ⟨b3, b4⟩ := b1.append
      obtain ⟨n, hn⟩ := ih cc cs i j b3 b2
      rw [List.length_append, ← Nat.add_assoc]
      unfold AnyTime.net at hn ⊢
      simp only at hn ⊢
      rcases ht cc _ b4 with ⟨e1, rfl, rfl⟩ | ⟨ms, l, k, e1, e2, rfl, rfl⟩ | ⟨m, k, e1, e2, rfl, rfl⟩
      · rw [e1] at hn
        exact ⟨n, by simpa using hn⟩
      · rw [e1] at hn
        rw [e2]
        exact ⟨_, hn.snoc (.aWrite _ l k)⟩
      · rw [e1] at hn
        rw [e2, List.append_nil]
        exact ⟨_, hn.snoc (.aRead m k)⟩
    · obtain ⟨g', hg', ht⟩ := ht.replay
      refine ⟨g, h ++ g', hg, fun t m => (List.mem_append.1 m).elim (hh t) (hg' t), fun cc cs i j b1 b2 => ?_⟩
      obtain ⟨b3, b4⟩ := b2.append
      obtain ⟨n, hn⟩ := ih cc cs i j b1 b3
      rw [List.length_append, ← Nat.add_assoc]
      unfold AnyTime.net at hn ⊢
      simp only at hn ⊢
      rcases ht cs _ b4 with ⟨e1, rfl, rfl⟩ | ⟨ms, l, k, e1, e2, rfl, rfl⟩ | ⟨m, k, e1, e2, rfl, rfl⟩
      · rw [e1] at hn
        exact ⟨n, by simpa using hn⟩
      · rw [e1] at hn
        rw [e2]
        exact ⟨_, hn.snoc (.bWrite _ l k)⟩
      · rw [e1] at hn
        rw [e2, List.append_nil]
        exact ⟨_, hn.snoc (.bRead m k)⟩

theorem Turn.not_ret {s s' : σ} {v : α} {t' : IT env α} {inn inn' out : List Bytes} : ¬ Turn L T s s' (.ret v) inn t' inn' out := by
  intro h; cases h

theorem anyTime_lawful : (anyTime (α := α) (β := β) L T).Lawful := by
  refine ⟨?_, ?_, ?_, ?_⟩
  · rintro ⟨a, b, ab, ba⟩ y ⟨r, rfl⟩ ⟨s, s', out, h, -⟩; exact h.not_ret
  · rintro ⟨a, b, ab, ba⟩ y ⟨r, rfl⟩ ⟨s, s', out, h, -⟩; exact h.not_ret
  · rintro x y ⟨r, h⟩ ⟨s, s', out, -, h1, -⟩; exact ⟨r, h1.trans h⟩
  · rintro x y ⟨r, h⟩ ⟨s, s', out, -, h1, -⟩; exact ⟨r, h1.trans h⟩

theorem anyTime_terminates (x : AnyTime α β) : (anyTime L T).Terminates x := by
  obtain ⟨a, b, ab, ba⟩ := x
  have key : ∀ a : IT env α, ∀ b : IT env β, ∀ ab ba, (anyTime L T).Terminates ⟨a, b, ab, ba⟩ := by
    intro a
    induction a with
    | ret v =>
      intro b
      induction b with
      | ret w =>
        refine fun ab ba => ⟨_, ?_⟩
        rintro y (⟨s, s', out, h, -⟩ | ⟨s, s', out, h, -⟩)
        · exact absurd h Turn.not_ret
        · exact absurd h Turn.not_ret
      | op e k ih =>
        refine fun ab ba => ⟨_, ?_⟩
        rintro ⟨a', b', ab', ba'⟩ (⟨s, s', out, h, h1, h2⟩ | ⟨s, s', out, h, h1, h2⟩)
        · exact absurd h Turn.not_ret
        · simp only at h h1 h2
          subst h1
          cases h <;> exact ih _ _ _
    | op e k iha =>
      intro b
      induction b with
      | ret w =>
        refine fun ab ba => ⟨_, ?_⟩
        rintro ⟨a', b', ab', ba'⟩ (⟨s, s', out, h, h1, h2⟩ | ⟨s, s', out, h, h1, h2⟩)
        · simp only at h h1 h2
          subst h1
          cases h <;> exact iha _ _ _ _
        · exact absurd h Turn.not_ret
      | op e' k' ih =>
        refine fun ab ba => ⟨_, ?_⟩
        rintro ⟨a', b', ab', ba'⟩ (⟨s, s', out, h, h1, h2⟩ | ⟨s, s', out, h, h1, h2⟩)
        · simp only at h h1 h2
          subst h1
          cases h <;> exact iha _ _ _ _
        · simp only at h h1 h2
          subst h1
          cases h <;> exact ih _ _ _
  exact key a b ab ba

theorem turn_or (s : σ) (t : IT env α) (inn : List Bytes) :
    (∃ v, t = .ret v) ∨ (∃ k, t = .op (S := env) .read k ∧ inn = []) ∨ ∃ s' t' inn' out, Turn L T s s' t inn t' inn' out := by
  cases t with
  | ret v => exact .inl ⟨v, rfl⟩
  | op e k =>
    rcases own_or L T e s with rfl | ⟨ms, l, rfl⟩ | ⟨r, s', hr⟩
    · cases inn with
      | nil => exact .inr (.inl ⟨k, rfl, rfl⟩)
      | cons m inn => exact .inr (.inr ⟨_, _, _, _, .read m k⟩)
    · exact .inr (.inr ⟨_, _, _, _, .write ms l k⟩)
    · exact .inr (.inr ⟨_, _, _, _, .own e r k hr⟩)

/-- How both sides are when neither can go on. -/
theorem anyTime_stuck (s : σ) {z : AnyTime α β} (h : (anyTime L T).Stuck z) :
    ((∃ v, z.a = .ret v) ∨ ∃ k, z.a = .op (S := env) .read k ∧ z.ba = []) ∧
    ((∃ v, z.b = .ret v) ∨ ∃ k, z.b = .op (S := env) .read k ∧ z.ab = []) := by
  constructor
  · rcases turn_or (L := L) (T := T) s z.a z.ba with h1 | h1 | ⟨s', t', inn', out, ht⟩
    · exact .inl h1
    · exact .inr h1
    · exact absurd (.inl ⟨s, s', out, ht, rfl, rfl⟩) (h ⟨t', z.b, z.ab ++ out, inn'⟩)
  · rcases turn_or (L := L) (T := T) s z.b z.ab with h1 | h1 | ⟨s', t', inn', out, ht⟩
    · exact .inl h1
    · exact .inr h1
    · exact absurd (.inr ⟨s, s', out, ht, rfl, rfl⟩) (h ⟨z.a, t', inn', z.ba ++ out⟩)

theorem anyTime_stuck_net (s : σ) {z : AnyTime α β} (h : (anyTime L T).Stuck z) (cc cs : Clock) (i j : Nat) :
    Net.Stuck (z.net L cc cs i j) := by
  obtain ⟨h1, h2⟩ := anyTime_stuck s h
  obtain ⟨a, b, ab, ba⟩ := z
  simp only at h1 h2
  intro y hy
  rcases h1 with ⟨v, rfl⟩ | ⟨k, rfl, rfl⟩ <;> rcases h2 with ⟨w, rfl⟩ | ⟨k', rfl, rfl⟩ <;>
    (simp only [AnyTime.net, party] at hy; cases hy)

/-! ### Processes -/

theorem Process.Step.conns {P Q : Process σ α β} (h : Process.Step L T P Q) :
    ∃ i x y, P.conns[i]? = some x ∧ Q.conns = P.conns.set i y ∧ ((anyTime L T).stepC x y ∨ (anyTime L T).stepS x y) := by
  cases h with
  | client hc ht => exact ⟨_, _, _, hc, rfl, .inl ⟨_, _, _, ht, rfl, rfl⟩⟩
  | server hc ht => exact ⟨_, _, _, hc, rfl, .inr ⟨_, _, _, ht, rfl, rfl⟩⟩

theorem Process.Reach.conns {P Q : Process σ α β} (h : Process.Reach L T P Q) :
    Q.conns.length = P.conns.length ∧
    ∀ (i : Nat) x y, P.conns[i]? = some x → Q.conns[i]? = some y → (anyTime L T).Reach x y := by
  induction h with
  | refl => exact ⟨rfl, fun i x y h1 h2 => by rw [h1] at h2; cases h2; exact .refl _⟩
  | step _ hs ih =>
    obtain ⟨k, u, v, hu, hq, hs⟩ := hs.conns
    refine ⟨by rw [hq, List.length_set]; exact ih.1, fun i x y h1 h2 => ?_⟩
    rw [hq, List.getElem?_set] at h2
    split at h2
    · rename_i e; subst e
      split at h2
      · cases h2; exact .step (ih.2 k x u h1 hu) hs
      · cases h2
    · exact ih.2 i x y h1 h2

theorem Process.Stuck.conns {P : Process σ α β} (h : P.Stuck L T) {i : Nat} {x : AnyTime α β} (hx : P.conns[i]? = some x) :
    (anyTime L T).Stuck x := by
  have h1 : (∃ v, x.a = .ret v) ∨ ∃ k, x.a = .op (S := env) .read k ∧ x.ba = [] := by
    rcases turn_or (L := L) (T := T) P.time x.a x.ba with h1 | h1 | ⟨s', t', inn', out, ht⟩
    · exact .inl h1
    · exact .inr h1
    · exact absurd (.client hx ht) (h _)
  have h2 : (∃ v, x.b = .ret v) ∨ ∃ k, x.b = .op (S := env) .read k ∧ x.ab = [] := by
    rcases turn_or (L := L) (T := T) P.time x.b x.ab with h1 | h1 | ⟨s', t', inn', out, ht⟩
    · exact .inl h1
    · exact .inr h1
    · exact absurd (.server hx ht) (h _)
  obtain ⟨a, b, ab, ba⟩ := x
  simp only at h1 h2
  rintro y (⟨s, s', out, ht, -⟩ | ⟨s, s', out, ht, -⟩)
  · rcases h1 with ⟨v, rfl⟩ | ⟨k, rfl, rfl⟩
    · exact ht.not_ret
    · revert ht
      simp only
      generalize y.a = ya
      generalize y.ba = yba
      intro ht
      cases ht with
      | own e r k he => simp [ownAnswer] at he
  · rcases h2 with ⟨v, rfl⟩ | ⟨k, rfl, rfl⟩
    · exact ht.not_ret
    · revert ht
      simp only
      generalize y.b = ya
      generalize y.ab = yba
      intro ht
      cases ht with
      | own e r k he => simp [ownAnswer] at he

theorem Process.terminates (P : Process σ α β) : P.Terminates L T := by
  have key : ∀ cs : List (AnyTime α β), Acc (ListLess fun y x => (anyTime L T).stepC x y ∨ (anyTime L T).stepS x y) cs →
      ∀ s : σ, Process.Terminates L T ⟨cs, s⟩ := by
    intro cs h
    induction h with
    | intro cs _ ih =>
      refine fun s => ⟨_, fun Q hQ => ?_⟩
      obtain ⟨i, x, y, hx, hq, hs⟩ := hQ.conns
      obtain ⟨qc, qt⟩ := Q
      exact ih _ ⟨i, x, y, hx, hq, hs⟩ qt
  exact key P.conns (listLess_acc _ fun x _ => anyTime_terminates x) P.time

end Salt.Spec
