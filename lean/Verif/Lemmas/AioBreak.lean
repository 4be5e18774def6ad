import Verif.Spec.AioBreak
import Verif.Lemmas.Broken
import Verif.Props.ClientServerA

/-!
# Connections between event loops that may break
-/

namespace Salt

open Spec Props

variable {α β : Type} {E : Err → Prop} {L : Lib} {c ca cb : Clock}

theorem lost_onward {x y : AioSide Unit Unit α} (h : LostStep E L c x y) : Onward (y.tasks ()) (x.tasks ()) := by
  have key : ∀ {o : (aio Unit).Op} {k} (r), x.tasks () = .op (S := aio Unit) o k → Onward (k r) (x.tasks ()) := by
    intro o k r h
    rw [h]
    exact .op o k r
  cases h with
  | get k h => exact key _ h
  | put s k h => exact key _ h
  | env e k h => exact key (o := .sh (.env e)) _ h
  | value n k h => exact key _ h
  | read n k h => exact key _ h
  | short n k h => exact key _ h
  | reset n k e h => exact key _ h
  | write b k h => exact key _ h
  | drain k h => exact key _ h
  | raise k e h => exact key _ h
  | atEof k v h => exact key _ h
  | close k h => exact key _ h

/-- After a break a coroutine that has not ended goes on. -/
theorem lost_progress {x : AioSide Unit Unit α} (h : ¬ ∃ r, x.tasks () = .ret r) : ∃ y, LostStep E L c x y := by
  cases hx : x.tasks () with
  | ret r => exact absurd ⟨r, hx⟩ h
  | op o k =>
    cases o with
    | sh o =>
      cases o with
      | get => exact ⟨_, .get k hx⟩
      | put s => exact ⟨_, .put s k hx⟩
      | env e => exact ⟨_, .env e k hx⟩
    | stream o =>
      cases o with
      | readexactly n =>
        by_cases hn : n < 0
        · exact ⟨_, .value n k hx hn⟩
        · by_cases hl : n.toNat ≤ x.rt.buffer.length
          · exact ⟨_, .read n k hx (by omega) hl⟩
          · exact ⟨_, .short n k hx (by omega)⟩
      | write b => exact ⟨_, .write b k hx⟩
      | drain => exact ⟨_, .drain k hx⟩
    | atEof => exact ⟨_, .atEof k false hx (by simp)⟩
    | close => exact ⟨_, .close k hx⟩

theorem aioBreak_dead (x : BreakAio α β) (hx : x.alive = false) : (aioBreak E L ca cb).Terminates x := by
  have hacc : Acc (Prod.GameAdd Onward Onward) (x.net.a.tasks (), x.net.b.tasks ()) :=
    (onward_wf.prod_gameAdd onward_wf).apply _
  generalize hp : (x.net.a.tasks (), x.net.b.tasks ()) = p at hacc
  induction hacc generalizing x with
  | intro p _ ih =>
    subst hp
    refine .intro _ fun y hy => ?_
    rcases hy with (⟨h, -⟩ | ⟨-, a, h, rfl⟩ | ⟨⟨h, -⟩, -⟩) | ⟨h, -⟩ | ⟨-, b, h, he⟩ | ⟨⟨h, -⟩, -⟩
    · rw [hx] at h; cases h
    · exact ih _ (.fst (lost_onward h)) _ hx rfl
    · rw [hx] at h; cases h
    · rw [show x.swap.alive = x.alive from rfl, hx] at h; cases h
    · have hy : y = { x with net := { x.net with b := b } } := congrArg BreakAio.swap he
      subst hy
      exact ih _ (.snd (lost_onward h)) _ hx rfl
    · rw [show x.swap.alive = x.alive from rfl, hx] at h; cases h

theorem cutAio_alive {x y : BreakAio α β} (h : CutAio x y) : y.alive = false := by
  obtain ⟨-, i, j, rfl⟩ := h
  rfl

theorem aioBreak_terminates (x : BreakAio α β) : (aioBreak E L ca cb).Terminates x := by
  obtain ⟨x, v⟩ := x
  cases v with
  | false => exact aioBreak_dead _ rfl
  | true =>
    have h : (aioLink L ca cb).Terminates x := aioLink_terminates x
    unfold Link.Terminates at h
    induction h with
    | intro x _ ih =>
      refine .intro _ fun y hy => ?_
      rcases hy with (⟨-, h1, h⟩ | ⟨h, -⟩ | ⟨h, -⟩) | ⟨-, h1, h⟩ | ⟨h, -⟩ | ⟨h, -⟩
      · obtain ⟨y, v⟩ := y
        cases h1
        exact ih _ (.inl h)
      · cases h
      · exact aioBreak_dead _ (cutAio_alive h)
      · obtain ⟨y, v⟩ := y
        cases h1
        exact ih _ (.inr h)
      · cases h
      · exact aioBreak_dead _ (show y.swap.alive = false from cutAio_alive h)

/-- As long as the connection works, it is one that does not break. -/
theorem aioBreak_sim {x y : BreakAio α β} (h : (aioBreak E L ca cb).Reach x y) (hy : y.alive = true) :
    x.alive = true ∧ (aioLink L ca cb).Reach x.net y.net := by
  induction h with
  | refl => exact ⟨hy, .refl _⟩
  | @step y z _ hs ih =>
    rcases hs with (⟨h1, -, h⟩ | ⟨h1, a, -, rfl⟩ | ⟨h, -⟩) | ⟨h1, -, h⟩ | ⟨h1, b, -, he⟩ | ⟨h, -⟩
    · exact ⟨(ih h1).1, .step (ih h1).2 (.inl h)⟩
    · rw [show y.alive = true from hy] at h1; cases h1
    · rw [cutAio_alive h] at hy; cases hy
    · exact ⟨(ih h1).1, .step (ih h1).2 (.inr h)⟩
    · have := congrArg BreakAio.alive he
      rw [show z.swap.alive = true from hy, show (BreakAio.alive _) = y.swap.alive from rfl, h1] at this
      cases this
    · have := cutAio_alive h
      rw [show z.swap.alive = true from hy] at this
      cases this

/-- When nothing more can happen, both coroutines have ended. -/
theorem aioBreak_stuck {x : BreakAio α β} (h : (aioBreak E L ca cb).Stuck x) :
    (aioBreak E L ca cb).doneC x ∧ (aioBreak E L ca cb).doneS x := by
  cases hv : x.alive with
  | true =>
    constructor
    · by_contra hn
      exact h _ (.inl (.inr (.inr ⟨⟨hv, 0, 0, rfl⟩, hn⟩)))
    · by_contra hn
      exact h (BreakAio.swap ⟨⟨x.net.swap.a.fill (x.net.swap.ba.take 0), x.net.swap.b.fill (x.net.swap.ab.take 0), [], []⟩, false⟩)
        (.inr (.inr (.inr ⟨⟨hv, 0, 0, rfl⟩, hn⟩)))
  | false =>
    constructor
    · by_contra hn
      obtain ⟨a, ha⟩ := lost_progress (E := E) (L := L) (c := ca) hn
      exact h _ (.inl (.inr (.inl ⟨hv, a, ha, rfl⟩)))
    · by_contra hn
      obtain ⟨b, hb⟩ := lost_progress (E := E) (L := L) (c := cb) hn
      exact h { x with net := { x.net with b := b } } (.inr (.inr (.inl ⟨hv, b, hb, rfl⟩)))

/-- Whatever can happen on a connection can happen without the connection breaking. -/
theorem aioLink_lift {x y : AioNet Unit Unit Unit Unit α β} (h : (aioLink L ca cb).Reach x y) :
    (aioBreak E L ca cb).Reach ⟨x, true⟩ ⟨y, true⟩ := by
  induction h with
  | refl => exact .refl _
  | step _ hs ih =>
    rcases hs with hs | hs
    · exact .step ih (.inl (.inl ⟨rfl, rfl, hs⟩))
    · exact .step ih (.inr (.inl ⟨rfl, rfl, hs⟩))

end Salt
