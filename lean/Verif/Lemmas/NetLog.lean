import Verif.Spec.Log
import Verif.Lemmas.NetCalls

/-!
# Runs and what is written in them
-/

set_option linter.unusedSimpArgs false

namespace Salt

open Spec

theorem messages_append (a b : List (Bool × List Bytes)) : messages (a ++ b) = messages a ++ messages b := by
  simp [messages]

theorem messages_cons (c : Bool × List Bytes) (b : List (Bool × List Bytes)) : messages (c :: b) = c.2 ++ messages b := by
  simp [messages]

theorem party_bind {β γ : Type} (L : Lib) (c : Clock) (t : IT env β) (f : β → IT env γ) (i : Nat) :
    party L c (t.bind f) i = (partyN L c t i).bind fun p => party L c (f p.1) p.2 := by
  induction t generalizing i with
  | ret b => rfl
  | op e k ih =>
    cases e with
    | read => exact congrArg _ (funext fun r => ih r i)
    | write ms l => exact congrArg _ (funext fun r => ih r i)
    | firstTime => exact ih _ _
    | time => exact ih _ _
    | report t => exact ih _ _
    | check t => exact ih _ _
    | sign m sk => exact ih _ _
    | signOpen sm pk => exact ih _ _
    | hash m => exact ih _ _
    | beforenm pk sk => exact ih _ _
    | box m n key => exact ih _ _
    | boxOpen d n key => exact ih _ _

theorem partyN_perf {α : Type} {L : Lib} {c : Clock} {i j : Nat} {tr : List (Ev env)} (hl : Local L c i tr j)
    {t : IT env α} {b : α} (hx : Exec t tr b) : Perf (partyN L c t i) (callsOf tr) (.ret (b, j)) := by
  induction hl generalizing t with
  | nil i => cases hx; exact .nil _
  | read r _ ih => cases hx with | op e k r tr b h => exact .cons _ _ _ (ih h)
  | write ms l r _ ih => cases hx with | op e k r tr b h => exact .cons _ _ _ (ih h)
  | firstTime _ ih => cases hx with | op e k r tr b h => exact ih h
  | time _ ih => cases hx with | op e k r tr b h => exact ih h
  | report t _ ih => cases hx with | op e k r tr b h => exact ih h
  | check t _ ih => cases hx with | op e k r tr b h => exact ih h
  | crypto ev hio ha _ ih =>
    obtain ⟨e, r⟩ := ev
    cases hx with
    | op _ k' _ _ b h =>
      cases e with
      | sign m sk => cases ha; exact ih (t := k' _) h
      | signOpen m sk => cases ha; exact ih (t := k' _) h
      | hash m => cases ha; exact ih (t := k' _) h
      | beforenm m sk => cases ha; exact ih (t := k' _) h
      | box m n k => cases ha; exact ih (t := k' _) h
      | boxOpen m n k => cases ha; exact ih (t := k' _) h
      | _ => cases hio

theorem Perf.bind {S : Sig} {α β : Type} {t u : IT S α} {tr : List (Ev S)} (h : Perf t tr u) (f : α → IT S β) :
    Perf (t.bind f) tr (u.bind f) := by
  induction h with
  | nil => exact .nil _
  | cons e k r _ ih => exact .cons _ _ _ ih

namespace Spec.Net

variable {α β : Type} {x y z : Net α β} {la lb la' lb' : List (Bool × List Bytes)}

theorem Logged.run (h : Logged x la lb y) : ∃ n, Run n x y := by
  induction h with
  | refl x => exact ⟨0, .refl x⟩
  | aWrite ms l k _ ih => obtain ⟨n, ih⟩ := ih; exact ⟨_, .step (.aWrite ms l k) ih⟩
  | aRead m k _ ih => obtain ⟨n, ih⟩ := ih; exact ⟨_, .step (.aRead m k) ih⟩
  | bWrite ms l k _ ih => obtain ⟨n, ih⟩ := ih; exact ⟨_, .step (.bWrite ms l k) ih⟩
  | bRead m k _ ih => obtain ⟨n, ih⟩ := ih; exact ⟨_, .step (.bRead m k) ih⟩

theorem Run.logged {n : Nat} (h : Run n x y) : ∃ la lb, Logged x la lb y := by
  induction h with
  | refl x => exact ⟨[], [], .refl x⟩
  | step hs _ ih =>
    obtain ⟨la, lb, ih⟩ := ih
    cases hs with
    | aWrite ms l k => exact ⟨_, _, .aWrite ms l k ih⟩
    | aRead m k => exact ⟨_, _, .aRead m k ih⟩
    | bWrite ms l k => exact ⟨_, _, .bWrite ms l k ih⟩
    | bRead m k => exact ⟨_, _, .bRead m k ih⟩

theorem Logged.swap (h : Logged x la lb y) : Logged x.swap lb la y.swap := by
  induction h with
  | refl x => exact .refl _
  | aWrite ms l k _ ih => exact .bWrite ms l k ih
  | aRead m k _ ih => exact .bRead m k ih
  | bWrite ms l k _ ih => exact .aWrite ms l k ih
  | bRead m k _ ih => exact .aRead m k ih

theorem Logged.trans (h : Logged x la lb y) (h' : Logged y la' lb' z) : Logged x (la ++ la') (lb ++ lb') z := by
  induction h with
  | refl x => exact h'
  | aWrite ms l k _ ih => exact .aWrite ms l k (ih h')
  | aRead m k _ ih => exact .aRead m k (ih h')
  | bWrite ms l k _ ih => exact .bWrite ms l k (ih h')
  | bRead m k _ ih => exact .bRead m k (ih h')

/-- Whatever the first side does first, it does in every run to the end. -/
theorem Logged.strip_a {a : IT appSig α} {b : IT appSig β} {ab ba : List Bytes} (h : Logged x la lb y) (hy : Stuck y)
    (hx : x = ⟨a, b, ab, ba⟩) :
    (∀ ms l k, a = .op (S := appSig) (.write ms l) k → ∃ la', la = (l, ms) :: la' ∧ Logged ⟨k (.ok ()), b, ab ++ ms, ba⟩ la' lb y) ∧
    (∀ m ba' k, a = .op (S := appSig) .read k → ba = m :: ba' → Logged ⟨k (.ok m), b, ab, ba'⟩ la lb y) := by
  induction h generalizing a b ab ba with
  | refl x =>
    subst hx
    refine ⟨?_, ?_⟩
    · rintro ms l k rfl; exact absurd (.aWrite ms l k) (hy _)
    · rintro m ba' k rfl rfl; exact absurd (.aRead m k) (hy _)
  | aWrite ms l k h _ =>
    cases hx
    refine ⟨?_, ?_⟩
    · rintro ms' l' k' hk; cases hk; exact ⟨_, rfl, h⟩
    · rintro m ba' k' hk; cases hk
  | aRead m k h _ =>
    cases hx
    refine ⟨?_, ?_⟩
    · rintro ms' l' k' hk; cases hk
    · rintro m' ba' k' hk hm; cases hk; cases hm; exact h
  | bWrite ms l k h ih =>
    cases hx
    obtain ⟨i1, i2⟩ := ih hy rfl
    refine ⟨?_, ?_⟩
    · rintro ms' l' k' rfl
      obtain ⟨la', rfl, i3⟩ := i1 ms' l' k' rfl
      exact ⟨la', rfl, .bWrite ms l k i3⟩
    · rintro m' ba' k' rfl rfl
      exact .bWrite ms l k (i2 m' _ k' rfl rfl)
  | bRead m k h ih =>
    cases hx
    obtain ⟨i1, i2⟩ := ih hy rfl
    refine ⟨?_, ?_⟩
    · rintro ms' l' k' rfl
      obtain ⟨la', rfl, i3⟩ := i1 ms' l' k' rfl
      exact ⟨la', rfl, .bRead m k i3⟩
    · rintro m' ba' k' rfl rfl
      exact .bRead m k (i2 m' _ k' rfl rfl)

/-- What is written in a run is the beginning of what is written in a run to the end. -/
theorem Logged.prefix (h : Logged x la lb y) (hy : Stuck y) (h' : Logged x la' lb' z) :
    ∃ ra rb, la = la' ++ ra ∧ lb = lb' ++ rb ∧ Logged z ra rb y := by
  induction h' generalizing la lb with
  | refl x => exact ⟨la, lb, rfl, rfl, h⟩
  | aWrite ms l k _ ih =>
    obtain ⟨la', rfl, g⟩ := (h.strip_a hy rfl).1 ms l k rfl
    obtain ⟨ra, rb, rfl, rfl, w⟩ := ih g
    exact ⟨ra, rb, rfl, rfl, w⟩
  | aRead m k _ ih =>
    obtain ⟨ra, rb, rfl, rfl, w⟩ := ih ((h.strip_a hy rfl).2 m _ k rfl rfl)
    exact ⟨ra, rb, rfl, rfl, w⟩
  | bWrite ms l k _ ih =>
    obtain ⟨lb', rfl, g⟩ := (h.swap.strip_a hy.swap rfl).1 ms l k rfl
    obtain ⟨ra, rb, rfl, rfl, w⟩ := ih g.swap
    exact ⟨ra, rb, rfl, rfl, w⟩
  | bRead m k _ ih =>
    obtain ⟨ra, rb, rfl, rfl, w⟩ := ih ((h.swap.strip_a hy.swap rfl).2 m _ k rfl rfl).swap
    exact ⟨ra, rb, rfl, rfl, w⟩

theorem Logged.of_stuck (h : Logged x la lb y) (hx : Stuck x) : la = [] ∧ lb = [] ∧ x = y := by
  cases h with
  | refl => exact ⟨rfl, rfl, rfl⟩
  | aWrite ms l k _ => exact absurd (.aWrite ms l k) (hx _)
  | aRead m k _ => exact absurd (.aRead m k) (hx _)
  | bWrite ms l k _ => exact absurd (.bWrite ms l k) (hx _)
  | bRead m k _ => exact absurd (.bRead m k) (hx _)

theorem logged_a {t t' : IT appSig α} {tr : List (Ev appSig)} (h : Perf t tr t')
    {q out q' : List Bytes} (hm : Moves tr q out q') (b : IT appSig β) (ab : List Bytes) :
    ∃ la, messages la = out ∧ Logged ⟨t, b, ab, q⟩ la [] ⟨t', b, ab ++ out, q'⟩ := by
  induction hm generalizing t ab with
  | nil q => cases h; exact ⟨[], rfl, by simpa using Logged.refl _⟩
  | read m _ ih =>
    cases h with
    | cons e k r h =>
      obtain ⟨la, h1, h2⟩ := ih h ab
      exact ⟨la, h1, .aRead _ _ h2⟩
  | write ms l _ ih =>
    cases h with
    | cons e k r h =>
      obtain ⟨la, h1, h2⟩ := ih h (ab ++ ms)
      rw [List.append_assoc] at h2
      exact ⟨(l, ms) :: la, by rw [messages_cons, h1], .aWrite _ _ _ h2⟩

theorem logged_b {t t' : IT appSig β} {tr : List (Ev appSig)} (h : Perf t tr t')
    {q out q' : List Bytes} (hm : Moves tr q out q') (a : IT appSig α) (ba : List Bytes) :
    ∃ lb, messages lb = out ∧ Logged ⟨a, t, q, ba⟩ [] lb ⟨a, t', q', ba ++ out⟩ := by
  obtain ⟨la, h1, h2⟩ := logged_a h hm a ba
  exact ⟨la, h1, h2.swap⟩

end Spec.Net

end Salt
