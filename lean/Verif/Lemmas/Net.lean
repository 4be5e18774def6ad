import Verif.Spec.Net
import Verif.Lemmas.Prog

/-!
# Facts about networks of two programs
-/

set_option linter.unusedSimpArgs false

namespace Salt

open Spec

namespace Spec.Net

variable {α β : Type} {x y z : Net α β}

/-- The order of independent steps does not matter. -/
theorem Step.diamond (h : Step x y) (h' : Step x z) : y = z ∨ ∃ w, Step y w ∧ Step z w := by
  cases h with
  | aWrite ms l k =>
    cases h' with
    | aWrite => exact .inl rfl
    | bWrite ms' l' k' => exact .inr ⟨_, .bWrite ms' l' k', .aWrite ms l k⟩
    | bRead m' k' => exact .inr ⟨_, .bRead m' k', .aWrite ms l k⟩
  | aRead m k =>
    cases h' with
    | aRead => exact .inl rfl
    | bWrite ms' l' k' => exact .inr ⟨_, .bWrite ms' l' k', .aRead m k⟩
    | bRead m' k' => exact .inr ⟨_, .bRead m' k', .aRead m k⟩
  | bWrite ms l k =>
    cases h' with
    | aWrite ms' l' k' => exact .inr ⟨_, .aWrite ms' l' k', .bWrite ms l k⟩
    | aRead m' k' => exact .inr ⟨_, .aRead m' k', .bWrite ms l k⟩
    | bWrite => exact .inl rfl
  | bRead m k =>
    cases h' with
    | aWrite ms' l' k' => exact .inr ⟨_, .aWrite ms' l' k', .bRead m k⟩
    | aRead m' k' => exact .inr ⟨_, .aRead m' k', .bRead m k⟩
    | bRead => exact .inl rfl

theorem Run.trans {n m : Nat} (h : Run n x y) (h' : Run m y z) : Run (n + m) x z := by
  induction h with
  | refl => simpa using h'
  | step hs _ ih =>
    rw [Nat.add_right_comm]
    exact .step hs (ih h')

theorem Run.one (h : Step x y) : Run 1 x y := .step h (.refl _)

/-- If a configuration can reach a final one, so it does after any step. -/
theorem Run.strip {n : Nat} (h : Run n x y) (hy : Stuck y) (h' : Step x z) :
    ∃ n', n = n' + 1 ∧ Run n' z y := by
  induction h generalizing z with
  | refl => exact absurd h' (hy z)
  | step hs hr ih =>
    rcases hs.diamond h' with rfl | ⟨w, h1, h2⟩
    · exact ⟨_, rfl, hr⟩
    · obtain ⟨n', rfl, hw⟩ := ih hy h1
      exact ⟨n' + 1, rfl, .step h2 hw⟩

/-- Schedules do not matter: if one leads to a final configuration, every other one can be continued
to the same configuration, and all have the same length. -/
theorem Run.confluent {n m : Nat} (h : Run n x y) (hy : Stuck y) (h' : Run m x z) :
    m ≤ n ∧ Run (n - m) z y := by
  induction h' generalizing n with
  | refl => exact ⟨Nat.zero_le _, by simpa using h⟩
  | step hs _ ih =>
    obtain ⟨n', rfl, h1⟩ := h.strip hy hs
    obtain ⟨h2, h3⟩ := ih h1
    exact ⟨by omega, by rwa [Nat.add_sub_add_right]⟩

/-- Every schedule ends, in the same configuration. -/
theorem Run.unique {n m : Nat} (h : Run n x y) (hy : Stuck y) (h' : Run m x z) (hz : Stuck z) :
    m = n ∧ z = y := by
  obtain ⟨h1, h2⟩ := h.confluent hy h'
  generalize hk : n - m = k at h2
  cases h2 with
  | refl => exact ⟨by omega, rfl⟩
  | step hs _ => exact absurd hs (hz _)

theorem exists_final (x : Net α β) : ∃ n y, Run n x y ∧ Stuck y := by
  obtain ⟨a, b, ab, ba⟩ := x
  induction a generalizing b ab ba with
  | ret r =>
    induction b generalizing ab ba with
    | ret r' => exact ⟨0, _, .refl _, fun y h => by cases h⟩
    | op e k ih =>
      by_cases hs : Stuck (⟨.ret r, .op e k, ab, ba⟩ : Net α β)
      · exact ⟨0, _, .refl _, hs⟩
      · obtain ⟨y, hy⟩ := Classical.not_forall_not.1 hs
        cases hy with
        | bWrite ms l =>
          obtain ⟨n, z, h1, h2⟩ := ih (.ok ()) ab (ba ++ ms)
          exact ⟨_, z, .step (.bWrite ms l _) h1, h2⟩
        | bRead m =>
          obtain ⟨n, z, h1, h2⟩ := ih (.ok m) _ ba
          exact ⟨_, z, .step (.bRead m _) h1, h2⟩
  | op e k iha =>
    induction b generalizing ab ba with
    | ret r' =>
      by_cases hs : Stuck (⟨.op e k, .ret r', ab, ba⟩ : Net α β)
      · exact ⟨0, _, .refl _, hs⟩
      · obtain ⟨y, hy⟩ := Classical.not_forall_not.1 hs
        cases hy with
        | aWrite ms l =>
          obtain ⟨n, z, h1, h2⟩ := iha (.ok ()) _ (ab ++ ms) ba
          exact ⟨_, z, .step (.aWrite ms l _) h1, h2⟩
        | aRead m =>
          obtain ⟨n, z, h1, h2⟩ := iha (.ok m) _ ab _
          exact ⟨_, z, .step (.aRead m _) h1, h2⟩
    | op e' k' ih =>
      by_cases hs : Stuck (⟨.op e k, .op e' k', ab, ba⟩ : Net α β)
      · exact ⟨0, _, .refl _, hs⟩
      · obtain ⟨y, hy⟩ := Classical.not_forall_not.1 hs
        cases hy with
        | aWrite ms l =>
          obtain ⟨n, z, h1, h2⟩ := iha (.ok ()) _ (ab ++ ms) ba
          exact ⟨_, z, .step (.aWrite ms l _) h1, h2⟩
        | aRead m =>
          obtain ⟨n, z, h1, h2⟩ := iha (.ok m) _ ab _
          exact ⟨_, z, .step (.aRead m _) h1, h2⟩
        | bWrite ms l =>
          obtain ⟨n, z, h1, h2⟩ := ih (.ok ()) ab (ba ++ ms)
          exact ⟨_, z, .step (.bWrite ms l _) h1, h2⟩
        | bRead m =>
          obtain ⟨n, z, h1, h2⟩ := ih (.ok m) _ ba
          exact ⟨_, z, .step (.bRead m _) h1, h2⟩

/-- A finished side, and a side waiting for a message that is not there. -/
theorem stuck_iff (x : Net α β) : Stuck x ↔
    ((∃ r, x.a = .ret r) ∨ ((∃ k, x.a = .op (S := appSig) .read k) ∧ x.ba = [])) ∧
    ((∃ r, x.b = .ret r) ∨ ((∃ k, x.b = .op (S := appSig) .read k) ∧ x.ab = [])) := by
  obtain ⟨a, b, ab, ba⟩ := x
  constructor
  · intro h
    constructor
    · cases a with
      | ret r => exact .inl ⟨r, rfl⟩
      | op e k =>
        cases e with
        | write ms l => exact absurd (.aWrite ms l k) (h _)
        | read =>
          cases ba with
          | nil => exact .inr ⟨⟨k, rfl⟩, rfl⟩
          | cons m ba => exact absurd (.aRead m k) (h _)
    · cases b with
      | ret r => exact .inl ⟨r, rfl⟩
      | op e k =>
        cases e with
        | write ms l => exact absurd (.bWrite ms l k) (h _)
        | read =>
          cases ab with
          | nil => exact .inr ⟨⟨k, rfl⟩, rfl⟩
          | cons m ba => exact absurd (.bRead m k) (h _)
  · rintro ⟨h1, h2⟩ y hy
    cases hy with
    | aWrite => rcases h1 with ⟨r, h⟩ | ⟨⟨k, h⟩, -⟩ <;> cases h
    | aRead =>
      rcases h1 with ⟨r, h⟩ | ⟨⟨k, h⟩, hb⟩
      · cases h
      · cases hb
    | bWrite => rcases h2 with ⟨r, h⟩ | ⟨⟨k, h⟩, -⟩ <;> cases h
    | bRead =>
      rcases h2 with ⟨r, h⟩ | ⟨⟨k, h⟩, hb⟩
      · cases h
      · cases hb

theorem Run.endsIn {n : Nat} (h : Run n x y) (hy : Stuck y) : EndsIn x y :=
  ⟨hy, n, h, fun _ _ h' => ⟨(h.confluent hy h').1, fun hz => (h.unique hy h' hz).2⟩⟩

/-- The same network seen from the other side. -/
def swap (x : Net α β) : Net β α := ⟨x.b, x.a, x.ba, x.ab⟩

theorem Step.swap (h : Step x y) : Step x.swap y.swap := by
  cases h with
  | aWrite ms l k => exact .bWrite ms l k
  | aRead m k => exact .bRead m k
  | bWrite ms l k => exact .aWrite ms l k
  | bRead m k => exact .aRead m k

theorem Run.swap {n : Nat} (h : Run n x y) : Run n x.swap y.swap := by
  induction h with
  | refl => exact .refl _
  | step hs _ ih => exact .step hs.swap ih

end Spec.Net

/-! ### Parts of executions -/

/-- `Perf t tr t'`: the program `t` can perform `tr` and then becomes `t'`. -/
inductive Perf {S : Sig} {α : Type} : IT S α → List (Ev S) → IT S α → Prop
  | nil (t) : Perf t [] t
  | cons (e : S.Op) (k : Except Err (S.Resp e) → IT S α) (r : Except Err (S.Resp e)) {tr t} :
      Perf (k r) tr t → Perf (.op e k) (⟨e, r⟩ :: tr) t

theorem Perf.split {S : Sig} {α : Type} {t t' : IT S α} {tr1 tr2 : List (Ev S)}
    (h : Perf t (tr1 ++ tr2) t') : ∃ u, Perf t tr1 u ∧ Perf u tr2 t' := by
  induction tr1 generalizing t with
  | nil => exact ⟨t, .nil t, h⟩
  | cons ev tr1 ih =>
    cases h with
    | cons e k r h =>
      obtain ⟨u, h1, h2⟩ := ih h
      exact ⟨u, .cons e k r h1, h2⟩

theorem Perf.single {S : Sig} {α : Type} {t t' : IT S α} {e : S.Op} {r : Except Err (S.Resp e)}
    (h : Perf t [⟨e, r⟩] t') : ∃ k, t = .op e k ∧ t' = k r := by
  cases h with
  | cons _ k _ h =>
    refine ⟨k, rfl, ?_⟩
    generalize k r = u at h
    cases h
    rfl

theorem Perf.det {S : Sig} {α : Type} {t u u' : IT S α} {tr : List (Ev S)} (h : Perf t tr u) (h' : Perf t tr u') :
    u = u' := by
  induction h with
  | nil => cases h'; rfl
  | cons e k r _ ih => cases h' with | cons _ _ _ h' => exact ih h'

/-- The calls a party makes on its channel. -/
def callsOf : List (Ev env) → List (Ev appSig)
  | [] => []
  | ⟨.read, r⟩ :: tr => ⟨AppOp.read, r⟩ :: callsOf tr
  | ⟨.write ms l, r⟩ :: tr => ⟨AppOp.write ms l, r⟩ :: callsOf tr
  | _ :: tr => callsOf tr

/-- In `tr` the library and the time objects answered as given; the counter of calls of the time objects
goes from `i` to `i'`. -/
inductive Local (L : Lib) (c : Clock) : Nat → List (Ev env) → Nat → Prop
  | nil (i) : Local L c i [] i
  | read {i j tr} (r) : Local L c i tr j → Local L c i (⟨.read, r⟩ :: tr) j
  | write {i j tr} (ms l r) : Local L c i tr j → Local L c i (⟨.write ms l, r⟩ :: tr) j
  | firstTime {i j tr} : Local L c (i + 1) tr j → Local L c i (⟨.firstTime, .ok (c.first i)⟩ :: tr) j
  | time {i j tr} : Local L c (i + 1) tr j → Local L c i (⟨.time, .ok (c.now i)⟩ :: tr) j
  | report {i j tr} (t) : Local L c (i + 1) tr j → Local L c i (⟨.report t, c.report i t⟩ :: tr) j
  | check {i j tr} (t) : Local L c (i + 1) tr j → Local L c i (⟨.check t, c.check i t⟩ :: tr) j
  | crypto {i j tr} (ev) : Ev.isIO ev = false → AnsweredBy L ev → Local L c i tr j → Local L c i (ev :: tr) j

theorem party_perf {α β : Type} {L : Lib} {c : Clock} {i j : Nat} {tr : List (Ev env)} (hl : Local L c i tr j)
    {t : IT env α} {b : α} (hx : Exec t tr b) (f : α → IT env β) :
    Perf (party L c (t.bind f) i) (callsOf tr) (party L c (f b) j) := by
  induction hl generalizing t with
  | nil i => cases hx; exact .nil _
  | read r _ ih => cases hx with | op e k r tr b h => exact .cons _ _ _ (ih h)
  | write ms l r _ ih => cases hx with | op e k r tr b h => exact .cons _ _ _ (ih h)
  | firstTime _ ih => cases hx with | op e k r tr b h => exact ih h
  | time _ ih => cases hx with | op e k r tr b h => exact ih h
  | report t _ ih => cases hx with | op e k r tr b h => exact ih h
  | check t _ ih => cases hx with | op e k r tr b h => exact ih h
  | crypto ev hio ha _ ih =>
    obtain ⟨e, r⟩ := ev
    cases hx with
    | op _ k' _ _ b h =>
      cases e with
      | sign m sk => cases ha; exact ih (t := k' _) h
      | signOpen m sk => cases ha; exact ih (t := k' _) h
      | hash m => cases ha; exact ih (t := k' _) h
      | beforenm m sk => cases ha; exact ih (t := k' _) h
      | box m n k => cases ha; exact ih (t := k' _) h
      | boxOpen m n k => cases ha; exact ih (t := k' _) h
      | _ => cases hio

/-- The effect of a sequence of calls on the two links: `inq` becomes `inq'`, `out` is sent. -/
inductive Moves : List (Ev appSig) → List Bytes → List Bytes → List Bytes → Prop
  | nil (q) : Moves [] q [] q
  | read {tr q q' out} (m : Bytes) : Moves tr q out q' → Moves (⟨AppOp.read, .ok m⟩ :: tr) (m :: q) out q'
  | write {tr q q' out} (ms : List Bytes) (l : Bool) : Moves tr q out q' →
      Moves (⟨AppOp.write ms l, .ok ()⟩ :: tr) q (ms ++ out) q'

theorem Spec.Net.run_a {α β : Type} {t t' : IT appSig α} {tr : List (Ev appSig)} (h : Perf t tr t')
    {q out q' : List Bytes} (hm : Moves tr q out q') (b : IT appSig β) (ab : List Bytes) :
    Net.Run tr.length ⟨t, b, ab, q⟩ ⟨t', b, ab ++ out, q'⟩ := by
  induction hm generalizing t ab with
  | nil q => cases h; simpa using Net.Run.refl _
  | read m _ ih => cases h with | cons e k r h => exact .step (.aRead _ _) (ih h ab)
  | write ms l _ ih =>
    cases h with
    | cons e k r h =>
      have := ih h (ab ++ ms)
      rw [List.append_assoc] at this
      exact .step (.aWrite _ _ _) this

theorem Spec.Net.run_b {α β : Type} {t t' : IT appSig β} {tr : List (Ev appSig)} (h : Perf t tr t')
    {q out q' : List Bytes} (hm : Moves tr q out q') (a : IT appSig α) (ba : List Bytes) :
    Net.Run tr.length ⟨a, t, q, ba⟩ ⟨a, t', q', ba ++ out⟩ := (Spec.Net.run_a h hm a ba).swap

theorem runOn_app {β : Type} (prog : IT appSig β) (s : AppSt) : App.run prog s = runOn App.handle prog s := by
  induction prog generalizing s with
  | ret b => rfl
  | op e k ih =>
    unfold App.run runOn
    congr 1
    funext ⟨r, s'⟩
    exact ih r s'

end Salt
