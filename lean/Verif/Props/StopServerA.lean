import Verif.Spec.Drivers
import Verif.Props.ClientServerA

/-!
# Main programs with coroutines: `start_server`, `run_sessions`, `stop_server` (C127)
-/

namespace Salt.Props

open Salt Salt.Spec

/-- C127 as intended: if all clients and tasks of the server would finish alone, all of them have ended when `stop_server` has
returned. -/
def C127_claim : Prop := ∀ (α β : Type) (L : Lib) (ca cb : Clock) (xs : List (AioNet Unit Unit Unit Unit α β)),
  (∀ x ∈ xs, ∃ a b, BothFinish L ca cb x a b) → ∀ R, PoolMain.Reach (aioLink L ca cb) (PoolMain.start xs) R → R.main = .stopped →
    ∀ c ∈ R.pool.conns, (∃ r, c.2.a.tasks () = .ret r) ∧ ∃ r, c.2.b.tasks () = .ret r

section general

variable {X : Type} {S : Link X}

/-- What holds of every configuration reached. -/
structure MainInv (S : Link X) (xs : List X) (R : PoolMain X) : Prop where
  reach : ∀ (i : Nat) (c : Bool × X), R.pool.conns[i]? = some c → ∃ x, xs[i]? = some x ∧ S.Reach x c.2
  stopped : R.pool.running = false → ∀ c ∈ R.pool.conns, c.1 = true ∧ S.doneC c.2
  len : R.pool.conns.length = xs.length
  after : R.main ≠ .sessions → R.pool.running = false
  before : R.main = .sessions → Pool.Reach S (Pool.start xs) R.pool

theorem main_inv (keep : ∀ x y, S.doneC x → S.stepS x y → S.doneC y) {xs : List X} {R : PoolMain X}
    (h : PoolMain.Reach S (PoolMain.start xs) R) : MainInv S xs R := by
  generalize hP : PoolMain.start xs = P0 at h
  induction h with
  | refl =>
    subst hP
    have := Pool.Inv.start (S := S) xs
    exact ⟨this.reach, this.stopped, this.len, fun h => absurd rfl h, fun _ => .refl _⟩
  | step _ hs ih =>
    cases hs with
    | sessions hm hs =>
      have hr := Pool.Reach.step (ih.before hm) hs
      have := hr.inv
      exact ⟨this.reach, this.stopped, this.len, fun h => absurd hm h, fun _ => hr⟩
    | stop hm hr => exact ⟨ih.reach, ih.stopped, ih.len, fun _ => hr, nofun⟩
    | server hm hc hy =>
      have hr := ih.after (by rw [hm]; nofun)
      refine ⟨fun j c hj => ?_, fun _ c hj => ?_, by simpa using ih.len, fun _ => hr, fun h => absurd (hm.symm.trans h) (by nofun)⟩
      · rcases (get_set hc).1 hj with ⟨rfl, rfl⟩ | ⟨-, hj⟩
        · obtain ⟨x0, h1, h2⟩ := ih.reach _ _ hc
          exact ⟨x0, h1, .step h2 (.inr hy)⟩
        · exact ih.reach _ _ hj
      · obtain ⟨j, hj⟩ := List.getElem?_of_mem hj
        rcases (get_set hc).1 hj with ⟨rfl, rfl⟩ | ⟨-, hj⟩
        · exact ⟨rfl, keep _ _ (ih.stopped hr _ (List.mem_of_getElem? hc)).2 hy⟩
        · exact ih.stopped hr _ (List.mem_of_getElem? hj)
    | closed hm => exact ⟨ih.reach, ih.stopped, ih.len, fun _ => ih.after (by rw [hm]; nofun), nofun⟩

theorem main_terminates {xs : List X} (h : ∀ x ∈ xs, S.Terminates x) : PoolMain.Terminates S (PoolMain.start xs) := by
  have hacc : Acc (ListLess (Pool.Less S)) (Pool.start xs).conns := by
    refine listLess_acc _ fun c hc => ?_
    obtain ⟨x, hx, rfl⟩ := List.mem_map.1 hc
    exact Pool.less_acc (h x hx) _
  have k1 : ∀ P, PoolMain.Terminates S ⟨P, .stopped⟩ := by
    intro P
    refine .intro _ fun T hT => ?_
    cases hT with
    | sessions hm => cases hm
    | stop hm => cases hm
    | server hm => cases hm
    | closed hm => cases hm
  have k2 : ∀ l b, Acc (ListLess (Pool.Less S)) l → PoolMain.Terminates S ⟨⟨l, b⟩, .stopping⟩ := by
    intro l b hl
    induction hl with
    | intro l _ ih =>
      refine .intro _ fun T hT => ?_
      cases hT with
      | sessions hm => cases hm
      | stop hm => cases hm
      | server hm hc hs => exact ih _ ⟨_, _, _, hc, rfl, .inr ⟨rfl, .inr hs⟩⟩
      | closed hm => exact k1 _
  have k3 : ∀ l, Acc (ListLess (Pool.Less S)) l → PoolMain.Terminates S ⟨⟨l, false⟩, .sessions⟩ := by
    intro l hl
    induction hl with
    | intro l hl ih =>
      refine .intro _ fun T hT => ?_
      cases hT with
      | sessions hm hP =>
        cases hP with
        | connect hr => cases hr
        | client hc hd hs => exact ih _ ⟨_, _, _, hc, rfl, .inr ⟨rfl, .inl hs⟩⟩
        | server hr => cases hr
        | stop hr => cases hr
      | stop hm => exact k2 _ _ (.intro _ hl)
      | server hm => cases hm
      | closed hm => cases hm
  have k4 : ∀ l, Acc (ListLess (Pool.Less S)) l → PoolMain.Terminates S ⟨⟨l, true⟩, .sessions⟩ := by
    intro l hl
    induction hl with
    | intro l hl ih =>
      refine .intro _ fun T hT => ?_
      cases hT with
      | sessions hm hP =>
        cases hP with
        | connect hr hc => exact ih _ ⟨_, _, _, hc, rfl, .inl ⟨rfl, rfl, rfl⟩⟩
        | client hc hd hs => exact ih _ ⟨_, _, _, hc, rfl, .inr ⟨rfl, .inl hs⟩⟩
        | server hr hc hs => exact ih _ ⟨_, _, _, hc, rfl, .inr ⟨rfl, .inr hs⟩⟩
        | stop hr hc => exact k3 l (.intro _ hl)
      | stop hm hr => cases hr
      | server hm => cases hm
      | closed hm => cases hm
  exact k4 _ hacc

theorem main_final {R : PoolMain X} (h : PoolMain.Terminates S R) : ∃ T, PoolMain.Reach S R T ∧ PoolMain.Stuck S T := by
  unfold PoolMain.Terminates at h
  induction h with
  | intro P _ ih =>
    by_cases hs : PoolMain.Stuck S P
    · exact ⟨P, .refl _, hs⟩
    · obtain ⟨Q, hQ⟩ := Classical.not_forall_not.1 hs
      obtain ⟨R, h1, h2⟩ := ih Q hQ
      refine ⟨R, ?_, h2⟩
      clear ih h2
      induction h1 with
      | refl => exact .step (.refl _) hQ
      | step _ hs ih => exact .step ih hs

end general

section

variable {α β : Type} {L : Lib} {ca cb : Clock}

/-- **C127, what holds.** If all clients would finish alone, everything ends, and then `stop_server` has returned, all clients have
returned their results, and no task of the server has ended with another result than it would have alone. -/
theorem C127_stop_server_partial {D : Type} {ds : List D} {conn : D → AioNet Unit Unit Unit Unit α β} {ra : D → α → Prop}
    {rb : D → β → Prop} (h : ∀ d ∈ ds, ∃ a b, BothFinish L ca cb (conn d) a b ∧ ra d a ∧ rb d b) :
    PoolMain.Terminates (aioLink L ca cb) (PoolMain.start (ds.map conn)) ∧
    (∃ R, PoolMain.Reach (aioLink L ca cb) (PoolMain.start (ds.map conn)) R ∧ PoolMain.Stuck (aioLink L ca cb) R) ∧
    ∀ R, PoolMain.Reach (aioLink L ca cb) (PoolMain.start (ds.map conn)) R → PoolMain.Stuck (aioLink L ca cb) R →
      R.main = .stopped ∧ R.pool.conns.length = ds.length ∧
      ∀ (i : Nat) (d : D), ds[i]? = some d → ∃ y, R.pool.conns[i]? = some (true, y) ∧ (∃ r, y.a.tasks () = .ret r ∧ ra d r) ∧
        ∀ r, y.b.tasks () = .ret r → rb d r := by
  have ht : PoolMain.Terminates (aioLink L ca cb) (PoolMain.start (ds.map conn)) := main_terminates fun x _ => aioLink_terminates x
  refine ⟨ht, main_final ht, fun R hR hs => ?_⟩
  have inv := main_inv (fun x y hd hy => by
    obtain ⟨r, hr⟩ := hd
    exact ⟨r, (aioLink_keep (.step (.refl x) (.inr hy))).1 r hr⟩) hR
  have hm : R.main = .stopped := by
    cases hm : R.main with
    | stopped => rfl
    | stopping => exact absurd (.closed hm) (hs _)
    | sessions =>
      have hst : Pool.Stuck (aioLink L ca cb) R.pool := fun P hP => hs _ (.sessions hm hP)
      exact absurd (.stop hm ((C105_all_served h).2.2 _ (inv.before hm) hst).1) (hs _)
  have hrun := inv.after (by rw [hm]; nofun)
  refine ⟨hm, by rw [inv.len]; simp, fun i d hd => ?_⟩
  obtain ⟨⟨c1, y⟩, hc⟩ : ∃ c, R.pool.conns[i]? = some c := by
    have : i < R.pool.conns.length := by
      rw [inv.len]
      simpa using (List.getElem?_eq_some_iff.1 hd).1
    exact ⟨_, List.getElem?_eq_getElem this⟩
  obtain ⟨x, hx, hr⟩ := inv.reach i _ hc
  rw [List.getElem?_map, hd] at hx
  cases hx
  obtain ⟨h1, r, h2⟩ := inv.stopped hrun _ (List.mem_of_getElem? hc)
  dsimp only at h1 h2 hr
  subst h1
  obtain ⟨a, b, hf, hra, hrb⟩ := h d (List.mem_of_getElem? hd)
  have res := finish_results hf hr
  exact ⟨y, hc, ⟨r, h2, (res.1 r h2) ▸ hra⟩, fun r hr => (res.2 r hr) ▸ hrb⟩

/-- **C127, after `stop_server`** nothing happens any more: a task of the server that has not ended never does. -/
theorem C127_abandoned {R T : PoolMain (AioNet Unit Unit Unit Unit α β)} (hm : R.main = .stopped)
    (h : PoolMain.Reach (aioLink L ca cb) R T) : T = R := by
  induction h with
  | refl => rfl
  | step _ hs ih =>
    subst ih
    cases hs with
    | sessions h => rw [hm] at h; cases h
    | stop h => rw [hm] at h; cases h
    | server h => rw [hm] at h; cases h
    | closed h => rw [hm] at h; cases h

end

/-- **C127 fails.** `stop_server` does not wait for the tasks of the server; one may not have begun. -/
theorem C127_violated : ¬ C127_claim := by
  intro h
  let t : IT (aio Unit) Unit := Aio.closing (fun _ => true) (Aio.on (Aio.plain (.ret ())))
  let x : AioNet Unit Unit Unit Unit Unit Unit := AioNet.pair t t
  have hst : Net.Stuck (Net.start (.ret () : IT appSig Unit) (.ret () : IT appSig Unit)) :=
    (Net.stuck_iff _).2 ⟨.inl ⟨_, rfl⟩, .inl ⟨_, rfl⟩⟩
  have hrun : Net.RunC Fits 0 (Net.start (.ret () : IT appSig Unit) (.ret () : IT appSig Unit)) ⟨.ret (), .ret (), [], []⟩ := .refl _
  have hf : BothFinish toyLib exClock exClock x () () :=
    pair_finish (impl_closing_plain _ _ 0) (impl_closing_plain _ _ 0) (hrun.calls hst) (hrun.run.endsIn hst) rfl rfl
  let y : AioNet Unit Unit Unit Unit Unit Unit := ⟨(x.a.run toyLib exClock ()).1, x.b, [], []⟩
  have hy : y.a.tasks () = .ret () := rfl
  have hb : y.b.tasks () = .op (S := aio Unit) .close fun _ => .ret () := rfl
  have hP : PoolMain.Reach (aioLink toyLib exClock exClock) (PoolMain.start [x]) ⟨⟨[(true, y)], false⟩, .stopped⟩ := by
    refine .step (.step (.step (.step (.step (.refl _) (.sessions rfl (.connect (i := 0) (x := x) rfl rfl)))
      (.sessions rfl (.client (i := 0) (x := x) (y := y) rfl ?_ ?_))) (.sessions rfl (.stop rfl fun c hc => ?_))) (.stop rfl rfl))
      (.closed rfl)
    · rintro ⟨r, hr⟩
      cases hr
    · exact .run ⟨fun b hb => (by cases hb), by decide⟩
    · rw [List.mem_singleton.1 hc]
      exact ⟨rfl, (), hy⟩
  obtain ⟨-, r, hr⟩ := h _ _ _ _ _ [x] (by simpa using ⟨(), (), hf⟩) _ hP rfl (true, y) (List.mem_singleton.2 rfl)
  rw [hb] at hr
  cases hr

/-- The hypotheses can be met: three clients of example 1 with the toy library. -/
example (b b' : Bool) : ∀ q ∈ List.replicate 3 Example1.request, ∃ r r', BothFinish toyLib exClock exClock
    (AioNet.pair (Example1A.client (exCfgC b) q) (Example1A.server (exCfgS b'))) r r' ∧
    AgreedC toyLib exClock exClock (exCfgS b') exKc exKs (.ok q, ()) r ∧
    AgreedS toyLib exClock exClock (exCfgC b) (exCfgS b') exKc exKs (.ok (), ()) r' := by
  intro q hq
  obtain ⟨sc, ss, ⟨key, h1, h2, hk, hc, hs⟩, h⟩ := C98_example1 (exSetup b b') toy_size q (by
    rw [(List.mem_replicate.1 hq).2]; simp [Example1.request])
  exact ⟨_, _, h, ⟨_, _, _, hk, hc⟩, ⟨_, _, _, hk, hs⟩⟩

end Salt.Props
