import Verif.Lemmas.AioTime
import Verif.Props.ClientServerA
import Verif.Props.SharedTime

/-!
# C138: the server of the examples with coroutines, with the same time objects in all sessions
-/

namespace Salt.Props

open Salt Spec

variable {σ α β : Type} {L : Lib} {T : TimeObj σ} {cfgC : ClientCfg} {cfgS : ServerCfg} {kc ks : KeyPair}

theorem answers_accept (hT : T.Fine) {c d : Clock} (hc : AnswersOf T c) (hd : AnswersOf T d) : Spec.Accepts c d := by
  refine ⟨fun i j => ?_, fun i j => ?_, fun i j => ?_⟩
  · obtain ⟨u, hu⟩ := hd.first j
    rw [← hu]
    obtain ⟨v, hv⟩ := hc.report i ((T.first u).1 % 2 ^ 32)
    rw [← hv]
    exact hT.first u v
  · obtain ⟨u, hu⟩ := hd.first j
    rw [← hu]
    obtain ⟨v, hv⟩ := hc.check i ((T.first u).1 % 2 ^ 32)
    rw [← hv]
    exact hT.checkFirst u v
  · obtain ⟨u, hu⟩ := hd.now j
    rw [← hu]
    obtain ⟨v, hv⟩ := hc.check i ((T.now u).1 % 2 ^ 32)
    rw [← hv]
    exact hT.check u v

/-- The answers in a state that does not change. -/
theorem answers_frozen (T : TimeObj σ) (s : σ) :
    AnswersOf T ⟨fun _ => (T.first s).1, fun _ => (T.now s).1, fun _ t => (T.report t s).1, fun _ t => (T.check t s).1⟩ :=
  ⟨fun _ => ⟨s, rfl⟩, fun _ => ⟨s, rfl⟩, fun _ _ => ⟨s, rfl⟩, fun _ _ => ⟨s, rfl⟩⟩

theorem aioTime_keep {x y : AioNet Unit Unit Unit Unit α β} (h : (aioTime L T).Reach x y) :
    (∀ r, x.a.tasks () = .ret r → y.a.tasks () = .ret r) ∧ (∀ r, x.b.tasks () = .ret r → y.b.tasks () = .ret r) := by
  induction h with
  | refl => exact ⟨fun _ h => h, fun _ h => h⟩
  | step _ hs ih =>
    rcases hs with ⟨c, -, hs⟩ | ⟨c, -, hs⟩
    · obtain ⟨h1, h2⟩ := aioStepA_keep hs
      exact ⟨fun r hr => h1 r (ih.1 r hr), fun r hr => h2 ▸ ih.2 r hr⟩
    · obtain ⟨h1, h2⟩ := aioStepA_keep hs
      refine ⟨fun r hr => ?_, fun r hr => h1 r (ih.2 r hr)⟩
      simp only [AioNet.swap] at h2
      exact h2 ▸ ih.1 r hr

/-- **C138, one connection.** If a client and its task of the server finish, with results `ra` and `rb`, whatever their
clocks are as long as these give answers of `T`, then they also do with common time objects, whatever other coroutines do with these. -/
theorem C138_connection (s : σ) {x : AioNet Unit Unit Unit Unit α β} {ra : α → Prop} {rb : β → Prop}
    (h : ∀ ca cb, AnswersOf T ca → AnswersOf T cb → ∃ a b, BothFinish L ca cb x a b ∧ ra a ∧ rb b) :
    (aioTime L T).Terminates x ∧ ∀ z, (aioTime L T).Reach x z → (aioTime L T).Stuck z →
      ∃ a b, z.a.tasks () = .ret a ∧ z.b.tasks () = .ret b ∧ ra a ∧ rb b ∧
        z.a.rt.closed = true ∧ z.b.rt.closed = true ∧ z.ab = [] ∧ z.ba = [] := by
  refine ⟨aioTime_terminates x, fun z hz hs => ?_⟩
  obtain ⟨ca, cb, ha, hb, hr⟩ := aioTime_replay (answers_frozen T s) hz
  obtain ⟨a, b, ⟨-, -, hf, -⟩, h1, h2⟩ := h ca cb ha hb
  obtain ⟨f1, f2, f3, f4, f5, f6, -, -⟩ := hf z (aioLink_reach hr) (aioLink_stuck (aioTime_stuck ha hb hs))
  exact ⟨a, b, f1, f2, h1, h2, f3, f4, f5, f6⟩

/-- **C138.** Any number of such clients and one server: `run_sessions` returns, every client has returned its result, and so has every task of the
server that has ended. -/
theorem C138_all_served (s : σ) {D : Type} {ds : List D} {conn : D → AioNet Unit Unit Unit Unit α β} {ra : D → α → Prop}
    {rb : D → β → Prop}
    (h : ∀ d ∈ ds, ∀ ca cb, AnswersOf T ca → AnswersOf T cb → ∃ a b, BothFinish L ca cb (conn d) a b ∧ ra d a ∧ rb d b) :
    AioTimeServed L T ds conn ra rb := by
  have h1 : Pool.Terminates (aioTime L T) (Pool.start (ds.map conn)) := Pool.terminates fun x _ => aioTime_terminates x
  have key : ∀ P, Pool.Reach (aioTime L T) (Pool.start (ds.map conn)) P → Pool.Stuck (aioTime L T) P →
      ∀ (i : Nat) (d : D), ds[i]? = some d → ∃ y, P.conns[i]? = some (true, y) ∧ (∃ r, y.a.tasks () = .ret r ∧ ra d r) ∧
        ∀ r, y.b.tasks () = .ret r → rb d r := by
    intro P hP hs i d hd
    have inv := hP.inv
    obtain ⟨⟨c1, y⟩, hc⟩ : ∃ c, P.conns[i]? = some c := by
      have : i < P.conns.length := by
        rw [inv.len]
        simpa using (List.getElem?_eq_some_iff.1 hd).1
      exact ⟨_, List.getElem?_eq_getElem this⟩
    obtain ⟨x, hx, hr⟩ := inv.reach i _ hc
    rw [List.getElem?_map, hd] at hx
    cases hx
    obtain ⟨k1, k2, -⟩ := inv.final hs hc
    dsimp only at k1 k2 hr
    subst k1
    obtain ⟨z, z1, z2⟩ := Link.exists_final (aioTime_terminates (L := L) (T := T) y)
    obtain ⟨a, b, e1, e2, e3, e4, -⟩ := (C138_connection s (h d (List.mem_of_getElem? hd))).2 z (hr.trans z1) z2
    obtain ⟨m1, m2⟩ := aioTime_keep z1
    refine ⟨y, hc, ?_, fun r hr => ?_⟩
    · rcases k2 with ⟨r, k2⟩ | ⟨k2, -⟩
      · have := (m1 r k2).symm.trans e1
        cases this
        exact ⟨_, k2, e3⟩
      · obtain ⟨a, b, e1, -, e3, -⟩ := (C138_connection s (h d (List.mem_of_getElem? hd))).2 y hr k2
        exact ⟨a, e1, e3⟩
    · have := (m2 r hr).symm.trans e2
      cases this
      exact e4
  refine ⟨h1, Pool.exists_final h1, fun P hP hs => ⟨?_, by rw [hP.inv.len]; simp, key P hP hs⟩⟩
  cases hr : P.running with
  | false => rfl
  | true =>
    refine absurd (Pool.Step.stop hr fun c hc => ?_) (hs _)
    obtain ⟨i, hi⟩ := List.mem_iff_getElem?.1 hc
    have hlt : i < ds.length := by
      have := (List.getElem?_eq_some_iff.1 hi).1
      rw [hP.inv.len] at this
      simpa using this
    obtain ⟨y, k1, ⟨r, k2, -⟩, -⟩ := key P hP hs i _ (List.getElem?_eq_getElem hlt)
    rw [hi] at k1
    cases k1
    exact ⟨rfl, r, k2⟩

/-- **C138, example session 1** with coroutines. -/
theorem C138_example1 (hT : T.Fine) (s : σ) (hh : Honest L kc ks cfgC.sigKp cfgS.sigKp) (hkc : cfgC.encKp = some kc)
    (hks : cfgS.encKp = some ks) (hL : BoxSize L) (reqs : List Bytes) (hr : ∀ q ∈ reqs, q.length ≤ 2 ^ 31 - 29) :
    AioTimeServed L T reqs (fun q => AioNet.pair (Example1A.client cfgC q) (Example1A.server cfgS))
      (fun q r => ∃ cc cs, TimesOf T cc ∧ TimesOf T cs ∧ AgreedC L cc cs cfgS kc ks (.ok q, ()) r)
      (fun _ r => ∃ cc cs, TimesOf T cc ∧ TimesOf T cs ∧ AgreedS L cc cs cfgC cfgS kc ks (.ok (), ()) r) := by
  refine C138_all_served s fun q hq cc cs h1 h2 => ?_
  obtain ⟨sc, ss, ⟨key, k1, k2, hk, hc, hs⟩, h⟩ := C98_example1
    (cc := cc) (cs := cs) ⟨hh, hkc, hks, answers_accept hT h1 h2, answers_accept hT h2 h1⟩ hL q (hr q hq)
  exact ⟨_, _, h, ⟨cc, cs, ⟨h1.first, h1.now⟩, ⟨h2.first, h2.now⟩, _, _, _, hk, hc⟩,
    ⟨cc, cs, ⟨h1.first, h1.now⟩, ⟨h2.first, h2.now⟩, _, _, _, hk, hs⟩⟩

/-- **C138, example session 3** with coroutines and its one time keeper for the whole process. -/
theorem C138_example3 (hh : Honest L kc ks cfgC.sigKp cfgS.sigKp) (hkc : cfgC.encKp = some kc)
    (hks : cfgS.encKp = some ks) (hL : BoxSize L) (reqs : List (Bytes × Bytes × Bytes))
    (hr : ∀ q ∈ reqs, q.1.length ≤ 2 ^ 31 - 29 ∧ q.2.1.length + q.2.2.length ≤ 2 ^ 31 - 31) :
    AioTimeServed L oneTwoThreeObj reqs
      (fun q => AioNet.pair (Example3A.client cfgC q.1 q.2.1 q.2.2) (Example3A.server cfgS))
      (fun _ r => ∃ cc cs, TimesOf oneTwoThreeObj cc ∧ TimesOf oneTwoThreeObj cs ∧ AgreedC L cc cs cfgS kc ks (.ok (), ()) r)
      (fun _ r => ∃ cc cs, TimesOf oneTwoThreeObj cc ∧ TimesOf oneTwoThreeObj cs ∧
        AgreedS L cc cs cfgC cfgS kc ks (.ok (), ()) r) := by
  refine C138_all_served 0 fun q hq cc cs h1 h2 => ?_
  obtain ⟨sc, ss, ⟨key, k1, k2, hk, hc, hs⟩, h⟩ := C98_example3
    (cc := cc) (cs := cs) ⟨hh, hkc, hks, answers_accept oneTwoThree_fine h1 h2, answers_accept oneTwoThree_fine h2 h1⟩ hL
    q.1 q.2.1 q.2.2 (hr q hq).1 (hr q hq).2
  exact ⟨_, _, h, ⟨cc, cs, ⟨h1.first, h1.now⟩, ⟨h2.first, h2.now⟩, _, _, _, hk, hc⟩,
    ⟨cc, cs, ⟨h1.first, h1.now⟩, ⟨h2.first, h2.now⟩, _, _, _, hk, hs⟩⟩

/-- The hypotheses can be met: three clients with the toy library. -/
example (b b' : Bool) : AioTimeServed toyLib oneTwoThreeObj (List.replicate 3 Example1.request)
    (fun q => AioNet.pair (Example1A.client (exCfgC b) q) (Example1A.server (exCfgS b')))
    (fun q r => ∃ cc cs, TimesOf oneTwoThreeObj cc ∧ TimesOf oneTwoThreeObj cs ∧ AgreedC toyLib cc cs (exCfgS b') exKc exKs (.ok q, ()) r)
    (fun _ r => ∃ cc cs, TimesOf oneTwoThreeObj cc ∧ TimesOf oneTwoThreeObj cs ∧
      AgreedS toyLib cc cs (exCfgC b) (exCfgS b') exKc exKs (.ok (), ()) r) :=
  C138_example1 oneTwoThree_fine 0 (exSetup b b').honest rfl rfl toy_size _ (by simp [Example1.request])

end Salt.Props
