import Verif.Lemmas.Pool
import Verif.Props.AioExamples

/-!
# C105, C106: the server with coroutines and its clients
-/

namespace Salt.Props

open Salt Salt.Spec

section
variable {α β : Type} {L : Lib} {ca cb : Clock}

theorem aioStepA_keep {x y : AioNet Unit Unit Unit Unit α β} (h : AioStepA L ca x y) :
    (∀ r, x.a.tasks () = .ret r → y.a.tasks () = .ret r) ∧ y.b = x.b := by
  cases h with
  | run h => exact ⟨fun r hr => absurd hr (h.1 r), rfl⟩
  | feed => exact ⟨fun _ h => h, rfl⟩
  | eof => exact ⟨fun _ h => h, rfl⟩

theorem aioLink_keep {x y : AioNet Unit Unit Unit Unit α β} (h : (aioLink L ca cb).Reach x y) :
    (∀ r, x.a.tasks () = .ret r → y.a.tasks () = .ret r) ∧ (∀ r, x.b.tasks () = .ret r → y.b.tasks () = .ret r) := by
  induction h with
  | refl => exact ⟨fun _ h => h, fun _ h => h⟩
  | step _ hs ih =>
    rcases hs with hs | hs
    · obtain ⟨h1, h2⟩ := aioStepA_keep hs
      exact ⟨fun r hr => h1 r (ih.1 r hr), fun r hr => h2 ▸ ih.2 r hr⟩
    · obtain ⟨h1, h2⟩ := aioStepA_keep hs
      refine ⟨fun r hr => ?_, fun r hr => h1 r (ih.2 r hr)⟩
      simp only [AioNet.swap] at h2
      exact h2 ▸ ih.1 r hr

theorem aioLink_reach {x y : AioNet Unit Unit Unit Unit α β} (h : (aioLink L ca cb).Reach x y) : AioNet.Reach L ca cb x y := by
  induction h with
  | refl => exact .refl _
  | step _ hs ih => exact .step ih (aioStep_iff.2 hs)

theorem aioLink_stuck {x : AioNet Unit Unit Unit Unit α β} (h : (aioLink L ca cb).Stuck x) : AioNet.Stuck L ca cb x :=
  fun y hy => h y (aioStep_iff.1 hy)

theorem aioLink_terminates (x : AioNet Unit Unit Unit Unit α β) : (aioLink L ca cb).Terminates x := by
  have h : AioNet.Terminates L ca cb x := aio_terminates x
  exact Subrelation.accessible (fun h => aioStep_iff.2 h) h

/-- What has returned when both would finish has returned the right result. -/
theorem finish_results {x y : AioNet Unit Unit Unit Unit α β} {a : α} {b : β} (h : BothFinish L ca cb x a b)
    (hr : (aioLink L ca cb).Reach x y) :
    (∀ r, y.a.tasks () = .ret r → r = a) ∧ (∀ r, y.b.tasks () = .ret r → r = b) := by
  obtain ⟨z, h1, h2⟩ := Link.exists_final (aioLink_terminates (L := L) (ca := ca) (cb := cb) y)
  obtain ⟨h3, h4, -⟩ := h.2.2.1 z (aioLink_reach (hr.trans h1)) (aioLink_stuck h2)
  obtain ⟨k1, k2⟩ := aioLink_keep h1
  refine ⟨fun r e => ?_, fun r e => ?_⟩
  · have := (k1 r e).symm.trans h3
    cases this
    rfl
  · have := (k2 r e).symm.trans h4
    cases this
    rfl

theorem aioStepA_b {x x' y : AioNet Unit Unit Unit Unit α β} (hb : x'.b = x.b) (hab : x'.ab = x.ab)
    (hcl : x'.a.rt.closed = x.a.rt.closed) (h : AioStepA L cb x.swap y.swap) : ∃ y', (aioLink L ca cb).stepS x' y' := by
  obtain ⟨a, b, ab, ba⟩ := x
  obtain ⟨a', b', ab', ba'⟩ := x'
  obtain ⟨ya, yb, yab, yba⟩ := y
  dsimp only at hb hab hcl
  subst hb hab
  simp only [AioNet.swap] at h
  cases h with
  | run h => exact ⟨⟨a', _, _, _⟩, AioStepA.run (a := b') (b := a') h⟩
  | feed chunk h h' => exact ⟨⟨a', _, _, _⟩, AioStepA.feed (a := b') (b := a') chunk h h'⟩
  | eof h h' => exact ⟨⟨a', _, _, _⟩, AioStepA.eof (a := b') (b := a') h (by rw [hcl]; exact h')⟩

/-- When a client has returned and its task of the server can do nothing, that stays so. -/
theorem server_at_rest {x y : AioNet Unit Unit Unit Unit α β} {r : α} (hd : x.a.tasks () = .ret r)
    (hn : ∀ y, ¬ (aioLink L ca cb).stepS x y) (h : (aioLink L ca cb).Reach x y) : y.b = x.b := by
  have key : y.b = x.b ∧ y.ab = x.ab ∧ y.a.rt.closed = x.a.rt.closed := by
    induction h with
    | refl => exact ⟨rfl, rfl, rfl⟩
    | @step y z hr hs ih =>
      obtain ⟨i1, i2, i3⟩ := ih
      have hda := (aioLink_keep hr).1 r hd
      rcases hs with hs | hs
      · cases hs with
        | run h => exact absurd hda (h.1 r)
        | feed => refine ⟨i1, i2, ?_⟩; rw [← i3]; simp only [AioSide.feed, AioRt.wake]; split <;> rfl
        | eof => refine ⟨i1, i2, ?_⟩; rw [← i3]; simp only [AioSide.feedEof, AioRt.wake]; split <;> rfl
      · obtain ⟨y', hy'⟩ := aioStepA_b (ca := ca) i1.symm i2.symm i3.symm hs
        exact absurd hy' (hn y')
  exact key.1

/-- **C105.** Clients do not depend on each other: with any clients whatsoever, whatever the schedule, everything ends, and
then a client that would finish alone has returned its result, and its task of the server, if the event loop
of the server still runs (as other clients wait forever). -/
theorem C105_independent (xs : List (AioNet Unit Unit Unit Unit α β)) :
    Pool.Terminates (aioLink L ca cb) (Pool.start xs) ∧
    ∀ P, Pool.Reach (aioLink L ca cb) (Pool.start xs) P → Pool.Stuck (aioLink L ca cb) P →
      ∀ (i : Nat) x a b, xs[i]? = some x → BothFinish L ca cb x a b → ∃ y, P.conns[i]? = some (true, y) ∧
        y.a.tasks () = .ret a ∧ (∀ r, y.b.tasks () = .ret r → r = b) ∧
        (P.running = true → y.b.tasks () = .ret b) := by
  refine ⟨Pool.terminates fun x _ => aioLink_terminates x, fun P hP hs i x a b hx hf => ?_⟩
  have inv := hP.inv
  obtain ⟨⟨c1, y⟩, hc⟩ : ∃ c, P.conns[i]? = some c := by
    have : i < P.conns.length := inv.len ▸ (List.getElem?_eq_some_iff.1 hx).1
    exact ⟨_, List.getElem?_eq_getElem this⟩
  obtain ⟨x', hx', hr⟩ := inv.reach i _ hc
  rw [hx] at hx'
  cases hx'
  obtain ⟨h1, h2, h3⟩ := inv.final hs hc
  dsimp only at h1 h2 h3 hr
  subst h1
  have res := finish_results hf hr
  refine ⟨y, hc, ?_, res.2, fun hrun => ?_⟩
  · rcases h2 with ⟨r, h2⟩ | ⟨h2, -⟩
    · rw [h2, res.1 r h2]
    · exact (hf.2.2.1 y (aioLink_reach hr) (aioLink_stuck h2)).1
  · rcases h2 with ⟨r, h2⟩ | ⟨h2, -⟩
    · obtain ⟨z, k1, k2⟩ := Link.exists_final (aioLink_terminates (L := L) (ca := ca) (cb := cb) y)
      rw [← server_at_rest h2 (h3 hrun) k1]
      exact (hf.2.2.1 z (aioLink_reach (hr.trans k1)) (aioLink_stuck k2)).2.1
    · exact (hf.2.2.1 y (aioLink_reach hr) (aioLink_stuck h2)).2.1

/-- **C105.** If every client would finish alone, `run_sessions` returns, all clients have returned their
results, and no task of the server has ended with another result than it would have alone. -/
theorem C105_all_served {D : Type} {ds : List D} {conn : D → AioNet Unit Unit Unit Unit α β} {ra : D → α → Prop} {rb : D → β → Prop}
    (h : ∀ d ∈ ds, ∃ a b, BothFinish L ca cb (conn d) a b ∧ ra d a ∧ rb d b) : AioServed L ca cb ds conn ra rb := by
  obtain ⟨h1, h2⟩ := C105_independent (L := L) (ca := ca) (cb := cb) (ds.map conn)
  have key : ∀ P, Pool.Reach (aioLink L ca cb) (Pool.start (ds.map conn)) P → Pool.Stuck (aioLink L ca cb) P →
      ∀ (i : Nat) (d : D), ds[i]? = some d → ∃ y, P.conns[i]? = some (true, y) ∧ (∃ r, y.a.tasks () = .ret r ∧ ra d r) ∧
        ∀ r, y.b.tasks () = .ret r → rb d r := by
    intro P hP hs i d hd
    obtain ⟨a, b, hf, hra, hrb⟩ := h d (List.mem_of_getElem? hd)
    obtain ⟨y, k1, k2, k3, -⟩ := h2 P hP hs i (conn d) a b (by rw [List.getElem?_map, hd]; rfl) hf
    exact ⟨y, k1, ⟨a, k2, hra⟩, fun r hr => (k3 r hr) ▸ hrb⟩
  refine ⟨h1, Pool.exists_final h1, fun P hP hs => ⟨?_, by rw [hP.inv.len]; simp, key P hP hs⟩⟩
  cases hr : P.running with
  | false => rfl
  | true =>
    refine absurd (Pool.Step.stop hr fun c hc => ?_) (hs _)
    obtain ⟨i, hi⟩ := List.mem_iff_getElem?.1 hc
    have hlt : i < ds.length := by
      have := (List.getElem?_eq_some_iff.1 hi).1
      rw [hP.inv.len] at this
      simpa using this
    obtain ⟨y, k1, ⟨r, k2, -⟩, -⟩ := key P hP hs i _ (List.getElem?_eq_getElem hlt)
    rw [hi] at k1
    cases k1
    exact ⟨rfl, r, k2⟩

end

/-- **C105, example session 1** with coroutines: any number of clients, each with a request of its own; the response that each
gets is its request. -/
theorem C105_example1 {L : Lib} {cc cs : Clock} {cfgC : ClientCfg} {cfgS : ServerCfg} {kc ks : KeyPair}
    (S : Setup L cc cs cfgC cfgS kc ks) (hL : BoxSize L) (reqs : List Bytes) (hr : ∀ q ∈ reqs, q.length ≤ 2 ^ 31 - 29) :
    AioServed L cc cs reqs (fun q => AioNet.pair (Example1A.client cfgC q) (Example1A.server cfgS))
      (fun q r => AgreedC L cc cs cfgS kc ks (.ok q, ()) r) (fun _ r => AgreedS L cc cs cfgC cfgS kc ks (.ok (), ()) r) := by
  refine C105_all_served fun q hq => ?_
  obtain ⟨sc, ss, ⟨key, h1, h2, hk, hc, hs⟩, h⟩ := C98_example1 S hL q (hr q hq)
  exact ⟨_, _, h, ⟨_, _, _, hk, hc⟩, ⟨_, _, _, hk, hs⟩⟩

/-- **C105, example session 3** with coroutines. -/
theorem C105_example3 {L : Lib} {cc cs : Clock} {cfgC : ClientCfg} {cfgS : ServerCfg} {kc ks : KeyPair}
    (S : Setup L cc cs cfgC cfgS kc ks) (hL : BoxSize L) (reqs : List (Bytes × Bytes × Bytes))
    (hr : ∀ q ∈ reqs, q.1.length ≤ 2 ^ 31 - 29 ∧ q.2.1.length + q.2.2.length ≤ 2 ^ 31 - 31) :
    AioServed L cc cs reqs (fun q => AioNet.pair (Example3A.client cfgC q.1 q.2.1 q.2.2) (Example3A.server cfgS))
      (fun _ r => AgreedC L cc cs cfgS kc ks (.ok (), ()) r) (fun _ r => AgreedS L cc cs cfgC cfgS kc ks (.ok (), ()) r) := by
  refine C105_all_served fun q hq => ?_
  obtain ⟨sc, ss, ⟨key, h1, h2, hk, hc, hs⟩, h⟩ := C98_example3 S hL q.1 q.2.1 q.2.2 (hr q hq).1 (hr q hq).2
  exact ⟨_, _, h, ⟨_, _, _, hk, hc⟩, ⟨_, _, _, hk, hs⟩⟩

/-- **C105, example session 2** with coroutines. -/
theorem C105_example2 (uw : Nat → Bool) (L : Lib) (cc cs : Clock) (sig enc : KeyPair) (n : Nat) :
    AioServed L cc cs (List.replicate n ())
      (fun _ => AioNet.pair (Example2A.client uw { A1Client.init with a1 := Example2.a1 })
        (Example2A.server { sigKp := sig, encKp := some enc, a2 := some Example2.a2, bufferM2 := false }))
      (fun _ r => r.1 = .ok () ∧ ∃ p, r.2.a2 = some p ∧
        A2.entries 1 p.optBytes = [A2.sc2ProtString ++ ascii ['E', 'C', 'H', 'O', '-', '-', '-', '-', '-', '-']])
      (fun _ r => r.1 = .ok ()) := by
  refine C105_all_served fun _ _ => ?_
  obtain ⟨p, h, h'⟩ := C98_example2 uw L cc cs sig enc
  exact ⟨_, _, h, ⟨rfl, p, rfl, h'⟩, rfl⟩

/-- **C105, the simple echo session** with coroutines, with any data and any numbers of rounds. -/
theorem C105_simple_echo (L : Lib) (cc cs : Clock) (n fuel : Nat) (datas : List Bytes)
    (hd : ∀ d ∈ datas, d ≠ [] ∧ d.length < 2 ^ 31) :
    AioServed L cc cs datas (fun d => AioNet.pair (SimpleEchoA.client d n ()) (SimpleEchoA.server (n + fuel + 1) ()))
      (fun d r => r.1 = .ok (List.replicate n d)) (fun _ r => r.1 = .ok ()) :=
  C105_all_served fun d hdd => ⟨_, _, C98_simple_echo L cc cs d (hd d hdd).1 (hd d hdd).2 n fuel, rfl, rfl⟩

/-- The hypotheses can be met: three clients of example 1 with the toy library. -/
example (b b' : Bool) : AioServed toyLib exClock exClock (List.replicate 3 Example1.request)
    (fun q => AioNet.pair (Example1A.client (exCfgC b) q) (Example1A.server (exCfgS b')))
    (fun q r => AgreedC toyLib exClock exClock (exCfgS b') exKc exKs (.ok q, ()) r)
    (fun _ r => AgreedS toyLib exClock exClock (exCfgC b) (exCfgS b') exKc exKs (.ok (), ()) r) :=
  C105_example1 (exSetup b b') toy_size _ (by simp [Example1.request])

/-! ### C106: what has ended when `run_sessions` returns -/

/-- C106 as intended: if all clients and tasks of the server would finish alone, all of them have ended when `run_sessions` has
returned. -/
def C106_claim : Prop := ∀ (α β : Type) (L : Lib) (ca cb : Clock) (xs : List (AioNet Unit Unit Unit Unit α β)),
  (∀ x ∈ xs, ∃ a b, BothFinish L ca cb x a b) → ∀ P, Pool.Reach (aioLink L ca cb) (Pool.start xs) P → P.running = false →
    ∀ c ∈ P.conns, (∃ r, c.2.a.tasks () = .ret r) ∧ ∃ r, c.2.b.tasks () = .ret r

/-- **C106, what holds.** When `run_sessions` has returned, all clients have returned. -/
theorem C106_clients_partial {α β : Type} {L : Lib} {ca cb : Clock} {xs : List (AioNet Unit Unit Unit Unit α β)}
    {P : Pool (AioNet Unit Unit Unit Unit α β)} (hP : Pool.Reach (aioLink L ca cb) (Pool.start xs) P) (hr : P.running = false) :
    P.conns.length = xs.length ∧ ∀ c ∈ P.conns, ∃ r, c.2.a.tasks () = .ret r :=
  ⟨hP.inv.len, fun c hc => (hP.inv.stopped hr c hc).2⟩

/-- **C106 fails.** `run_sessions` waits for the clients only; a task of the server may not have begun. -/
theorem C106_violated : ¬ C106_claim := by
  intro h
  let t : IT (aio Unit) Unit := Aio.closing (fun _ => true) (Aio.on (Aio.plain (.ret ())))
  let x : AioNet Unit Unit Unit Unit Unit Unit := AioNet.pair t t
  have hst : Net.Stuck (Net.start (.ret () : IT appSig Unit) (.ret () : IT appSig Unit)) :=
    (Net.stuck_iff _).2 ⟨.inl ⟨_, rfl⟩, .inl ⟨_, rfl⟩⟩
  have hrun : Net.RunC Fits 0 (Net.start (.ret () : IT appSig Unit) (.ret () : IT appSig Unit)) ⟨.ret (), .ret (), [], []⟩ := .refl _
  have hf : BothFinish toyLib exClock exClock x () () :=
    pair_finish (impl_closing_plain _ _ 0) (impl_closing_plain _ _ 0) (hrun.calls hst) (hrun.run.endsIn hst) rfl rfl
  let y : AioNet Unit Unit Unit Unit Unit Unit := ⟨(x.a.run toyLib exClock ()).1, x.b, [], []⟩
  have hy : y.a.tasks () = .ret () := rfl
  have hb : y.b.tasks () = .op (S := aio Unit) .close fun _ => .ret () := rfl
  have hP : Pool.Reach (aioLink toyLib exClock exClock) (Pool.start [x]) ⟨[(true, y)], false⟩ := by
    refine .step (.step (.step (.refl _) (.connect (i := 0) (x := x) rfl rfl)) (.client (i := 0) (x := x) (y := y) rfl ?_ ?_))
      (.stop rfl fun c hc => ?_)
    · rintro ⟨r, hr⟩
      cases hr
    · exact .run ⟨fun b hb => (by cases hb), by decide⟩
    · rw [List.mem_singleton.1 hc]
      exact ⟨rfl, (), hy⟩
  obtain ⟨-, r, hr⟩ := h _ _ _ _ _ [x] (by simpa using ⟨(), (), hf⟩) _ hP rfl (true, y) (List.mem_singleton.2 rfl)
  rw [hb] at hr
  cases hr

end Salt.Props
