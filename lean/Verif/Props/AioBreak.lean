import Verif.Lemmas.AioBreak
import Verif.Props.Drivers

/-!
# Connections that break and the server with coroutines (C130)
-/

namespace Salt.Props

open Salt Salt.Spec

section general

variable {α β D : Type} {E : Err → Prop} {L : Lib} {ca cb : Clock}

/-- **C130, one connection.** Two coroutines on a connection that may break at any time end, whatever they are; and on a
connection that has not broken, those that would finish on a connection that does not break have finished in the
same way. -/
theorem C130_ends (x : AioNet Unit Unit Unit Unit α β) :
    (aioBreak E L ca cb).Terminates ⟨x, true⟩ ∧
    ∀ z, (aioBreak E L ca cb).Reach ⟨x, true⟩ z → (aioBreak E L ca cb).Stuck z →
      (∃ r, z.net.a.tasks () = .ret r) ∧ (∃ r, z.net.b.tasks () = .ret r) ∧
      ∀ a b, BothFinish L ca cb x a b → z.alive = true → z.net.a.tasks () = .ret a ∧ z.net.b.tasks () = .ret b := by
  refine ⟨aioBreak_terminates _, fun z hz hs => ?_⟩
  obtain ⟨h1, h2⟩ := aioBreak_stuck hs
  refine ⟨h1, h2, fun a b hf hv => ?_⟩
  obtain ⟨r, hr⟩ := h1
  obtain ⟨q, hq⟩ := h2
  have res := finish_results hf (aioBreak_sim hz hv).2
  rw [hr, hq, res.1 r hr, res.2 q hq]
  exact ⟨rfl, rfl⟩

/-- **C130, both cases occur.** The connection can last until both coroutines have ended, and it can break. -/
theorem C130_both {x : AioNet Unit Unit Unit Unit α β} {a : α} {b : β} (h : BothFinish L ca cb x a b)
    (hx : ¬ ∃ r, x.a.tasks () = .ret r) :
    (∃ z, (aioBreak E L ca cb).Reach ⟨x, true⟩ z ∧ z.alive = true ∧ z.net.a.tasks () = .ret a ∧ z.net.b.tasks () = .ret b) ∧
    ∃ z, (aioBreak E L ca cb).Reach ⟨x, true⟩ z ∧ (aioBreak E L ca cb).Stuck z ∧ z.alive = false := by
  constructor
  · obtain ⟨z, h1, h2⟩ := Link.exists_final (aioLink_terminates (L := L) (ca := ca) (cb := cb) x)
    obtain ⟨h3, h4, -⟩ := h.2.2.1 z (aioLink_reach h1) (aioLink_stuck h2)
    exact ⟨⟨z, true⟩, aioLink_lift h1, rfl, h3, h4⟩
  · let y : BreakAio α β := ⟨⟨x.a.fill (x.ba.take 0), x.b.fill (x.ab.take 0), [], []⟩, false⟩
    have hy : (aioBreak E L ca cb).Reach ⟨x, true⟩ y := .step (.refl _) (.inl (.inr (.inr ⟨⟨rfl, 0, 0, rfl⟩, hx⟩)))
    obtain ⟨z, h1, h2⟩ := Link.exists_final (aioBreak_terminates (E := E) (L := L) (ca := ca) (cb := cb) y)
    refine ⟨z, hy.trans h1, h2, ?_⟩
    cases hz : z.alive with
    | false => rfl
    | true =>
      have := (aioBreak_sim h1 hz).1
      cases this

/-- **C130.** Any number of clients with coroutines, on connections any of which may break at any time; some of the clients
(`good`) would finish together with their tasks of the server if they were alone, the others are any programs
whatsoever. Whatever the schedule, everything ends, `run_sessions` too; the good clients on connections that have not
broken have got their results; and `run_sessions` raises only what a client has raised. -/
theorem C130_run_sessions {ds : List D} {conn : D → AioNet Unit Unit Unit Unit α β} (f : α → Except Err Unit)
    {good : D → Prop} {ra : D → α → Prop} {rb : D → β → Prop}
    (h : ∀ d ∈ ds, good d → ∃ a b, BothFinish L ca cb (conn d) a b ∧ ra d a ∧ rb d b) :
    AioUnbroken E L ca cb ds conn f (fun d r => good d → ra d r) fun d r => good d → rb d r := by
  unfold AioUnbroken
  intro S res R0
  have ht : Pool.Terminates S R0.pool := Pool.terminates fun x _ => aioBreak_terminates x
  refine ⟨PoolRun.acc ht, PoolRun.exists_final ht, fun R hR hs => ?_⟩
  have hi := (PoolRun.Reach.pool hR).inv
  obtain ⟨r, hr⟩ : ∃ r, R.result = some r := by
    rcases C125_returns_partial hR hs with hr | ⟨c, hc, h1, h2⟩
    · exact hr
    · exact absurd (aioBreak_stuck h2).1 h1
  obtain ⟨h1, h2, h3, h4⟩ := C125_reported_partial hR hr
  have eres : ∀ c ∈ R.pool.conns, ∃ q, c.2.net.a.tasks () = .ret q ∧ res c.2 = f q := by
    intro c hc
    obtain ⟨q, hq⟩ := (h2 c hc).2
    exact ⟨q, hq, by simp only [res, aioResult, hq]⟩
  refine ⟨r, hr, by simpa using h1, fun i d hd => ?_, h3.trans ⟨fun k c hc q hq => ?_, fun k c hc => ?_⟩, fun e he => ?_⟩
  · obtain ⟨c, hc⟩ : ∃ c, R.pool.conns[i]? = some c := by
      have : i < R.pool.conns.length := by rw [h1, List.length_map]; exact (List.getElem?_eq_some_iff.1 hd).1
      exact ⟨_, List.getElem?_eq_getElem this⟩
    obtain ⟨x, hx, hrx⟩ := hi.reach i c hc
    rw [List.getElem?_map, hd] at hx
    cases hx
    obtain ⟨hc1, q, hq⟩ := h2 c (List.mem_of_getElem? hc)
    obtain ⟨c1, y⟩ := c
    dsimp only at hc1 hrx hq
    subst hc1
    refine ⟨y, hc, ⟨q, hq, fun hv hg => ?_⟩, fun p hv hp hg => ?_⟩
    all_goals
      obtain ⟨a, b, hf, k1, k2⟩ := h d (List.mem_of_getElem? hd) hg
      have rs := finish_results hf (aioBreak_sim hrx hv).2
    · rw [rs.1 q hq]; exact k1
    · rw [rs.2 p hp]; exact k2
  · obtain ⟨q', hq', he⟩ := eres c hc
    rw [hq] at hq'
    cases hq'
    rw [← he]
    exact k c hc
  · obtain ⟨q, hq, he⟩ := eres c hc
    rw [he]
    exact k c hc q hq
  · obtain ⟨c, hc, hce⟩ := h4 e he
    obtain ⟨q, hq, he'⟩ := eres c hc
    exact ⟨c, hc, q, hq, by rw [← he']; exact hce⟩

/-- **C130, who is to blame.** If all clients would finish alone without an exception, `run_sessions` raises only if a connection
has broken, and then what the client on such a connection has raised. -/
theorem C130_blame {ds : List D} {conn : D → AioNet Unit Unit Unit Unit α β} (f : α → Except Err Unit) {ra : D → α → Prop}
    {rb : D → β → Prop} (h : AioUnbroken E L ca cb ds conn f ra rb) (hok : ∀ d ∈ ds, ∀ r, ra d r → f r = .ok ())
    {R : PoolRun (BreakAio α β)}
    (hR : PoolRun.Reach (aioBreak E L ca cb) (fun x => aioResult f x.net) (PoolRun.start (ds.map fun d => ⟨conn d, true⟩)) R)
    (hs : PoolRun.Stuck (aioBreak E L ca cb) (fun x => aioResult f x.net) R) {e : Err} (he : R.result = some (.error e)) :
    ∃ c ∈ R.pool.conns, c.2.alive = false ∧ ∃ q, c.2.net.a.tasks () = .ret q ∧ f q = .error e := by
  obtain ⟨r, h1, h2, h3, -, h5⟩ := h.2.2 R hR hs
  rw [he] at h1
  cases h1
  obtain ⟨c, hc, q, hq, hf⟩ := h5 e rfl
  refine ⟨c, hc, ?_, q, hq, hf⟩
  obtain ⟨i, hi⟩ := List.mem_iff_getElem?.1 hc
  have hlt : i < ds.length := h2 ▸ (List.getElem?_eq_some_iff.1 hi).1
  obtain ⟨y, k1, ⟨q', k2, k3⟩, -⟩ := h3 i _ (List.getElem?_eq_getElem hlt)
  rw [hi] at k1
  cases k1
  rw [hq] at k2
  cases k2
  cases hv : y.alive with
  | false => rfl
  | true =>
    have := hok _ (List.mem_of_getElem? (List.getElem?_eq_getElem hlt)) q (k3 hv)
    rw [hf] at this
    cases this

end general

/-! ### The example sessions -/

/-- How a client session ends: with what the handshake or the use of the channel has raised, if anything. -/
def sessionEnd {γ σ : Type} (r : Except Err (Except Err γ × Unit) × σ) : Except Err Unit :=
  match r.1 with
  | .error e => .error e
  | .ok (.error e, _) => .error e
  | .ok (.ok _, _) => .ok ()

section examples

variable {E : Err → Prop} {L : Lib} {cc cs : Clock} {cfgC : ClientCfg} {cfgS : ServerCfg} {kc ks : KeyPair}

/-- **C130, example session 1.** -/
theorem C130_example1 (S : Setup L cc cs cfgC cfgS kc ks) (hL : BoxSize L) (reqs : List Bytes) (hr : ∀ q ∈ reqs, q.length ≤ 2 ^ 31 - 29) :
    AioUnbroken E L cc cs reqs (fun q => AioNet.pair (Example1A.client cfgC q) (Example1A.server cfgS)) sessionEnd
      (fun q r => AgreedC L cc cs cfgS kc ks (.ok q, ()) r) (fun _ r => AgreedS L cc cs cfgC cfgS kc ks (.ok (), ()) r) := by
  have h := C130_run_sessions (E := E) (L := L) (ca := cc) (cb := cs) (ds := reqs) (good := fun _ => True)
    (conn := fun q => AioNet.pair (Example1A.client cfgC q) (Example1A.server cfgS)) sessionEnd
    (ra := fun q r => AgreedC L cc cs cfgS kc ks (.ok q, ()) r) (rb := fun _ r => AgreedS L cc cs cfgC cfgS kc ks (.ok (), ()) r)
    (fun q hq _ => by
      obtain ⟨sc, ss, ⟨key, h1, h2, hk, hc, hs⟩, h⟩ := C98_example1 S hL q (hr q hq)
      exact ⟨_, _, h, ⟨_, _, _, hk, hc⟩, ⟨_, _, _, hk, hs⟩⟩)
  simpa only [true_implies] using h

/-- **C130, example session 3.** -/
theorem C130_example3 (S : Setup L cc cs cfgC cfgS kc ks) (hL : BoxSize L) (reqs : List (Bytes × Bytes × Bytes))
    (hr : ∀ q ∈ reqs, q.1.length ≤ 2 ^ 31 - 29 ∧ q.2.1.length + q.2.2.length ≤ 2 ^ 31 - 31) :
    AioUnbroken E L cc cs reqs (fun q => AioNet.pair (Example3A.client cfgC q.1 q.2.1 q.2.2) (Example3A.server cfgS)) sessionEnd
      (fun _ r => AgreedC L cc cs cfgS kc ks (.ok (), ()) r) (fun _ r => AgreedS L cc cs cfgC cfgS kc ks (.ok (), ()) r) := by
  have h := C130_run_sessions (E := E) (L := L) (ca := cc) (cb := cs) (ds := reqs) (good := fun _ => True)
    (conn := fun q => AioNet.pair (Example3A.client cfgC q.1 q.2.1 q.2.2) (Example3A.server cfgS)) sessionEnd
    (ra := fun _ r => AgreedC L cc cs cfgS kc ks (.ok (), ()) r) (rb := fun _ r => AgreedS L cc cs cfgC cfgS kc ks (.ok (), ()) r)
    (fun q hq _ => by
      obtain ⟨sc, ss, ⟨key, h1, h2, hk, hc, hs⟩, h⟩ := C98_example3 S hL q.1 q.2.1 q.2.2 (hr q hq).1 (hr q hq).2
      exact ⟨_, _, h, ⟨_, _, _, hk, hc⟩, ⟨_, _, _, hk, hs⟩⟩)
  simpa only [true_implies] using h

/-- **C130, the simple echo session.** -/
theorem C130_simple_echo (n fuel : Nat) (datas : List Bytes) (hd : ∀ d ∈ datas, d ≠ [] ∧ d.length < 2 ^ 31) :
    AioUnbroken E L cc cs datas (fun d => AioNet.pair (SimpleEchoA.client d n ()) (SimpleEchoA.server (n + fuel + 1) ()))
      (fun r => r.1.map fun _ => ()) (fun d r => r.1 = .ok (List.replicate n d)) (fun _ r => r.1 = .ok ()) := by
  have h := C130_run_sessions (E := E) (L := L) (ca := cc) (cb := cs) (ds := datas) (good := fun _ => True)
    (conn := fun d => AioNet.pair (SimpleEchoA.client d n ()) (SimpleEchoA.server (n + fuel + 1) ())) (fun r => r.1.map fun _ => ())
    (ra := fun d r => r.1 = .ok (List.replicate n d)) (rb := fun _ r => r.1 = .ok ())
    (fun d hdd _ => ⟨_, _, C98_simple_echo L cc cs d (hd d hdd).1 (hd d hdd).2 n fuel, rfl, rfl⟩)
  simpa only [true_implies] using h

end examples

/-- The hypotheses can be met: three clients of example 1 with the toy library; if `run_sessions` raises, a connection has
broken. -/
example (b b' : Bool) (E : Err → Prop) : AioUnbroken E toyLib exClock exClock (List.replicate 3 Example1.request)
    (fun q => AioNet.pair (Example1A.client (exCfgC b) q) (Example1A.server (exCfgS b'))) sessionEnd
    (fun q r => AgreedC toyLib exClock exClock (exCfgS b') exKc exKs (.ok q, ()) r)
    (fun _ r => AgreedS toyLib exClock exClock (exCfgC b) (exCfgS b') exKc exKs (.ok (), ()) r) :=
  C130_example1 (exSetup b b') toy_size _ (by simp [Example1.request])

example : ∀ q r, AgreedC (α := Except Err Bytes × Unit) toyLib exClock exClock (exCfgS true) exKc exKs (.ok q, ()) r → sessionEnd r = .ok () := by
  rintro q ⟨r, s⟩ ⟨key, h1, h2, -, hc⟩
  have : r = .ok (.ok q, ()) := hc.1
  subst this
  rfl

/-- A client that waits forever beside one that works. -/
example (E : Err → Prop) : AioUnbroken (α := Except Err Unit) (β := Unit) E toyLib exClock exClock [true, false]
    (fun b => if b then AioNet.pair (Aio.closing (fun _ => true) (Aio.on (Aio.plain (.ret (.ok ()))))) (Aio.closing (fun _ => true) (Aio.on (Aio.plain (.ret ()))))
      else AioNet.pair (Aio.on (Aio.plain (.op (S := appSig) .read fun r => .ret (r.map fun _ => ())))) (.ret ()))
    id (fun b r => b = true → r = .ok ()) fun _ _ => True := by
  have hst : Net.Stuck (Net.start (.ret (.ok ()) : IT appSig (Except Err Unit)) (.ret () : IT appSig Unit)) :=
    (Net.stuck_iff _).2 ⟨.inl ⟨_, rfl⟩, .inl ⟨_, rfl⟩⟩
  have hrun : Net.RunC Fits 0 (Net.start (.ret (.ok ()) : IT appSig (Except Err Unit)) (.ret () : IT appSig Unit)) ⟨.ret (.ok ()), .ret (), [], []⟩ := .refl _
  have hf : BothFinish toyLib exClock exClock
      (AioNet.pair (Aio.closing (fun _ => true) (Aio.on (Aio.plain (.ret (.ok ()))))) (Aio.closing (fun _ => true) (Aio.on (Aio.plain (.ret ())))))
      (.ok () : Except Err Unit) () :=
    pair_finish (impl_closing_plain _ _ 0) (impl_closing_plain _ _ 0) (hrun.calls hst) (hrun.run.endsIn hst) rfl rfl
  have h := C130_run_sessions (E := E) (L := toyLib) (ca := exClock) (cb := exClock) (ds := [true, false]) (good := fun b => b = true)
    (conn := fun b => if b then AioNet.pair (Aio.closing (fun _ => true) (Aio.on (Aio.plain (.ret (.ok ()))))) (Aio.closing (fun _ => true) (Aio.on (Aio.plain (.ret ()))))
      else AioNet.pair (Aio.on (Aio.plain (.op (S := appSig) .read fun r => .ret (r.map fun _ => ())))) (.ret ()))
    id (ra := fun _ r => r = .ok ()) (rb := fun _ _ => True) (fun d _ hg => ⟨.ok (), (), by subst hg; exact hf, rfl, trivial⟩)
  simpa using h

end Salt.Props
