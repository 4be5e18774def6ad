import Verif.Lemmas.SharedTime
import Verif.Lemmas.AioPair
import Verif.Props.Transcript

/-!
# C134: a client and a server that share their time objects
-/

namespace Salt.Props

open Salt Spec

variable {σ α β : Type} {L : Lib} {T : TimeObj σ} {cfgC : ClientCfg} {cfgS : ServerCfg} {kc ks : KeyPair}

theorem Fine.accepts (hT : T.Fine) (s s' : σ) {g h : List Tick} (hg : ∀ t ∈ g, t.Of T) (hh : ∀ t ∈ h, t.Of T) :
    Spec.Accepts (clockOf T s g) (clockOf T s' h) := by
  obtain ⟨-, -, g3, g4⟩ := clockOf_range T s hg
  obtain ⟨h1, h2, -, -⟩ := clockOf_range T s' hh
  refine ⟨fun i j => ?_, fun i j => ?_, fun i j => ?_⟩
  · obtain ⟨u, hu⟩ := h1 j
    rw [← hu]
    obtain ⟨v, hv⟩ := g3 i ((T.first u).1 % 2 ^ 32)
    rw [← hv]
    exact hT.first u v
  · obtain ⟨u, hu⟩ := h1 j
    rw [← hu]
    obtain ⟨v, hv⟩ := g4 i ((T.first u).1 % 2 ^ 32)
    rw [← hv]
    exact hT.checkFirst u v
  · obtain ⟨u, hu⟩ := h2 j
    rw [← hu]
    obtain ⟨v, hv⟩ := g4 i ((T.now u).1 % 2 ^ 32)
    rw [← hv]
    exact hT.check u v

/-- The times of a clock are times that `T` gives in some state. -/
def TimesOf (T : TimeObj σ) (c : Clock) : Prop :=
  (∀ i, ∃ s, (T.first s).1 = c.first i) ∧ ∀ i, ∃ s, (T.now s).1 = c.now i

/-- **C134.** Every run of two programs with common time objects is one in which each has time objects of its own, with
times that the common ones could give. -/
theorem C134_as_if (hT : T.Fine) {a : IT env α} {b : IT env β} {s : σ} {la lb} {z : SharedTime σ α β}
    (h : SharedTime.Logged L T (.start a b s) la lb z) :
    ∃ cc cs i j, TimesOf T cc ∧ TimesOf T cs ∧ Spec.Accepts cc cs ∧ Spec.Accepts cs cc ∧
      Net.Logged (Net.start (party L cc a 0) (party L cs b 0)) la lb ⟨party L cc z.a i, party L cs z.b j, z.ab, z.ba⟩ ∧
      (z.Stuck L T → Net.Stuck (⟨party L cc z.a i, party L cs z.b j, z.ab, z.ba⟩ : Net α β)) := by
  obtain ⟨g, h', hg, hh, hr⟩ := h.replay
  exact ⟨clockOf T s g, clockOf T s h', 0 + g.length, 0 + h'.length,
    ⟨(clockOf_range T s hg).1, (clockOf_range T s hg).2.1⟩, ⟨(clockOf_range T s hh).1, (clockOf_range T s hh).2.1⟩,
    Fine.accepts hT s s hg hh, Fine.accepts hT s s hh hg,
    hr _ _ 0 0 (byClock_clockOf T s g) (byClock_clockOf T s h'), fun hst => hst.stuck_net _ _ _ _⟩

/-- **C134, sessions.** A client and a server with arbitrary programs and common time objects: whatever the schedule, the
session comes to an end, and then each side has returned what its program returns when the two programs are directly
connected, or waits if it waits there; both have the same key and hashes. -/
theorem C134_sessions (hT : T.Fine) (hh : Honest L kc ks cfgC.sigKp cfgS.sigKp) (hkc : cfgC.encKp = some kc)
    (hks : cfgS.encKp = some ks) (pA : IT appSig α) (pB : IT appSig β) {n : Nat}
    (hn : n ≤ 2 ^ 62) (hA : Modest 65535 pA n) (hB : Modest 65535 pB n)
    (hb : cfgC.bufferM4 = true → ∃ ms l k, pA = .op (S := appSig) (.write ms l) k) (s : σ) :
    (SharedTime.start (clientSession cfgC pA) (serverSession cfgS pB) s).Terminates L T ∧
    ∃ y, EndsIn (Net.start pA pB) y ∧ ∀ la lb z,
      SharedTime.Logged L T (.start (clientSession cfgC pA) (serverSession cfgS pB) s) la lb z → z.Stuck L T →
      ∃ cc cs key h1 h2, TimesOf T cc ∧ TimesOf T cs ∧ KeysOf L cc cs cfgS.bufferM2 kc ks key h1 h2 ∧
        SameEndEnv (ClientEnd key h1 h2 cfgS.sigKp.pub) y.a z.a ∧ SameEndEnv (ServerEnd key h1 h2 cfgC.sigKp.pub) y.b z.b := by
  refine ⟨SharedTime.terminates L T _, ?_⟩
  obtain ⟨m, y, hy, hst⟩ := Net.exists_final (Net.start pA pB)
  have hend : ∀ y', EndsIn (Net.start pA pB) y' → y' = y := fun y' he => by
    obtain ⟨-, k, -, h3⟩ := he
    exact ((h3 _ _ hy).2 hst).symm
  have hex : EndsIn (Net.start pA pB) y := by
    let c : Clock := clockOf T s []
    obtain ⟨-, -, -, -, y', -, he, -⟩ := C47_end_to_end (cc := c) (cs := c) ⟨hh, hkc, hks, Fine.accepts hT s s (by simp) (by simp),
      Fine.accepts hT s s (by simp) (by simp)⟩ pA pB hn hA hB hb
    rw [← hend y' he]; exact he
  refine ⟨y, hex, fun la lb z hz hzs => ?_⟩
  obtain ⟨cc, cs, i, j, t1, t2, a1, a2, hr, hs⟩ := C134_as_if hT hz
  obtain ⟨key, h1, h2, hk, y', Y, he, hE, e1, e2, -⟩ := C47_end_to_end (cc := cc) (cs := cs) ⟨hh, hkc, hks, a1, a2⟩ pA pB hn hA hB hb
  rw [hend y' he] at e1 e2
  refine ⟨cc, cs, key, h1, h2, t1, t2, hk, ?_⟩
  obtain ⟨-, N, -, h3⟩ := hE
  obtain ⟨M, hM⟩ := hr.run
  have := (h3 _ _ hM).2 (hs hzs)
  subst this
  obtain ⟨n1, n2⟩ := hzs.net
  constructor
  · rcases n1 with ⟨v, hv⟩ | ⟨k, hv, -⟩ <;> rw [hv] at e1 ⊢ <;> simp only [party] at e1
    · generalize hy' : y.a = ya at e1 ⊢
      cases e1 with
      | ret hq => exact .ret hq
    · generalize hy' : y.a = ya at e1 ⊢
      cases e1 with
      | wait k1 k2 => exact .wait _ _
  · rcases n2 with ⟨v, hv⟩ | ⟨k, hv, -⟩ <;> rw [hv] at e2 ⊢ <;> simp only [party] at e2
    · generalize hy' : y.b = yb at e2 ⊢
      cases e2 with
      | ret hq => exact .ret hq
    · generalize hy' : y.b = yb at e2 ⊢
      cases e2 with
      | wait k1 k2 => exact .wait _ _

/-- **C134, what is sent.** With common time objects the session writes what C111 says, with times that these can give. -/
theorem C134_transcript (hT : T.Fine) (hh : Honest L kc ks cfgC.sigKp cfgS.sigKp) (hkc : cfgC.encKp = some kc)
    (hks : cfgS.encKp = some ks) (pA : IT appSig α) (pB : IT appSig β) {n : Nat}
    (hn : n ≤ 2 ^ 62) (hA : Modest 65535 pA n) (hB : Modest 65535 pB n)
    (hb : cfgC.bufferM4 = true → ∃ ms l k, pA = .op (S := appSig) (.write ms l) k) (s : σ)
    {ca cb y} (hy : AppNet.Logged (AppNet.start pA pB) ca cb y) (hst : Net.Stuck y.net) {la lb} {z : SharedTime σ _ _}
    (hz : SharedTime.Logged L T (.start (clientSession cfgC pA) (serverSession cfgS pB) s) la lb z) :
    ∃ cc cs la' lb', TimesOf T cc ∧ TimesOf T cs ∧
      Transcript L cc cs cfgC cfgS kc ks ca cb (messages la') (messages lb') ∧
      la <+: la' ∧ lb <+: lb' ∧ (z.Stuck L T → la = la' ∧ lb = lb') := by
  obtain ⟨cc, cs, i, j, t1, t2, a1, a2, hr, hs⟩ := C134_as_if hT hz
  obtain ⟨la', lb', h1, h2⟩ := (C111_transcript (cc := cc) (cs := cs) ⟨hh, hkc, hks, a1, a2⟩ pA pB hn hA hB hb).2 hy hst
  obtain ⟨h3, h4, h5⟩ := h2 _ _ _ hr
  exact ⟨cc, cs, la', lb', t1, t2, h1, h3, h4, fun h => h5 (hs h)⟩

theorem oneTwoThree_fine : oneTwoThreeObj.Fine := ⟨fun _ _ => by
  simp [oneTwoThreeObj, oneTwoThree, nullReport], fun _ _ => rfl, fun _ _ => rfl⟩

/-- **C134, example session 3** with the one `OneTwoThreeTimeKeeper` of the process: whatever the schedule, both sides end without exception, so
all comparisons succeed. -/
theorem C134_example3 (hh : Honest L kc ks cfgC.sigKp cfgS.sigKp) (hkc : cfgC.encKp = some kc) (hks : cfgS.encKp = some ks)
    (r1 r21 r22 : Bytes) (t : Nat) {la lb z}
    (hz : SharedTime.Logged L oneTwoThreeObj (.start (clientSession cfgC (Example3.client r1 r21 r22 ()))
      (serverSession cfgS (Example3.server ())) t) la lb z) (hst : z.Stuck L oneTwoThreeObj) :
    ∃ rc rs, z.a = .ret rc ∧ z.b = .ret rs ∧ rc.1 = .ok (.ok (), ()) ∧ rs.1 = .ok (.ok (), ()) ∧
      rc.2.sessionKey = rs.2.sessionKey := by
  obtain ⟨y, hy, h⟩ := (C134_sessions oneTwoThree_fine hh hkc hks _ _ (n := 3) (by decide) (example3_modest r1 r21 r22).1
    (example3_modest r1 r21 r22).2 (fun _ => ⟨_, _, _, rfl⟩) t).2
  obtain ⟨cc, cs, key, h1, h2, -, -, -, e1, e2⟩ := h la lb z hz hst
  obtain ⟨-, k, -, hend⟩ := hy
  have := (hend _ _ (example3_run r1 r21 r22 (P := fun _ => True) trivial trivial).run).2 (stuck_rets _ _ _ _)
  subst this
  generalize z.a = za at e1
  generalize z.b = zb at e2
  cases e1 with
  | ret q1 =>
    cases e2 with
    | ret q2 =>
      obtain ⟨a1, a2, -⟩ := q1
      obtain ⟨b1, b2, -⟩ := q2
      exact ⟨_, _, rfl, rfl, a1, b1, a2.trans b2.symm⟩

/-- The hypotheses of C134 hold for some sessions. -/
example (b b' : Bool) : oneTwoThreeObj.Fine ∧ Honest toyLib exKc exKs (exCfgC b).sigKp (exCfgS b').sigKp ∧
    (exCfgC b).encKp = some exKc ∧ (exCfgS b').encKp = some exKs :=
  ⟨oneTwoThree_fine, (exSetup b b').honest, rfl, rfl⟩

end Salt.Props
