import Verif.Lemmas.AnyTime
import Verif.Props.SharedTime
import Verif.Props.ClientServer

/-!
# C136: any number of sessions that share their time objects
-/

namespace Salt.Props

open Salt Spec

variable {σ α β : Type} {L : Lib} {T : TimeObj σ}

/-- The two ends of a session, the application programs of which are the sides of `d`. -/
structure Session (α β : Type) where
  cfgC : ClientCfg
  cfgS : ServerCfg
  kc : KeyPair
  ks : KeyPair
  pA : IT appSig α
  pB : IT appSig β

/-- Honest keys, and programs that send messages of sizes that can be sent. -/
structure Session.Ok (L : Lib) (d : Session α β) : Prop where
  honest : Honest L d.kc d.ks d.cfgC.sigKp d.cfgS.sigKp
  encC : d.cfgC.encKp = some d.kc
  encS : d.cfgS.encKp = some d.ks
  modest : ∃ n ≤ 2 ^ 62, Modest 65535 d.pA n ∧ Modest 65535 d.pB n
  writes : d.cfgC.bufferM4 = true → ∃ ms l k, d.pA = .op (S := appSig) (.write ms l) k

/-- Its connection at first. -/
def Session.conn (d : Session α β) : AnyTime (Except Err α × ClientSt) (Except Err β × ServerSt) :=
  .start (clientSession d.cfgC d.pA) (serverSession d.cfgS d.pB)

/-- Both sides are where they are when the two programs are directly connected, and have the same key and hashes. -/
def Session.Right (L : Lib) (T : TimeObj σ) (d : Session α β) (z : AnyTime (Except Err α × ClientSt) (Except Err β × ServerSt)) : Prop :=
  ∃ y cc cs key h1 h2, EndsIn (Net.start d.pA d.pB) y ∧ TimesOf T cc ∧ TimesOf T cs ∧
    KeysOf L cc cs d.cfgS.bufferM2 d.kc d.ks key h1 h2 ∧
    SameEndEnv (ClientEnd key h1 h2 d.cfgS.sigKp.pub) y.a z.a ∧ SameEndEnv (ServerEnd key h1 h2 d.cfgC.sigKp.pub) y.b z.b

/-- **C136, one connection.** Whatever other threads do with the time objects between the operations of a session, its two sides
end as if the two programs were directly connected. -/
theorem C136_connection (hT : T.Fine) (s : σ) {d : Session α β} (hd : d.Ok L) :
    (anyTime L T).Terminates d.conn ∧ ∀ z, (anyTime L T).Reach d.conn z → (anyTime L T).Stuck z → d.Right L T z := by
  refine ⟨anyTime_terminates _, fun z hz hzs => ?_⟩
  obtain ⟨n, hn, hA, hB⟩ := hd.modest
  obtain ⟨g, h, hg, hh, hr⟩ := AnyTime.replay hz
  obtain ⟨key, h1, h2, hk, y, Y, he, hE, e1, e2, -⟩ := C47_end_to_end (cc := clockOf T s g) (cs := clockOf T s h)
    ⟨hd.honest, hd.encC, hd.encS, Fine.accepts hT s s hg hh, Fine.accepts hT s s hh hg⟩ d.pA d.pB hn hA hB hd.writes
  refine ⟨y, clockOf T s g, clockOf T s h, key, h1, h2, he, ⟨(clockOf_range T s hg).1, (clockOf_range T s hg).2.1⟩,
    ⟨(clockOf_range T s hh).1, (clockOf_range T s hh).2.1⟩, hk, ?_⟩
  obtain ⟨-, N, -, h3⟩ := hE
  obtain ⟨M, hM⟩ := hr _ _ 0 0 (byClock_clockOf T s g) (byClock_clockOf T s h)
  have := (h3 _ _ hM).2 (anyTime_stuck_net s hzs _ _ _ _)
  subst this
  obtain ⟨n1, n2⟩ := anyTime_stuck s hzs
  unfold AnyTime.net at e1 e2
  constructor
  · rcases n1 with ⟨v, hv⟩ | ⟨k, hv, -⟩ <;> rw [hv] at e1 ⊢ <;> simp only [party] at e1
    · generalize hy' : y.a = ya at e1 ⊢
      cases e1 with
      | ret hq => exact .ret hq
    · generalize hy' : y.a = ya at e1 ⊢
      cases e1 with
      | wait k1 k2 => exact .wait _ _
  · rcases n2 with ⟨v, hv⟩ | ⟨k, hv, -⟩ <;> rw [hv] at e2 ⊢ <;> simp only [party] at e2
    · generalize hy' : y.b = yb at e2 ⊢
      cases e2 with
      | ret hq => exact .ret hq
    · generalize hy' : y.b = yb at e2 ⊢
      cases e2 with
      | wait k1 k2 => exact .wait _ _

/-- **C136.** Any number of sessions in a process, clients and servers, all with the same time objects: whatever the schedule of
all threads, everything comes to an end, and then the two sides of each session are where they are when their programs are
directly connected, with the same key and hashes. -/
theorem C136_process (hT : T.Fine) (ds : List (Session α β)) (hd : ∀ d ∈ ds, d.Ok L) (s : σ) :
    Process.Terminates L T ⟨ds.map Session.conn, s⟩ ∧
    ∀ P, Process.Reach L T ⟨ds.map Session.conn, s⟩ P → P.Stuck L T → P.conns.length = ds.length ∧
      ∀ (i : Nat) (d : Session α β), ds[i]? = some d → ∃ z, P.conns[i]? = some z ∧ d.Right L T z := by
  refine ⟨Process.terminates _, fun P hP hs => ?_⟩
  obtain ⟨h1, h2⟩ := hP.conns
  simp only [List.length_map] at h1
  refine ⟨h1, fun i d hi => ?_⟩
  obtain ⟨z, hz⟩ : ∃ z, P.conns[i]? = some z :=
    ⟨_, List.getElem?_eq_getElem (h1 ▸ (List.getElem?_eq_some_iff.1 hi).1)⟩
  exact ⟨z, hz, (C136_connection hT s (hd d (List.mem_of_getElem? hi))).2 z
    (h2 i _ z (by simp [hi]) hz) (hs.conns hz)⟩

/-- **C136, `run_sessions`.** Moreover one server thread that serves one connection after the other, while all client threads run, serves them all,
if the programs, directly connected, return. -/
theorem C136_run_sessions (hT : T.Fine) (s : σ) (ds : List (Session α β)) (hd : ∀ d ∈ ds, d.Ok L)
    (hr : ∀ d ∈ ds, ∀ y, EndsIn (Net.start d.pA d.pB) y → (∃ v, y.a = .ret v) ∧ ∃ v, y.b = .ret v) :
    Farm.AllServed (anyTime L T) ds Session.conn (Session.Right L T) := by
  refine C102_all_served anyTime_lawful fun d hm => ?_
  obtain ⟨h1, h2⟩ := C136_connection hT s (hd d hm)
  refine ⟨h1, fun z hz hs => ?_⟩
  have h3 := h2 z hz hs
  refine ⟨?_, ?_, h3⟩ <;> obtain ⟨y, cc, cs, key, k1, k2, hy, -, -, -, e1, e2⟩ := h3 <;>
    obtain ⟨⟨v, hv⟩, ⟨w, hw⟩⟩ := hr d hm y hy
  · rw [hv] at e1
    generalize hza : z.a = za at e1
    cases e1 with
    | ret hq => exact ⟨_, hza⟩
  · rw [hw] at e2
    generalize hzb : z.b = zb at e2
    cases e2 with
    | ret hq => exact ⟨_, hzb⟩

/-- Example session 3 with the given requests. -/
def example3Session (cfgC : ClientCfg) (cfgS : ServerCfg) (kc ks : KeyPair) (r : Bytes × Bytes × Bytes) :
    Session (Except Err Unit × Unit) (Except Err Unit × Unit) :=
  ⟨cfgC, cfgS, kc, ks, Example3.client r.1 r.2.1 r.2.2 (), Example3.server ()⟩

theorem example3Session_ok {cfgC : ClientCfg} {cfgS : ServerCfg} {kc ks : KeyPair} (hh : Honest L kc ks cfgC.sigKp cfgS.sigKp)
    (hkc : cfgC.encKp = some kc) (hks : cfgS.encKp = some ks) (r : Bytes × Bytes × Bytes) :
    (example3Session cfgC cfgS kc ks r).Ok L :=
  ⟨hh, hkc, hks, ⟨3, by decide, (example3_modest r.1 r.2.1 r.2.2).1, (example3_modest r.1 r.2.1 r.2.2).2⟩, fun _ => ⟨_, _, _, rfl⟩⟩

theorem example3Session_end {cfgC : ClientCfg} {cfgS : ServerCfg} {kc ks : KeyPair} (r : Bytes × Bytes × Bytes) {y}
    (hy : EndsIn (Net.start (example3Session cfgC cfgS kc ks r).pA (example3Session cfgC cfgS kc ks r).pB) y) :
    y.a = .ret (.ok (), ()) ∧ y.b = .ret (.ok (), ()) := by
  obtain ⟨-, k, -, hend⟩ := hy
  have := (hend _ _ (example3_run r.1 r.2.1 r.2.2 (P := fun _ => True) trivial trivial).run).2 (stuck_rets _ _ _ _)
  subst this
  exact ⟨rfl, rfl⟩

/-- **C136, example session 3.** Any number of clients with requests `rs` and their servers in one process with one
`OneTwoThreeTimeKeeper`: whatever the schedule, all end without exception. -/
theorem C136_example3 {cfgC : ClientCfg} {cfgS : ServerCfg} {kc ks : KeyPair} (hh : Honest L kc ks cfgC.sigKp cfgS.sigKp)
    (hkc : cfgC.encKp = some kc) (hks : cfgS.encKp = some ks) (rs : List (Bytes × Bytes × Bytes)) (t : Nat) {P}
    (hP : Process.Reach L oneTwoThreeObj ⟨(rs.map (example3Session cfgC cfgS kc ks)).map Session.conn, t⟩ P)
    (hs : P.Stuck L oneTwoThreeObj) :
    P.conns.length = rs.length ∧ ∀ z ∈ P.conns, ∃ rc rs, z.a = .ret rc ∧ z.b = .ret rs ∧
      rc.1 = .ok (.ok (), ()) ∧ rs.1 = .ok (.ok (), ()) ∧ rc.2.sessionKey = rs.2.sessionKey := by
  obtain ⟨h1, h2⟩ := (C136_process oneTwoThree_fine (rs.map (example3Session cfgC cfgS kc ks)) (by
    intro d hd
    obtain ⟨r, -, rfl⟩ := List.mem_map.1 hd
    exact example3Session_ok hh hkc hks r) t).2 P hP hs
  rw [List.length_map] at h1
  refine ⟨h1, fun z hz => ?_⟩
  obtain ⟨i, hi⟩ := List.getElem?_of_mem hz
  obtain ⟨r, hr⟩ : ∃ r, rs[i]? = some r :=
    ⟨_, List.getElem?_eq_getElem (h1 ▸ (List.getElem?_eq_some_iff.1 hi).1)⟩
  obtain ⟨z', hz', y, cc, cs, key, k1, k2, hy, -, -, -, e1, e2⟩ := h2 i (example3Session cfgC cfgS kc ks r) (by simp [hr])
  rw [hi] at hz'
  cases hz'
  obtain ⟨y1, y2⟩ := example3Session_end r hy
  rw [y1] at e1
  rw [y2] at e2
  generalize z.a = za at e1
  generalize z.b = zb at e2
  cases e1 with
  | ret q1 =>
    cases e2 with
    | ret q2 =>
      obtain ⟨a1, a2, -⟩ := q1
      obtain ⟨b1, b2, -⟩ := q2
      exact ⟨_, _, rfl, rfl, a1, b1, a2.trans b2.symm⟩

/-- The hypotheses of C136 hold for some sessions. -/
example (b b' : Bool) (r : Bytes × Bytes × Bytes) : oneTwoThreeObj.Fine ∧ (example3Session (exCfgC b) (exCfgS b') exKc exKs r).Ok toyLib ∧
    ∀ y, EndsIn (Net.start (example3Session (exCfgC b) (exCfgS b') exKc exKs r).pA (example3Session (exCfgC b) (exCfgS b') exKc exKs r).pB) y →
      (∃ v, y.a = .ret v) ∧ ∃ v, y.b = .ret v :=
  ⟨oneTwoThree_fine, example3Session_ok (exSetup b b').honest rfl rfl r,
    fun _ hy => ⟨⟨_, (example3Session_end r hy).1⟩, ⟨_, (example3Session_end r hy).2⟩⟩⟩

end Salt.Props
