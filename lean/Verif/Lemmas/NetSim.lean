import Verif.Lemmas.NetLog
import Verif.Lemmas.NetEager
import Verif.Lemmas.Honest
import Verif.Lemmas.App

/-!
# Programs on a channel object behave like programs on the ideal links
-/

set_option linter.unusedSimpArgs false

namespace Salt

open Spec Props

theorem Local.append {L : Lib} {c : Clock} {i j k : Nat} {tr tr' : List (Ev env)} (h : Local L c i tr j)
    (h' : Local L c j tr' k) : Local L c i (tr ++ tr') k := by
  induction h with
  | nil i => exact h'
  | read r _ ih => exact .read r (ih h')
  | write ms l r _ ih => exact .write ms l r (ih h')
  | firstTime _ ih => exact .firstTime (ih h')
  | time _ ih => exact .time (ih h')
  | report t _ ih => exact .report t (ih h')
  | check t _ ih => exact .check t (ih h')
  | crypto ev h1 h2 _ ih => exact .crypto ev h1 h2 (ih h')

theorem callsOf_append (a b : List (Ev env)) : callsOf (a ++ b) = callsOf a ++ callsOf b := by
  induction a with
  | nil => rfl
  | cons e a ih =>
    rcases e with ⟨op, res⟩
    cases op <;> simp [callsOf, ih]

/-- Calls that only take messages from the link. -/
inductive Reads : List (Ev appSig) → List Bytes → List Bytes → Prop
  | nil (q) : Reads [] q q
  | read {tr q q'} (m : Bytes) : Reads tr q q' → Reads (⟨AppOp.read, .ok m⟩ :: tr) (m :: q) q'

theorem Reads.moves {tr : List (Ev appSig)} {q q' : List Bytes} (h : Reads tr q q') : Moves tr q [] q' := by
  induction h with
  | nil q => exact .nil q
  | read m _ ih => exact .read m ih

theorem Reads.runE {α β : Type} {tr : List (Ev appSig)} {q q' : List Bytes} (h : Reads tr q q') {t t' : IT appSig α}
    (hp : Perf t tr t') (b : IT appSig β) (ab : List Bytes) : Net.RunE ⟨t, b, ab, q⟩ ⟨t', b, ab, q'⟩ := by
  induction h generalizing t with
  | nil q => cases hp; exact .refl _
  | read m _ ih => cases hp with | cons e k r hp => exact .step (.aRead _ _) (ih hp)

/-- What a channel object must do.  `D cw cr w r raw q n`: with `w` at the writing and `r` at the reading
end, the packets `raw` in flight and what the reader holds back are the messages `q`; `n` more messages may be
written. -/
structure Chan {σ : Type} (L : Lib) (h : (e : AppOp) → Py env σ e.Resp)
    (D : Clock → Clock → σ → σ → List Bytes → List Bytes → Nat → Prop) (cap : Nat) : Prop where
  write : ∀ {cw cr w r raw q n}, D cw cr w r raw q n → ∀ ms l, ms ≠ [] → ms.length ≤ cap → ms.length ≤ n → ∀ i,
    ∃ tr w' ps j, Exec (h (.write ms l) w) tr (.ok (), w') ∧ Local L cw i tr j ∧
      callsOf tr = [⟨AppOp.write ps l, .ok ()⟩] ∧ D cw cr w' r (raw ++ ps) (q ++ ms) (n - ms.length) ∧
      ∀ raw' q' n', D cr cw r w raw' q' n' → D cr cw r w' raw' q' n'
  read : ∀ {cw cr w r raw m q n}, D cw cr w r raw (m :: q) n → ∀ i,
    ∃ tr r' raw' j, Exec (h .read r) tr (.ok m, r') ∧ Local L cr i tr j ∧ Reads (callsOf tr) raw raw' ∧
      D cw cr w r' raw' q n ∧ ∀ raw' q' n', D cr cw r w raw' q' n' → D cr cw r' w raw' q' n'
  block : ∀ {cw cr w r raw n}, D cw cr w r raw [] n → raw = [] ∧ ∃ k, h .read r = .op (S := env) .read k

section
variable {σ α β α' β' : Type} {L : Lib} {h : (e : AppOp) → Py env σ e.Resp}
    {D : Clock → Clock → σ → σ → List Bytes → List Bytes → Nat → Prop} {ca cb : Clock}
    {fa : α × σ → IT env α'} {fb : β × σ → IT env β'} {cap : Nat}

/-- The real network `X` is in a state that corresponds to the ideal network `x`. -/
structure Sim (L : Lib) (h : (e : AppOp) → Py env σ e.Resp)
    (D : Clock → Clock → σ → σ → List Bytes → List Bytes → Nat → Prop) (cap : Nat) (ca cb : Clock)
    (fa : α × σ → IT env α') (fb : β × σ → IT env β') (x : Net α β) (X : Net α' β') : Prop where
  ex : ∃ sa sb ia ib na nb, X.a = party L ca ((runOn h x.a sa).bind fa) ia ∧
    X.b = party L cb ((runOn h x.b sb).bind fb) ib ∧ D ca cb sa sb X.ab x.ab na ∧ D cb ca sb sa X.ba x.ba nb ∧
    Modest cap x.a na ∧ Modest cap x.b nb

theorem Sim.swap {x : Net α β} {X : Net α' β'} (s : Sim L h D cap ca cb fa fb x X) :
    Sim L h D cap cb ca fb fa x.swap X.swap := by
  obtain ⟨sa, sb, ia, ib, na, nb, h1, h2, h3, h4, h5, h6⟩ := s.ex
  exact ⟨sb, sa, ib, ia, nb, na, h2, h1, h4, h3, h6, h5⟩

theorem Moves.frame_write (ps : List Bytes) (l : Bool) (q : List Bytes) :
    Moves [⟨AppOp.write ps l, .ok ()⟩] q ps q := by
  have := Moves.write ps l (.nil q)
  rwa [List.append_nil] at this

/-- Calls with the property `P` lead to messages with the property `p`. -/
def Sized {σ : Type} (L : Lib) (h : (e : AppOp) → Py env σ e.Resp)
    (D : Clock → Clock → σ → σ → List Bytes → List Bytes → Nat → Prop) (P : List Bytes → Prop) (p : Bytes → Prop) : Prop :=
  ∀ {cw cr w r raw q n}, D cw cr w r raw q n → ∀ ms l i tr w' ps j, P ms → Exec (h (.write ms l) w) tr (.ok (), w') →
    Local L cw i tr j → callsOf tr = [⟨AppOp.write ps l, .ok ()⟩] → ∀ m ∈ ps, p m

variable {P : List Bytes → Prop} {p : Bytes → Prop}

theorem Sim.aStep (hc : Chan L h D cap) (hz : Sized L h D P p) {b : IT appSig β} {ab ba : List Bytes} (e : AppOp)
    (k : Except Err e.Resp → IT appSig α) {X : Net α' β'}
    (s : Sim L h D cap ca cb fa fb ⟨.op (S := appSig) e k, b, ab, ba⟩ X) :
    (∀ ms l, (hw : e = .write ms l) → P ms → ∃ n Y, Net.RunC (fun ms => ∀ m ∈ ms, p m) n X Y ∧
      Sim L h D cap ca cb fa fb ⟨k (.ok (hw ▸ ())), b, ab ++ ms, ba⟩ Y) ∧
    (∀ m ba', (hr : e = .read) → ba = m :: ba' → ∃ n Y, Net.RunC (fun ms => ∀ m ∈ ms, p m) n X Y ∧
      Sim L h D cap ca cb fa fb ⟨k (.ok (hr ▸ (show AppOp.read.Resp from m))), b, ab, ba'⟩ Y) := by
  obtain ⟨sa, sb, ia, ib, na, nb, h1, h2, h3, h4, h5, h6⟩ := s.ex
  obtain ⟨A, B, AB, BA⟩ := X
  simp only at *
  constructor
  · rintro ms l rfl hP
    obtain ⟨w1, w2, w3, w4⟩ := h5
    obtain ⟨tr, w', ps, j, e1, e2, e3, e4, e5⟩ := hc.write h3 ms l w1 w2 w3 ia
    have hps := hz h3 ms l ia tr w' ps j hP e1 e2 e3
    have pf := party_perf e2 e1 (fun (r, s') => (runOn h (k r) s').bind fa)
    rw [e3] at pf
    have r : Net.RunC _ 1 _ _ := Net.runC_a pf (.frame_write ps l BA) hps B AB
    refine ⟨1, ⟨_, B, AB ++ ps, BA⟩, ?_, ⟨w', sb, j, ib, na - ms.length, nb, rfl, h2, e4, e5 _ _ _ h4, w4 _, h6⟩⟩
    rw [h1]
    simpa only [runOn, IT.bind_assoc] using r
  · rintro m ba' rfl rfl
    obtain ⟨tr, r', raw', j, e1, e2, e3, e4, e5⟩ := hc.read h4 ia
    have pf := party_perf e2 e1 (fun (r, s') => (runOn h (k r) s').bind fa)
    have r := Net.runC_a (p := p) pf e3.moves (by simp) B AB
    rw [List.append_nil] at r
    refine ⟨(callsOf tr).length, ⟨_, B, AB, raw'⟩, ?_, ⟨r', sb, j, ib, na, nb, rfl, h2, e5 _ _ _ h3, e4, h5 _, h6⟩⟩
    rw [h1]
    simpa only [runOn, IT.bind_assoc] using r

/-- A step of a schedule in which reading goes first leads to steps of such a schedule. -/
theorem Sim.aStepE (hc : Chan L h D cap) {b : IT appSig β} {ab ba : List Bytes} (e : AppOp)
    (k : Except Err e.Resp → IT appSig α) {X : Net α' β'} (hf : ∀ a c, ∃ a', fb (a, c) = .ret a')
    (s : Sim L h D cap ca cb fa fb ⟨.op (S := appSig) e k, b, ab, ba⟩ X) :
    (∀ ms l, (hw : e = .write ms l) → ¬ Writing b → ab = [] → ba = [] → ∃ Y, Net.RunE X Y ∧
      Sim L h D cap ca cb fa fb ⟨k (.ok (hw ▸ ())), b, ms, []⟩ Y) ∧
    (∀ m ba', (hr : e = .read) → ba = m :: ba' → ∃ Y, Net.RunE X Y ∧
      Sim L h D cap ca cb fa fb ⟨k (.ok (hr ▸ (show AppOp.read.Resp from m))), b, ab, ba'⟩ Y) := by
  obtain ⟨sa, sb, ia, ib, na, nb, h1, h2, h3, h4, h5, h6⟩ := s.ex
  obtain ⟨A, B, AB, BA⟩ := X
  simp only at *
  constructor
  · rintro ms l rfl hb rfl rfl
    obtain ⟨rfl, kr, hkr⟩ := hc.block h3
    obtain ⟨rfl, -⟩ := hc.block h4
    obtain ⟨w1, w2, w3, w4⟩ := h5
    obtain ⟨tr, w', ps, j, e1, e2, e3, e4, e5⟩ := hc.write h3 ms l w1 w2 w3 ia
    have pf := party_perf e2 e1 (fun (r, s') => (runOn h (k r) s').bind fa)
    rw [e3] at pf
    have hB : ¬ Writing B := by
      rw [h2]
      cases b with
      | ret r =>
        obtain ⟨a', ha'⟩ := hf r sb
        simp only [runOn, IT.ret_bind, ha', party]
        exact not_writing_ret _
      | op e k' =>
        cases e with
        | read =>
          simp only [runOn, hkr, IT.op_bind, party]
          exact not_writing_read _
        | write ms l => exact absurd ⟨ms, l, k', rfl⟩ hb
    refine ⟨⟨_, B, ps, []⟩, ?_, ⟨w', sb, j, ib, na - ms.length, nb, rfl, h2, e4, e5 _ _ _ h4, w4 _, h6⟩⟩
    rw [h1]
    simp only [runOn, IT.bind_assoc]
    obtain ⟨k', e6, e7⟩ := pf.single
    refine .one ?_
    have := Net.StepE.aWrite ps l k' hB
    rw [← e7] at this
    exact e6 ▸ this
  · rintro m ba' rfl rfl
    obtain ⟨tr, r', raw', j, e1, e2, e3, e4, e5⟩ := hc.read h4 ia
    have pf := party_perf e2 e1 (fun (r, s') => (runOn h (k r) s').bind fa)
    have r := e3.runE pf B AB
    refine ⟨⟨_, B, AB, raw'⟩, ?_, ⟨r', sb, j, ib, na, nb, rfl, h2, e5 _ _ _ h3, e4, h5 _, h6⟩⟩
    rw [h1]
    simpa only [runOn, IT.bind_assoc] using r

theorem Sim.runE (hc : Chan L h D cap) (hfa : ∀ a c, ∃ a', fa (a, c) = .ret a') (hfb : ∀ a c, ∃ a', fb (a, c) = .ret a')
    {x y : Net α β} (r : Net.RunE x y) {X : Net α' β'} (s : Sim L h D cap ca cb fa fb x X) :
    ∃ Y, Net.RunE X Y ∧ Sim L h D cap ca cb fa fb y Y := by
  induction r generalizing X with
  | refl => exact ⟨X, .refl _, s⟩
  | @step _ x2 _ st _ ih =>
    have : ∃ Y, Net.RunE X Y ∧ Sim L h D cap ca cb fa fb x2 Y := by
      cases st with
      | aWrite ms l k hb => exact (s.aStepE hc (.write ms l) k hfb).1 ms l rfl hb rfl rfl
      | aRead m k => exact (s.aStepE hc .read k hfb).2 m _ rfl rfl
      | bWrite ms l k hb =>
        obtain ⟨Y, h1, h2⟩ := (s.swap.aStepE hc (.write ms l) k hfa).1 ms l rfl hb rfl rfl
        exact ⟨Y.swap, h1.swap, h2.swap⟩
      | bRead m k =>
        obtain ⟨Y, h1, h2⟩ := (s.swap.aStepE hc .read k hfa).2 m _ rfl rfl
        exact ⟨Y.swap, h1.swap, h2.swap⟩
    obtain ⟨Y, h1, h2⟩ := this
    obtain ⟨Z, h3, h4⟩ := ih h2
    exact ⟨Z, h1.trans h3, h4⟩

theorem Sim.step (hc : Chan L h D cap) (hz : Sized L h D P p) {x y : Net α β} {X : Net α' β'}
    (s : Sim L h D cap ca cb fa fb x X) (st : Net.StepC P x y) :
    ∃ n Y, Net.RunC (fun ms => ∀ m ∈ ms, p m) n X Y ∧ Sim L h D cap ca cb fa fb y Y := by
  cases st with
  | aWrite ms l k hP => exact (s.aStep hc hz (.write ms l) k).1 ms l rfl hP
  | aRead m k => exact (s.aStep hc hz .read k).2 m _ rfl rfl
  | bWrite ms l k hP =>
    obtain ⟨n, Y, h1, h2⟩ := (s.swap.aStep hc hz (.write ms l) k).1 ms l rfl hP
    exact ⟨n, Y.swap, h1.swap, h2.swap⟩
  | bRead m k =>
    obtain ⟨n, Y, h1, h2⟩ := (s.swap.aStep hc hz .read k).2 m _ rfl rfl
    exact ⟨n, Y.swap, h1.swap, h2.swap⟩

theorem Sim.run (hc : Chan L h D cap) (hz : Sized L h D P p) {x y : Net α β} {n : Nat} (r : Net.RunC P n x y)
    {X : Net α' β'} (s : Sim L h D cap ca cb fa fb x X) :
    ∃ n Y, Net.RunC (fun ms => ∀ m ∈ ms, p m) n X Y ∧ Sim L h D cap ca cb fa fb y Y := by
  induction r generalizing X with
  | refl => exact ⟨0, X, .refl _, s⟩
  | step st _ ih =>
    obtain ⟨n, Y, h1, h2⟩ := s.step hc hz st
    obtain ⟨m, Z, h3, h4⟩ := ih h2
    exact ⟨_, Z, h1.trans h3, h4⟩

theorem Sim.final_a (hc : Chan L h D cap) {x : Net α β} {X : Net α' β'} (s : Sim L h D cap ca cb fa fb x X)
    (hx : Net.Stuck x) {Q : α → α' → Prop} (hf : ∀ a c, ∃ a', fa (a, c) = .ret a' ∧ Q a a') :
    SameEnd Q x.a X.a ∧ (∀ k, X.a = .op (S := appSig) .read k → X.ba = []) := by
  obtain ⟨sa, sb, ia, ib, na, nb, h1, h2, h3, h4, h5, h6⟩ := s.ex
  rcases ((Net.stuck_iff x).1 hx).1 with ⟨r, hr⟩ | ⟨⟨k, hk⟩, hb⟩
  · obtain ⟨a', hf, hq⟩ := hf r sa
    rw [h1, hr]
    simp only [runOn, IT.ret_bind, hf, party]
    exact ⟨.ret hq, by intro k hk; cases hk⟩
  · rw [hb] at h4
    obtain ⟨hraw, k', hk'⟩ := hc.block h4
    refine ⟨?_, fun _ _ => hraw⟩
    rw [h1, hk]
    simp only [runOn, hk', IT.op_bind, party]
    exact .wait _ _

theorem Sim.left (hc : Chan L h D cap) {x : Net α β} {X : Net α' β'} (s : Sim L h D cap ca cb fa fb x X)
    (hx : x.ab = []) : X.ab = [] := by
  obtain ⟨sa, sb, ia, ib, na, nb, h1, h2, h3, h4, h5, h6⟩ := s.ex
  rw [hx] at h3
  exact (hc.block h3).1

/-- When the ideal network has ended, so has the real one, and in the same way. -/
theorem Sim.ended (hc : Chan L h D cap) {y : Net α β} (hy : Net.Stuck y)
    {Y : Net α' β'} (h2 : Sim L h D cap ca cb fa fb y Y) {Qa : α → α' → Prop} {Qb : β → β' → Prop}
    (ha : ∀ a c, ∃ a', fa (a, c) = .ret a' ∧ Qa a a') (hb : ∀ a c, ∃ a', fb (a, c) = .ret a' ∧ Qb a a') :
    Net.Stuck Y ∧ SameEnd Qa y.a Y.a ∧ SameEnd Qb y.b Y.b ∧ (y.ab = [] → Y.ab = []) ∧ (y.ba = [] → Y.ba = []) := by
  obtain ⟨a1, a2⟩ := h2.final_a hc hy ha
  have hy' : Net.Stuck y.swap := by
    have := (Net.stuck_iff y).1 hy
    exact (Net.stuck_iff y.swap).2 ⟨this.2, this.1⟩
  obtain ⟨b1, b2⟩ := h2.swap.final_a hc hy' hb
  refine ⟨(Net.stuck_iff Y).2 ⟨?_, ?_⟩, a1, b1, h2.left hc, h2.swap.left hc⟩
  · generalize hp : y.a = p at a1
    generalize hP : Y.a = P at a1
    cases a1 with
    | ret => exact .inl ⟨_, rfl⟩
    | wait k k' => exact .inr ⟨⟨_, rfl⟩, a2 _ hP⟩
  · generalize hp : y.swap.a = p at b1
    generalize hP : Y.swap.a = P at b1
    cases b1 with
    | ret => exact .inl ⟨_, hP⟩
    | wait k k' => exact .inr ⟨⟨_, hP⟩, b2 _ hP⟩

/-- Every run of the real network ends, as the ideal one does. -/
theorem Sim.finalC (hc : Chan L h D cap) (hz : Sized L h D P p) {x y : Net α β} {n : Nat} (r : Net.RunC P n x y) (hy : Net.Stuck y)
    {X : Net α' β'} (s : Sim L h D cap ca cb fa fb x X) {Qa : α → α' → Prop} {Qb : β → β' → Prop}
    (ha : ∀ a c, ∃ a', fa (a, c) = .ret a' ∧ Qa a a') (hb : ∀ a c, ∃ a', fb (a, c) = .ret a' ∧ Qb a a') :
    ∃ N Y, Net.RunC (fun ms => ∀ m ∈ ms, p m) N X Y ∧ Net.Stuck Y ∧ SameEnd Qa y.a Y.a ∧ SameEnd Qb y.b Y.b ∧ (y.ab = [] → Y.ab = []) ∧
      (y.ba = [] → Y.ba = []) := by
  obtain ⟨N, Y, h1, h2⟩ := s.run hc hz r
  exact ⟨N, Y, h1, h2.ended hc hy ha hb⟩

theorem Sim.final (hc : Chan L h D cap) {x y : Net α β} {n : Nat} (r : Net.Run n x y) (hy : Net.Stuck y)
    {X : Net α' β'} (s : Sim L h D cap ca cb fa fb x X) {Qa : α → α' → Prop} {Qb : β → β' → Prop}
    (ha : ∀ a c, ∃ a', fa (a, c) = .ret a' ∧ Qa a a') (hb : ∀ a c, ∃ a', fb (a, c) = .ret a' ∧ Qb a a') :
    ∃ N Y, Net.Run N X Y ∧ Net.Stuck Y ∧ SameEnd Qa y.a Y.a ∧ SameEnd Qb y.b Y.b ∧ (y.ab = [] → Y.ab = []) ∧
      (y.ba = [] → Y.ba = []) := by
  obtain ⟨N, Y, h1, h2⟩ := s.finalC (p := fun _ => True) hc (fun _ _ _ _ _ _ _ _ _ _ _ _ _ _ => trivial) r.runC_true hy ha hb
  exact ⟨N, Y, h1.run, h2⟩

end

/-! ### The encrypted channel -/

/-- `raw` are packets with the plaintexts `ms`, sealed with the nonces `n, n + 2, …` up to `n'`. -/
inductive InFlight (L : Lib) (key : Bytes) : Nat → List Bytes → List Bytes → Nat → Prop
  | nil (n) : InFlight L key n [] [] n
  | cons {n n' raw ms} (m c : Bytes) (l : Bool) : L.box m (Spec.nonce n) key = .ok c → InFlight L key (n + 2) raw ms n' →
      InFlight L key n (Spec.encrypted l c :: raw) (m :: ms) n'

theorem InFlight.append {L : Lib} {key : Bytes} {n n' n'' : Nat} {raw ms raw' ms' : List Bytes}
    (h : InFlight L key n raw ms n') (h' : InFlight L key n' raw' ms' n'') :
    InFlight L key n (raw ++ raw') (ms ++ ms') n'' := by
  induction h with
  | nil => exact h'
  | cons m c l hb _ ih => exact .cons m c l hb (ih h')

theorem InFlight.le {L : Lib} {key : Bytes} {n n' : Nat} {raw ms : List Bytes}
    (h : InFlight L key n raw ms n') : n + 2 * ms.length = n' := by
  induction h with
  | nil => rfl
  | cons m c l hb _ ih => rw [← ih]; simp; omega

theorem encryptAll_flight {L : Lib} (hb : BoxLaw L) (c : Clock) (l : Bool) (ms : List Bytes) (s : EncSt)
    (hs : s.sessionNonce = zeros 8) (hk : s.key.length = 32) (hn : s.writeNonce + 2 * ms.length ≤ 2 ^ 64) :
    ∃ tr ps, Exec (Enc.encryptAll l ms s) tr (.ok ps, { s with writeNonce := s.writeNonce + 2 * ms.length }) ∧
      (∀ i, Local L c i tr i) ∧ callsOf tr = [] ∧
      InFlight L s.key s.writeNonce ps ms (s.writeNonce + 2 * ms.length) ∧ SealedAll L s.key s.writeNonce (flagged l ms) ps := by
  induction ms generalizing s with
  | nil => exact ⟨[], [], .ret _, fun i => .nil i, rfl, .nil _, .nil _⟩
  | cons m ms ih =>
    rw [List.length_cons] at hn
    obtain ⟨c', hc, -⟩ := hb.total m (Spec.nonce s.writeNonce) s.key (nonce_length _) hk
    obtain ⟨tr, ps, h1, h2, h3, h4, h5⟩ := ih { s with writeNonce := s.writeNonce + 2 } hs hk (by simp only; omega)
    simp only at h1 h4 h5
    have hlen : s.writeNonce + 2 + 2 * ms.length = s.writeNonce + 2 * (m :: ms).length := by
      rw [List.length_cons]; omega
    rw [hlen] at h1 h4
    refine ⟨⟨.box m (Spec.nonce s.writeNonce) s.key, .ok c'⟩ :: tr, Spec.encrypted (l && ms.isEmpty) c' :: ps,
      ?_, fun i => .crypto _ rfl hc.symm (h2 i), h3, .cons m c' _ hc h4, .cons _ m c' hc h5⟩
    have hnb : nonceBytes s.writeNonce s.sessionNonce = .ok (Spec.nonce s.writeNonce) := by
      rw [hs, nonceBytes_eq, if_pos (by omega)]
    rw [encryptAll_cons_run, hnb]
    refine .op _ _ _ _ _ ?_
    simp only []
    rw [Exec_bind]
    exact ⟨tr, _, [], by simp, h1, .ret _⟩

theorem Enc_write_flight {L : Lib} (hb : BoxLaw L) (c : Clock) (l : Bool) (ms : List Bytes) (s : EncSt)
    (hs : s.sessionNonce = zeros 8) (hk : s.key.length = 32) (hn : s.writeNonce + 2 * ms.length ≤ 2 ^ 64) :
    ∃ tr ps, Exec (Enc.write ms l s) tr (.ok (), { s with writeNonce := s.writeNonce + 2 * ms.length }) ∧
      (∀ i, Local L c i tr i) ∧ callsOf tr = [⟨AppOp.write ps l, .ok ()⟩] ∧
      InFlight L s.key s.writeNonce ps ms (s.writeNonce + 2 * ms.length) ∧ SealedAll L s.key s.writeNonce (flagged l ms) ps := by
  obtain ⟨tr, ps, h1, h2, h3, h4, h5⟩ := encryptAll_flight hb c l ms s hs hk hn
  refine ⟨tr ++ [⟨.write ps l, .ok ()⟩], ps, ?_, fun i => (h2 i).append (.write _ _ _ (.nil _)), ?_, h4, h5⟩
  · rw [Enc_write_run, Exec_bind]
    exact ⟨tr, _, _, rfl, h1, .op _ _ _ _ _ (.ret _)⟩
  · rw [callsOf_append, h3]; rfl

theorem Enc_read_flight {L : Lib} (hb : BoxLaw L) (c : Clock) (s : EncSt) (hs : s.sessionNonce = zeros 8)
    (hk : s.key.length = 32) (hp : s.pushback = []) {raw ms : List Bytes} {m : Bytes} {n' : Nat}
    (h : InFlight L s.key s.readNonce raw (m :: ms) n') (hn : n' ≤ 2 ^ 64) :
    ∃ tr f raw', Exec (Enc.read s) tr (.ok m, { s with lastFlag := f, readNonce := s.readNonce + 2 }) ∧
      (∀ i, Local L c i tr i) ∧ Reads (callsOf tr) raw raw' ∧
      InFlight L s.key (s.readNonce + 2) raw' ms n' := by
  have hle := h.le
  cases h with
  | cons _ c' l hbx hr =>
    obtain ⟨c'', hc, hl⟩ := hb.total m (Spec.nonce s.readNonce) s.key (nonce_length _) hk
    rw [hbx] at hc
    cases hc
    have ho := (hb.open_iff c' m (Spec.nonce s.readNonce) s.key (nonce_length _) hk).2 hbx
    have hlt : s.readNonce < 2 ^ 64 := by simp at hle; omega
    refine ⟨_, _, _, Enc_read_do hp hs hlt (Spec.encrypted l c') m ?_ rfl,
      fun i => .read _ (.crypto _ rfl ho.symm (.nil i)), .read _ (.nil _), hr⟩
    simp [Spec.encrypted]; omega

/-- One direction of a pair of encrypted channels. -/
structure EncDir (L : Lib) (_ _ : Clock) (w r : EncSt) (raw q : List Bytes) (n : Nat) : Prop where
  wNonce : w.sessionNonce = zeros 8
  rNonce : r.sessionNonce = zeros 8
  push : r.pushback = []
  key : w.key = r.key
  keyLen : r.key.length = 32
  flight : InFlight L r.key r.readNonce raw q w.writeNonce
  budget : w.writeNonce + 2 * n ≤ 2 ^ 64

theorem enc_chan {L : Lib} (hb : BoxLaw L) (cap : Nat) : Chan L encOps (EncDir L) cap where
  write := by
    intro cw cr w r raw q n d ms l _ _ hlen i
    have := d.budget
    obtain ⟨tr, ps, h1, h2, h3, h4, -⟩ := Enc_write_flight hb cw l ms w d.wNonce (d.key ▸ d.keyLen) (by omega)
    refine ⟨tr, _, ps, i, h1, h2 i, h3, ⟨d.wNonce, d.rNonce, d.push, d.key, d.keyLen, ?_, ?_⟩, ?_⟩
    · exact d.flight.append (d.key ▸ h4)
    · simp only; omega
    · intro raw' q' n' d'
      exact ⟨d'.wNonce, d'.rNonce, d'.push, d'.key, d'.keyLen, d'.flight, d'.budget⟩
  read := by
    intro cw cr w r raw m q n d i
    have := d.budget
    obtain ⟨tr, f, raw', h1, h2, h3, h4⟩ := Enc_read_flight hb cr r d.rNonce d.keyLen d.push d.flight (by omega)
    refine ⟨tr, _, raw', i, h1, h2 i, h3, ⟨d.wNonce, d.rNonce, d.push, d.key, d.keyLen, h4, d.budget⟩, ?_⟩
    intro raw' q' n' d'
    exact ⟨d'.wNonce, d'.rNonce, d'.push, d'.key, d'.keyLen, d'.flight, d'.budget⟩
  block := by
    intro cw cr w r raw n d
    have hf := d.flight
    generalize w.writeNonce = n' at hf
    constructor
    · cases hf; rfl
    · refine ⟨_, (Enc_read_run r).trans (if_neg (by simp [d.push]))⟩

/-! ### The application channel -/

/-- The plaintext packets `ps` carry the messages `q`, with times that `c` accepts. -/
inductive Load (c : Clock) : List Bytes → List Bytes → Prop
  | nil : Load c [] []
  | cons {p m q rest ps t} : appParse p = .ok (t, .ok (m, q)) → (∀ i, c.check i t = .ok ()) → Load c ps rest →
      Load c (p :: ps) (m :: q ++ rest)

theorem Load.append {c : Clock} {ps q ps' q' : List Bytes} (h : Load c ps q) (h' : Load c ps' q') :
    Load c (ps ++ ps') (q ++ q') := by
  induction h with
  | nil => exact h'
  | cons h1 h2 _ ih => rw [List.append_assoc]; exact .cons h1 h2 ih

theorem Load.packets {c : Clock} {t : Nat} (ht : ∀ i, c.check i (t % 2 ^ 32) = .ok ()) (ms : List Bytes)
    (hl : ms.length ≤ 65535) : Load c (appPackets t ms) ms := by
  unfold appPackets
  by_cases h : 2 ≤ ms.length ∧ ∀ m ∈ ms, m.length ≤ 65535
  · rw [if_pos h]
    cases ms with
    | nil => simp at h
    | cons m q =>
      have := Load.cons (c := c) (rest := []) (appParse_multi t m q hl h.2) ht .nil
      rwa [List.append_nil] at this
  · rw [if_neg h]
    clear h hl
    induction ms with
    | nil => exact .nil
    | cons m ms ih => exact Load.cons (q := []) (appParse_app t m) ht ih

theorem appPackets_length (t : Nat) (ms : List Bytes) (hne : ms ≠ []) : (appPackets t ms).length ≤ ms.length := by
  unfold appPackets
  split
  · cases ms with
    | nil => exact absurd rfl hne
    | cons => simp
  · simp

/-- One direction of a pair of application channels. -/
structure AppDir (L : Lib) (cw cr : Clock) (w r : AppSt) (raw q : List Bytes) (n : Nat) : Prop where
  wNonce : w.enc.sessionNonce = zeros 8
  rNonce : r.enc.sessionNonce = zeros 8
  push : r.enc.pushback = []
  key : w.enc.key = r.enc.key
  keyLen : r.enc.key.length = 32
  m4 : w.bufferedM4 = none
  flight : ∃ ps rest, InFlight L r.enc.key r.enc.readNonce raw ps w.enc.writeNonce ∧ Load cr ps rest ∧
    q = r.readQ ++ rest
  budget : w.enc.writeNonce + 2 * n ≤ 2 ^ 64
  times : Accepts cr cw

/-- A write call: it sends the pending M4, if any, and then the packets of the messages. -/
theorem App_write_flight {L : Lib} (hb : BoxLaw L) (c : Clock) (l : Bool) (ms : List Bytes) (s : AppSt)
    (hs : s.enc.sessionNonce = zeros 8) (hk : s.enc.key.length = 32) (i : Nat)
    (hn : s.enc.writeNonce + 2 * (pending s (c.now i) ++ appPackets (c.now i) ms).length ≤ 2 ^ 64) :
    ∃ tr ps, Exec (App.write ms l s) tr (.ok (), { s with
        enc := { s.enc with writeNonce := s.enc.writeNonce + 2 * (pending s (c.now i) ++ appPackets (c.now i) ms).length }
        bufferedM4 := none }) ∧
      Local L c i tr (i + 1) ∧ callsOf tr = [⟨AppOp.write ps l, .ok ()⟩] ∧
      InFlight L s.enc.key s.enc.writeNonce ps (pending s (c.now i) ++ appPackets (c.now i) ms)
        (s.enc.writeNonce + 2 * (pending s (c.now i) ++ appPackets (c.now i) ms).length) ∧
      SealedAll L s.enc.key s.enc.writeNonce (flagged l (pending s (c.now i) ++ appPackets (c.now i) ms)) ps := by
  obtain ⟨tr, ps, h1, h2, h3, h4, h5⟩ := Enc_write_flight hb c l _ s.enc hs hk hn
  refine ⟨⟨.time, .ok (c.now i)⟩ :: tr, ps, ?_, .time (h2 _), h3, h4, h5⟩
  rw [App_write_run]
  refine .op _ _ _ _ _ ?_
  simp only []
  rw [Exec_bind]
  exact ⟨tr, _, [], by simp, h1, .ret _⟩

theorem app_chan {L : Lib} (hb : BoxLaw L) : Chan L App.handle (AppDir L) 65535 where
  write := by
    intro cw cr w r raw q n d ms l hne h65 hlen i
    have hbud := d.budget
    have hpend : pending w (cw.now i) = [] := by simp [pending, d.m4]
    have hl := appPackets_length (cw.now i) ms hne
    obtain ⟨tr, ps, h1, h2, h3, h4, -⟩ := App_write_flight hb cw l ms w d.wNonce (d.key ▸ d.keyLen) i
      (by rw [hpend, List.nil_append]; omega)
    rw [hpend, List.nil_append] at h1 h4
    obtain ⟨qs, rest, f1, f2, f3⟩ := d.flight
    refine ⟨tr, _, ps, i + 1, h1, h2, h3, ⟨d.wNonce, d.rNonce, d.push, d.key, d.keyLen, rfl, ?_, ?_, d.times⟩, ?_⟩
    · refine ⟨qs ++ appPackets (cw.now i) ms, rest ++ ms, f1.append (d.key ▸ h4),
        f2.append (.packets (fun j => d.times.check j i) ms h65), ?_⟩
      rw [f3, List.append_assoc]
    · simp only; omega
    · intro raw' q' n' d'
      exact ⟨d'.wNonce, d'.rNonce, d'.push, d'.key, d'.keyLen, d'.m4, d'.flight, d'.budget, d'.times⟩
  read := by
    intro cw cr w r raw m q n d i
    have hbud := d.budget
    obtain ⟨qs, rest, f1, f2, f3⟩ := d.flight
    cases hq : r.readQ with
    | cons m' q' =>
      rw [hq, List.cons_append, List.cons.injEq] at f3
      obtain ⟨rfl, rfl⟩ := f3
      refine ⟨[], { r with readQ := q' }, raw, i, ?_, .nil i, .nil raw,
        ⟨d.wNonce, d.rNonce, d.push, d.key, d.keyLen, d.m4, ⟨qs, rest, f1, f2, rfl⟩, d.budget, d.times⟩, ?_⟩
      · show Exec (App.read r) _ _
        rw [App_read_queued r m q' hq]; exact .ret _
      · intro raw' q'' n' d'
        exact ⟨d'.wNonce, d'.rNonce, d'.push, d'.key, d'.keyLen, d'.m4, d'.flight, d'.budget, d'.times⟩
    | nil =>
      rw [hq, List.nil_append] at f3
      cases f2 with
      | nil => cases f3
      | @cons p m' q' rest' ps t hp ht hrest =>
        rw [List.cons_append, List.cons.injEq] at f3
        obtain ⟨rfl, rfl⟩ := f3
        obtain ⟨tr, f, raw', h1, h2, h3, h4⟩ := Enc_read_flight hb cr r.enc d.rNonce d.keyLen d.push f1 (by omega)
        refine ⟨tr ++ [⟨.check t, .ok ()⟩], { r with enc := { r.enc with lastFlag := f, readNonce := r.enc.readNonce + 2 }, readQ := q' },
          raw', i + 1, ?_, ?_, ?_,
          ⟨d.wNonce, d.rNonce, d.push, d.key, d.keyLen, d.m4, ⟨ps, rest', h4, hrest, rfl⟩, d.budget, d.times⟩, ?_⟩
        · show Exec (App.read r) _ _
          rw [App_read_run r hq, Exec_bind]
          refine ⟨tr, _, _, rfl, h1, ?_⟩
          simp only [hp]
          exact .op _ _ _ _ _ (.ret _)
        · refine (h2 i).append ?_
          have := Local.check (L := L) (c := cr) (i := i) (j := i + 1) t (.nil _)
          rwa [ht] at this
        · rw [callsOf_append]; simpa [callsOf] using h3
        · intro raw' q'' n' d'
          exact ⟨d'.wNonce, d'.rNonce, d'.push, d'.key, d'.keyLen, d'.m4, d'.flight, d'.budget, d'.times⟩
  block := by
    intro cw cr w r raw n d
    obtain ⟨qs, rest, f1, f2, f3⟩ := d.flight
    obtain ⟨hq, hr⟩ := List.append_eq_nil_iff.1 f3.symm
    subst hr
    have hqs : qs = [] := by
      cases f2 with
      | nil => rfl
    subst hqs
    constructor
    · generalize w.enc.writeNonce = n' at f1
      cases f1; rfl
    · have h : Enc.read r.enc = .op (S := env) .read _ :=
        (Enc_read_run r.enc).trans (if_neg (by simp [d.push]))
      exact ⟨_, (App_read_run r hq).trans (by rw [h]; exact IT.op_bind _ _ _)⟩

end Salt
