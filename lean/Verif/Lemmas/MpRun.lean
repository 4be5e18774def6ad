import Verif.Lemmas.Farm
import Verif.Lemmas.Rounds
import Verif.Lemmas.SockNet
import Verif.Lemmas.Session
import Verif.Spec.Tcp
import Verif.Spec.Net
import Verif.Props.Framing

/-!
# A main program with its server
-/

namespace Salt

open Salt.Spec Salt.Props

variable {X : Type} {S : Link X}

/-- How many steps of the main thread and of `serve_forever` are left. -/
def MpRun.rank (R : MpRun X) : Nat :=
  (match R.main with | .sessions => 2 | .stopping => 1 | .stopped => 0) + if R.loop then 1 else 0

theorem MpRun.acc (n : Nat) {cs : List (Conn X)} (h : Acc (ListLess (Conn.Less S)) cs) :
    ∀ R : MpRun X, R.farm.conns = cs → R.rank = n → MpRun.Terminates S R := by
  induction h generalizing n with
  | intro cs _ ih =>
    induction n using Nat.strongRecOn with
    | _ n ihn =>
      intro R hc hn
      refine .intro _ fun T hT => ?_
      cases hT with
      | @farm G hG _ => exact ih G.conns (hc ▸ hG.less) R.rank _ rfl rfl
      | shutdown h1 _ => exact ihn _ (by rw [← hn]; simp [MpRun.rank, h1]) _ hc rfl
      | exit h1 h2 _ => exact ihn _ (by rw [← hn]; simp [MpRun.rank, h2]) _ hc rfl
      | close h1 h2 => exact ihn _ (by rw [← hn]; simp [MpRun.rank, h1]) _ hc rfl

theorem MpRun.terminates {xs : List X} (h : ∀ x ∈ xs, S.Terminates x) : MpRun.Terminates S (MpRun.start xs) := by
  refine MpRun.acc _ (cs := (Farm.start xs).conns) (listLess_acc _ fun c hc => ?_) _ rfl rfl
  obtain ⟨x, hx, rfl⟩ := List.mem_map.1 hc
  exact Conn.acc _ (h x hx) _ rfl rfl

theorem MpRun.Reach.trans {R T U : MpRun X} (h : MpRun.Reach S R T) (h' : MpRun.Reach S T U) : MpRun.Reach S R U := by
  induction h' with
  | refl => exact h
  | step _ hs ih => exact .step ih hs

theorem MpRun.exists_final {R : MpRun X} (h : MpRun.Terminates S R) : ∃ T, MpRun.Reach S R T ∧ MpRun.Stuck S T := by
  unfold MpRun.Terminates at h
  induction h with
  | intro R _ ih =>
    by_cases hs : MpRun.Stuck S R
    · exact ⟨R, .refl _, hs⟩
    · obtain ⟨T, hT⟩ := Classical.not_forall_not.1 hs
      obtain ⟨U, h1, h2⟩ := ih T hT
      exact ⟨U, (MpRun.Reach.step (.refl _) hT).trans h1, h2⟩

/-- What holds of every configuration reached. -/
structure MpRun.Inv (S : Link X) (xs : List X) (R : MpRun X) : Prop where
  farm : Farm.Inv S xs R.farm
  left : R.main ≠ .sessions → ∀ c ∈ R.farm.conns, c.cl = .left
  exited : R.loop = false → R.main ≠ .sessions ∧ ∀ c ∈ R.farm.conns, c.sv ≠ .serving
  stopped : R.main = .stopped → R.loop = false
  alone : ∀ (i : Nat) (c : Conn X), R.farm.conns[i]? = some c → c.sv = .waiting → ∃ x, xs[i]? = some x ∧ S.ReachC x c.x

/-- What a step of the clients and the handlers does to each connection. -/
theorem Farm.Step.conns {F G : Farm X} (h : Farm.Step S F G) :
    ∃ (i : Nat) (c c' : Conn X), F.conns[i]? = some c ∧ G.conns = F.conns.set i c' ∧
      (c.cl = .left → c'.cl = .left) ∧
      (c'.sv = .serving → c.sv = .serving ∨ G.queue ≠ F.queue) ∧
      (c'.sv = .waiting → c.sv = .waiting ∧ (c'.x = c.x ∨ S.stepC c.x c'.x)) := by
  cases h with
  | @connect i c h1 h2 => exact ⟨i, c, _, h1, rfl, fun h => absurd (h2.symm.trans h) (by simp), .inl, fun h => ⟨h, .inl rfl⟩⟩
  | @accept i q c h1 h2 h3 h4 => exact ⟨i, c, _, h3, rfl, id, fun _ => .inr (by simp [h2]), fun h => (by cases h)⟩
  | @client i c y h1 h2 h3 => exact ⟨i, c, _, h1, rfl, id, .inl, fun h => ⟨h, .inr h3⟩⟩
  | @server i c y h1 h2 h3 => exact ⟨i, c, _, h1, rfl, id, .inl, fun h => absurd (h2.symm.trans h) (by simp)⟩
  | @finish i c h1 h2 h3 => exact ⟨i, c, _, h1, rfl, id, fun h => (by cases h), fun h => (by cases h)⟩
  | @leave i c h1 h2 h3 => exact ⟨i, c, _, h1, rfl, fun _ => rfl, .inl, fun h => ⟨h, .inl rfl⟩⟩

theorem MpRun.Inv.start (xs : List X) : MpRun.Inv S xs (MpRun.start xs) := by
  refine ⟨.start xs, fun h => absurd rfl h, fun h => (by cases h), fun h => (by cases h), fun i c h _ => ?_⟩
  simp only [MpRun.start, Farm.start, List.getElem?_map, Option.map_eq_some_iff] at h
  obtain ⟨x, h1, rfl⟩ := h
  exact ⟨x, h1, .refl _⟩

theorem MpRun.Inv.step (hS : S.Lawful) {xs : List X} {R T : MpRun X} (h : MpRun.Inv S xs R) (hs : MpRun.Step S R T) :
    MpRun.Inv S xs T := by
  cases hs with
  | @farm G hG hq =>
    obtain ⟨i, c, c', h1, h2, h3, h4, h5⟩ := hG.conns
    have mem : ∀ d ∈ G.conns, d = c' ∨ d ∈ R.farm.conns := fun d hd => by
      rw [h2] at hd
      exact (List.mem_or_eq_of_mem_set hd).symm
    refine ⟨h.farm.step hS hG, fun hm d hd => ?_, fun hl => ⟨(h.exited hl).1, fun d hd => ?_⟩, h.stopped, fun j d hd hw => ?_⟩
    · rcases mem d hd with rfl | hd
      · exact h3 (h.left hm c (List.mem_of_getElem? h1))
      · exact h.left hm d hd
    · rcases mem d hd with rfl | hd
      · intro e
        rcases h4 e with e | e
        · exact (h.exited hl).2 c (List.mem_of_getElem? h1) e
        · exact e (hq (h.exited hl).1)
      · exact (h.exited hl).2 d hd
    · simp only [h2] at hd
      rcases (get_set h1).1 hd with ⟨rfl, rfl⟩ | ⟨-, hd⟩
      · obtain ⟨e1, e2⟩ := h5 hw
        obtain ⟨x, hx, hr⟩ := h.alone _ c h1 e1
        rcases e2 with e2 | e2
        · exact ⟨x, hx, e2 ▸ hr⟩
        · exact ⟨x, hx, .step hr e2⟩
      · exact h.alone j d hd hw
  | shutdown h1 h2 => exact ⟨h.farm, fun _ => h2, fun hl => ⟨by simp, (h.exited hl).2⟩, fun e => (by cases e), h.alone⟩
  | exit h1 h2 h3 => exact ⟨h.farm, h.left, fun _ => ⟨by simp [h1], h3⟩, fun _ => rfl, h.alone⟩
  | close h1 h2 => exact ⟨h.farm, fun _ => h.left (by simp [h1]), fun hl => ⟨by simp, (h.exited hl).2⟩, fun _ => h2, h.alone⟩

theorem MpRun.Reach.inv (hS : S.Lawful) {xs : List X} {R : MpRun X} (h : MpRun.Reach S (MpRun.start xs) R) :
    MpRun.Inv S xs R := by
  generalize hR0 : MpRun.start xs = R0 at h
  induction h with
  | refl => exact hR0 ▸ .start xs
  | step _ hs ih => exact ih.step hS hs

/-! ### Clients that wait for an answer -/

/-- The program calls `read` after calls of `write` that do not fail. -/
def Listens {α : Type} : IT appSig α → Prop
  | .ret _ => False
  | .op .read _ => True
  | .op (.write ms _) k => Fits ms ∧ Listens (k (.ok ()))

theorem Listens.bind {α β : Type} {t : IT appSig α} (h : Listens t) (f : α → IT appSig β) : Listens (t.bind f) := by
  induction t with
  | ret => exact h.elim
  | op e k ih =>
    cases e with
    | read => exact trivial
    | write ms l => exact ⟨h.1, ih _ h.2⟩

theorem Listens.of_bind {α β : Type} {t : IT appSig α} {g : α → β} (h : Listens (t.bind fun a => .ret (g a))) : Listens t := by
  induction t with
  | ret => exact h
  | op e k ih =>
    cases e with
    | read => exact trivial
    | write ms l => exact ⟨h.1, ih _ h.2⟩

/-- With a `MitmChannel` in between. -/
theorem Listens.mitm {α : Type} {p : IT appSig α} (h : Listens p) (clk : Nat → Nat) (s : MitmSt) (i : Nat) :
    Listens (quiet clk (Mitm.run p s) i) :=
  Listens.of_bind (g := fun q : α × MitmSt => q.1) (by rw [quiet_run]; exact h)

/-- The same for socket calls. -/
def SockListens {α : Type} : IT sock α → Prop
  | .ret _ => False
  | .op (.recv _) _ => True
  | .op (.sendall _) k => SockListens (k (.ok ()))

theorem Listens.onSocket {α : Type} {p : IT appSig α} (h : Listens p) : SockListens (Spec.onSocket p) := by
  induction p with
  | ret => exact h
  | op e k ih =>
    cases e with
    | read =>
      rw [Spec.onSocket, readSync_head, recvall_succ_run _ _ (by decide)]
      exact trivial
    | write ms l =>
      obtain ⟨k', h1, h2⟩ := onSocket_write ms l k h.1
      rw [h1]
      show SockListens (k' (.ok ()))
      rw [h2]
      exact ih _ h.2

theorem SockListens.needs {α β : Type} {a : IT sock α} (h : SockListens a) {b : IT sock β} (hb : ∀ r, b ≠ .ret r) :
    tcp.NeedsServer (SockNet.start a b) := by
  have key : ∀ y, tcp.ReachC (SockNet.start a b) y → SockListens y.a ∧ y.b = b ∧ y.ba = [] := by
    intro y hy
    generalize hx : SockNet.start a b = x at hy
    induction hy with
    | refl => subst hx; exact ⟨h, rfl, rfl⟩
    | @step y z _ hs ih =>
      obtain ⟨i1, i2, i3⟩ := ih
      have hs : TcpStep y z := hs
      cases hs with
      | send d k => exact ⟨i1, i2, i3⟩
      | recv n chunk k hne _ => exact absurd (List.append_eq_nil_iff.1 i3).1 hne
      | eof => exact absurd i2.symm (hb _)
      | broken => exact absurd i2.symm (hb _)
      | reset => exact absurd i2.symm (hb _)
  rintro y hy ⟨r, hr⟩
  have := (key y hy).1
  rw [hr] at this
  exact this

/-- A client session sends its M1 and waits for an answer. -/
theorem session_listens {L : Lib} {cc cs : Clock} {cfgC : ClientCfg} {cfgS : ServerCfg} {kc ks : KeyPair}
    (h : Setup L cc cs cfgC cfgS kc ks) {α : Type} (pA : IT appSig α) : Listens (party L cc (clientSession cfgC pA) 0) := by
  obtain ⟨h1, hh⟩ := h.honest.hash (Spec.m1 (cc.first 0) kc.pub none)
  have hl : (Spec.m1 (cc.first 0) kc.pub none).length < 2 ^ 31 := by
    simp [Spec.m1, h.honest.dh.aPub]
  unfold clientSession Client.handshake Client.validate
  simp only [h.encC, Py.bind_run, c_doM1_run, IT.op_bind, IT.ret_bind, Py.pure_run, h.honest.dh.aPub, if_true, party, hh]
  refine ⟨by simpa [Fits] using hl, ?_⟩
  simp only [c_doM2_run, IT.op_bind, party]
  trivial

end Salt
