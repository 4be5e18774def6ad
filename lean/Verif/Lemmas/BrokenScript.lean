import Verif.Lemmas.BrokenSession

/-!
# The calls of a program as a program
-/

set_option linter.unusedSimpArgs false

namespace Salt

open Spec

variable {α β γ σ : Type}

/-- Make these calls, and return them with their results. -/
def script : List AppOp → List (Ev appSig) → IT appSig (List (Ev appSig))
  | [], acc => .ret acc
  | o :: os, acc => .op (S := appSig) o fun r => script os (acc ++ [⟨o, r⟩])

/-- The operations of some calls. -/
def opsOf (h : List (Ev appSig)) : List AppOp := h.map fun ev => ev.op

/-- The messages they write. -/
def opsSent : List AppOp → List Bytes
  | [] => []
  | .write ms _ :: os => ms ++ opsSent os
  | .read :: os => opsSent os

/-- Calls of the program and calls in the replay: writes that have raised an exception of `E` do not, reads that have raised
one are left out. -/
inductive Amends (E : Err → Prop) : List (Ev appSig) → List (Ev appSig) → Prop
  | nil : Amends E [] []
  | same {h v} (ev : Ev appSig) : Amends E h v → Amends E (ev :: h) (ev :: v)
  | write {h v} (ms : List Bytes) (l : Bool) (e : Err) : E e → Amends E h v →
      Amends E (⟨AppOp.write ms l, .error e⟩ :: h) (⟨AppOp.write ms l, .ok ()⟩ :: v)
  | read {h v} (e : Err) : E e → Amends E h v → Amends E (⟨AppOp.read, .error e⟩ :: h) v

theorem sentIn_cons (ev : Ev appSig) (h : List (Ev appSig)) : sentIn (ev :: h) = sentIn [ev] ++ sentIn h := by
  obtain ⟨o, r⟩ := ev
  cases o <;> simp [sentIn]

theorem gotIn_cons (ev : Ev appSig) (h : List (Ev appSig)) : gotIn (ev :: h) = gotIn [ev] ++ gotIn h := by
  obtain ⟨o, r⟩ := ev
  cases o with
  | read => cases r <;> simp [gotIn]
  | write ms l => simp [gotIn]

theorem sentIn_append (a b : List (Ev appSig)) : sentIn (a ++ b) = sentIn a ++ sentIn b := by
  induction a with
  | nil => rfl
  | cons ev a ih => rw [List.cons_append, sentIn_cons, ih, sentIn_cons ev a, List.append_assoc]

theorem gotIn_append (a b : List (Ev appSig)) : gotIn (a ++ b) = gotIn a ++ gotIn b := by
  induction a with
  | nil => rfl
  | cons ev a ih => rw [List.cons_append, gotIn_cons, ih, gotIn_cons ev a, List.append_assoc]

theorem opsSent_append (a b : List AppOp) : opsSent (a ++ b) = opsSent a ++ opsSent b := by
  induction a with
  | nil => rfl
  | cons o a ih => cases o <;> simp [opsSent, ih]

theorem sentIn_ops (h : List (Ev appSig)) : sentIn h = opsSent (opsOf h) := by
  induction h with
  | nil => rfl
  | cons ev h ih =>
    obtain ⟨o, r⟩ := ev
    cases o <;> simp [sentIn, opsOf, opsSent, ih]

theorem Amends.sent {E : Err → Prop} {h v : List (Ev appSig)} (ha : Amends E h v) : sentIn h = sentIn v := by
  induction ha with
  | nil => rfl
  | same ev _ ih => rw [sentIn_cons, ih, ← sentIn_cons]
  | write ms l e _ _ ih => simp [sentIn, ih]
  | read e _ _ ih => simp [sentIn, ih]

theorem Amends.got {E : Err → Prop} {h v : List (Ev appSig)} (ha : Amends E h v) : gotIn h = gotIn v := by
  induction ha with
  | nil => rfl
  | same ev _ ih => rw [gotIn_cons, ih, ← gotIn_cons]
  | write ms l e _ _ ih => simp [gotIn, ih]
  | read e _ _ ih => simp [gotIn, ih]

theorem Amends.fails {E : Err → Prop} {h v : List (Ev appSig)} (ha : Amends E h v) (hv : AllOk v) : FailsWith E h := by
  induction ha with
  | nil => nofun
  | same ev _ ih =>
    intro ev' hev
    rcases List.mem_cons.1 hev with rfl | hm
    · intro e he
      obtain ⟨x, hx⟩ := hv ev' List.mem_cons_self
      rw [hx] at he
      cases he
    · exact ih (fun ev h => hv ev (List.mem_cons_of_mem _ h)) ev' hm
  | write ms l e he _ ih =>
    intro ev' hev
    rcases List.mem_cons.1 hev with rfl | hm
    · rintro e' h; cases h; exact he
    · exact ih (fun ev h => hv ev (List.mem_cons_of_mem _ h)) ev' hm
  | read e he _ ih =>
    intro ev' hev
    rcases List.mem_cons.1 hev with rfl | hm
    · rintro e' h; cases h; exact he
    · exact ih hv ev' hm

theorem Amends.modest {E : Err → Prop} {p : IT appSig α} {h v : List (Ev appSig)} {a : α} {cap n : Nat} (hx : Exec p h a)
    (hm : Modest cap p n) (ha : Amends E h v) (acc : List (Ev appSig)) : Modest cap (script (opsOf v) acc) n := by
  induction hx generalizing n v acc with
  | ret b => cases ha; trivial
  | op e k r tr b _ ih =>
    cases e with
    | read =>
      cases ha with
      | same _ ha => exact fun r' => ih (hm r) ha _
      | read e _ ha => exact ih (hm _) ha _
    | write ms l =>
      cases ha with
      | same _ ha => exact ⟨hm.1, hm.2.1, hm.2.2.1, fun r' => ih (hm.2.2.2 r) ha _⟩
      | write _ _ e _ ha => exact ⟨hm.1, hm.2.1, hm.2.2.1, fun r' => ih (hm.2.2.2 _) ha _⟩

/-! ### Scripts that are directly connected -/

theorem AllOk.snoc {h : List (Ev appSig)} (hh : AllOk h) (o : AppOp) (v : o.Resp) : AllOk (h ++ [⟨o, .ok v⟩]) := by
  intro ev hev
  rcases List.mem_append.1 hev with h' | h'
  · exact hh ev h'
  · cases List.mem_singleton.1 h'
    exact ⟨v, rfl⟩

/-- Where two scripts are. -/
structure AtScripts (opsA opsB : List AppOp) (X : Net (List (Ev appSig)) (List (Ev appSig))) : Prop where
  at' : ∃ accA rA accB rB, X.a = script rA accA ∧ X.b = script rB accB ∧ opsOf accA ++ rA = opsA ∧ opsOf accB ++ rB = opsB ∧
    gotIn accA ++ X.ba = sentIn accB ∧ gotIn accB ++ X.ab = sentIn accA ∧ AllOk accA ∧ AllOk accB

theorem script_op {os : List AppOp} {acc : List (Ev appSig)} {o : AppOp} {k : Except Err o.Resp → IT appSig (List (Ev appSig))}
    (h : script os acc = .op (S := appSig) o k) : ∃ os', os = o :: os' ∧ ∀ r, k r = script os' (acc ++ [⟨o, r⟩]) := by
  cases os with
  | nil => cases h
  | cons o' os' =>
    simp only [script] at h
    injection h with h1 h2
    subst h1
    exact ⟨os', rfl, fun r => by rw [← eq_of_heq h2]⟩

theorem AtScripts.step {opsA opsB : List AppOp} {X Y : Net (List (Ev appSig)) (List (Ev appSig))}
    (h : AtScripts opsA opsB X) (hs : Net.Step X Y) : AtScripts opsA opsB Y := by
  obtain ⟨accA, rA, accB, rB, h1, h2, h3, h4, h5, h6, h7, h8⟩ := h.at'
  cases hs with
  | aWrite ms l k =>
    obtain ⟨os, rfl, hk⟩ := script_op (o := .write ms l) h1.symm
    refine ⟨_, os, accB, rB, hk _, h2, by simp [opsOf, ← h3], h4, ?_, ?_, h7.snoc (.write ms l) (), h8⟩
    · rw [gotIn_append]; simpa [gotIn] using h5
    · rw [sentIn_append, ← h6]; simp [sentIn]
  | aRead m k =>
    obtain ⟨os, rfl, hk⟩ := script_op (o := .read) h1.symm
    refine ⟨_, os, accB, rB, hk _, h2, by simp [opsOf, ← h3], h4, ?_, ?_, h7.snoc .read m, h8⟩
    · rw [gotIn_append, ← h5]; simp [gotIn]
    · rw [sentIn_append]; simpa [sentIn] using h6
  | bWrite ms l k =>
    obtain ⟨os, rfl, hk⟩ := script_op (o := .write ms l) h2.symm
    refine ⟨accA, rA, _, os, h1, hk _, h3, by simp [opsOf, ← h4], ?_, ?_, h7, h8.snoc (.write ms l) ()⟩
    · rw [sentIn_append, ← h5]; simp [sentIn]
    · rw [gotIn_append]; simpa [gotIn] using h6
  | bRead m k =>
    obtain ⟨os, rfl, hk⟩ := script_op (o := .read) h2.symm
    refine ⟨accA, rA, _, os, h1, hk _, h3, by simp [opsOf, ← h4], ?_, ?_, h7, h8.snoc .read m⟩
    · rw [sentIn_append]; simpa [sentIn] using h5
    · rw [gotIn_append, ← h6]; simp [gotIn]

theorem script_net {opsA opsB : List AppOp} {n : Nat} {X : Net (List (Ev appSig)) (List (Ev appSig))}
    (h : Net.Run n (Net.start (script opsA []) (script opsB [])) X) : AtScripts opsA opsB X := by
  have : ∀ n Y, Net.Run n Y X → AtScripts opsA opsB Y → AtScripts opsA opsB X := by
    clear h
    intro n Y hr
    induction hr with
    | refl => exact id
    | step hs _ ih => exact fun h => ih (h.step hs)
  exact this _ _ h ⟨[], opsA, [], opsB, rfl, rfl, rfl, rfl, rfl, rfl, nofun, nofun⟩

theorem script_ret {os : List AppOp} {acc a : List (Ev appSig)} (h : script os acc = .ret a) : os = [] ∧ acc = a := by
  cases os with
  | nil => cases h; exact ⟨rfl, rfl⟩
  | cons => cases h

theorem AtScripts.doneA {opsA opsB : List AppOp} {X : Net (List (Ev appSig)) (List (Ev appSig))}
    (h : AtScripts opsA opsB X) {a : List (Ev appSig)} (ha : X.a = .ret a) : AllOk a ∧ gotIn a <+: opsSent opsB := by
  obtain ⟨accA, rA, accB, rB, h1, h2, h3, h4, h5, h6, h7, h8⟩ := h.at'
  obtain ⟨rfl, rfl⟩ := script_ret (h1.symm.trans ha)
  refine ⟨h7, (List.prefix_append _ X.ba).trans ?_⟩
  rw [h5, ← h4, sentIn_ops, opsSent_append]
  exact List.prefix_append _ _

theorem AtScripts.doneB {opsA opsB : List AppOp} {X : Net (List (Ev appSig)) (List (Ev appSig))}
    (h : AtScripts opsA opsB X) {b : List (Ev appSig)} (hb : X.b = .ret b) : AllOk b ∧ gotIn b <+: opsSent opsA := by
  obtain ⟨accA, rA, accB, rB, h1, h2, h3, h4, h5, h6, h7, h8⟩ := h.at'
  obtain ⟨rfl, rfl⟩ := script_ret (h2.symm.trans hb)
  refine ⟨h8, (List.prefix_append _ X.ab).trans ?_⟩
  rw [h6, ← h3, sentIn_ops, opsSent_append]
  exact List.prefix_append _ _

/-! ### The calls of a program on an application channel -/

theorem app_local {E : Err → Prop} {L : Lib} {c : Clock} (p : IT appSig α) {s s' : AppSt} {i j : Nat} {tr : List (Ev appSig)} {a : α}
    (hx : Exec (partyN L c (App.run p s) i) tr ((a, s'), j)) (hE : FailsWith E tr) :
    ∃ h v g, Exec p h a ∧ Amends E h v ∧ Follow tr g ∧
      ∀ acc, Exec (partyN L c (App.run (script (opsOf v) acc) s) i) g ((acc ++ v, s'), j) := by
  induction p generalizing s i tr with
  | ret b =>
    cases hx
    exact ⟨[], [], [], .ret _, .nil, .nil, fun acc => by rw [List.append_nil]; exact .ret _⟩
  | op o k ih =>
    have hrun : ∀ {γ : Type} (k : Except Err o.Resp → IT appSig γ), partyN L c (App.run (.op (S := appSig) o k) s) i =
        (partyN L c (App.handle o s) i).bind fun q => partyN L c (App.run (k q.1.1) q.1.2) q.2 :=
      fun k => partyN_bind L c (App.handle o s) (fun q => App.run (k q.1) q.2) i
    rw [hrun] at hx
    have same : ∀ {y : (Except Err o.Resp × AppSt) × Nat} {tr1 g1 tr2 : List (Ev appSig)}, Exec (partyN L c (App.handle o s) i) g1 y →
        Follow tr1 g1 → tr = tr1 ++ tr2 → Exec (partyN L c (App.run (k y.1.1) y.1.2) y.2) tr2 ((a, s'), j) →
        ∃ h v g, Exec (.op (S := appSig) o k) h a ∧ Amends E h v ∧ Follow tr g ∧
          ∀ acc, Exec (partyN L c (App.run (script (opsOf v) acc) s) i) g ((acc ++ v, s'), j) := by
      rintro ⟨⟨r, s1⟩, j1⟩ tr1 g1 tr2 h1 h2 rfl h3
      obtain ⟨h, v, g, e1, e2, e3, e4⟩ := ih r h3 fun ev hev => hE ev (List.mem_append_right _ hev)
      refine ⟨⟨o, r⟩ :: h, ⟨o, r⟩ :: v, g1 ++ g, .op _ _ _ _ _ e1, .same _ e2, h2.append e3, fun acc => ?_⟩
      show Exec (partyN L c (App.run (script (o :: opsOf v) acc) s) i) _ _
      simp only [script]
      rw [hrun, Exec_bind]
      refine ⟨g1, _, g, rfl, h1, ?_⟩
      have := e4 (acc ++ [⟨o, r⟩])
      simpa using this
    cases o with
    | read =>
      rcases read_shape L c s i with ⟨y, hy⟩ | ⟨k0, hk, hk1, hk2⟩
      · rw [show App.handle .read s = App.read s from rfl, hy] at hx
        exact same (tr1 := []) (by rw [show App.handle .read s = App.read s from rfl, hy]; exact .ret _) .nil rfl hx
      · rw [show App.handle .read s = App.read s from rfl, hk] at hx
        cases hx with
        | op _ _ r tr2 _ hx =>
          cases r with
          | ok m =>
            obtain ⟨y, hy⟩ := hk2 m
            simp only [hy, IT.bind] at hx
            exact same (tr1 := [_]) (by rw [show App.handle .read s = App.read s from rfl, hk]; exact .op _ _ (.ok m) _ _ (by rw [hy]; exact .ret _))
              (.ok AppOp.read m .nil) rfl hx
          | error e =>
            simp only [hk1, IT.bind] at hx
            obtain ⟨h, v, g, e1, e2, e3, e4⟩ := ih (.error e) hx fun ev hev => hE ev (List.mem_cons_of_mem _ hev)
            exact ⟨⟨AppOp.read, .error e⟩ :: h, v, g, .op _ _ _ _ _ e1, .read e (hE _ List.mem_cons_self e rfl) e2, .read e e3, e4⟩
    | write ms l =>
      rcases write_shape L c ms l s i with ⟨y, hy⟩ | ⟨ms', l', s1, j1, hk⟩
      · rw [show App.handle (.write ms l) s = App.write ms l s from rfl, hy] at hx
        exact same (tr1 := []) (by rw [show App.handle (.write ms l) s = App.write ms l s from rfl, hy]; exact .ret _) .nil rfl hx
      · rw [show App.handle (.write ms l) s = App.write ms l s from rfl, hk] at hx
        cases hx with
        | op _ _ r tr2 _ hx =>
          cases r with
          | ok u =>
            exact same (tr1 := [_]) (by rw [show App.handle (.write ms l) s = App.write ms l s from rfl, hk]; exact .op _ _ (.ok u) _ _ (.ret _))
              (.ok (AppOp.write ms' l') u .nil) rfl hx
          | error e =>
            obtain ⟨h, v, g, e1, e2, e3, e4⟩ := ih (.error e) hx fun ev hev => hE ev (List.mem_cons_of_mem _ hev)
            refine ⟨⟨AppOp.write ms l, .error e⟩ :: h, ⟨AppOp.write ms l, .ok ()⟩ :: v, ⟨AppOp.write ms' l', .ok ()⟩ :: g,
              .op _ _ _ _ _ e1, .write ms l e (hE _ List.mem_cons_self e rfl) e2, .write ms' l' e e3, fun acc => ?_⟩
            show Exec (partyN L c (App.run (script (.write ms l :: opsOf v) acc) s) i) _ _
            simp only [script]
            rw [hrun, show App.handle (.write ms l) s = App.write ms l s from rfl, hk]
            refine .op (S := appSig) (AppOp.write ms' l') _ (.ok ()) _ _ ?_
            have := e4 (acc ++ [⟨AppOp.write ms l, .ok ()⟩])
            simpa [IT.bind] using this

/-! ### Sessions -/

/-- A session: a handshake, then a program on the channel. -/
def sessionAfter (get : σ → Option AppSt) (set : AppSt → σ → σ) (prog : IT appSig β) :
    Except Err Unit × σ → IT env (Except Err β × σ)
  | (.error e, s) => .ret (.error e, s)
  | (.ok _, s) => match get s with
    | none => .ret (.error .attributeError, s)
    | some c => (App.run prog c).bind fun (b, c') => .ret (.ok b, set c' s)

theorem clientAfter_eq (prog : IT appSig β) :
    clientAfter prog = sessionAfter (fun s => s.chan) (fun c s => { s with chan := some c }) prog := by
  funext ⟨r, s⟩
  cases r with
  | error e => rfl
  | ok u =>
    simp only [clientAfter, sessionAfter]
    cases s.chan <;> rfl

theorem serverAfter_eq (prog : IT appSig β) :
    serverAfter prog = sessionAfter (fun s => s.chan) (fun c s => { s with chan := some c }) prog := by
  funext ⟨r, s⟩
  cases r with
  | error e => rfl
  | ok u =>
    simp only [serverAfter, sessionAfter]
    cases s.chan <;> rfl

/-- How a session ends, and what can be replayed. -/
theorem session_local {E : Err → Prop} {L : Lib} {c : Clock} {T : IT env (Except Err Unit × σ)} (hT : Clean T)
    (get : σ → Option AppSt) (set : AppSt → σ → σ) (p : IT appSig α) {tr : List (Ev appSig)} {ra : Except Err α} {sa : σ}
    (hx : Exec (party L c (T.bind (sessionAfter get set p)) 0) tr (ra, sa)) (hE : FailsWith E tr) :
    (∃ e, AllOk tr ∧ ∀ (γ : Type) (q : IT appSig γ), ∃ s',
      Perf (party L c (T.bind (sessionAfter get set q)) 0) tr (.ret (.error e, s'))) ∨
    (∃ e, E e ∧ ra = .error e ∧ ∀ (γ : Type) (q : IT appSig γ), ∃ g u, Follow tr g ∧
      Perf (party L c (T.bind (sessionAfter get set q)) 0) g u) ∨
    ∃ a h v g s', ra = .ok a ∧ Exec p h a ∧ Amends E h v ∧ Follow tr g ∧
      Perf (party L c (T.bind (sessionAfter get set (script (opsOf v) []))) 0) g (.ret (.ok v, s')) := by
  rw [party_bind, Exec_bind] at hx
  obtain ⟨tr1, ⟨⟨r, s⟩, j⟩, tr2, rfl, h1, h2⟩ := hx
  rcases hT.exec h1 with hok | ⟨tr0, o, e, u, g, rfl, rfl, hf, hp⟩
  · cases r with
    | error e =>
      cases h2
      refine .inl ⟨e, by simpa using hok, fun γ q => ⟨sa, ?_⟩⟩
      rw [party_bind]
      refine Exec.perf ((Exec_bind _ _ _ _).2 ⟨tr1, _, [], by simp, h1, .ret _⟩)
    | ok w =>
      simp only [sessionAfter] at h2
      cases hg : get s with
      | none =>
        rw [hg] at h2
        cases h2
        refine .inl ⟨.attributeError, by simpa using hok, fun γ q => ⟨sa, ?_⟩⟩
        rw [party_bind]
        refine Exec.perf ((Exec_bind _ _ _ _).2 ⟨tr1, _, [], by simp, h1, ?_⟩)
        simp only [sessionAfter, hg]
        exact .ret _
      | some ch =>
        rw [hg] at h2
        simp only [] at h2
        rw [party_bind, Exec_bind] at h2
        obtain ⟨t1, ⟨⟨a, c'⟩, j'⟩, t2, rfl, h3, h4⟩ := h2
        cases h4
        obtain ⟨h, v, g, e1, e2, e3, e4⟩ := app_local p h3 fun ev hev => hE ev (by simp [hev])
        refine .inr (.inr ⟨a, h, v, tr1 ++ g, set c' s, rfl, e1, e2, hok.follow.append (by simpa using e3), ?_⟩)
        rw [party_bind]
        refine Exec.perf ((Exec_bind _ _ _ _).2 ⟨tr1, _, g, rfl, h1, ?_⟩)
        simp only [sessionAfter, hg]
        rw [party_bind]
        exact (Exec_bind _ _ _ _).2 ⟨g, _, [], by simp, e4 [], .ret _⟩
  · cases h2
    refine .inr (.inl ⟨e, hE ⟨o, .error e⟩ (by simp) e rfl, rfl, fun γ q => ?_⟩)
    rw [party_bind]
    exact ⟨g, _, by simpa using hf, hp.bind _⟩

end Salt
