import Verif.Lemmas.Broken
import Verif.Lemmas.Clean

/-!
# Sessions on connections that break

The calls that the program of a session has made, without the reads that have raised, are a program without choices. In the
replay this program takes the place of the real one, and C47 tells what it gets.
-/

set_option linter.unusedSimpArgs false

namespace Salt

open Spec

variable {α β γ σ : Type}

/-! ### Handshakes -/

/-- All calls have returned. -/
def AllOk (tr : List (Ev appSig)) : Prop := ∀ ev ∈ tr, ∃ v, ev.res = .ok v

theorem AllOk.follow {tr : List (Ev appSig)} (h : AllOk tr) : Follow tr tr := by
  induction tr with
  | nil => exact .nil
  | cons ev tr ih =>
    obtain ⟨o, r⟩ := ev
    have h' : AllOk tr := fun ev hev => h ev (List.mem_cons_of_mem _ hev)
    obtain ⟨v, hv⟩ := h _ List.mem_cons_self
    cases r with
    | error e => cases hv
    | ok w => exact .ok o w (ih h')

theorem Follow.append {t1 t2 g1 g2 : List (Ev appSig)} (h1 : Follow t1 g1) (h2 : Follow t2 g2) :
    Follow (t1 ++ t2) (g1 ++ g2) := by
  induction h1 with
  | nil => exact h2
  | ok o v _ ih => exact .ok o v ih
  | write ms l e _ ih => exact .write ms l e ih
  | read e _ ih => exact .read e ih

theorem Exec.perf {S : Sig} {t : IT S α} {tr : List (Ev S)} {a : α} (h : Exec t tr a) : Perf t tr (.ret a) := by
  induction h with
  | ret => exact .nil _
  | op e k r tr b _ ih => exact .cons _ _ _ ih

theorem Perf.exec {S : Sig} {t : IT S α} {tr : List (Ev S)} {a : α} (h : Perf t tr (.ret a)) : Exec t tr a := by
  generalize hu : IT.ret a = u at h
  induction h with
  | nil => subst hu; exact .ret _
  | cons e k r _ ih => exact .op _ _ _ _ _ (ih hu)

theorem partyN_bind (L : Lib) (c : Clock) (t : IT env β) (f : β → IT env γ) (i : Nat) :
    partyN L c (t.bind f) i = (partyN L c t i).bind fun p => partyN L c (f p.1) p.2 := by
  induction t generalizing i with
  | ret b => rfl
  | op e k ih =>
    cases e with
    | read => exact congrArg _ (funext fun r => ih r i)
    | write ms l => exact congrArg _ (funext fun r => ih r i)
    | firstTime => exact ih _ _
    | time => exact ih _ _
    | report t => exact ih _ _
    | check t => exact ih _ _
    | sign m sk => exact ih _ _
    | signOpen sm pk => exact ih _ _
    | hash m => exact ih _ _
    | beforenm pk sk => exact ih _ _
    | box m n key => exact ih _ _
    | boxOpen d n key => exact ih _ _

theorem Silent.partyN {t : IT env β} (h : Silent t) (L : Lib) (c : Clock) (i : Nat) :
    ∃ y, Spec.partyN L c t i = .ret y := by
  induction t generalizing i with
  | ret b => exact ⟨_, rfl⟩
  | op e k ih =>
    obtain ⟨h1, h2⟩ := h
    cases e <;> first | exact ih _ (h2 _) _ | cases h1

/-- How a method ends whose exceptions are those of the channel. -/
theorem Clean.exec {t : IT env (Except Err α × σ)} (h : Clean t) {L : Lib} {c : Clock} {i j : Nat} {tr : List (Ev appSig)}
    {r : Except Err α} {s : σ} (hx : Exec (Spec.partyN L c t i) tr ((r, s), j)) :
    AllOk tr ∨ ∃ tr1 o e u g, tr = tr1 ++ [⟨o, .error e⟩] ∧ r = .error e ∧ Follow tr g ∧ Perf (Spec.partyN L c t i) g u := by
  induction t generalizing i tr with
  | ret b => cases hx; exact .inl nofun
  | op e k ih =>
    obtain ⟨h1, h2⟩ := h
    cases e with
    | read =>
      cases hx with
      | op _ _ r' tr' _ hx =>
        cases r' with
        | error x =>
          obtain ⟨s', hs⟩ := h1 rfl x
          simp only [hs, Spec.partyN] at hx
          cases hx
          exact .inr ⟨[], _, x, _, [], rfl, rfl, .read _ .nil, .nil _⟩
        | ok v =>
          rcases ih _ (h2 (.ok v)) hx with h | ⟨tr1, o, e, u, g, rfl, h3, h4, h5⟩
          · left
            intro ev hev
            rcases List.mem_cons.1 hev with rfl | hm
            · exact ⟨v, rfl⟩
            · exact h ev hm
          · exact .inr ⟨_ :: tr1, o, e, u, _ :: g, rfl, h3, .ok AppOp.read v h4, .cons _ _ _ h5⟩
    | write ms l =>
      cases hx with
      | op _ _ r' tr' _ hx =>
        cases r' with
        | error x =>
          obtain ⟨s', hs⟩ := h1 rfl x
          simp only [hs, Spec.partyN] at hx
          cases hx
          exact .inr ⟨[], _, x, _, [_], rfl, rfl, .write ms l _ .nil, .cons _ _ _ (.nil _)⟩
        | ok v =>
          rcases ih _ (h2 (.ok v)) hx with h | ⟨tr1, o, e, u, g, rfl, h3, h4, h5⟩
          · left
            intro ev hev
            rcases List.mem_cons.1 hev with rfl | hm
            · exact ⟨v, rfl⟩
            · exact h ev hm
          · exact .inr ⟨_ :: tr1, o, e, u, _ :: g, rfl, h3, .ok (AppOp.write ms l) v h4, .cons _ _ _ h5⟩
    | firstTime => exact ih _ (h2 _) hx
    | time => exact ih _ (h2 _) hx
    | report t => exact ih _ (h2 _) hx
    | check t => exact ih _ (h2 _) hx
    | sign m sk => exact ih _ (h2 _) hx
    | signOpen sm pk => exact ih _ (h2 _) hx
    | hash m => exact ih _ (h2 _) hx
    | beforenm pk sk => exact ih _ (h2 _) hx
    | box m n key => exact ih _ (h2 _) hx
    | boxOpen d n key => exact ih _ (h2 _) hx

/-! ### The application channel -/

theorem read_shape (L : Lib) (c : Clock) (s : AppSt) (i : Nat) :
    (∃ y, partyN L c (App.read s) i = .ret y) ∨ ∃ k : Except Err Bytes → _, partyN L c (App.read s) i = .op (S := appSig) .read k ∧
      (∀ e, k (.error e) = .ret ((.error e, s), i)) ∧ ∀ m, ∃ y, k (.ok m) = .ret y := by
  have hrest : ∀ raw, SilentM (do
      let ap ← Py.lift (AppPkt.ctor raw false)
      if AppPkt.packetType ap = PacketType.app.value then do
        Py.lift (AppPkt.validate ap)
        let _ ← Py.env (.check (AppPkt.time ap))
        Py.lift (AppPkt.payload ap)
      else do
        let mp ← Py.lift (MultiApp.ctor raw)
        let _ ← Py.env (.check mp.time)
        Py.modifySt fun (s : AppSt) => { s with readQ := s.readQ ++ (mp.opt.getD []).drop 1 }
        match mp.opt.getD [] with
        | m :: _ => return m
        | [] => Py.raise .indexError : Py env AppSt Bytes) := fun raw => by silent
  obtain ⟨enc, m4, q⟩ := s
  cases q with
  | cons m q => exact .inl ⟨_, rfl⟩
  | nil =>
    by_cases hp : enc.pushback = []
    · right
      have hu := fun raw => unwrap_silent raw
      have hd := fun m => decrypt_silent m
      have he : ∀ raw, SilentM (do
          let body ← Enc.unwrap raw
          let clear ← Enc.decrypt body
          Py.modifySt Enc.advanceRead
          return clear : Py env EncSt Bytes) := fun raw =>
        (hu _).bind fun _ => (hd _).bind fun _ => (SilentM.modify _).bind fun _ => SilentM.pure _
      have hr : ∃ k : Except Err Bytes → IT env (Except Err Bytes × EncSt), Enc.read enc = .op (S := env) .read k ∧
          (∀ e, k (.error e) = .ret (.error e, enc)) ∧ ∀ m, Silent (k (.ok m)) := by
        refine ⟨_, by simp only [Enc.read, Enc.fetch, bind, Py.andThen, Py.getSt, IT.bind, hp]; rfl, fun e => rfl, fun m => ?_⟩
        exact he m enc
      obtain ⟨k, h1, h2, h3⟩ := hr
      have h4 : ∃ k' : Except Err Bytes → IT env (Except Err Bytes × AppSt), App.read ⟨enc, m4, []⟩ = .op (S := env) .read k' ∧
          (∀ e, k' (.error e) = .ret (.error e, ⟨enc, m4, []⟩)) ∧ ∀ m, Silent (k' (.ok m)) := by
        refine ⟨_, by simp only [App.read, App.onEnc, bind, Py.andThen, Py.getSt, IT.bind, h1]; rfl, fun e => ?_, fun m => ?_⟩
        · simp only [h2, IT.bind]
        · refine Silent.bind (Silent.bind (h3 m) fun _ => trivial) ?_
          rintro ⟨r, s'⟩
          cases r with
          | error e => trivial
          | ok raw => exact hrest raw s'
      obtain ⟨k', h5, h6, h7⟩ := h4
      refine ⟨fun r => partyN L c (k' r) i, by rw [h5]; rfl, fun e => by simp only [h6]; rfl, fun m => (h7 m).partyN L c i⟩
    · left
      have hr : Silent (Enc.read enc) := by
        have : Enc.read enc = (do
          let body ← Enc.unwrap enc.pushback
          let clear ← Enc.decrypt body
          Py.modifySt Enc.advanceRead
          return clear : Py env EncSt Bytes) { enc with pushback := [] } := by
          simp only [Enc.read, Enc.fetch, bind, Py.andThen, Py.getSt, IT.bind, ne_eq, hp, not_false_eq_true, if_true,
            Py.modifySt, pure, Py.ret]
        rw [this]
        exact ((unwrap_silent _).bind fun _ => (decrypt_silent _).bind fun _ => (SilentM.modify _).bind fun _ => SilentM.pure _) _
      refine Silent.partyN ?_ L c i
      have hr' : Silent (App.onEnc Enc.read ⟨enc, m4, []⟩) := Silent.bind hr fun _ => trivial
      have : Silent ((App.onEnc Enc.read >>= fun raw => (do
        let ap ← Py.lift (AppPkt.ctor raw false)
        if AppPkt.packetType ap = PacketType.app.value then do
          Py.lift (AppPkt.validate ap)
          let _ ← Py.env (.check (AppPkt.time ap))
          Py.lift (AppPkt.payload ap)
        else do
          let mp ← Py.lift (MultiApp.ctor raw)
          let _ ← Py.env (.check mp.time)
          Py.modifySt fun (s : AppSt) => { s with readQ := s.readQ ++ (mp.opt.getD []).drop 1 }
          match mp.opt.getD [] with
          | m :: _ => return m
          | [] => Py.raise .indexError : Py env AppSt Bytes)) ⟨enc, m4, []⟩) := by
        refine Silent.bind hr' ?_
        rintro ⟨r, s'⟩
        cases r with
        | error e => trivial
        | ok raw => exact hrest raw s'
      exact this

/-- A method that ends with a write. -/
def EndsInWrite : IT env (Except Err Unit × σ) → Prop
  | .ret _ => True
  | .op (.write _ _) k => ∃ s, ∀ r, k r = .ret (r, s)
  | .op e k => EnvOp.isChan e = false ∧ ∀ r, EndsInWrite (k r)

theorem EndsInWrite.shape {t : IT env (Except Err Unit × σ)} (h : EndsInWrite t) (L : Lib) (c : Clock) (i : Nat) :
    (∃ y, partyN L c t i = .ret y) ∨ ∃ ms l s j, partyN L c t i = .op (S := appSig) (.write ms l) fun r => .ret ((r, s), j) := by
  induction t generalizing i with
  | ret b => exact .inl ⟨_, rfl⟩
  | op e k ih =>
    cases e with
    | read => exact absurd h.1 (by simp [EnvOp.isChan])
    | write ms l =>
      obtain ⟨s, h⟩ := h
      exact .inr ⟨ms, l, s, i, by simp only [partyN, h]⟩
    | _ => exact ih _ (h.2 _) _

theorem Silent.endsInWrite {τ : Type} {t : IT env β} {f : β → IT env (Except Err Unit × τ)} (h : Silent t)
    (hf : ∀ b, EndsInWrite (f b)) : EndsInWrite (t.bind f) := by
  induction t with
  | ret b => exact hf b
  | op e k ih =>
    obtain ⟨h1, h2⟩ := h
    cases e <;> first | exact ⟨rfl, fun r => ih r (h2 r)⟩ | cases h1

theorem EndsInWrite.map {τ : Type} {t : IT env (Except Err Unit × σ)} (h : EndsInWrite t) (g : σ → τ) :
    EndsInWrite (t.bind fun p => .ret (p.1, g p.2)) := by
  induction t with
  | ret b => trivial
  | op e k ih =>
    cases e with
    | read => exact absurd h.1 (by simp [EnvOp.isChan])
    | write ms l =>
      obtain ⟨s, h⟩ := h
      exact ⟨g s, fun r => by show (k r).bind _ = _; rw [h]; rfl⟩
    | _ => exact ⟨h.1, fun r => ih r (h.2 r)⟩

theorem encWrite_ends (ms : List Bytes) (l : Bool) (s : EncSt) : EndsInWrite (Enc.write ms l s) := by
  refine (encryptAll_silent l ms s).endsInWrite ?_
  rintro ⟨r, s'⟩
  cases r with
  | error e => trivial
  | ok v => exact ⟨s', fun _ => rfl⟩

theorem write_shape (L : Lib) (c : Clock) (ms : List Bytes) (l : Bool) (s : AppSt) (i : Nat) :
    (∃ y, partyN L c (App.write ms l s) i = .ret y) ∨
      ∃ ms' l' s' j, partyN L c (App.write ms l s) i = .op (S := appSig) (.write ms' l') fun r => .ret ((r, s'), j) := by
  refine EndsInWrite.shape ?_ L c i
  refine ⟨rfl, fun r => ?_⟩
  cases r with
  | error e => trivial
  | ok t =>
    obtain ⟨enc, m4, q⟩ := s
    cases m4 with
    | none => exact (encWrite_ends (App.rawMsgs t ms) l enc).map fun e => (⟨e, none, q⟩ : AppSt)
    | some m4 => exact (encWrite_ends ((M34.setTime m4 t).toBytes :: App.rawMsgs t ms) l enc).map fun e => (⟨e, none, q⟩ : AppSt)

end Salt
