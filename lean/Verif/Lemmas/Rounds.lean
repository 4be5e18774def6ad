import Verif.Lemmas.NetLog
import Verif.Props.Dev1

/-!
# Programs followed by others, and programs on a `MitmChannel`, in networks
-/

namespace Salt

open Spec Props

variable {α β γ : Type} {P : List Bytes → Prop}

/-- The second program is followed by another. -/
def Spec.Net.thenB (f : β → IT appSig γ) (x : Net α β) : Net α γ := ⟨x.a, x.b.bind f, x.ab, x.ba⟩

theorem Spec.Net.StepC.thenB {x y : Net α β} (h : Net.StepC P x y) (f : β → IT appSig γ) :
    Net.StepC P (x.thenB f) (y.thenB f) := by
  cases h with
  | aWrite ms l k h => exact .aWrite ms l k h
  | aRead m k => exact .aRead m k
  | bWrite ms l k h => exact .bWrite ms l (fun r => (k r).bind f) h
  | bRead m k => exact .bRead m (fun r => (k r).bind f)

theorem Spec.Net.RunC.thenB {x y : Net α β} {n : Nat} (h : Net.RunC P n x y) (f : β → IT appSig γ) :
    Net.RunC P n (x.thenB f) (y.thenB f) := by
  induction h with
  | refl => exact .refl _
  | step hs _ ih => exact .step (hs.thenB f) ih

theorem Spec.Net.StepC.unmap {x : Net α β} {g : β → γ} {Y : Net α γ} (h : Net.StepC P (x.thenB fun b => .ret (g b)) Y) :
    ∃ y, Y = y.thenB (fun b => .ret (g b)) ∧ Net.StepC P x y := by
  obtain ⟨a, b, ab, ba⟩ := x
  generalize hX : Net.thenB (fun b => .ret (g b)) ⟨a, b, ab, ba⟩ = X at h
  cases h with
  | aWrite ms l k h => cases hX; exact ⟨⟨_, b, _, _⟩, rfl, .aWrite ms l k h⟩
  | aRead m k => cases hX; exact ⟨⟨_, b, _, _⟩, rfl, .aRead m k⟩
  | bWrite ms l k h =>
    cases b with
    | ret r => cases hX
    | op e k0 => cases hX; exact ⟨⟨_, _, _, _⟩, rfl, .bWrite ms l k0 h⟩
  | bRead m k =>
    cases b with
    | ret r => cases hX
    | op e k0 => cases hX; exact ⟨⟨_, _, _, _⟩, rfl, .bRead m k0⟩

theorem Spec.Net.RunC.unmap {x : Net α β} {g : β → γ} {Y : Net α γ} {n : Nat}
    (h : Net.RunC P n (x.thenB fun b => .ret (g b)) Y) :
    ∃ y, Y = y.thenB (fun b => .ret (g b)) ∧ Net.RunC P n x y := by
  generalize hX : (x.thenB fun b => .ret (g b)) = X at h
  induction h generalizing x with
  | refl => exact ⟨x, hX.symm, .refl _⟩
  | step hs _ ih =>
    subst hX
    obtain ⟨y, rfl, h1⟩ := hs.unmap
    obtain ⟨z, h2, h3⟩ := ih rfl
    exact ⟨z, h2, .step h1 h3⟩

theorem IT.bind_eq_ret {S : Sig} {t : IT S β} {g : β → γ} {r : γ} (h : (t.bind fun b => .ret (g b)) = .ret r) :
    ∃ b, t = .ret b ∧ g b = r := by
  cases t with
  | ret b => cases h; exact ⟨b, rfl, rfl⟩
  | op e k => cases h

theorem IT.bind_eq_op {S : Sig} {t : IT S β} {g : β → γ} {e : S.Op} {k : Except Err (S.Resp e) → IT S γ}
    (h : (t.bind fun b => .ret (g b)) = .op e k) :
    ∃ k0, t = .op e k0 ∧ ∀ r, k r = (k0 r).bind fun b => .ret (g b) := by
  cases t with
  | ret b => cases h
  | op e' k' => cases h; exact ⟨k', rfl, fun _ => rfl⟩

/-! ### Parties -/

theorem party_eq (L : Lib) (c : Clock) (t : IT env β) (i : Nat) :
    party L c t i = (partyN L c t i).bind fun p => .ret p.1 := by
  have := party_bind L c t .ret i
  rw [IT.bind_ret] at this
  exact this

/-- A run to the end of the second party goes on with what follows it. -/
theorem party_then {L : Lib} {c : Clock} {t : IT env β} {i : Nat} {a a' : IT appSig α} {ab ba ab' ba' : List Bytes} {r : β}
    {n : Nat} (h : Net.RunC P n ⟨a, party L c t i, ab, ba⟩ ⟨a', .ret r, ab', ba'⟩) (f : β → IT env γ) :
    ∃ j, Net.RunC P n ⟨a, party L c (t.bind f) i, ab, ba⟩ ⟨a', party L c (f r) j, ab', ba'⟩ := by
  rw [party_eq] at h
  obtain ⟨⟨ya, yb, yab, yba⟩, h1, h2⟩ := Net.RunC.unmap (x := ⟨a, partyN L c t i, ab, ba⟩) h
  simp only [Net.thenB, Net.mk.injEq] at h1
  obtain ⟨rfl, h3, rfl, rfl⟩ := h1
  obtain ⟨⟨r', j⟩, rfl, rfl⟩ := IT.bind_eq_ret h3.symm
  refine ⟨j, ?_⟩
  have := h2.thenB fun p => party L c (f p.1) p.2
  simp only [Net.thenB, ← party_bind] at this
  exact this

/-! ### MitmChannel -/

/-- Only the clock and the log are used, and no exception is raised. -/
def Mute (t : IT mitmSig (Except Err Unit × MitmSt)) (s : MitmSt) : Prop :=
  ∀ (clk : Nat → Nat) (i : Nat), ∃ t0 j, ∀ (β : Type) (f : Except Err Unit × MitmSt → IT mitmSig β),
    quiet clk (t.bind f) i = quiet clk (f (.ok (), { s with time0 := t0 })) j

theorem mute_ret (s : MitmSt) : Mute ((pure () : Py mitmSig MitmSt Unit) s) s := fun _ i => ⟨s.time0, i, fun _ _ => rfl⟩

theorem mute_event (r : LogRecord) (s : MitmSt) (hl : s.log = true) : Mute (Mitm.logEvent r false s) s := by
  intro clk i
  rw [logEvent_eq r s hl]
  refine ⟨r.time, i, fun β f => ?_⟩
  split <;> rfl

theorem mute_bind {m1 : Py mitmSig MitmSt Unit} {m2 : Unit → Py mitmSig MitmSt Unit} (s : MitmSt) (h1 : Mute (m1 s) s)
    (h2 : ∀ t0, Mute (m2 () { s with time0 := t0 }) { s with time0 := t0 }) : Mute ((m1 >>= m2) s) s := by
  intro clk i
  obtain ⟨t0, j, h1⟩ := h1 clk i
  obtain ⟨t1, j', h2⟩ := h2 t0 clk j
  refine ⟨t1, j', fun β f => ?_⟩
  show quiet clk (((m1 s).bind _).bind f) i = _
  rw [IT.bind_assoc, h1]
  exact h2 β f

theorem mute_clock (m : Nat → Py mitmSig MitmSt Unit) (s : MitmSt) (h : ∀ t, Mute (m t s) s) :
    Mute ((Mitm.op .clock >>= m) s) s := by
  intro clk i
  obtain ⟨t0, j, h⟩ := h (clk i) clk (i + 1)
  exact ⟨t0, j, fun β f => h β f⟩

theorem mute_args (ms : List Bytes) (s : MitmSt) (hl : s.log = true) : Mute (Mitm.logArgs ms s) s := by
  induction ms generalizing s with
  | nil => exact mute_ret s
  | cons m ms ih =>
    exact mute_clock _ s fun t => mute_bind s (mute_event _ s hl) fun t0 => ih _ hl

theorem mute_write (ms : List Bytes) (s : MitmSt) : Mute (writeLog ms s.log s) s := by
  unfold writeLog
  cases hl : s.log
  · exact mute_ret s
  · cases ms with
    | nil => exact mute_ret s
    | cons m ms => exact mute_clock _ s fun t => mute_bind s (mute_event _ s hl) fun t0 => mute_args ms _ hl

theorem mute_read (d : Bytes) (s : MitmSt) :
    Mute ((if s.log then (Mitm.op .clock >>= fun t => Mitm.logEvent ⟨t, .read, d⟩ false) else pure () : Py mitmSig MitmSt Unit) s) s := by
  cases hl : s.log
  · exact mute_ret s
  · exact mute_clock _ s fun t => mute_event _ s hl

/-- A program on a `MitmChannel` is the program itself. -/
theorem quiet_run (clk : Nat → Nat) (p : IT appSig β) (s : MitmSt) (i : Nat) :
    ((quiet clk (Mitm.run p s) i).bind fun q => .ret q.1) = p := by
  induction p generalizing s i with
  | ret b => rfl
  | op e k ih =>
    cases e with
    | read =>
      unfold Mitm.run
      rw [read_eq]
      refine congrArg (IT.op (S := appSig) AppOp.read) (funext fun r => ?_)
      cases r with
      | error e => exact ih _ s i
      | ok d =>
        obtain ⟨t0, j, h⟩ := mute_read d { s with counterRead := s.counterRead + d.length } clk i
        dsimp only
        rw [IT.bind_assoc, h]
        exact ih _ _ j
    | write ms l =>
      unfold Mitm.run
      rw [write_eq]
      refine congrArg (IT.op (S := appSig) (AppOp.write ms l)) (funext fun r => ?_)
      cases r with
      | error e => exact ih _ s i
      | ok u =>
        obtain ⟨t0, j, h⟩ := mute_write ms { s with counterWrite := s.counterWrite + (ms.map List.length).sum } clk i
        dsimp only at h ⊢
        rw [h]
        exact ih _ _ j

/-- A run to the end of the first program is one with a `MitmChannel` between it and the channel. -/
theorem mitm_then {clk : Nat → Nat} {p : IT appSig α} {s : MitmSt} {i : Nat} {b b' : IT appSig β} {ab ba ab' ba' : List Bytes}
    {r : α} {n : Nat} (h : Net.RunC P n ⟨p, b, ab, ba⟩ ⟨.ret r, b', ab', ba'⟩) :
    ∃ s', Net.RunC P n ⟨quiet clk (Mitm.run p s) i, b, ab, ba⟩ ⟨.ret (r, s'), b', ab', ba'⟩ := by
  rw [← quiet_run clk p s i] at h
  obtain ⟨⟨ya, yb, yab, yba⟩, h1, h2⟩ := Net.RunC.unmap (x := ⟨b, quiet clk (Mitm.run p s) i, ba, ab⟩) h.swap
  simp only [Net.swap, Net.thenB, Net.mk.injEq] at h1
  obtain ⟨rfl, h3, rfl, rfl⟩ := h1
  obtain ⟨⟨r', s'⟩, rfl, rfl⟩ := IT.bind_eq_ret h3.symm
  exact ⟨s', h2.swap⟩

end Salt
