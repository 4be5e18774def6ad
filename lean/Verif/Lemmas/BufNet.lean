import Verif.Lemmas.NetEager
import Verif.Lemmas.SockNet

/-!
# Byte streams with finite buffers
-/

set_option linter.unusedSimpArgs false

namespace Salt

open Spec Props SocketChannel

/-- What a `sendall` in progress still has to hand over. -/
def remaining {α : Type} : IT sock α → Bytes
  | .op (.sendall d) _ => d
  | _ => []

/-- The program after the `sendall` in progress, if any. -/
def afterSend {α : Type} : IT sock α → IT sock α
  | .op (.sendall _) k => k (.ok ())
  | p => p

/-- Bytes and calls a `sendall` in progress has left. -/
def load {α : Type} : IT sock α → Nat
  | .op (.sendall d) _ => d.length + 1
  | _ => 0

theorem sock_cases {α : Type} (p : IT sock α) : (∃ r, p = .ret r) ∨ (∃ n k, p = .op (S := sock) (.recv n) k) ∨
    ∃ d k, p = .op (S := sock) (.sendall d) k := by
  cases p with
  | ret r => exact .inl ⟨r, rfl⟩
  | op e k =>
    cases e with
    | recv n => exact .inr (.inl ⟨n, k, rfl⟩)
    | sendall d => exact .inr (.inr ⟨d, k, rfl⟩)

theorem not_sending {α : Type} {p : IT sock α} (h : ¬ Sending p) : remaining p = [] ∧ afterSend p = p ∧ load p = 0 := by
  rcases sock_cases p with ⟨r, rfl⟩ | ⟨n, k, rfl⟩ | ⟨d, k, rfl⟩
  · exact ⟨rfl, rfl, rfl⟩
  · exact ⟨rfl, rfl, rfl⟩
  · exact absurd ⟨d, k, rfl⟩ h

namespace Spec.SockNet

variable {α β : Type} {cap : Nat} {X Y Z : SockNet α β}

/-- All calls in progress completed. -/
def flush (X : SockNet α β) : SockNet α β :=
  ⟨afterSend X.a, afterSend X.b, X.ab ++ remaining X.a, X.ba ++ remaining X.b⟩

def loads (X : SockNet α β) : Nat := load X.a + load X.b

/-- At most two steps. -/
inductive Steps : SockNet α β → SockNet α β → Prop
  | one {X Y : SockNet α β} : Step X Y → Steps X Y
  | two {X Y Z : SockNet α β} : Step X Y → Step Y Z → Steps X Z

theorem Step.swap (h : Step X Y) : Step X.swap Y.swap := by
  cases h with
  | aSend d k => exact .bSend d k
  | aRecv n chunk k h1 h2 => exact .bRecv n chunk k h1 h2
  | bSend d k => exact .aSend d k
  | bRecv n chunk k h1 h2 => exact .aRecv n chunk k h1 h2

theorem Steps.swap (h : Steps X Y) : Steps X.swap Y.swap := by
  cases h with
  | one h => exact .one h.swap
  | two h h' => exact .two h.swap h'.swap

theorem StepB.swap (h : StepB cap X Y) : StepB cap X.swap Y.swap := by
  cases h with
  | aPut c d k h1 h2 => exact .bPut c d k h1 h2
  | aDone k => exact .bDone k
  | aRecv n chunk k h1 h2 => exact .bRecv n chunk k h1 h2
  | bPut c d k h1 h2 => exact .aPut c d k h1 h2
  | bDone k => exact .aDone k
  | bRecv n chunk k h1 h2 => exact .aRecv n chunk k h1 h2

theorem StuckB.swap (h : StuckB cap X) : StuckB cap X.swap := fun z hz => h z.swap hz.swap

theorem sent_or (p : IT sock α) (b : IT sock β) (ab ba : Bytes) :
    (⟨afterSend p, b, ab ++ remaining p, ba⟩ : SockNet α β) = ⟨p, b, ab, ba⟩ ∧ load p = 0 ∨
    Step ⟨p, b, ab, ba⟩ ⟨afterSend p, b, ab ++ remaining p, ba⟩ := by
  by_cases h : Sending p
  · obtain ⟨d, k, rfl⟩ := h
    exact .inr (.aSend d k)
  · obtain ⟨h1, h2, h3⟩ := not_sending h
    exact .inl ⟨by rw [h1, h2, List.append_nil], h3⟩

/-- What a step with finite buffers is when the calls in progress are completed at once. -/
def Flushed (X Y : SockNet α β) : Prop := (flush Y = flush X ∧ loads Y < loads X) ∨ Steps (flush X) (flush Y)

theorem Flushed.swap (h : Flushed X Y) : Flushed X.swap Y.swap := by
  rcases h with ⟨h1, h2⟩ | h
  · refine .inl ⟨congrArg SockNet.swap h1, ?_⟩
    simp only [loads, SockNet.swap] at *
    omega
  · exact .inr h.swap

theorem put_flushed {b : IT sock β} {ab ba : Bytes} (c d : Bytes) (k : Except Err Unit → IT sock α) (h : c ≠ []) :
    Flushed (⟨.op (S := sock) (.sendall (c ++ d)) k, b, ab, ba⟩ : SockNet α β) ⟨.op (S := sock) (.sendall d) k, b, ab ++ c, ba⟩ := by
  refine .inl ⟨by simp [flush, afterSend, remaining], ?_⟩
  have : 0 < c.length := List.length_pos_iff.2 h
  simp only [loads, load, List.length_append]
  omega

theorem done_flushed {b : IT sock β} {ab ba : Bytes} (k : Except Err Unit → IT sock α) :
    Flushed (⟨.op (S := sock) (.sendall []) k, b, ab, ba⟩ : SockNet α β) ⟨k (.ok ()), b, ab, ba⟩ := by
  rcases sent_or (k (.ok ())) (afterSend b) ab (ba ++ remaining b) with ⟨h1, h2⟩ | h
  · refine .inl ⟨?_, ?_⟩
    · simpa [flush, afterSend, remaining] using h1
    · show load (k (.ok ())) + load b < 0 + 1 + load b
      omega
  · exact .inr (.one (by simpa [flush, afterSend, remaining] using h))

theorem recv_flushed {b : IT sock β} {ab rest : Bytes} (n : Nat) (chunk : Bytes) (k : Except Err Bytes → IT sock α)
    (h1 : chunk ≠ []) (h2 : chunk.length ≤ n) :
    Flushed (⟨.op (S := sock) (.recv n) k, b, ab, chunk ++ rest⟩ : SockNet α β) ⟨k (.ok chunk), b, ab, rest⟩ := by
  have e : flush (⟨.op (S := sock) (.recv n) k, b, ab, chunk ++ rest⟩ : SockNet α β) =
      ⟨.op (S := sock) (.recv n) k, afterSend b, ab, chunk ++ (rest ++ remaining b)⟩ := by
    simp [flush, afterSend, remaining]
  have st : Step (flush (⟨.op (S := sock) (.recv n) k, b, ab, chunk ++ rest⟩ : SockNet α β))
      ⟨k (.ok chunk), afterSend b, ab, rest ++ remaining b⟩ := e ▸ .aRecv n chunk k h1 h2
  rcases sent_or (k (.ok chunk)) (afterSend b) ab (rest ++ remaining b) with ⟨h, -⟩ | h
  · refine .inr (.one ?_)
    show Step _ (⟨_, _, _, _⟩ : SockNet α β)
    simp only []
    rw [h]
    exact st
  · exact .inr (.two st h)

theorem StepB.flushed (h : StepB cap X Y) : Flushed X Y := by
  cases h with
  | aPut c d k h1 _ => exact put_flushed c d k h1
  | aDone k => exact done_flushed k
  | aRecv n chunk k h1 h2 => exact recv_flushed n chunk k h1 h2
  | bPut c d k h1 _ => exact (put_flushed c d k h1).swap
  | bDone k => exact (done_flushed k).swap
  | bRecv n chunk k h1 h2 => exact (recv_flushed n chunk k h1 h2).swap

theorem terminatesB (cap : Nat) (X : SockNet α β) : TerminatesB cap X := by
  suffices h : ∀ Z : SockNet α β, Acc (Relation.TransGen fun y x => Step x y) Z → ∀ n (X : SockNet α β), flush X = Z →
      loads X = n → TerminatesB cap X from h _ (Acc.transGen (terminates _)) _ X rfl rfl
  intro Z hZ
  induction hZ with
  | intro Z acc ih =>
    intro n
    induction n using Nat.strongRecOn with
    | ind n ihn =>
      rintro X rfl rfl
      refine .intro _ fun Y hY => ?_
      rcases hY.flushed with ⟨h1, h2⟩ | h
      · exact ihn _ h2 Y h1 rfl
      · refine ih (flush Y) ?_ _ Y rfl rfl
        generalize flush X = F at h
        generalize flush Y = G at h
        cases h with
        | one h => exact .single h
        | two h h' => exact .tail (.single h') h

theorem ReachB.head (h : StepB cap X Y) (h' : ReachB cap Y Z) : ReachB cap X Z := by
  induction h' with
  | refl => exact .step (.refl _) h
  | step _ hs ih => exact .step ih hs

theorem exists_finalB (cap : Nat) (X : SockNet α β) : ∃ Y, ReachB cap X Y ∧ StuckB cap Y := by
  have := terminatesB cap X
  unfold TerminatesB at this
  induction this with
  | intro X _ ih =>
    by_cases hs : StuckB cap X
    · exact ⟨X, .refl _, hs⟩
    · obtain ⟨Y, hY⟩ := Classical.not_forall_not.1 hs
      obtain ⟨Z, h1, h2⟩ := ih Y hY
      exact ⟨Z, .head hY h1, h2⟩

theorem Reach.trans (h : Reach X Y) (h' : Reach Y Z) : Reach X Z := by
  induction h' with
  | refl => exact h
  | step _ hs ih => exact .step ih hs

theorem Steps.reach (h : Steps X Y) : Reach X Y := by
  cases h with
  | one h => exact .step (.refl _) h
  | two h h' => exact .step (.step (.refl _) h) h'

theorem reach_flush (X : SockNet α β) : Reach X (flush X) := by
  obtain ⟨a, b, ab, ba⟩ := X
  have h1 : Reach (⟨a, b, ab, ba⟩ : SockNet α β) ⟨afterSend a, b, ab ++ remaining a, ba⟩ := by
    rcases sent_or a b ab ba with ⟨h, -⟩ | h
    · rw [h]; exact .refl _
    · exact .step (.refl _) h
  refine h1.trans ?_
  rcases sent_or b (afterSend a) ba (ab ++ remaining a) with ⟨h, -⟩ | h
  · have h : SockNet.flush (⟨a, b, ab, ba⟩ : SockNet α β) = ⟨afterSend a, b, ab ++ remaining a, ba⟩ := congrArg SockNet.swap h
    rw [h]
    exact .refl _
  · exact .step (.refl _) h.swap

/-- With finite buffers nothing happens that could not happen with unlimited ones. -/
theorem ReachB.flush (h : ReachB cap X Y) : Reach X (flush Y) := by
  induction h with
  | refl => exact reach_flush _
  | step _ hs ih =>
    rcases hs.flushed with ⟨h1, -⟩ | h
    · rw [h1]; exact ih
    · exact ih.trans h.reach

/-- With finite buffers and nobody in a `sendall`, what has ended has ended with unlimited buffers too. -/
theorem StuckB.stuck (h : StuckB cap X) (ha : ¬ Sending X.a) (hb : ¬ Sending X.b) : Stuck X := by
  intro Y hY
  cases hY with
  | aSend d k => exact ha ⟨d, k, rfl⟩
  | aRecv n chunk k h1 h2 => exact h _ (.aRecv n chunk k h1 h2)
  | bSend d k => exact hb ⟨d, k, rfl⟩
  | bRecv n chunk k h1 h2 => exact h _ (.bRecv n chunk k h1 h2)

theorem flush_self (ha : ¬ Sending X.a) (hb : ¬ Sending X.b) : flush X = X := by
  obtain ⟨a, b, ab, ba⟩ := X
  simp only at ha hb
  simp [flush, not_sending ha, not_sending hb]

/-- Who waits in a `sendall` has something to hand over, and the buffer is full. -/
theorem StuckB.full (h : StuckB cap X) {d : Bytes} {k : Except Err Unit → IT sock α}
    (ha : X.a = .op (S := sock) (.sendall d) k) : d ≠ [] ∧ cap ≤ X.ab.length := by
  obtain ⟨a, b, ab, ba⟩ := X
  simp only at ha
  subst ha
  cases d with
  | nil => exact absurd (.aDone k) (h _)
  | cons x d =>
    refine ⟨by simp, ?_⟩
    simp only
    by_cases hl : cap ≤ ab.length
    · exact hl
    · exact absurd (.aPut [x] d k (by simp) (by simp only [List.length_cons, List.length_nil]; omega)) (h _)

end Spec.SockNet

/-! ### The invariant -/

/-- A side, with the call in progress completed if `f` is set. -/
def SockNet.view {α β : Type} (fa fb : Bool) (X : SockNet α β) : SockNet α β :=
  ⟨bif fa then afterSend X.a else X.a, bif fb then afterSend X.b else X.b, X.ab ++ bif fa then remaining X.a else [],
    X.ba ++ bif fb then remaining X.b else []⟩

/-- `X` is where the message network is in `x`, if the calls in progress for which a flag is set are completed; at most
one call in progress has something to hand over. -/
structure BufInv {α β : Type} (x : Net α β) (X : SockNet α β) : Prop where
  ex : ∃ fa fb, SockInv x (SockNet.view fa fb X) ∧ (fa = true → fb = true → remaining X.a = [] ∨ remaining X.b = [])

theorem BufInv.swap {α β : Type} {x : Net α β} {X : SockNet α β} (h : BufInv x X) : BufInv x.swap X.swap := by
  obtain ⟨fa, fb, h1, h2⟩ := h.ex
  exact ⟨fb, fa, h1.swap, fun e1 e2 => (h2 e2 e1).symm⟩

theorem SockInv.writing {α β : Type} {x : Net α β} {X : SockNet α β} (h : SockInv x X) (hs : Sending X.a) :
    Writing x.a ∧ (x.ba = [] → X.ba = []) := by
  obtain ⟨ca, cb, h1, h2, h3, h4⟩ := h.ex
  obtain ⟨p, q, xab, xba⟩ := x
  obtain ⟨A, B, AB, BA⟩ := X
  simp only at *
  obtain ⟨d, k, rfl⟩ := hs
  refine ⟨?_, fun e => ?_⟩
  · generalize hP : (.op (S := sock) (.sendall d) k : IT sock α) = P at h1
    cases h1 with
    | idle _ hnr =>
      cases p with
      | ret r => cases hP
      | op e k0 =>
        cases e with
        | read => exact absurd rfl (hnr k0)
        | write ms l => exact ⟨ms, l, k0, rfl⟩
    | reading k0 hr =>
      obtain ⟨n, k', rfl, -⟩ := hr.next
      rw [IT.op_bind] at hP
      cases hP
  · subst e
    have : ca ++ BA = [] := h3
    exact (List.append_eq_nil_iff.1 this).2

theorem BufInv.put {α β : Type} {x : Net α β} {b : IT sock β} {ab ba c d : Bytes} {k : Except Err Unit → IT sock α}
    (hd : Net.HalfDuplex x) (h : BufInv x ⟨.op (S := sock) (.sendall (c ++ d)) k, b, ab, ba⟩) (hc : c ≠ []) :
    ∃ n y, Net.Run n x y ∧ BufInv y ⟨.op (S := sock) (.sendall d) k, b, ab ++ c, ba⟩ := by
  obtain ⟨fa, fb, h1, h2⟩ := h.ex
  cases fa with
  | true =>
    refine ⟨0, x, .refl _, ⟨true, fb, ?_, fun e1 e2 => ?_⟩⟩
    · simpa [SockNet.view, afterSend, remaining] using h1
    · rcases h2 e1 e2 with h | h
      · simp [remaining, hc] at h
      · exact .inr h
  | false =>
    have hw := h1.writing ⟨_, _, rfl⟩
    simp only [SockNet.view, cond_false, List.append_nil] at h1 hw
    obtain ⟨y, h3, h4⟩ := h1.aSend
    refine ⟨1, y, .one h3, ⟨true, fb, ?_, fun _ e2 => ?_⟩⟩
    · simpa [SockNet.view, afterSend, remaining] using h4
    · subst e2
      have := hw.2 ((hd 0 _ (.refl _)).1 hw.1).1
      exact .inr (List.append_eq_nil_iff.1 this).2

theorem BufInv.finish {α β : Type} {x : Net α β} {b : IT sock β} {ab ba : Bytes} {k : Except Err Unit → IT sock α}
    (h : BufInv x ⟨.op (S := sock) (.sendall []) k, b, ab, ba⟩) :
    ∃ n y, Net.Run n x y ∧ BufInv y ⟨k (.ok ()), b, ab, ba⟩ := by
  obtain ⟨fa, fb, h1, h2⟩ := h.ex
  cases fa with
  | true => exact ⟨0, x, .refl _, ⟨false, fb, by simpa [SockNet.view, afterSend, remaining] using h1, by simp⟩⟩
  | false =>
    simp only [SockNet.view, cond_false, List.append_nil] at h1
    obtain ⟨y, h3, h4⟩ := h1.aSend
    exact ⟨1, y, .one h3, ⟨false, fb, by simpa [SockNet.view] using h4, by simp⟩⟩

theorem BufInv.recv {α β : Type} {x : Net α β} {b : IT sock β} {ab rest : Bytes} {n : Nat} {chunk : Bytes}
    {k : Except Err Bytes → IT sock α} (hne : chunk ≠ []) (hle : chunk.length ≤ n)
    (h : BufInv x ⟨.op (S := sock) (.recv n) k, b, ab, chunk ++ rest⟩) :
    ∃ m y, Net.Run m x y ∧ BufInv y ⟨k (.ok chunk), b, ab, rest⟩ := by
  obtain ⟨fa, fb, h1, h2⟩ := h.ex
  have h3 : SockInv x ⟨.op (S := sock) (.recv n) k, bif fb then afterSend b else b, ab,
      chunk ++ (rest ++ bif fb then remaining b else [])⟩ := by
    cases fa <;> simpa [SockNet.view, afterSend, remaining] using h1
  rcases h3.aRecv hne hle with h4 | ⟨y, h4, h5⟩
  · exact ⟨0, x, .refl _, ⟨false, fb, by simpa [SockNet.view] using h4, by simp⟩⟩
  · exact ⟨1, y, .one h4, ⟨false, fb, by simpa [SockNet.view] using h5, by simp⟩⟩

theorem BufInv.step {α β : Type} {cap : Nat} {x : Net α β} {X Y : SockNet α β} (hd : Net.HalfDuplex x) (h : BufInv x X)
    (hs : SockNet.StepB cap X Y) : ∃ n y, Net.Run n x y ∧ BufInv y Y := by
  cases hs with
  | aPut c d k h1 _ => exact h.put hd h1
  | aDone k => exact h.finish
  | aRecv n chunk k h1 h2 => exact h.recv h1 h2
  | bPut c d k h1 _ =>
    obtain ⟨n, y, h2, h3⟩ := h.swap.put hd.swap h1
    exact ⟨n, y.swap, h2.swap, h3.swap⟩
  | bDone k =>
    obtain ⟨n, y, h2, h3⟩ := h.swap.finish
    exact ⟨n, y.swap, h2.swap, h3.swap⟩
  | bRecv n chunk k h1 h2 =>
    obtain ⟨n, y, h2, h3⟩ := h.swap.recv h1 h2
    exact ⟨n, y.swap, h2.swap, h3.swap⟩

theorem BufInv.reach {α β : Type} {cap : Nat} {x : Net α β} {X Y : SockNet α β} (hd : Net.HalfDuplex x) (h : BufInv x X)
    (hr : SockNet.ReachB cap X Y) : ∃ n y, Net.Run n x y ∧ BufInv y Y := by
  induction hr with
  | refl => exact ⟨0, x, .refl _, h⟩
  | step _ hs ih =>
    obtain ⟨n, y, h1, h2⟩ := ih
    obtain ⟨m, z, h3, h4⟩ := h2.step (hd.after h1) hs
    exact ⟨_, z, h1.trans h3, h4⟩

/-- A side that has returned or waits for data. -/
theorem SockInv.other {α β : Type} {x : Net α β} {X : SockNet α β} (h : SockInv x X) (hs : ¬ Sending X.b) :
    ((∃ r, x.b = .ret r) ∧ (X.ab ≠ [] → x.ab ≠ [])) ∨ ∃ n k, X.b = .op (S := sock) (.recv n) k ∧ 0 < n := by
  obtain ⟨ca, cb, h1, h2, h3, h4⟩ := h.ex
  obtain ⟨p, q, xab, xba⟩ := x
  obtain ⟨A, B, AB, BA⟩ := X
  have hsb := (h.calls 0 _ (.refl _)).2
  simp only at *
  cases h2 with
  | idle _ hnr =>
    cases q with
    | ret r =>
      refine .inl ⟨⟨r, rfl⟩, fun hne e => hne ?_⟩
      subst e
      simpa [frames] using h4
    | op e k0 =>
      cases e with
      | read => exact absurd rfl (hnr k0)
      | write ms l =>
        obtain ⟨k', e1, -⟩ := onSocket_write ms l k0 (hsb ms l k0 rfl)
        exact absurd ⟨_, _, e1⟩ hs
  | reading k0 hr =>
    obtain ⟨n, k', rfl, hn, -⟩ := hr.next
    exact .inr ⟨n, _, IT.op_bind _ _ _, hn⟩

theorem BufInv.not_sending {α β : Type} {cap : Nat} (hcap : 0 < cap) {x y : Net α β} {X : SockNet α β}
    (hd : Net.HalfDuplex x) (h : BufInv x X) (hs : SockNet.StuckB cap X) {n : Nat} (hr : Net.Run n x y) (hy : y.ab = []) :
    ¬ Sending X.a := by
  rintro ⟨d, k, ha⟩
  obtain ⟨hne, hfull⟩ := hs.full ha
  obtain ⟨fa, fb, h1, h2⟩ := h.ex
  obtain ⟨A, B, AB, BA⟩ := X
  simp only at ha hfull
  subst ha
  have hAB : AB ≠ [] := by
    rintro rfl
    simp at hfull
    omega
  have hVab : (SockNet.view fa fb ⟨.op (S := sock) (.sendall d) k, B, AB, BA⟩ : SockNet α β).ab ≠ [] := by
    simp [SockNet.view, hAB]
  have hd0 := hd 0 _ (.refl _)
  by_cases hB : Sending B
  · obtain ⟨d', k', rfl⟩ := hB
    obtain ⟨hne', -⟩ := hs.swap.full rfl
    cases fb with
    | true =>
      cases fa with
      | true =>
        rcases h2 rfl rfl with h | h
        · exact hne h
        · exact hne' h
      | false =>
        have hw := h1.writing ⟨_, _, rfl⟩
        have := hw.2 (hd0.1 hw.1).1
        simp [SockNet.view, remaining, hne'] at this
    | false =>
      have hw := h1.swap.writing ⟨_, _, rfl⟩
      exact hVab (hw.2 (hd0.2 hw.1).1)
  · have hV : SockNet.view fa fb (⟨.op (S := sock) (.sendall d) k, B, AB, BA⟩ : SockNet α β) =
        SockNet.view fa false ⟨.op (S := sock) (.sendall d) k, B, AB, BA⟩ := by
      obtain ⟨e1, e2, -⟩ := Salt.not_sending hB
      cases fb <;> simp [SockNet.view, e1, e2]
    rw [hV] at h1 hVab
    rcases h1.other hB with ⟨⟨r, e1⟩, e2⟩ | ⟨m, k', e1, e2⟩
    · exact hr.kept e1 (e2 hVab) hy
    · simp only [SockNet.view, cond_false] at e1
      subst e1
      cases AB with
      | nil => exact hAB rfl
      | cons x AB => exact hs _ (.bRecv m [x] k' (by simp) (by simp; omega))

theorem buf_ends {α β : Type} {cap : Nat} (hcap : 0 < cap) (pA : IT appSig α) (pB : IT appSig β)
    (hc : Net.Calls Fits (Net.start pA pB)) (hd : Net.HalfDuplex (Net.start pA pB)) {y : Net α β}
    (hy : EndsIn (Net.start pA pB) y) (h1 : y.ab = []) (h2 : y.ba = []) :
    EndsLikeB cap y (SockNet.start (onSocket pA) (onSocket pB)) := by
  refine ⟨SockNet.terminatesB _ _, SockNet.exists_finalB _ _, fun Y hr hs => ?_⟩
  have inv : BufInv (Net.start pA pB) (SockNet.start (onSocket pA) (onSocket pB)) :=
    ⟨false, false, ⟨⟨[], [], .init _, .init _, rfl, rfl⟩, hc, by simp [Net.start]⟩, by simp⟩
  obtain ⟨n, z, h3, h4⟩ := inv.reach hd hr
  obtain ⟨h6, m, h7, h8⟩ := hy
  have h9 := (h7.confluent h6 h3).2
  have hA := h4.not_sending hcap (hd.after h3) hs h9 h1
  have hB : ¬ Sending Y.b := h4.swap.not_sending hcap (hd.after h3).swap hs.swap h9.swap h2
  obtain ⟨fa, fb, i1, -⟩ := h4.ex
  have hV : SockNet.view fa fb Y = Y := by
    obtain ⟨e1, e2, -⟩ := not_sending hA
    obtain ⟨e3, e4, -⟩ := not_sending hB
    cases fa <;> cases fb <;> simp [SockNet.view, e1, e2, e3, e4]
  rw [hV] at i1
  obtain ⟨j1, j2, j3⟩ := i1.final (hs.stuck hA hB)
  have := (h8 _ _ h3).2 j1
  subst this
  exact ⟨j2, j3⟩

/-- With finite buffers, whoever returns returns what they return with unlimited buffers; and if nobody is in a
`sendall` in the end, everything has ended as with unlimited buffers. -/
theorem buf_safe {α β : Type} {cap : Nat} (pA : IT appSig α) (pB : IT appSig β) (hc : Net.Calls Fits (Net.start pA pB))
    {y : Net α β} (hy : EndsIn (Net.start pA pB) y) {Y : SockNet α β}
    (hr : SockNet.ReachB cap (SockNet.start (onSocket pA) (onSocket pB)) Y) :
    (∀ r, Y.a = .ret r → y.a = .ret r) ∧ (∀ r, Y.b = .ret r → y.b = .ret r) ∧
    (SockNet.StuckB cap Y → ¬ Sending Y.a → ¬ Sending Y.b → SockEnd y.a Y.a ∧ SockEnd y.b Y.b) := by
  have hf := hr.flush
  have aux : ∀ {α β : Type} {X Z : SockNet α β}, SockNet.Reach X Z → ∀ r, X.a = .ret r → Z.a = .ret r := by
    intro α β X Z h r e
    induction h with
    | refl => exact e
    | step _ hs ih =>
      cases hs with
      | aSend d k => cases ih
      | aRecv n c k _ _ => cases ih
      | bSend d k => exact ih
      | bRecv n c k _ _ => exact ih
  have swapR : ∀ {X Z : SockNet α β}, SockNet.Reach X Z → SockNet.Reach X.swap Z.swap := by
    intro X Z h
    induction h with
    | refl => exact .refl _
    | step _ hs ih => exact .step ih hs.swap
  obtain ⟨-, -, h3⟩ := sock_ends pA pB hc hy
  obtain ⟨Z, z1, z2⟩ := SockNet.exists_final (SockNet.flush Y)
  obtain ⟨h4, h5⟩ := h3 Z (hf.trans z1) z2
  refine ⟨fun r e => ?_, fun r e => ?_, fun hs ha hb => ?_⟩
  · have : Z.a = .ret r := aux z1 r (by simp [SockNet.flush, e, afterSend])
    rw [this] at h4
    generalize y.a = p at h4
    cases h4
    rfl
  · have : Z.b = .ret r := aux (swapR z1) r (by simp [SockNet.flush, SockNet.swap, e, afterSend])
    rw [this] at h5
    generalize y.b = p at h5
    cases h5
    rfl
  · rw [SockNet.flush_self ha hb] at hf
    exact h3 Y hf (hs.stuck ha hb)

/-! ### Schedules in which reading goes first, with finite buffers -/

theorem Spec.SockNet.ReachB.trans {α β : Type} {cap : Nat} {X Y Z : SockNet α β} (h : SockNet.ReachB cap X Y)
    (h' : SockNet.ReachB cap Y Z) : SockNet.ReachB cap X Z := by
  induction h' with
  | refl => exact h
  | step _ hs ih => exact .step ih hs

theorem Spec.SockNet.ReachB.swap {α β : Type} {cap : Nat} {X Y : SockNet α β} (h : SockNet.ReachB cap X Y) :
    SockNet.ReachB cap X.swap Y.swap := by
  induction h with
  | refl => exact .refl _
  | step _ hs ih => exact .step ih hs.swap

/-- A message goes from a `sendall` in progress to a read, byte by byte. -/
theorem transfer {α β : Type} {cap : Nat} (hcap : 0 < cap) {m : Bytes} (hm : m.length < 2 ^ 31) (rest : Bytes)
    (k : Except Err Unit → IT sock α) (F : Except Err Bytes × Unit → IT sock β) {c d : Bytes}
    {u : IT sock (Except Err Bytes × Unit)} (h : ReadSt c u) (hd : c ++ d = frame m) :
    SockNet.ReachB cap (⟨.op (S := sock) (.sendall (d ++ rest)) k, u.bind F, [], []⟩ : SockNet α β)
      ⟨.op (S := sock) (.sendall rest) k, F (.ok m, ()), [], []⟩ := by
  induction d generalizing c u with
  | nil =>
    obtain ⟨n, k', rfl, hn, hlt, -⟩ := h.next
    have := hlt m [] [] hm (by simpa using hd)
    rw [← hd] at this
    simp at this
  | cons x d ih =>
    obtain ⟨n, k', rfl, hn, -, hnext⟩ := h.next
    rw [IT.op_bind]
    refine .head (.aPut [x] (d ++ rest) k (by simp) (by simp; omega)) (.head (.bRecv n [x] _ (by simp) (by simp; omega)) ?_)
    rcases hnext m [] [x] d hm (by simpa using hd) (by simp) (by simp; omega) with ⟨e, he, hst⟩ | ⟨hret, he⟩
    · exact ih hst (by simpa using hd)
    · subst he
      simp only [hret, IT.ret_bind, List.nil_append]
      exact .refl _

/-- Writing is put off until the other side reads. -/
inductive Lazy {α β : Type} : Net α β → SockNet α β → Prop
  | idle (a : IT appSig α) (b : IT appSig β) : Lazy ⟨a, b, [], []⟩ ⟨onSocket a, onSocket b, [], []⟩
  | toB {a : IT appSig α} {b : IT appSig β} {k : Except Err Unit → IT sock α} (m : Bytes) (ms : List Bytes) : k (.ok ()) = onSocket a →
      Lazy ⟨a, b, m :: ms, []⟩ ⟨.op (S := sock) (.sendall (frames (m :: ms))) k, onSocket b, [], []⟩
  | toA {a : IT appSig α} {b : IT appSig β} {k : Except Err Unit → IT sock β} (m : Bytes) (ms : List Bytes) : k (.ok ()) = onSocket b →
      Lazy ⟨a, b, [], m :: ms⟩ ⟨onSocket a, .op (S := sock) (.sendall (frames (m :: ms))) k, [], []⟩

theorem Lazy.swap {α β : Type} {x : Net α β} {X : SockNet α β} (h : Lazy x X) : Lazy x.swap X.swap := by
  cases h with
  | idle a b => exact .idle b a
  | toB m ms h => exact .toA m ms h
  | toA m ms h => exact .toB m ms h

theorem Lazy.write {α β : Type} {cap : Nat} {b : IT appSig β} {ms : List Bytes} {l : Bool}
    {k : Except Err Unit → IT appSig α} {X : SockNet α β} (h : Lazy ⟨.op (S := appSig) (.write ms l) k, b, [], []⟩ X)
    (hf : Fits ms) : ∃ Y, SockNet.ReachB cap X Y ∧ Lazy ⟨k (.ok ()), b, ms, []⟩ Y := by
  cases h with
  | idle a b =>
    obtain ⟨k', e1, e2⟩ := onSocket_write ms l k hf
    rw [e1]
    cases ms with
    | nil => exact ⟨_, .step (.refl _) (.aDone k'), e2 ▸ .idle _ _⟩
    | cons m ms => exact ⟨_, .refl _, .toB m ms e2⟩

theorem Lazy.read {α β : Type} {cap : Nat} (hcap : 0 < cap) {a : IT appSig α} {m : Bytes} {ab ba : List Bytes}
    {k : Except Err Bytes → IT appSig β} {X : SockNet α β} (h : Lazy ⟨a, .op (S := appSig) .read k, m :: ab, ba⟩ X)
    (hf : m.length < 2 ^ 31) : ∃ Y, SockNet.ReachB cap X Y ∧ Lazy ⟨a, k (.ok m), ab, ba⟩ Y := by
  cases h with
  | @toB _ _ k' _ _ e =>
    have := transfer (cap := cap) hcap hf (frames ab) k' (fun (r, _) => onSocket (k r)) .init (List.nil_append _)
    have h : SockNet.ReachB cap (⟨.op (S := sock) (.sendall (frames (m :: ab))) k', onSocket (.op (S := appSig) .read k), [], []⟩ : SockNet α β)
        ⟨.op (S := sock) (.sendall (frames ab)) k', onSocket (k (.ok m)), [], []⟩ := by
      rw [show frames (m :: ab) = frame m ++ frames ab from rfl]
      exact this
    cases ab with
    | nil => exact ⟨_, h.trans (.step (.refl _) (.aDone k')), e ▸ .idle _ _⟩
    | cons m' ab => exact ⟨_, h, .toB m' ab e⟩

theorem Lazy.run {α β : Type} {cap : Nat} (hcap : 0 < cap) {x y : Net α β} (hr : Net.RunE x y) {X : SockNet α β}
    (h : Lazy x X) (hc : Net.Calls Fits x) (hab : Fits x.ab) (hba : Fits x.ba) :
    ∃ Y, SockNet.ReachB cap X Y ∧ Lazy y Y := by
  induction hr generalizing X with
  | refl => exact ⟨X, .refl _, h⟩
  | @step _ x2 _ hs _ ih =>
    have hc2 := hc.after (.one hs.step)
    have hc0 := hc 0 _ (.refl _)
    have : Fits x2.ab ∧ Fits x2.ba ∧ ∃ Y, SockNet.ReachB cap X Y ∧ Lazy x2 Y := by
      cases hs with
      | aWrite ms l k hb => exact ⟨hc0.1 ms l k rfl, hba, h.write (hc0.1 ms l k rfl)⟩
      | aRead m k =>
        obtain ⟨Y, h1, h2⟩ := h.swap.read (cap := cap) hcap (hba m (List.mem_cons_self ..))
        exact ⟨hab, fun m hm => hba m (List.mem_cons_of_mem _ hm), Y.swap, h1.swap, h2.swap⟩
      | bWrite ms l k hb =>
        obtain ⟨Y, h1, h2⟩ := h.swap.write (cap := cap) (hc0.2 ms l k rfl)
        exact ⟨hab, hc0.2 ms l k rfl, Y.swap, h1.swap, h2.swap⟩
      | bRead m k => exact ⟨fun m hm => hab m (List.mem_cons_of_mem _ hm), hba, h.read hcap (hab m (List.mem_cons_self ..))⟩
    obtain ⟨f1, f2, Y, h1, h2⟩ := this
    obtain ⟨Z, h3, h4⟩ := ih h2 hc2 f1 f2
    exact ⟨Z, h1.trans h3, h4⟩

/-- The schedule is possible with finite buffers. -/
theorem eager_reach {α β : Type} {cap : Nat} (hcap : 0 < cap) {a a' : IT appSig α} {b b' : IT appSig β}
    (hr : Net.RunE (Net.start a b) ⟨a', b', [], []⟩) (hc : Net.Calls Fits (Net.start a b)) :
    SockNet.ReachB cap (SockNet.start (onSocket a) (onSocket b)) ⟨onSocket a', onSocket b', [], []⟩ := by
  obtain ⟨Y, h1, h2⟩ := (Lazy.idle a b).run hcap hr hc (by simp [Fits, Net.start]) (by simp [Fits, Net.start])
  cases h2
  exact h1

/-- Two programs about to write more than the buffers hold block each other. -/
theorem both_write {α β : Type} {cap : Nat} {a : IT appSig α} {b : IT appSig β} {ms ms' : List Bytes} {l l' : Bool}
    {k : Except Err Unit → IT appSig α} {k' : Except Err Unit → IT appSig β} (hcap : 0 < cap)
    (hr : Net.RunE (Net.start a b) ⟨.op (S := appSig) (.write ms l) k, .op (S := appSig) (.write ms' l') k', [], []⟩)
    (hc : Net.Calls Fits (Net.start a b)) (h1 : cap < (frames ms).length) (h2 : cap < (frames ms').length) :
    ∃ Y, SockNet.ReachB cap (SockNet.start (onSocket a) (onSocket b)) Y ∧ SockNet.StuckB cap Y ∧ Sending Y.a ∧ Sending Y.b := by
  obtain ⟨n, hn⟩ := hr.run
  have hf := hc _ _ hn
  obtain ⟨q, e1, -⟩ := onSocket_write ms l k (hf.1 ms l k rfl)
  obtain ⟨q', e2, -⟩ := onSocket_write ms' l' k' (hf.2 ms' l' k' rfl)
  have h3 := eager_reach hcap hr hc
  rw [e1, e2, ← List.take_append_drop cap (frames ms), ← List.take_append_drop cap (frames ms')] at h3
  have d1 : ((frames ms).take cap).length = cap := by rw [List.length_take]; omega
  have d2 : ((frames ms').take cap).length = cap := by rw [List.length_take]; omega
  have n1 : (frames ms).drop cap ≠ [] := by intro h; have := congrArg List.length h; simp at this; omega
  have n2 : (frames ms').drop cap ≠ [] := by intro h; have := congrArg List.length h; simp at this; omega
  have p1 : (frames ms).take cap ≠ [] := by intro h; rw [h] at d1; simp at d1; omega
  have p2 : (frames ms').take cap ≠ [] := by intro h; rw [h] at d2; simp at d2; omega
  refine ⟨_, (h3.step (.aPut _ _ q p1 (by simp [d1]))).step (.bPut _ _ q' p2 (by simp [d2])), ?_, ⟨_, _, rfl⟩, ⟨_, _, rfl⟩⟩
  generalize hX : (⟨.op (S := sock) (.sendall ((frames ms).drop cap)) q, .op (S := sock) (.sendall ((frames ms').drop cap)) q',
    [] ++ (frames ms).take cap, [] ++ (frames ms').take cap⟩ : SockNet α β) = X
  intro Y hY
  cases hY with
  | aPut c d k hne hl =>
    injection hX with _ _ h3 _
    subst h3
    have := List.length_pos_iff.2 hne
    simp only [List.nil_append] at hl
    omega
  | aDone k =>
    injection hX with h1 _ _ _
    injection h1 with h1 _
    injection h1 with h1
    exact n1 h1
  | aRecv n c k _ _ => injection hX with h1 _ _ _; cases h1
  | bPut c d k hne hl =>
    injection hX with _ _ _ h3
    subst h3
    have := List.length_pos_iff.2 hne
    simp only [List.nil_append] at hl
    omega
  | bDone k =>
    injection hX with _ h1 _ _
    injection h1 with h1 _
    injection h1 with h1
    exact n2 h1
  | bRecv n c k _ _ => injection hX with _ h1 _ _; cases h1

end Salt
