import Verif.Spec.Tcp
import Verif.Lemmas.Farm
import Verif.Lemmas.SockNet

/-!
# Message programs over TCP connections that are closed at the end
-/

namespace Salt

open Spec Props SocketChannel

variable {α β : Type}

theorem TcpStep.noRet {x y : SockNet α β} {r : α} (h : TcpStep x y) (hx : x.a = .ret r) : False := by
  cases h <;> cases hx

theorem TcpStep.keep {x y : SockNet α β} (h : TcpStep x y) : y.b = x.b := by
  cases h <;> rfl

theorem tcp_lawful : (tcp (α := α) (β := β)).Lawful where
  noC := fun _ _ ⟨_, hr⟩ h => TcpStep.noRet h hr
  noS := fun x _ ⟨_, hr⟩ h => TcpStep.noRet (x := x.swap) h hr
  keepC := fun x y ⟨r, hr⟩ h => ⟨r, (TcpStep.keep (x := x.swap) (y := y.swap) h).trans hr⟩
  keepS := fun _ _ ⟨r, hr⟩ h => ⟨r, (TcpStep.keep h).trans hr⟩

theorem TcpStep.of_a {x y : SockNet α β} (h : TcpStep x y) :
    ∃ (e : SockOp) (k : Except Err e.Resp → IT sock α) (r : Except Err e.Resp), x.a = .op (S := sock) e k ∧ y.a = k r ∧ y.b = x.b := by
  cases h with
  | send d k => exact ⟨.sendall d, k, _, rfl, rfl, rfl⟩
  | recv n c k => exact ⟨.recv n, k, _, rfl, rfl, rfl⟩
  | eof n k => exact ⟨.recv n, k, _, rfl, rfl, rfl⟩
  | broken d k e => exact ⟨.sendall d, k, _, rfl, rfl, rfl⟩
  | reset n k e => exact ⟨.recv n, k, _, rfl, rfl, rfl⟩

theorem tcp_terminates (x : SockNet α β) : tcp.Terminates x := by
  suffices H : ∀ (a : IT sock α) (b : IT sock β) (x : SockNet α β), x.a = a → x.b = b → tcp.Terminates x from H _ _ x rfl rfl
  intro a
  induction a with
  | ret r =>
    intro b
    induction b with
    | ret r' =>
      intro x ha hb
      refine .intro _ fun y h => ?_
      rcases h with h | h
      · exact (TcpStep.noRet h ha).elim
      · exact (TcpStep.noRet (x := x.swap) h hb).elim
    | op e k ih =>
      intro x ha hb
      refine .intro _ fun y h => ?_
      rcases h with h | h
      · exact (TcpStep.noRet h ha).elim
      · obtain ⟨e', k', r, h1, h2, h3⟩ := TcpStep.of_a (x := x.swap) (y := y.swap) h
        have h1 := hb.symm.trans h1
        cases h1
        exact ih r y (h3.trans ha) h2
  | op e k iha =>
    intro b
    induction b with
    | ret r' =>
      intro x ha hb
      refine .intro _ fun y h => ?_
      rcases h with h | h
      · obtain ⟨e', k', r, h1, h2, h3⟩ := TcpStep.of_a h
        have h1 := ha.symm.trans h1
        cases h1
        exact iha r _ y h2 (h3.trans hb)
      · exact (TcpStep.noRet (x := x.swap) h hb).elim
    | op e' k' ih =>
      intro x ha hb
      refine .intro _ fun y h => ?_
      rcases h with h | h
      · obtain ⟨e', k', r, h1, h2, h3⟩ := TcpStep.of_a h
        have h1 := ha.symm.trans h1
        cases h1
        exact iha r _ y h2 (h3.trans hb)
      · obtain ⟨e', k', r, h1, h2, h3⟩ := TcpStep.of_a (x := x.swap) (y := y.swap) h
        have h1 := hb.symm.trans h1
        cases h1
        exact ih r y (h3.trans ha) h2

/-! ### What was written to a program that has ended stays there -/

theorem Net_step_kept {x z : Net α β} {r : β} (h : Net.Step x z) (hb : x.b = .ret r) :
    z.b = .ret r ∧ ∃ t, z.ab = x.ab ++ t := by
  cases h with
  | aWrite ms l k => exact ⟨hb, ms, rfl⟩
  | aRead m k => exact ⟨hb, [], (List.append_nil _).symm⟩
  | bWrite ms l k => cases hb
  | bRead m k => cases hb

theorem Net_run_kept {n : Nat} {x z : Net α β} {r : β} (h : Net.Run n x z) (hb : x.b = .ret r) :
    z.b = .ret r ∧ ∃ t, z.ab = x.ab ++ t := by
  induction h with
  | refl x => exact ⟨hb, [], (List.append_nil _).symm⟩
  | step hs _ ih =>
    obtain ⟨h1, t, h2⟩ := Net_step_kept hs hb
    obtain ⟨h3, t', h4⟩ := ih h1
    exact ⟨h3, t ++ t', by rw [h4, h2, List.append_assoc]⟩

theorem onSocket_ret {p : IT appSig α} {r : α} {c : Bytes} (h : SideSt p (.ret r) c) (hf : ∀ ms l k, p = .op (S := appSig) (.write ms l) k → Fits ms) :
    p = .ret r ∧ c = [] := by
  generalize hP : (.ret r : IT sock α) = P at h
  cases h with
  | idle _ hnr =>
    cases p with
    | ret r' => cases hP; exact ⟨rfl, rfl⟩
    | op e k =>
      cases e with
      | read => exact absurd rfl (hnr k)
      | write ms l =>
        obtain ⟨k', e1, -⟩ := onSocket_write ms l k (hf ms l k rfl)
        rw [e1] at hP
        cases hP
  | reading k hr =>
    obtain ⟨n, k', rfl, -⟩ := hr.next
    rw [IT.op_bind] at hP
    cases hP

/-- A program whose socket has given `b''` after complete messages has its read raise ComException. -/
theorem read_eof {u : IT sock (Except Err Bytes × Unit)} (h : ReadSt [] u) :
    ∃ n k, u = .op (S := sock) (.recv n) k ∧ k (.ok []) = .ret (.error .comException, ()) := by
  generalize hc : ([] : Bytes) = c at h
  cases h with
  | head c h4 =>
    subst hc
    rw [recvall_succ_run _ _ (by decide), IT.op_bind]
    exact ⟨_, _, rfl, by simp [readHead]⟩
  | body n c _ _ => exact absurd (congrArg List.length hc) (by simp; omega)

/-- Where a connection can be. -/
inductive TcpSt (x0 : Net α β) (ra : α) (rb : β) : SockNet α β → Prop
  | inside {n : Nat} {x : Net α β} {X : SockNet α β} : Net.Run n x0 x → SockInv x X → TcpSt x0 ra rb X
  | over {X : SockNet α β} : X.a = .ret ra → X.b = .ret rb → TcpSt x0 ra rb X

/-- The program of a side that makes a call. -/
theorem SideSt.recv {p : IT appSig α} {n : Nat} {k : Except Err Bytes → IT sock α} {c : Bytes}
    (h : SideSt p (.op (S := sock) (.recv n) k) c) (hf : ∀ ms l k, p = .op (S := appSig) (.write ms l) k → Fits ms) :
    ∃ k0 u, p = .op (S := appSig) .read k0 ∧ ReadSt c u ∧
      (.op (S := sock) (.recv n) k : IT sock α) = u.bind fun (r, _) => onSocket (k0 r) := by
  generalize hP : (.op (S := sock) (.recv n) k : IT sock α) = P at h
  cases h with
  | idle _ hnr =>
    cases p with
    | ret r' => cases hP
    | op e k =>
      cases e with
      | read => exact absurd rfl (hnr k)
      | write ms l =>
        obtain ⟨k', e1, -⟩ := onSocket_write ms l k (hf ms l k rfl)
        rw [e1] at hP
        cases hP
  | reading k0 hr => exact ⟨k0, _, rfl, hr, rfl⟩

theorem SideSt.send {p : IT appSig α} {d : Bytes} {k : Except Err Unit → IT sock α} {c : Bytes}
    (h : SideSt p (.op (S := sock) (.sendall d) k) c) (hf : ∀ ms l k, p = .op (S := appSig) (.write ms l) k → Fits ms) :
    ∃ ms l k0, p = .op (S := appSig) (.write ms l) k0 ∧ d = frames ms := by
  generalize hP : (.op (S := sock) (.sendall d) k : IT sock α) = P at h
  cases h with
  | idle _ hnr =>
    cases p with
    | ret r' => cases hP
    | op e k =>
      cases e with
      | read => exact absurd rfl (hnr k)
      | write ms l =>
        obtain ⟨k', e1, -⟩ := onSocket_write ms l k (hf ms l k rfl)
        rw [e1] at hP
        cases hP
        exact ⟨ms, l, k, rfl, rfl⟩
  | reading k hr =>
    obtain ⟨n, k', rfl, -⟩ := hr.next
    rw [IT.op_bind] at hP
    cases hP

/-- An incomplete message and nothing in flight: nothing was written. -/
theorem ReadSt.nothing {c : Bytes} {u : IT sock (Except Err Bytes × Unit)} (h : ReadSt c u) {ms : List Bytes}
    (hms : ∀ m ∈ ms, m.length < 2 ^ 31) (he : c ++ [] = frames ms) : ms = [] ∧ c = [] := by
  obtain ⟨n, k, -, -, hlt, -⟩ := h.next
  cases ms with
  | nil => exact ⟨rfl, by simpa [frames] using he⟩
  | cons m ms =>
    have he : c ++ [] = frame m ++ frames ms := by simpa [frames] using he
    have := hlt m _ [] (hms m (List.mem_cons_self ..)) he
    have hl := congrArg List.length he
    simp at hl
    omega

/-- The steps of one side: those of `SockNet`, or those that find the other side closed. -/
theorem TcpStep.inside {x : Net α β} {X Y : SockNet α β} (h : SockInv x X) (hs : TcpStep X Y) :
    (SockInv x Y ∨ ∃ y, Net.Step x y ∧ SockInv y Y) ∨
    ∃ r, x.b = .ret r ∧
      ((∃ k, x.a = .op (S := appSig) .read k ∧ x.ba = [] ∧ Y.a = onSocket (k (.error .comException)) ∧ Y.b = X.b) ∨
       (∃ ms l k, ms ≠ [] ∧ x.a = .op (S := appSig) (.write ms l) k) ∨ x.ab ≠ []) := by
  have hf := h.calls 0 _ (.refl _)
  cases hs with
  | send d k => exact .inl (h.step (.aSend d k))
  | recv n chunk k h1 h2 => exact .inl (h.step (.aRecv n chunk k h1 h2))
  | @eof r ab n k =>
    obtain ⟨ca, cb, s1, s2, e1, e2⟩ := h.ex
    obtain ⟨hb, -⟩ := onSocket_ret s2 hf.2
    obtain ⟨k0, u, ha, hr, hu⟩ := SideSt.recv s1 hf.1
    obtain ⟨hba, rfl⟩ := ReadSt.nothing hr h.short.2 e1
    obtain ⟨n', k', rfl, hk⟩ := read_eof hr
    rw [IT.op_bind] at hu
    cases hu
    refine .inr ⟨r, hb, .inl ⟨k0, ha, hba, ?_, rfl⟩⟩
    show (k' (.ok [])).bind _ = _
    rw [hk, IT.ret_bind]
  | @broken r ab ba d k e hd =>
    obtain ⟨ca, cb, s1, s2, e1, e2⟩ := h.ex
    obtain ⟨hb, -⟩ := onSocket_ret s2 hf.2
    obtain ⟨ms, l, k0, ha, rfl⟩ := SideSt.send s1 hf.1
    exact .inr ⟨r, hb, .inr (.inl ⟨ms, l, k0, fun e => hd (by rw [e]; rfl), ha⟩)⟩
  | @reset r ab ba n k e hab =>
    obtain ⟨ca, cb, s1, s2, e1, e2⟩ := h.ex
    obtain ⟨hb, rfl⟩ := onSocket_ret s2 hf.2
    refine .inr ⟨r, hb, .inr (.inr fun e => hab ?_)⟩
    rw [e] at e2
    simpa [frames] using e2

/-- If the programs, run directly on messages, end without leaving anything unread, the first one having returned and
the second one having returned or being about to return at the end of file, then they end in the same way over TCP. -/
theorem tcp_ends {pA : IT appSig α} {pB : IT appSig β} (hc : Net.Calls Fits (Net.start pA pB)) {ra : α} {rb : β}
    {B : IT appSig β} (hy : EndsIn (Net.start pA pB) ⟨.ret ra, B, [], []⟩)
    (hB : B = .ret rb ∨ ∃ k, B = .op (S := appSig) .read k ∧ k (.error .comException) = .ret rb) :
    tcp.Ends (Results ra rb) (SockNet.start (onSocket pA) (onSocket pB)) := by
  have inv0 : SockInv (Net.start pA pB) (SockNet.start (onSocket pA) (onSocket pB)) :=
    ⟨⟨[], [], .init _, .init _, rfl, rfl⟩, hc, by simp [Net.start]⟩
  obtain ⟨hst, N, hrun, huniq⟩ := hy
  -- every run can be continued to the end
  have later : ∀ {n : Nat} {x : Net α β}, Net.Run n (Net.start pA pB) x → ∃ m, Net.Run m x ⟨.ret ra, B, [], []⟩ := by
    intro n x hx
    obtain ⟨m, z, h1, h2⟩ := Net.exists_final x
    have := (huniq _ _ (hx.trans h1)).2 h2
    exact ⟨m, this ▸ h1⟩
  have noA : ∀ {n : Nat} {x : Net α β} {r : β}, Net.Run n (Net.start pA pB) x → x.b = .ret r →
      x.ab = [] ∧ ∀ ms l k, ms ≠ [] → x.a ≠ .op (S := appSig) (.write ms l) k := by
    intro n x r hx hb
    obtain ⟨m, hm⟩ := later hx
    obtain ⟨-, t, ht⟩ := Net_run_kept hm hb
    refine ⟨(List.append_eq_nil_iff.1 ht.symm).1, fun ms l k hne ha => ?_⟩
    obtain ⟨a, b, ab, ba⟩ := x
    cases ha
    obtain ⟨m, hm⟩ := later (hx.snoc (.aWrite ms l k))
    obtain ⟨-, t, ht⟩ := Net_run_kept hm hb
    have := (List.append_eq_nil_iff.1 ht.symm).1
    exact hne (List.append_eq_nil_iff.1 this).2
  have noB : ∀ {n : Nat} {x : Net α β} {r : α}, Net.Run n (Net.start pA pB) x → x.a = .ret r →
      x.ba = [] ∧ ∀ ms l k, ms ≠ [] → x.b ≠ .op (S := appSig) (.write ms l) k := by
    intro n x r hx ha
    obtain ⟨m, hm⟩ := later hx
    obtain ⟨-, t, ht⟩ := Net_run_kept hm.swap ha
    refine ⟨(List.append_eq_nil_iff.1 ht.symm).1, fun ms l k hne hb => ?_⟩
    obtain ⟨a, b, ab, ba⟩ := x
    cases hb
    obtain ⟨m, hm⟩ := later (hx.snoc (.bWrite ms l k))
    obtain ⟨-, t, ht⟩ := Net_run_kept hm.swap ha
    have := (List.append_eq_nil_iff.1 ht.symm).1
    exact hne (List.append_eq_nil_iff.1 this).2
  have inv : ∀ X, tcp.Reach (SockNet.start (onSocket pA) (onSocket pB)) X →
      TcpSt (Net.start pA pB) ra rb X := by
    intro X hX
    induction hX with
    | refl => exact .inside (.refl _) inv0
    | @step Y Z hr hs ih =>
      cases ih with
      | @inside n x _ hx hi =>
        rcases hs with hs | hs
        · rcases TcpStep.inside hi hs with (h | ⟨y, h1, h2⟩) | ⟨r, hb, h⟩
          · exact .inside hx h
          · exact .inside (hx.snoc h1) h2
          · exfalso
            rcases h with ⟨k, ha, hba, -⟩ | ⟨ms, l, k, hne, ha⟩ | h
            · have hstk : Net.Stuck x := (Net.stuck_iff x).2 ⟨.inr ⟨⟨k, ha⟩, hba⟩, .inl ⟨r, hb⟩⟩
              have := (huniq _ _ hx).2 hstk
              subst this
              cases ha
            · exact (noA hx hb).2 ms l k hne ha
            · exact h (noA hx hb).1
        · rcases TcpStep.inside (x := x.swap) hi.swap hs with (h | ⟨y, h1, h2⟩) | ⟨r, hb, h⟩
          · exact .inside hx h.swap
          · exact .inside (hx.snoc h1.swap) h2.swap
          · rcases h with ⟨k, ha, hba, h3, h4⟩ | ⟨ms, l, k, hne, ha⟩ | h
            · have hstk : Net.Stuck x := (Net.stuck_iff x).2 ⟨.inl ⟨r, hb⟩, .inr ⟨⟨k, ha⟩, hba⟩⟩
              have := (huniq _ _ hx).2 hstk
              subst this
              have hYa : Y.a = .ret ra := by
                obtain ⟨ca, cb, s1, -⟩ := hi.ex
                obtain ⟨A, B', AB, BA⟩ := Y
                cases s1 with
                | idle _ _ => rfl
              rcases hB with hB | ⟨k', hB, hk'⟩
              · have ha := hB.symm.trans ha
                cases ha
              · have ha := hB.symm.trans ha
                cases ha
                refine .over (h4.trans hYa) (h3.trans ?_)
                rw [hk']
                rfl
            · exact ((noB hx hb).2 ms l k hne ha).elim
            · exact (h (noB hx hb).1).elim
      | over ha hb =>
        exfalso
        rcases hs with hs | hs
        · exact TcpStep.noRet hs ha
        · exact TcpStep.noRet (x := Y.swap) hs hb
  refine ⟨tcp_terminates _, fun Z hZ hstk => ?_⟩
  suffices H : Results ra rb Z from ⟨⟨ra, H.1⟩, ⟨rb, H.2⟩, H⟩
  cases inv Z hZ with
  | over ha hb => exact ⟨ha, hb⟩
  | @inside n x _ hx hi =>
    have hs : SockNet.Stuck Z := by
      intro Y hY
      cases hY with
      | aSend d k => exact hstk _ (.inl (.send d k))
      | aRecv n c k h1 h2 => exact hstk _ (.inl (.recv n c k h1 h2))
      | @bSend a ab ba d k => exact hstk ⟨a, k (.ok ()), ab, ba ++ d⟩ (.inr (.send d k))
      | @bRecv a ab ba n c k h1 h2 => exact hstk ⟨a, k (.ok c), ab, ba⟩ (.inr (.recv n c k h1 h2))
    obtain ⟨h3, h4, h5⟩ := hi.final hs
    have := (huniq _ _ hx).2 h3
    subst this
    obtain ⟨A, B', AB, BA⟩ := Z
    cases h4
    refine ⟨rfl, ?_⟩
    rcases hB with rfl | ⟨k, rfl, hk⟩
    · cases h5
      rfl
    · exfalso
      generalize hBB : B' = BB at h5
      cases h5 with
      | wait _ n k' =>
        subst hBB
        cases AB with
        | nil => exact hstk ⟨.ret ra, k' (.ok []), [], BA⟩ (.inr (.eof n k'))
        | cons c AB =>
          obtain ⟨ca, cb, -, -, -, e2⟩ := hi.ex
          simp [frames] at e2

end Salt
