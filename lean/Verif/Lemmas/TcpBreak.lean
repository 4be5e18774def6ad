import Verif.Spec.TcpBreak
import Verif.Lemmas.Tcp
import Verif.Lemmas.BrokenSock

/-!
# TCP connections that may break
-/

namespace Salt

open Spec Props

variable {α β : Type}

theorem Spec.BreakSock.Half.noRet {x y : BreakSock α β} {r : α} (h : BreakSock.Half x y) (hx : x.net.a = .ret r) : False := by
  cases h <;> cases hx

theorem Spec.Shut.noRet {x y : BreakSock α β} {r : α} (h : Shut x y) (hx : x.net.a = .ret r) : False :=
  TcpStep.noRet h.2.2.2.1 hx

theorem tcpBreak_keepS {x y : BreakSock α β} (h : tcpBreak.stepC x y) : y.net.b = x.net.b := by
  rcases h with h | ⟨-, -, -, h, -⟩ | ⟨⟨-, i, j, rfl⟩, -⟩
  · exact (sockHalf_progress h).2.1
  · exact TcpStep.keep h
  · rfl

theorem tcpBreak_keepC {x y : BreakSock α β} (h : tcpBreak.stepS x y) : y.net.a = x.net.a := by
  rcases h with h | ⟨-, -, -, h, -⟩ | ⟨⟨-, i, j, rfl⟩, -⟩
  · exact (sockHalf_progress h).2.1
  · exact TcpStep.keep (x := x.net.swap) (y := y.net.swap) h
  · rfl

theorem tcpBreak_lawful : (tcpBreak (α := α) (β := β)).Lawful where
  noC := by
    rintro x y ⟨r, hr⟩ (h | h | ⟨-, h⟩)
    · exact h.noRet hr
    · exact h.noRet hr
    · exact h ⟨r, hr⟩
  noS := by
    rintro x y ⟨r, hr⟩ (h | h | ⟨-, h⟩)
    · exact h.noRet (x := x.swap) hr
    · exact h.noRet (x := x.swap) hr
    · exact h ⟨r, hr⟩
  keepC := fun _ _ ⟨r, hr⟩ h => ⟨r, (tcpBreak_keepC h).trans hr⟩
  keepS := fun _ _ ⟨r, hr⟩ h => ⟨r, (tcpBreak_keepS h).trans hr⟩

theorem Spec.Shut.progress {x y : BreakSock α β} (h : Shut x y) :
    y.alive = x.alive ∧ y.net.b = x.net.b ∧ y.inB = x.inB ∧ Progress (y.net.a, y.inA) (x.net.a, x.inA) := by
  obtain ⟨-, -, -, h, he⟩ := h
  obtain ⟨e, k, r, h1, h2, h3⟩ := TcpStep.of_a h
  refine ⟨by rw [he], h3, by rw [he], ?_⟩
  rw [h1, h2]
  exact .left _ _ (.op (S := sock) e k r)

theorem tcpBreak_terminates (x : BreakSock α β) : tcpBreak.Terminates x := by
  refine Subrelation.accessible (r := InvImage Progress2 fun x : BreakSock α β =>
    (x.alive, (x.net.a, x.inA), (x.net.b, x.inB))) ?_ (InvImage.accessible _ (progress2_wf.apply _))
  intro y x h
  have a : (y.alive = x.alive ∧ y.net.b = x.net.b ∧ y.inB = x.inB ∧ Progress (y.net.a, y.inA) (x.net.a, x.inA)) →
      Progress2 (y.alive, (y.net.a, y.inA), (y.net.b, y.inB)) (x.alive, (x.net.a, x.inA), (x.net.b, x.inB)) := by
    rintro ⟨e1, e2, e3, h⟩
    rw [e1, e2, e3]
    exact .right _ (.fst h)
  have b : (y.alive = x.alive ∧ y.net.a = x.net.a ∧ y.inA = x.inA ∧ Progress (y.net.b, y.inB) (x.net.b, x.inB)) →
      Progress2 (y.alive, (y.net.a, y.inA), (y.net.b, y.inB)) (x.alive, (x.net.a, x.inA), (x.net.b, x.inB)) := by
    rintro ⟨e1, e2, e3, h⟩
    rw [e1, e2, e3]
    exact .right _ (.snd h)
  have c : Cut x y → Progress2 (y.alive, (y.net.a, y.inA), (y.net.b, y.inB)) (x.alive, (x.net.a, x.inA), (x.net.b, x.inB)) := by
    rintro ⟨hv, i, j, rfl⟩
    exact .left _ _ ⟨rfl, hv⟩
  rcases h with (h | h | h) | h | h | h
  · exact a (sockHalf_progress h)
  · exact a h.progress
  · exact c h.1
  · exact b (sockHalf_progress h)
  · exact b h.progress
  · exact c h.1

theorem Spec.Shut.inSend {x y : BreakSock α β} (h : Shut x y) (h2 : InSend x.swap) : InSend y ∧ InSend y.swap := by
  obtain ⟨-, hi, -, h, he⟩ := h
  have hb := TcpStep.keep h
  refine ⟨?_, ?_⟩
  · rw [he]
    intro hu
    rw [show x.inA = true from hu] at hi
    cases hi
  · intro hu
    have := h2 (by rw [he] at hu; exact hu)
    simpa [BreakSock.swap, SockNet.swap, hb] using this

theorem tcpBreak_inSend {x y : BreakSock α β} (h : tcpBreak.Reach x y) (h1 : InSend x) (h2 : InSend x.swap) :
    InSend y ∧ InSend y.swap := by
  induction h with
  | refl => exact ⟨h1, h2⟩
  | step _ hs ih =>
    rcases hs with (hs | hs | ⟨⟨-, i, j, rfl⟩, -⟩) | hs | hs | ⟨⟨-, i, j, rfl⟩, -⟩
    · exact inSend_half hs ih.1 ih.2
    · exact hs.inSend ih.2
    · exact ih
    · exact (inSend_half hs ih.2 ih.1).symm
    · exact (hs.inSend ih.1).symm
    · exact ih

/-! ### While the connection works -/

/-- A program within a `sendall` whose bytes are on their way is about to go on. -/
def sent : Bool → IT sock α → IT sock α
  | true, .op (.sendall _) k => k (.ok ())
  | _, p => p

/-- The connection with all `sendall` completed. -/
def settled (x : BreakSock α β) : SockNet α β := ⟨sent x.inA x.net.a, sent x.inB x.net.b, x.net.ab, x.net.ba⟩

theorem settled_swap (x : BreakSock α β) : settled x.swap = (settled x).swap := rfl

@[simp] theorem sent_false (p : IT sock α) : sent false p = p := by
  unfold sent
  split
  · contradiction
  · rfl

@[simp] theorem sent_ret (u : Bool) (r : α) : sent u (.ret r) = .ret r := by
  cases u <;> rfl

@[simp] theorem sent_send (d : Bytes) (k : Except Err Unit → IT sock α) :
    sent true (.op (S := sock) (.sendall d) k) = k (.ok ()) := rfl

theorem half_settled {x y : BreakSock α β} (h : BreakSock.Half x y) (hx : x.alive = true) :
    settled y = settled x ∨ TcpStep (settled x) (settled y) := by
  cases h with
  | put d k =>
    refine .inr ?_
    simp only [settled, sent_false, sent_send]
    exact .send d k
  | done d k =>
    left
    simp [settled]
  | lost => cases hx
  | raise => cases hx
  | recv n chunk k h1 h2 =>
    refine .inr ?_
    simp only [settled, sent_false]
    exact .recv n chunk k h1 h2
  | eof => cases hx
  | reset => cases hx

theorem shut_settled {x y : BreakSock α β} (h : Shut x y) : TcpStep (settled x) (settled y) := by
  obtain ⟨-, hi, ⟨r, hr⟩, h, he⟩ := h
  obtain ⟨⟨a, b, ab, ba⟩, v, u, w⟩ := x
  obtain ⟨⟨a', b', ab', ba'⟩, v', u', w'⟩ := y
  cases he
  cases hi
  cases hr
  have hb := TcpStep.keep h
  cases hb
  simpa [settled] using h

theorem tcpBreak_alive {x y : BreakSock α β} (h : tcpBreak.stepC x y ∨ tcpBreak.stepS x y) (hy : y.alive = true) :
    x.alive = true ∧ (settled y = settled x ∨ (tcpBreak.stepC x y ∧ tcp.stepC (settled x) (settled y)) ∨
      tcp.stepS (settled x) (settled y)) := by
  rcases h with (h | h | ⟨⟨-, i, j, rfl⟩, -⟩) | h | h | ⟨⟨-, i, j, rfl⟩, -⟩
  · have hx : x.alive = true := (sockHalf_progress h).1.symm.trans hy
    refine ⟨hx, ?_⟩
    rcases half_settled h hx with e | e
    · exact .inl e
    · exact .inr (.inl ⟨.inl h, e⟩)
  · exact ⟨h.1, .inr (.inl ⟨.inr (.inl h), shut_settled h⟩)⟩
  · cases hy
  · have hx : x.alive = true := (sockHalf_progress h).1.symm.trans hy
    refine ⟨hx, ?_⟩
    rcases half_settled h hx with e | e
    · refine .inl ?_
      rw [settled_swap, settled_swap] at e
      exact congrArg SockNet.swap e
    · exact .inr (.inr e)
  · exact ⟨h.1, .inr (.inr (shut_settled h))⟩
  · cases hy

/-- As long as the connection works, it is a TCP connection. -/
theorem tcpBreak_sim {x z : BreakSock α β} (h : tcpBreak.Reach x z) (hz : z.alive = true) :
    x.alive = true ∧ tcp.Reach (settled x) (settled z) := by
  induction h with
  | refl => exact ⟨hz, .refl _⟩
  | step _ hs ih =>
    obtain ⟨h1, h2⟩ := tcpBreak_alive hs hz
    obtain ⟨h3, h4⟩ := ih h1
    refine ⟨h3, ?_⟩
    rcases h2 with e | ⟨-, e⟩ | e
    · rw [e]; exact h4
    · exact .step h4 (.inl e)
    · exact .step h4 (.inr e)

theorem tcpBreak_simC {x z : BreakSock α β} (h : tcpBreak.ReachC x z) (hz : z.alive = true) :
    x.alive = true ∧ tcp.ReachC (settled x) (settled z) := by
  induction h with
  | refl => exact ⟨hz, .refl _⟩
  | @step y z _ hs ih =>
    have key : y.alive = true ∧ (settled z = settled y ∨ TcpStep (settled y) (settled z)) := by
      rcases hs with h | h | ⟨⟨-, i, j, rfl⟩, -⟩
      · have hx : y.alive = true := (sockHalf_progress h).1.symm.trans hz
        exact ⟨hx, half_settled h hx⟩
      · exact ⟨h.1, .inr (shut_settled h)⟩
      · cases hz
    obtain ⟨h3, h4⟩ := ih key.1
    refine ⟨h3, ?_⟩
    rcases key.2 with e | e
    · rw [e]; exact h4
    · exact .step h4 e

/-- On a connection that may break any two programs end; if it has not broken, as they do on one that does not. -/
theorem tcpBreak_all {Q : SockNet α β → Prop} {x : SockNet α β} (h : ∀ z, tcp.Reach x z → tcp.Stuck z → Q z) :
    tcpBreak.Ends (IfWorks Q) (working x) := by
  refine ⟨tcpBreak_terminates _, fun z hz hs => ?_⟩
  obtain ⟨i1, i2⟩ := tcpBreak_inSend hz nofun nofun
  have hd : (∃ r, z.net.a = .ret r) ∧ ∃ r, z.net.b = .ret r := by
    cases hv : z.alive with
    | true =>
      constructor
      · by_contra hn
        exact hs _ (.inl (.inr (.inr ⟨⟨hv, 0, 0, rfl⟩, hn⟩)))
      · by_contra hn
        exact hs _ (.inr (.inr (.inr ⟨⟨hv, 0, 0, rfl⟩, hn⟩)))
    | false =>
      constructor
      · cases ha : z.net.a with
        | ret r => exact ⟨r, rfl⟩
        | op o k =>
          obtain ⟨Y, h⟩ := sock_op_half hv i1 ha
          exact absurd (.inl (.inl h)) (hs Y)
      · cases ha : z.net.b with
        | ret r => exact ⟨r, rfl⟩
        | op o k =>
          obtain ⟨Y, h⟩ := sock_op_half (X := z.swap) hv i2 ha
          exact absurd (.inr (.inl h)) (hs Y.swap)
  refine ⟨hd.1, hd.2, fun hv => ?_⟩
  obtain ⟨-, hr⟩ := tcpBreak_sim hz hv
  have he : settled z = z.net := by
    obtain ⟨⟨r, ha⟩, r', hb⟩ := hd
    obtain ⟨⟨a, b, ab, ba⟩, v, u, w⟩ := z
    cases ha
    cases hb
    simp [settled]
  rw [he] at hr
  have h0 : settled (working x) = x := by simp [settled, working]
  rw [h0] at hr
  refine h _ hr ?_
  rintro y (hy | hy)
  · exact tcp_lawful.noC _ _ hd.1 hy
  · exact tcp_lawful.noS _ _ hd.2 hy

theorem tcpBreak_ends {Q : SockNet α β → Prop} {x : SockNet α β} (h : tcp.Ends Q x) : tcpBreak.Ends (IfWorks Q) (working x) :=
  tcpBreak_all fun z hz hs => (h.2 z hz hs).2.2

/-- A client that does not end before the server has done something does not do so on a connection that may, but does not,
break. -/
theorem tcpBreak_needs {x : SockNet α β} (h : tcp.NeedsServer x) {z : BreakSock α β} (hz : tcpBreak.ReachC (working x) z)
    (hd : ∃ r, z.net.a = .ret r) : z.alive = false := by
  cases hv : z.alive with
  | false => rfl
  | true =>
    obtain ⟨-, hr⟩ := tcpBreak_simC hz hv
    have h0 : settled (working x) = x := by simp [settled, working]
    rw [h0] at hr
    obtain ⟨r, hr'⟩ := hd
    exact absurd ⟨r, by simp [settled, hr']⟩ (h _ hr)

theorem tcpStep_lift {x y : SockNet α β} (h : TcpStep x y) :
    BreakSock.Half (working x) (working y) ∨ Shut (working x) (working y) ∨
    ∃ m, BreakSock.Half (working x) m ∧ BreakSock.Half m (working y) := by
  cases h with
  | send d k => exact .inr (.inr ⟨_, .put d k, .done d k⟩)
  | recv n chunk k h1 h2 => exact .inl (.recv n chunk k h1 h2)
  | eof n k => exact .inr (.inl ⟨rfl, rfl, ⟨_, rfl⟩, .eof n k, rfl⟩)
  | broken d k e h => exact .inr (.inl ⟨rfl, rfl, ⟨_, rfl⟩, .broken d k e h, rfl⟩)
  | reset n k e h => exact .inr (.inl ⟨rfl, rfl, ⟨_, rfl⟩, .reset n k e h, rfl⟩)

/-- Whatever can happen on a TCP connection can happen without the connection breaking. -/
theorem tcp_lift {x y : SockNet α β} (h : tcp.Reach x y) : tcpBreak.Reach (working x) (working y) := by
  induction h with
  | refl => exact .refl _
  | step _ hs ih =>
    rcases hs with hs | hs
    · rcases tcpStep_lift hs with e | e | ⟨m, e1, e2⟩
      · exact .step ih (.inl (.inl e))
      · exact .step ih (.inl (.inr (.inl e)))
      · exact .step (.step ih (.inl (.inl e1))) (.inl (.inl e2))
    · rcases tcpStep_lift hs with e | e | ⟨m, e1, e2⟩
      · exact .step ih (.inr (.inl e))
      · exact .step ih (.inr (.inr (.inl e)))
      · exact .step (y := m.swap) (.step ih (.inr (.inl e1))) (.inr (.inl e2))

end Salt
