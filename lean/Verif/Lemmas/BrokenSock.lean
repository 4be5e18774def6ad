import Verif.Spec.BrokenSock
import Verif.Lemmas.SockNet
import Verif.Lemmas.Broken

/-!
# TCP connections that break, as seen by the channels
-/

set_option linter.unusedSimpArgs false

namespace Salt

open Spec Props SocketChannel

variable {α β : Type}

theorem Spec.BreakNet.Reach.snoc {E : Err → Prop} {x y z : BreakNet α β} (h : BreakNet.Reach E x y) (hs : BreakNet.Step E y z) :
    BreakNet.Reach E x z := by
  induction h with
  | refl => exact .step hs (.refl _)
  | step h1 _ ih => exact .step h1 (ih hs)

theorem sockHalf_progress {x y : BreakSock α β} (h : BreakSock.Half x y) :
    y.alive = x.alive ∧ y.net.b = x.net.b ∧ y.inB = x.inB ∧ Progress (y.net.a, y.inA) (x.net.a, x.inA) := by
  cases h with
  | put => exact ⟨rfl, rfl, rfl, .right _ ⟨rfl, rfl⟩⟩
  | done d k => exact ⟨rfl, rfl, rfl, .left _ _ (.op (S := sock) (.sendall d) k (.ok ()))⟩
  | lost d k => exact ⟨rfl, rfl, rfl, .left _ _ (.op (S := sock) (.sendall d) k (.ok ()))⟩
  | raise d k e => exact ⟨rfl, rfl, rfl, .left _ _ (.op (S := sock) (.sendall d) k (.error e))⟩
  | recv n chunk k => exact ⟨rfl, rfl, rfl, .left _ _ (.op (S := sock) (.recv n) k (.ok chunk))⟩
  | eof n k => exact ⟨rfl, rfl, rfl, .left _ _ (.op (S := sock) (.recv n) k (.ok []))⟩
  | reset n k e => exact ⟨rfl, rfl, rfl, .left _ _ (.op (S := sock) (.recv n) k (.error e))⟩

theorem breakSock_terminates (x : BreakSock α β) : BreakSock.Terminates x := by
  refine Subrelation.accessible (r := InvImage Progress2 fun x : BreakSock α β =>
    (x.alive, (x.net.a, x.inA), (x.net.b, x.inB))) ?_ (InvImage.accessible _ (progress2_wf.apply _))
  intro y x h
  cases h with
  | a h =>
    obtain ⟨e1, e2, e3, h⟩ := sockHalf_progress h
    show Progress2 (y.alive, (y.net.a, y.inA), (y.net.b, y.inB)) (x.alive, (x.net.a, x.inA), (x.net.b, x.inB))
    rw [e1, e2, e3]
    exact .right _ (.fst h)
  | b h =>
    obtain ⟨e1, e2, e3, h⟩ := sockHalf_progress h
    simp only [BreakSock.swap, SockNet.swap] at e1 e2 e3 h
    show Progress2 (y.alive, (y.net.a, y.inA), (y.net.b, y.inB)) (x.alive, (x.net.a, x.inA), (x.net.b, x.inB))
    rw [e1, e2, e3]
    exact .right _ (.snd h)
  | cut i j => exact .left _ _ ⟨rfl, rfl⟩

theorem breakSock_ends (x : BreakSock α β) (hx : x.alive = false) :
    ∃ z, BreakSock.Reach x z ∧ z.alive = false ∧ BreakSock.Stuck z := by
  have key : ∀ x : BreakSock α β, x.alive = false → ∃ z, (∀ w, BreakSock.Reach w x → BreakSock.Reach w z) ∧
      z.alive = false ∧ BreakSock.Stuck z := by
    intro x hx
    have h := breakSock_terminates x
    unfold BreakSock.Terminates at h
    induction h with
    | intro x _ ih =>
      by_cases hs : BreakSock.Stuck x
      · exact ⟨x, fun _ h => h, hx, hs⟩
      · obtain ⟨y, hy⟩ := Classical.not_forall_not.1 hs
        have hd : y.alive = false := by
          cases hy with
          | a h => exact (sockHalf_progress h).1.trans hx
          | b h => exact (sockHalf_progress h).1.trans hx
          | cut i j => rfl
        obtain ⟨z, h1, h2, h3⟩ := ih y hy hd
        exact ⟨z, fun w hw => h1 w (.step hw hy), h2, h3⟩
  obtain ⟨z, h1, h2, h3⟩ := key x hx
  exact ⟨z, h1 x (.refl x), h2, h3⟩

theorem ReadSt.fails {c : Bytes} {n : Nat} {k : Except Err Bytes → IT sock (Except Err Bytes × Unit)}
    (h : ReadSt c (.op (S := sock) (.recv n) k)) :
    k (.ok []) = .ret (.error .comException, ()) ∧ ∀ e, k (.error e) = .ret (.error .comException, ()) := by
  generalize hu : (.op (S := sock) (.recv n) k : IT sock (Except Err Bytes × Unit)) = u at h
  cases h with
  | head c hc =>
    rw [recvall_succ_run _ _ (by omega), IT.op_bind] at hu
    cases hu
    exact ⟨by simp [readHead], fun e => by simp [readHead]⟩
  | body n c hc hn =>
    rw [recvall_succ_run _ _ (by omega), IT.op_bind] at hu
    cases hu
    exact ⟨by simp [readBody], fun e => by simp [readBody]⟩

theorem onSocket_write_fails (ms : List Bytes) (l : Bool) (k : Except Err Unit → IT appSig α)
    (h : ∀ m ∈ ms, m.length < 2 ^ 31) : ∃ k', onSocket (.op (S := appSig) (.write ms l) k) =
      .op (S := sock) (.sendall (frames ms)) k' ∧ k' (.ok ()) = onSocket (k (.ok ())) ∧
      ∀ e, k' (.error e) = onSocket (k (.error .comException)) := by
  simp only [onSocket, writeSync_run, rawOf_eq ms h, IT.op_bind]
  exact ⟨_, rfl, rfl, fun e => rfl⟩

/-- What a side has received and what it may still receive, and the messages on their way to it. -/
def Arrives (v : Bool) (c bytes : Bytes) (ms : List Bytes) : Prop :=
  c ++ bytes <+: frames ms ∧ (v = true → c ++ bytes = frames ms)

/-- The network of sockets is where the network of messages is. -/
structure BreakInv (x : BreakNet α β) (X : BreakSock α β) : Prop where
  alive : x.alive = X.alive
  inA : x.inA = X.inA
  inB : x.inB = X.inB
  ex : ∃ ca cb, SideSt x.net.a X.net.a ca ∧ SideSt x.net.b X.net.b cb ∧ Arrives X.alive ca X.net.ba x.net.ba ∧
    Arrives X.alive cb X.net.ab x.net.ab
  shortA : ShortWritesP x.net.a
  shortB : ShortWritesP x.net.b
  msgs : (∀ m ∈ x.net.ab, m.length < 2 ^ 31) ∧ ∀ m ∈ x.net.ba, m.length < 2 ^ 31

theorem BreakInv.swap {x : BreakNet α β} {X : BreakSock α β} (h : BreakInv x X) : BreakInv x.swap X.swap := by
  obtain ⟨ca, cb, h1, h2, h3, h4⟩ := h.ex
  exact ⟨h.alive, h.inB, h.inA, ⟨cb, ca, h2, h1, h4, h3⟩, h.shortB, h.shortA, h.msgs.2, h.msgs.1⟩

/-- A side that is about to send writes. -/
theorem SideSt.sends {p : IT appSig α} {d c : Bytes} {k : Except Err Unit → IT sock α} (hp : ShortWritesP p)
    (h : SideSt p (.op (S := sock) (.sendall d) k) c) : ∃ ms l k0, p = .op (S := appSig) (.write ms l) k0 ∧ c = [] ∧
      d = frames ms ∧ k (.ok ()) = onSocket (k0 (.ok ())) ∧ ∀ e, k (.error e) = onSocket (k0 (.error .comException)) := by
  generalize hP : (.op (S := sock) (.sendall d) k : IT sock α) = P at h
  cases h with
  | idle _ hnr =>
    cases p with
    | ret r => cases hP
    | op e k0 =>
      cases e with
      | read => exact absurd rfl (hnr k0)
      | write ms l =>
        obtain ⟨k', e1, e2, e3⟩ := onSocket_write_fails ms l k0 hp.1
        rw [e1] at hP
        cases hP
        exact ⟨ms, l, k0, rfl, rfl, rfl, e2, e3⟩
  | reading k0 hr =>
    obtain ⟨n, k', rfl, -⟩ := hr.next
    rw [IT.op_bind] at hP
    cases hP

/-- A side that is about to receive reads. -/
theorem SideSt.recvs {p : IT appSig α} {n : Nat} {c : Bytes} {k : Except Err Bytes → IT sock α} (hp : ShortWritesP p)
    (h : SideSt p (.op (S := sock) (.recv n) k) c) : ∃ k0 k', p = .op (S := appSig) .read k0 ∧
      ReadSt c (.op (S := sock) (.recv n) k') ∧ ∀ r, k r = (k' r).bind fun (r, _) => onSocket (k0 r) := by
  generalize hP : (.op (S := sock) (.recv n) k : IT sock α) = P at h
  cases h with
  | idle _ hnr =>
    cases p with
    | ret r => cases hP
    | op e k0 =>
      cases e with
      | read => exact absurd rfl (hnr k0)
      | write ms l =>
        obtain ⟨k', e1, -⟩ := onSocket_write_fails ms l k0 hp.1
        rw [e1] at hP
        cases hP
  | reading k0 hr =>
    obtain ⟨n, k', rfl, -⟩ := hr.next
    rw [IT.op_bind] at hP
    cases hP
    exact ⟨k0, k', rfl, hr, fun _ => rfl⟩

theorem Arrives.take {v : Bool} {c bytes : Bytes} {ms : List Bytes} (h : Arrives v c bytes ms) (i : Nat) :
    Arrives false c (bytes.take i) ms :=
  ⟨((List.prefix_append_right_inj c).2 (List.take_prefix i bytes)).trans h.1, nofun⟩

theorem Arrives.none (ms : List Bytes) : Arrives false [] [] ms := ⟨by simp, nofun⟩

theorem BreakInv.half {x : BreakNet α β} {X Y : BreakSock α β} (h : BreakInv x X) (hs : BreakSock.Half X Y) :
    BreakInv x Y ∨ ∃ y, BreakNet.Half (· = .comException) x y ∧ BreakInv y Y := by
  obtain ⟨hv, hu, hw, ⟨ca, cb, h1, h2, h3, h4⟩, sA, sB, m1, m2⟩ := h
  obtain ⟨⟨p, q, xab, xba⟩, v, u, w⟩ := x
  cases hs with
  | put d k =>
    cases hv; cases hu; cases hw
    obtain ⟨ms, l, k0, rfl, rfl, rfl, e1, -⟩ := h1.sends sA
    refine .inr ⟨_, .put ms l k0, rfl, rfl, rfl, ⟨[], cb, h1, h2, h3, ?_⟩, sA, sB, ?_, m2⟩
    · have := h4.2 rfl
      simp only at this
      refine ⟨?_, fun _ => ?_⟩ <;> simp only [frames_append, ← this, List.append_assoc, List.prefix_refl]
    · intro m hm
      rcases List.mem_append.1 hm with hm | hm
      · exact m1 m hm
      · exact sA.1 m hm
  | done d k =>
    cases hv; cases hu; cases hw
    obtain ⟨ms, l, k0, rfl, rfl, rfl, e1, -⟩ := h1.sends sA
    exact .inr ⟨_, .done ms l k0, rfl, rfl, rfl, ⟨[], cb, e1 ▸ .init _, h2, h3, h4⟩, sA.2 _, sB, m1, m2⟩
  | lost d k =>
    cases hv; cases hu; cases hw
    obtain ⟨ms, l, k0, rfl, rfl, rfl, e1, -⟩ := h1.sends sA
    exact .inr ⟨_, .lost ms l k0, rfl, rfl, rfl, ⟨[], cb, e1 ▸ .init _, h2, h3, h4⟩, sA.2 _, sB, m1, m2⟩
  | raise d k e =>
    cases hv; cases hu; cases hw
    obtain ⟨ms, l, k0, rfl, rfl, rfl, -, e2⟩ := h1.sends sA
    exact .inr ⟨_, .raise ms l k0 .comException rfl, rfl, rfl, rfl, ⟨[], cb, e2 e ▸ .init _, h2, h3, h4⟩, sA.2 _, sB, m1, m2⟩
  | @recv _ _ bytes _ _ n chunk k hne hle =>
    cases hv; cases hu; cases hw
    obtain ⟨k0, k', rfl, hr, hk⟩ := h1.recvs sA
    obtain ⟨n', k'', he, -, -, hnext⟩ := hr.next
    cases he
    obtain ⟨tail, ht⟩ := h3.1
    simp only at ht m2 h3
    have ht' : ca ++ (chunk ++ (bytes ++ tail)) = frames xba := by rw [← ht]; simp only [List.append_assoc]
    obtain ⟨m, ms, rfl, he⟩ := frames_cons_cases ht' (by simp [hne])
    rcases hnext m _ chunk _ (m2 m List.mem_cons_self) he hne hle with ⟨d, hd, hst⟩ | ⟨hret, hrest⟩
    · refine .inl ⟨rfl, rfl, rfl, ⟨ca ++ chunk, cb, ?_, h2, ?_, h4⟩, sA, sB, m1, m2⟩
      · simp only [hk]
        exact .reading k0 hst
      · simpa [Arrives] using h3
    · have hb : Arrives v [] bytes ms := ⟨⟨tail, by simpa using hrest⟩, fun hv => by
        have := h3.2 hv
        rw [this] at ht
        have ht0 : tail = [] := by simpa using ht
        simpa [ht0] using hrest⟩
      have hside : SideSt (k0 (.ok m)) (k (.ok chunk)) [] := by
        rw [hk, hret, IT.ret_bind]
        exact .init _
      exact .inr ⟨_, .read m k0, rfl, rfl, rfl, ⟨[], cb, hside, h2, hb, h4⟩, sA _, sB, m1,
        fun x hx => m2 x (List.mem_cons_of_mem _ hx)⟩
  | eof n k =>
    cases hv; cases hu; cases hw
    obtain ⟨k0, k', rfl, hr, hk⟩ := h1.recvs sA
    refine .inr ⟨_, .fail k0 .comException rfl, rfl, rfl, rfl, ⟨[], cb, ?_, h2, Arrives.none _, h4⟩, sA _, sB, m1, m2⟩
    simp only [hk, hr.fails.1, IT.ret_bind]
    exact .init _
  | reset n k e =>
    cases hv; cases hu; cases hw
    obtain ⟨k0, k', rfl, hr, hk⟩ := h1.recvs sA
    refine .inr ⟨_, .fail k0 .comException rfl, rfl, rfl, rfl, ⟨[], cb, ?_, h2, Arrives.none _, h4⟩, sA _, sB, m1, m2⟩
    simp only [hk, hr.fails.2, IT.ret_bind]
    exact .init _

theorem BreakInv.step {x : BreakNet α β} {X Y : BreakSock α β} (h : BreakInv x X) (hs : BreakSock.Step X Y) :
    BreakInv x Y ∨ ∃ y, BreakNet.Step (· = .comException) x y ∧ BreakInv y Y := by
  cases hs with
  | a hs =>
    rcases h.half hs with h' | ⟨y, h1, h2⟩
    · exact .inl h'
    · exact .inr ⟨y, .a h1, h2⟩
  | b hs =>
    rcases h.swap.half hs with h' | ⟨y, h1, h2⟩
    · exact .inl h'.swap
    · exact .inr ⟨y.swap, .b h1, h2.swap⟩
  | cut i j =>
    obtain ⟨hv, hu, hw, ⟨ca, cb, h1, h2, h3, h4⟩, sA, sB, m⟩ := h
    obtain ⟨⟨p, q, xab, xba⟩, v, u, w⟩ := x
    cases hv
    refine .inr ⟨_, .cut xab.length xba.length, rfl, hu, hw, ⟨ca, cb, h1, h2, ?_, ?_⟩, sA, sB, ?_⟩
    · simp only [List.take_length]; exact h3.take j
    · simp only [List.take_length]; exact h4.take i
    · simpa only [List.take_length] using m

/-- What happens on sockets is what may happen on a connection for messages. -/
theorem breakSock_sim {pA : IT appSig α} {pB : IT appSig β} (hA : ShortWritesP pA) (hB : ShortWritesP pB) {Z : BreakSock α β}
    (h : BreakSock.Reach (BreakSock.start (onSocket pA) (onSocket pB)) Z) :
    ∃ z, BreakNet.Reach (· = .comException) (BreakNet.start pA pB) z ∧ BreakInv z Z := by
  generalize hX : BreakSock.start (onSocket pA) (onSocket pB) = X at h
  induction h with
  | refl =>
    subst hX
    exact ⟨_, .refl _, rfl, rfl, rfl, ⟨[], [], .init _, .init _, ⟨by simp [BreakSock.start, SockNet.start], fun _ => rfl⟩,
      ⟨by simp [BreakSock.start, SockNet.start], fun _ => rfl⟩⟩, hA, hB, nofun, nofun⟩
  | step _ hs ih =>
    obtain ⟨y, h1, h2⟩ := ih
    rcases h2.step hs with h3 | ⟨z, h3, h4⟩
    · exact ⟨y, h1, h3⟩
    · exact ⟨z, h1.snoc h3, h4⟩

theorem sock_op_half {X : BreakSock α β} (hd : X.alive = false) (hi : X.inA = true → ∃ d k, X.net.a = .op (S := sock) (.sendall d) k)
    {e : sock.Op} {k : Except Err (sock.Resp e) → IT sock α} (ha : X.net.a = .op e k) : ∃ Y, BreakSock.Half X Y := by
  obtain ⟨⟨a, b, ab, ba⟩, v, u, w⟩ := X
  cases hd
  cases ha
  cases e with
  | recv n =>
    cases u with
    | true => obtain ⟨d, k, h⟩ := hi rfl; cases h
    | false => exact ⟨_, .reset n k .comException⟩
  | sendall d => exact ⟨_, .raise d k .comException⟩

/-- Only a program within a `sendall` is within a `sendall`. -/
def InSend (X : BreakSock α β) : Prop := X.inA = true → ∃ d k, X.net.a = .op (S := sock) (.sendall d) k

theorem inSend_half {X Y : BreakSock α β} (h : BreakSock.Half X Y) (h1 : InSend X) (h2 : InSend X.swap) :
    InSend Y ∧ InSend Y.swap := by
  cases h with
  | put d k => exact ⟨fun _ => ⟨_, _, rfl⟩, h2⟩
  | done => exact ⟨nofun, h2⟩
  | lost => exact ⟨nofun, h2⟩
  | raise => exact ⟨nofun, h2⟩
  | recv => exact ⟨nofun, h2⟩
  | eof => exact ⟨nofun, h2⟩
  | reset => exact ⟨nofun, h2⟩

theorem inSend_reach {X Y : BreakSock α β} (h : BreakSock.Reach X Y) (h1 : InSend X) (h2 : InSend X.swap) :
    InSend Y ∧ InSend Y.swap := by
  induction h with
  | refl => exact ⟨h1, h2⟩
  | step _ hs ih =>
    cases hs with
    | a hs => exact inSend_half hs ih.1 ih.2
    | b hs => exact (inSend_half hs ih.2 ih.1).symm
    | cut i j => exact ih

theorem breakSock_stuck {P : IT sock α} {Q : IT sock β} {X : BreakSock α β} (hr : BreakSock.Reach (BreakSock.start P Q) X)
    (hd : X.alive = false) (hs : BreakSock.Stuck X) : (∃ r, X.net.a = .ret r) ∧ ∃ r, X.net.b = .ret r := by
  obtain ⟨i1, i2⟩ := inSend_reach hr nofun nofun
  constructor
  · cases ha : X.net.a with
    | ret r => exact ⟨r, rfl⟩
    | op o k =>
      obtain ⟨Y, h⟩ := sock_op_half hd i1 ha
      exact absurd (.a h) (hs Y)
  · cases ha : X.net.b with
    | ret r => exact ⟨r, rfl⟩
    | op o k =>
      obtain ⟨Y, h⟩ := sock_op_half (X := X.swap) hd i2 ha
      exact absurd (.b (y := Y.swap) h) (hs Y.swap)

theorem SideSt.returned {p : IT appSig α} {c : Bytes} {r : α} (hp : ShortWritesP p) (h : SideSt p (.ret r) c) : p = .ret r := by
  generalize hP : (.ret r : IT sock α) = P at h
  cases h with
  | idle _ hnr =>
    cases p with
    | ret r' => cases hP; rfl
    | op e k0 =>
      cases e with
      | read => exact absurd rfl (hnr k0)
      | write ms l =>
        obtain ⟨k', e1, -⟩ := onSocket_write_fails ms l k0 hp.1
        rw [e1] at hP
        cases hP
  | reading k0 hr =>
    obtain ⟨n, k', rfl, -⟩ := hr.next
    rw [IT.op_bind] at hP
    cases hP

end Salt
