import Verif.Lemmas.Secrecy
import Verif.Spec.CryptoLaws
import Verif.Model.Examples

/-!
# C117: what a session reveals
-/

namespace Salt.Props

open Spec

/-! ### C117 -/

/-- **C117, client.** Two client sessions with programs that differ only in the contents of messages, and with any
two signing key pairs, cannot be told apart: what they send depends on these only through boxes. -/
theorem C117_client_reveals_nothing {β γ : Type} (Q : β → γ → Prop) (cfg : ClientCfg) (kp : KeyPair)
    (hk : cfg.sigKp.pub.length = kp.pub.length) (prog : IT appSig β) (prog' : IT appSig γ) (h : SameShape Q prog prog') :
    Indistinct (fun _ => True) Q (clientSession cfg prog) (clientSession { cfg with sigKp := kp } prog') :=
  (clientSession_twins cfg kp hk h).indistinct

/-- **C117, server.** The same for server sessions, as long as the first packet does not ask for one of the two
signing keys. -/
theorem C117_server_reveals_nothing {β γ : Type} (Q : β → γ → Prop) (cfg : ServerCfg) (kp : KeyPair)
    (hk : cfg.sigKp.pub.length = kp.pub.length) (prog : IT appSig β) (prog' : IT appSig γ) (h : SameShape Q prog prog') :
    Indistinct (fun tr => ¬ AsksForOne cfg.sigKp.pub kp.pub tr) Q (serverSession cfg prog)
      (serverSession { cfg with sigKp := kp } prog') := by
  rcases serverSession_twins cfg kp hk h with ⟨e, h1, h2⟩ | ⟨k, k', h1, h2, h3⟩
  · rw [h1, h2]
    exact indistinct_ret (.inr ⟨e, rfl, rfl⟩)
  · rw [h1, h2]
    refine indistinct_read (G := fun r => ∀ raw, r = .ok raw → leNat (field raw 5 1) % 2 = 1 →
        (field raw 42 32 = cfg.sigKp.pub ↔ field raw 42 32 = kp.pub)) (fun r tr => ?_) h3
    constructor
    · intro hn raw hr hf
      subst hr
      exact Decidable.byContradiction fun hx => hn ⟨raw, tr, rfl, hf, hx⟩
    · rintro hg ⟨raw, rest, he, hf, hx⟩
      injection he with h4 h5
      injection h4 with h6 h7
      exact hx (hg raw h7 hf)

/-- In particular two server sessions with the same public signing key (and any two secret ones) are never told apart. -/
theorem C117_server_same_identity {β γ : Type} (Q : β → γ → Prop) (cfg : ServerCfg) (sec : Bytes)
    (prog : IT appSig β) (prog' : IT appSig γ) (h : SameShape Q prog prog') (tr : List (Ev env))
    (x : Except Err β × ServerSt) (hx : Exec (serverSession cfg prog) tr x) :
    ∃ tr' y, Exec (serverSession { cfg with sigKp := { cfg.sigKp with sec := sec } } prog') tr' y ∧ InStep tr tr' ∧
      EndAlike Q x y ∧ wire tr' = wire tr := by
  obtain ⟨tr', y, -, h1⟩ := (C117_server_reveals_nothing Q cfg { cfg.sigKp with sec := sec } rfl prog prog' h).2.1 tr x
    (fun ⟨_, _, _, _, hn⟩ => hn Iff.rfl) hx
  exact ⟨tr', y, h1⟩

/-- The restriction on the server is needed: asked for a key, a server says whether it is its own (with an M2 that
refuses), so two servers can be told apart. -/
theorem C117_asked : ∃ (cfg : ServerCfg) (kp : KeyPair) (prog : IT appSig Unit),
    cfg.sigKp.pub.length = kp.pub.length ∧ SameShape (fun _ _ => True) prog prog ∧
    ¬ Indistinct (fun _ => True) (fun _ _ => True) (serverSession cfg prog) (serverSession { cfg with sigKp := kp } prog) := by
  let kpA : KeyPair := ⟨zeros 64, zeros 32⟩
  let kpB : KeyPair := ⟨zeros 64, List.replicate 32 1⟩
  let cfg : ServerCfg := { sigKp := kpA, encKp := some ⟨zeros 32, zeros 32⟩, bufferM2 := false, a2 := none }
  refine ⟨cfg, kpB, .ret (), rfl, .ret _ _ trivial, fun h => ?_⟩
  obtain ⟨-, -, h⟩ := h
  let raw := Spec.m1 0 (zeros 32) (some (zeros 32))
  have hm : ∃ m, M1.ctor raw = .ok m := by
    rcases m1_accept raw with ⟨h, -⟩ | ⟨-, h⟩
    · exact h
    · exact absurd (by decide +kernel) h
  obtain ⟨m1, hm⟩ := hm
  have hB : Exec (serverSession { cfg with sigKp := kpB } (.ret () : IT appSig Unit))
      [⟨.read, .ok raw⟩, ⟨.report (leNat (field raw 6 4)), .ok ()⟩, ⟨.hash raw, .ok []⟩, ⟨.firstTime, .ok 0⟩,
        ⟨.write [Spec.m2 true true 0 (zeros 32)] true, .ok ()⟩]
      (.error .noSuchServer, { Server.init with m1 := some m1, m1Hash := [] }) := by
    rw [serverSession, s_handshake_run { cfg with sigKp := kpB } ⟨zeros 32, zeros 32⟩ rfl, IT.op_bind]
    refine .op _ _ _ _ _ ?_
    simp only [sRest, hm, IT.op_bind]
    refine .op _ _ _ _ _ ?_
    simp only [IT.op_bind]
    refine .op _ _ _ _ _ ?_
    simp only
    rw [if_pos (by decide +kernel)]
    refine .op _ _ _ _ _ ?_
    simp only [IT.op_bind]
    refine .op _ _ _ _ _ ?_
    exact .ret _
  obtain ⟨tr, x, -, h1, h2, -, -⟩ := h _ _ trivial hB
  rw [serverSession, s_handshake_run cfg ⟨zeros 32, zeros 32⟩ rfl, IT.op_bind] at h1
  cases h2 with | cons a1 h2 =>
  cases h2 with | cons a2 h2 =>
  cases h2 with | cons a3 h2 =>
  cases h2 with | cons a4 h2 =>
  cases h2 with | cons a5 h2 =>
  cases a1; cases a2; cases a3; cases a4; cases a5
  cases h2
  cases h1 with | op _ _ _ _ _ h1 =>
  simp only [sRest, hm, IT.op_bind] at h1
  cases h1 with | op _ _ _ _ _ h1 =>
  simp only [IT.op_bind] at h1
  cases h1 with | op _ _ _ _ _ h1 =>
  simp only at h1
  rw [if_neg (by decide +kernel), Py.bind_run, s_doM2_run] at h1
  simp only [IT.op_bind] at h1
  cases h1 with | op _ _ _ _ _ h1 =>
  have h32 : (zeros 32).length = 32 := rfl
  simp only [h32, if_true, cfg, Bool.false_eq_true, if_false, IT.op_bind] at h1
  cases h1

/-! ### Programs that meet the hypothesis -/

/-- Sequencing. -/
theorem shape_bind {α β γ δ : Type} {Q : α → β → Prop} {Z : Except Err γ × Unit → Except Err δ × Unit → Prop}
    {m : Py appSig Unit α} {m' : Py appSig Unit β} {f : α → Py appSig Unit γ} {g : β → Py appSig Unit δ}
    (h : SameShape (EndAlike Q) (m ()) (m' ())) (hz : ∀ e, Z (.error e, ()) (.error e, ()))
    (hf : ∀ a b, Q a b → SameShape Z (f a ()) (g b ())) : SameShape Z ((m >>= f) ()) ((m' >>= g) ()) := by
  rw [Py.bind_run, Py.bind_run]
  refine h.bind ?_
  rintro ⟨r, _⟩ ⟨r', _⟩ (⟨a, b, h1, h2, hq⟩ | ⟨e, h1, h2⟩)
  · simp only at h1 h2
    subst h1 h2
    exact hf a b hq
  · simp only at h1 h2
    subst h1 h2
    exact .ret _ _ (hz e)

theorem shape_read : SameShape (EndAlike fun m m' : Bytes => m.length = m'.length) (exRead ()) (exRead ()) :=
  .read _ _ (fun m m' h => .ret _ _ (.inl ⟨m, m', rfl, rfl, h⟩)) fun e => .ret _ _ (.inr ⟨e, rfl, rfl⟩)

theorem shape_write {ms ms' : List Bytes} (l : Bool) (h : ms.map List.length = ms'.map List.length) :
    SameShape (EndAlike fun _ _ => True) (exWrite ms l ()) (exWrite ms' l ()) := by
  refine .write _ _ _ _ _ h fun r => ?_
  cases r with
  | error e => exact .ret _ _ (.inr ⟨e, rfl, rfl⟩)
  | ok u => exact .ret _ _ (.inl ⟨u, u, rfl, rfl, trivial⟩)

theorem endAlike_error {β γ : Type} {Q : β → γ → Prop} (e : Err) :
    EndAlike Q ((.error e, ()) : Except Err β × Unit) ((.error e, ()) : Except Err γ × Unit) := .inr ⟨e, rfl, rfl⟩

/-- The client of the echo example, with any two data of the same length: the responses are as many, and of the
same lengths. -/
theorem shape_echo_client (data data' : Bytes) (h : data.length = data'.length) (n : Nat) :
    SameShape (EndAlike fun rs rs' : List Bytes => rs.map List.length = rs'.map List.length)
      (SimpleEcho.client data n ()) (SimpleEcho.client data' n ()) := by
  induction n with
  | zero => exact .ret _ _ (.inl ⟨_, _, rfl, rfl, rfl⟩)
  | succ n ih =>
    unfold SimpleEcho.client
    refine shape_bind (shape_write false (by simp [h])) endAlike_error fun _ _ _ => ?_
    refine shape_bind shape_read endAlike_error fun m m' hm => ?_
    refine shape_bind ih endAlike_error fun rs rs' hr => ?_
    exact .ret _ _ (.inl ⟨_, _, rfl, rfl, by simp [hm, hr]⟩)

/-- The server of the echo example. -/
theorem shape_echo_server (fuel : Nat) :
    SameShape (EndAlike fun _ _ : Unit => True) (SimpleEcho.server fuel ()) (SimpleEcho.server fuel ()) := by
  induction fuel with
  | zero => exact .ret _ _ (.inl ⟨_, _, rfl, rfl, trivial⟩)
  | succ n ih =>
    unfold SimpleEcho.server Py.onError
    refine SameShape.bind (Q := EndAlike fun _ _ => True) ?_ ?_
    · refine shape_bind shape_read endAlike_error fun m m' hm => ?_
      by_cases h0 : m = []
      · have h0' : m' = [] := by subst h0; exact List.eq_nil_of_length_eq_zero hm.symm
        rw [if_pos h0, if_pos h0']
        exact .ret _ _ (.inl ⟨_, _, rfl, rfl, trivial⟩)
      · have h0' : m' ≠ [] := fun hx => h0 (by subst hx; exact List.eq_nil_of_length_eq_zero hm)
        rw [if_neg h0, if_neg h0']
        exact shape_bind (shape_write false (by simp [hm])) endAlike_error fun _ _ _ => ih
    · rintro ⟨r, _⟩ ⟨r', _⟩ (⟨a, b, h1, h2, hq⟩ | ⟨e, h1, h2⟩)
      · simp only at h1 h2
        subst h1 h2
        exact .ret _ _ (.inl ⟨_, _, rfl, rfl, trivial⟩)
      · simp only at h1 h2
        subst h1 h2
        simp only
        split
        · exact .ret _ _ (.inl ⟨_, _, rfl, rfl, trivial⟩)
        · exact .ret _ _ (.inr ⟨_, rfl, rfl⟩)

/-- The client of example 3 with other requests of the same lengths.  Its assertions compare contents, but after
everything has been sent. -/
theorem shape_example3 (a b c a' b' c' : Bytes) (ha : a.length = a'.length) (hb : b.length = b'.length)
    (hc : c.length = c'.length) :
    SameShape (fun _ _ => True) (Example3.client a b c ()) (Example3.client a' b' c' ()) := by
  unfold Example3.client
  refine shape_bind (shape_write false (by simp [ha])) (fun _ => trivial) fun _ _ _ => ?_
  refine shape_bind shape_read (fun _ => trivial) fun m m' hm => ?_
  refine shape_bind (shape_write false (by simp [hb, hc])) (fun _ => trivial) fun _ _ _ => ?_
  refine shape_bind shape_read (fun _ => trivial) fun m2 m2' _ => ?_
  refine shape_bind shape_read (fun _ => trivial) fun m3 m3' _ => ?_
  have hr : ∀ x y : Except Err Unit × Unit, SameShape (fun _ _ => True) (IT.ret x : IT appSig _) (.ret y) :=
    fun x y => .ret _ _ trivial
  split <;> split <;> (try exact hr _ _) <;> split <;> (try exact hr _ _) <;> split <;> (try exact hr _ _) <;>
    split <;> (try exact hr _ _) <;> split <;> exact hr _ _

/-- Non-vacuity: clients of the echo example with different data and different signing keys. -/
example (kp : KeyPair) (hk : kp.pub.length = 32) (tr : List (Ev env)) (x)
    (h : Exec (clientSession (Example1.clientCfg true) (SimpleEcho.client [1, 5, 5, 5, 5, 5] 10 ())) tr x) :
    ∃ tr' y, Exec (clientSession { Example1.clientCfg true with sigKp := kp } (SimpleEcho.client [9, 9, 9, 9, 9, 9] 10 ()))
      tr' y ∧ wire tr' = wire tr := by
  obtain ⟨tr', y, -, h1, -, -, h2⟩ := (C117_client_reveals_nothing _ (Example1.clientCfg true) kp
    (by rw [hk]; decide +kernel) _ _ (shape_echo_client [1, 5, 5, 5, 5, 5] [9, 9, 9, 9, 9, 9] rfl 10)).2.1 tr x trivial h
  exact ⟨tr', y, h1, h2⟩

/-- Programs whose messages differ in length are not of the same shape. -/
example : ¬ SameShape (fun _ _ => True) (Example1.client [1] ()) (Example1.client [1, 2] ()) := by
  intro h
  unfold Example1.client at h
  simp only [Py.bind_run, exWrite, Py.call_run, IT.op_bind] at h
  cases h with
  | write _ _ _ _ _ hm => simp at hm

end Salt.Props
