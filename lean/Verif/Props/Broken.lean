import Verif.Lemmas.BrokenScript
import Verif.Lemmas.AgainNet
import Verif.Lemmas.BrokenSock
import Verif.Lemmas.BrokenStream
import Verif.Lemmas.SockSession
import Verif.Props.Net2

/-!
# C124: sessions on a connection that breaks

The connection may break at any moment, within the handshake or within a write. Both sides come to an end; a handshake
that does not succeed raises the exception of the byte channel, and a program that runs gets, read by read, what the other
program has written, in order and unchanged, and then the exceptions of the byte channel.
-/

set_option linter.unusedSimpArgs false

namespace Salt.Props

open Salt Salt.Spec

variable {α β : Type}

theorem half_progress {E : Err → Prop} {x y : BreakNet α β} (h : BreakNet.Half E x y) :
    y.alive = x.alive ∧ y.net.b = x.net.b ∧ y.inB = x.inB ∧ Progress (y.net.a, y.inA) (x.net.a, x.inA) := by
  cases h with
  | put => exact ⟨rfl, rfl, rfl, .right _ ⟨rfl, rfl⟩⟩
  | done ms l k => exact ⟨rfl, rfl, rfl, .left _ _ (.op (S := appSig) (.write ms l) k (.ok ()))⟩
  | lost ms l k => exact ⟨rfl, rfl, rfl, .left _ _ (.op (S := appSig) (.write ms l) k (.ok ()))⟩
  | raise ms l k e => exact ⟨rfl, rfl, rfl, .left _ _ (.op (S := appSig) (.write ms l) k (.error e))⟩
  | read m k => exact ⟨rfl, rfl, rfl, .left _ _ (.op (S := appSig) .read k (.ok m))⟩
  | fail k e => exact ⟨rfl, rfl, rfl, .left _ _ (.op (S := appSig) .read k (.error e))⟩

/-- Programs are finite, so whatever the schedule there is an end. -/
theorem broken_terminates (E : Err → Prop) (x : BreakNet α β) : BreakNet.Terminates E x := by
  refine Subrelation.accessible (r := InvImage Progress2 fun x : BreakNet α β =>
    (x.alive, (x.net.a, x.inA), (x.net.b, x.inB))) ?_ (InvImage.accessible _ (progress2_wf.apply _))
  intro y x h
  cases h with
  | a h =>
    obtain ⟨e1, e2, e3, h⟩ := half_progress h
    show Progress2 (y.alive, (y.net.a, y.inA), (y.net.b, y.inB)) (x.alive, (x.net.a, x.inA), (x.net.b, x.inB))
    rw [e1, e2, e3]
    exact .right _ (.fst h)
  | b h =>
    obtain ⟨e1, e2, e3, h⟩ := half_progress h
    simp only [BreakNet.swap] at e1 e2 e3 h
    show Progress2 (y.alive, (y.net.a, y.inA), (y.net.b, y.inB)) (x.alive, (x.net.a, x.inA), (x.net.b, x.inB))
    rw [e1, e2, e3]
    exact .right _ (.snd h)
  | cut i j => exact .left _ _ ⟨rfl, rfl⟩

/-- Any run can be continued until nothing more can happen. -/
theorem broken_ends (E : Err → Prop) (x : BreakNet α β) (hx : x.alive = false) :
    ∃ z, BreakNet.Reach E x z ∧ z.alive = false ∧ BreakNet.Stuck E z := by
  have h := broken_terminates E x
  unfold BreakNet.Terminates at h
  induction h with
  | intro x _ ih =>
    by_cases hs : BreakNet.Stuck E x
    · exact ⟨x, .refl x, hx, hs⟩
    · obtain ⟨y, hy⟩ := Classical.not_forall_not.1 hs
      have hd : y.alive = false := by
        cases hy with
        | a h => exact (half_progress h).1.trans hx
        | b h => exact (half_progress h).1.trans hx
        | cut i j => rfl
      obtain ⟨z, h1, h2, h3⟩ := ih y hy hd
      exact ⟨z, .step hy h1, h2, h3⟩

/-- Only a program within a write is within a write. -/
def InWrite (x : BreakNet α β) : Prop := x.inA = true → ∃ ms l k, x.net.a = .op (S := appSig) (.write ms l) k

theorem inWrite_half {E : Err → Prop} {x y : BreakNet α β} (h : BreakNet.Half E x y) (h1 : InWrite x) (h2 : InWrite x.swap) :
    InWrite y ∧ InWrite y.swap := by
  cases h with
  | put ms l k => exact ⟨fun _ => ⟨_, _, _, rfl⟩, h2⟩
  | done => exact ⟨nofun, h2⟩
  | lost => exact ⟨nofun, h2⟩
  | raise => exact ⟨nofun, h2⟩
  | read => exact ⟨nofun, h2⟩
  | fail => exact ⟨nofun, h2⟩

theorem inWrite_reach {E : Err → Prop} {x y : BreakNet α β} (h : BreakNet.Reach E x y) (h1 : InWrite x) (h2 : InWrite x.swap) :
    InWrite y ∧ InWrite y.swap := by
  induction h with
  | refl => exact ⟨h1, h2⟩
  | step hs _ ih =>
    cases hs with
    | a hs => have h := inWrite_half hs h1 h2; exact ih h.1 h.2
    | b hs => have h := inWrite_half hs h2 h1; exact ih h.2 h.1
    | cut i j => exact ih h1 h2

theorem op_half {E : Err → Prop} {x : BreakNet α β} (hd : x.alive = false) (hi : InWrite x) (he : ∃ e, E e)
    {o : AppOp} {k : Except Err o.Resp → IT appSig α} (ha : x.net.a = .op (S := appSig) o k) : ∃ y, BreakNet.Half E x y := by
  obtain ⟨⟨a, b, ab, ba⟩, v, u, w⟩ := x
  obtain ⟨e, he⟩ := he
  cases hd
  cases ha
  cases o with
  | read =>
    cases u with
    | true => obtain ⟨ms, l, k, h⟩ := hi rfl; cases h
    | false => exact ⟨_, .fail k e he⟩
  | write ms l => exact ⟨_, .raise ms l k e he⟩

/-- When nothing more can happen, both have returned. -/
theorem broken_stuck {E : Err → Prop} {p : IT appSig α} {q : IT appSig β} {z : BreakNet α β}
    (hr : BreakNet.Reach E (BreakNet.start p q) z) (hd : z.alive = false) (hs : BreakNet.Stuck E z) (he : ∃ e, E e) :
    (∃ r, z.net.a = .ret r) ∧ ∃ r, z.net.b = .ret r := by
  obtain ⟨i1, i2⟩ := inWrite_reach hr nofun nofun
  constructor
  · cases ha : z.net.a with
    | ret r => exact ⟨r, rfl⟩
    | op o k =>
      obtain ⟨y, h⟩ := op_half hd i1 he ha
      exact absurd (.a h) (hs y)
  · cases ha : z.net.b with
    | ret r => exact ⟨r, rfl⟩
    | op o k =>
      obtain ⟨y, h⟩ := op_half (x := z.swap) hd i2 he ha
      exact absurd (.b (y := y.swap) h) (hs y.swap)

theorem modest_mono {cap n m : Nat} {p : IT appSig α} (h : Modest cap p n) (hnm : n ≤ m) : Modest cap p m := by
  induction p generalizing n m with
  | ret => trivial
  | op o k ih =>
    cases o with
    | read => exact fun r => ih r (h r) hnm
    | write ms l => exact ⟨h.1, h.2.1, Nat.le_trans h.2.2.1 hnm, fun r => ih r (h.2.2.2 r) (by omega)⟩

/-- What C47 says about a replay. -/
theorem broken_core {L : Lib} {cc cs : Clock} {cfgC : ClientCfg} {cfgS : ServerCfg} {kc ks : KeyPair}
    (S : Setup L cc cs cfgC cfgS kc ks) {opsA opsB : List AppOp} {n m : Nat} (hn : n ≤ 2 ^ 62)
    (hA : Modest 65535 (script opsA []) n) (hB : Modest 65535 (script opsB []) n)
    (hb : cfgC.bufferM4 = true → ∃ ms l os, opsA = .write ms l :: os) {uA uB ab ba}
    (h : Net.Run m (Net.start (party L cc (clientSession cfgC (script opsA [])) 0)
      (party L cs (serverSession cfgS (script opsB [])) 0)) ⟨uA, uB, ab, ba⟩) :
    (∀ r s, uA = .ret (r, s) → ∃ v, r = .ok v ∧ AllOk v ∧ gotIn v <+: opsSent opsB) ∧
    ∀ r s, uB = .ret (r, s) → ∃ v, r = .ok v ∧ AllOk v ∧ gotIn v <+: opsSent opsA := by
  obtain ⟨key, h1, h2, -, y, Y, ⟨-, n1, hy, -⟩, ⟨hst, n2, hY, -⟩, eA, eB, -⟩ := C47_end_to_end S (script opsA []) (script opsB [])
    hn hA hB (fun h => by obtain ⟨ms, l, os, rfl⟩ := hb h; exact ⟨ms, l, _, rfl⟩)
  have hk := netRun_keeps (hY.confluent hst h).2
  have hsc := script_net hy
  constructor
  · rintro r s rfl
    rw [hk.1 _ rfl] at eA
    generalize hya : y.a = t at eA
    cases eA with
    | ret hq => exact ⟨_, hq.1, hsc.doneA hya⟩
  · rintro r s rfl
    rw [hk.2 _ rfl] at eB
    generalize hyb : y.b = t at eB
    cases eB with
    | ret hq => exact ⟨_, hq.1, hsc.doneB hyb⟩

/-- **C124.** The connection between a client session and a server session breaks, at any moment. Then both come to an end:
there is no infinite schedule, and when nothing more can happen both have returned. A side whose `handshake()` has not
succeeded has raised an exception of the byte channel; otherwise the program has run, its failed calls have raised
exceptions of the byte channel, and the messages that it has read are, in this order, the first ones that the other
program has written. -/
theorem C124_broken_connection {L : Lib} {cc cs : Clock} {cfgC : ClientCfg} {cfgS : ServerCfg} {kc ks : KeyPair}
    (S : Setup L cc cs cfgC cfgS kc ks) (pA : IT appSig α) (pB : IT appSig β) {n : Nat}
    (hn : n ≤ 2 ^ 62) (hA : Modest 65535 pA n) (hB : Modest 65535 pB n)
    (hb : cfgC.bufferM4 = true → ∃ ms l k, pA = .op (S := appSig) (.write ms l) k) (E : Err → Prop) (hE : ∃ e, E e) :
    BreakNet.Terminates E (BreakNet.start (party L cc (clientSession cfgC pA) 0) (party L cs (serverSession cfgS pB) 0)) ∧
    ∀ z, BreakNet.Reach E
      (BreakNet.start (party L cc (clientSession cfgC pA) 0) (party L cs (serverSession cfgS pB) 0)) z →
      z.alive = false → BreakNet.Stuck E z →
      ∃ ra sa rb sb, z.net.a = .ret (ra, sa) ∧ z.net.b = .ret (rb, sb) ∧
        ∃ hA hB, SideEnd E pA ra hA ∧ SideEnd E pB rb hB ∧ FailsWith E hA ∧ FailsWith E hB ∧
          gotIn hA <+: sentIn hB ∧ gotIn hB <+: sentIn hA := by
  refine ⟨broken_terminates E _, fun z hz hd hs => ?_⟩
  obtain ⟨⟨⟨ra, sa⟩, hra⟩, ⟨⟨rb, sb⟩, hrb⟩⟩ := broken_stuck hz hd hs hE
  refine ⟨ra, sa, rb, sb, hra, hrb, ?_⟩
  obtain ⟨trA, trB, xA, xB, fA, fB, hrep⟩ := reach_replay hz hra hrb
  have xA := xA.exec
  have xB := xB.exec
  simp only [BreakNet.start, Net.start, clientSession, serverSession, clientAfter_eq, serverAfter_eq] at xA xB
  have hA' : Modest 65535 pA (max n 1) := modest_mono hA (Nat.le_max_left _ _)
  have hB' : Modest 65535 pB (max n 1) := modest_mono hB (Nat.le_max_left _ _)
  have hn' : max n 1 ≤ 2 ^ 62 := Nat.max_le.2 ⟨hn, by decide⟩
  have sA := session_local (client_clean cfgC Client.init) _ _ pA xA fA
  have sB := session_local (server_clean cfgS Server.init) _ _ pB xB fB
  simp only [← clientAfter_eq, ← serverAfter_eq] at sA sB
  have run : ∀ {opsA opsB gA gB uA uB}, Follow trA gA → Follow trB gB →
      Perf (party L cc (clientSession cfgC (script opsA [])) 0) gA uA →
      Perf (party L cs (serverSession cfgS (script opsB [])) 0) gB uB →
      Modest 65535 (script opsA []) (max n 1) → Modest 65535 (script opsB []) (max n 1) →
      (cfgC.bufferM4 = true → ∃ ms l os, opsA = .write ms l :: os) →
      (∀ r s, uA = .ret (r, s) → ∃ v, r = .ok v ∧ AllOk v ∧ gotIn v <+: opsSent opsB) ∧
      ∀ r s, uB = .ret (r, s) → ∃ v, r = .ok v ∧ AllOk v ∧ gotIn v <+: opsSent opsA := by
    intro opsA opsB gA gB uA uB f1 f2 p1 p2 m1 m2 hw
    obtain ⟨m, ab, ba, hr⟩ := hrep _ _ (Net.start (party L cc (clientSession cfgC (script opsA [])) 0)
      (party L cs (serverSession cfgS (script opsB [])) 0)) gA gB uA uB f1 f2 p1 p2 (by simp [Links, BreakNet.start, Net.start])
    exact broken_core S hn' m1 m2 hw hr
  have one : ∀ x : UInt8, Modest 65535 (script [.write [[x]] false] []) (max n 1) := fun x =>
    ⟨by simp, by simp, Nat.le_max_right _ _, fun r => trivial⟩
  have wr : ∀ x : UInt8, cfgC.bufferM4 = true → ∃ ms l os, ([.write [[x]] false] : List AppOp) = .write ms l :: os :=
    fun x _ => ⟨_, _, _, rfl⟩
  have hw : ∀ {h v a}, Exec pA h a → Amends E h v → cfgC.bufferM4 = true → ∃ ms l os, opsOf v = .write ms l :: os := by
    intro h v a hx ham hbuf
    obtain ⟨ms, l, k, rfl⟩ := hb hbuf
    cases hx with
    | op _ _ r tr _ _ =>
      cases ham with
      | same _ _ => exact ⟨ms, l, _, rfl⟩
      | write _ _ _ _ _ => exact ⟨ms, l, _, rfl⟩
  -- some replay of each side
  have anyA : ∀ x : UInt8, ∃ ops g u, Follow trA g ∧ Perf (party L cc (clientSession cfgC (script ops [])) 0) g u ∧
      Modest 65535 (script ops []) (max n 1) ∧ (cfgC.bufferM4 = true → ∃ ms l os, ops = .write ms l :: os) := by
    intro x
    rcases sA with ⟨e, h1, h2⟩ | ⟨e, -, -, h2⟩ | ⟨a, h, v, g, s', -, h2, h3, h4, h5⟩
    · obtain ⟨s', h⟩ := h2 _ (script [.write [[x]] false] [])
      exact ⟨_, _, _, h1.follow, h, one x, wr x⟩
    · obtain ⟨g, u, h3, h4⟩ := h2 _ (script [.write [[x]] false] [])
      exact ⟨_, _, _, h3, h4, one x, wr x⟩
    · exact ⟨_, _, _, h4, h5, h3.modest h2 hA' _, hw h2 h3⟩
  have anyB : ∃ ops g u, Follow trB g ∧ Perf (party L cs (serverSession cfgS (script ops [])) 0) g u ∧
      Modest 65535 (script ops []) (max n 1) := by
    rcases sB with ⟨e, h1, h2⟩ | ⟨e, -, -, h2⟩ | ⟨a, h, v, g, s', -, h2, h3, h4, h5⟩
    · obtain ⟨s', h⟩ := h2 _ (script [.write [[1]] false] [])
      exact ⟨_, _, _, h1.follow, h, one 1⟩
    · obtain ⟨g, u, h3, h4⟩ := h2 _ (script [.write [[1]] false] [])
      exact ⟨_, _, _, h3, h4, one 1⟩
    · exact ⟨_, _, _, h4, h5, h3.modest h2 hB' _⟩
  have nothing : ∀ {l : List Bytes}, l <+: [[1]] → l <+: [[2]] → l = [] := by
    intro l h1 h2
    cases l with
    | nil => rfl
    | cons x l =>
      have e1 := (List.cons_prefix_cons.1 h1).1
      have e2 := (List.cons_prefix_cons.1 h2).1
      rw [e1] at e2
      cases e2
  rcases sA with ⟨e, h1, h2⟩ | ⟨e, he, hre, h2⟩ | ⟨a, h, v, g, s', rfl, h2, h3, h4, h5⟩
  · obtain ⟨s', h⟩ := h2 _ (script [.write [[1]] false] [])
    obtain ⟨ops, g, u, f, p, m⟩ := anyB
    obtain ⟨v, hv, -⟩ := (run h1.follow f h p (one 1) m (wr 1)).1 _ _ rfl
    cases hv
  · rcases sB with ⟨e', h1', h2'⟩ | ⟨e', he', hre', h2'⟩ | ⟨a', h', v', g', s'', rfl, h2', h3', h4', h5'⟩
    · obtain ⟨s', h⟩ := h2' _ (script [.write [[1]] false] [])
      obtain ⟨ops, g, u, f, p, m, w⟩ := anyA 1
      obtain ⟨v, hv, -⟩ := (run f h1'.follow p h m (one 1) w).2 _ _ rfl
      cases hv
    · exact ⟨[], [], .inl ⟨rfl, e, he, hre⟩, .inl ⟨rfl, e', he', hre'⟩, nofun, nofun, List.nil_prefix, List.nil_prefix⟩
    · have key : ∀ x : UInt8, AllOk v' ∧ gotIn v' <+: [[x]] := by
        intro x
        obtain ⟨g, u, h3, h4⟩ := h2 _ (script [.write [[x]] false] [])
        obtain ⟨w, hw', h⟩ := (run h3 h4' h4 h5' (one x) (h3'.modest h2' hB' _) (wr x)).2 _ _ rfl
        cases hw'
        exact h
      refine ⟨[], h', .inl ⟨rfl, e, he, hre⟩, .inr ⟨a', rfl, h2'⟩, nofun, h3'.fails (key 1).1, List.nil_prefix, ?_⟩
      rw [h3'.got, nothing (key 1).2 (key 2).2]
      exact List.nil_prefix
  · rcases sB with ⟨e', h1', h2'⟩ | ⟨e', he', hre', h2'⟩ | ⟨a', h', v', g', s'', rfl, h2', h3', h4', h5'⟩
    · obtain ⟨s', h⟩ := h2' _ (script [.write [[1]] false] [])
      obtain ⟨ops, g, u, f, p, m, w⟩ := anyA 1
      obtain ⟨v, hv, -⟩ := (run f h1'.follow p h m (one 1) w).2 _ _ rfl
      cases hv
    · have key : ∀ x : UInt8, AllOk v ∧ gotIn v <+: [[x]] := by
        intro x
        obtain ⟨g, u, h3', h4'⟩ := h2' _ (script [.write [[x]] false] [])
        obtain ⟨w, hw', h⟩ := (run h4 h3' h5 h4' (h3.modest h2 hA' _) (one x) (hw h2 h3)).1 _ _ rfl
        cases hw'
        exact h
      refine ⟨h, [], .inr ⟨a, rfl, h2⟩, .inl ⟨rfl, e', he', hre'⟩, h3.fails (key 1).1, nofun, ?_, List.nil_prefix⟩
      rw [h3.got, nothing (key 1).2 (key 2).2]
      exact List.nil_prefix
    · have hr := run h4 h4' h5 h5' (h3.modest h2 hA' _) (h3'.modest h2' hB' _) (hw h2 h3)
      obtain ⟨w, hw1, o1, g1⟩ := hr.1 _ _ rfl
      obtain ⟨w', hw2, o2, g2⟩ := hr.2 _ _ rfl
      cases hw1
      cases hw2
      refine ⟨h, h', .inr ⟨a, rfl, h2⟩, .inr ⟨a', rfl, h2'⟩, h3.fails o1, h3'.fails o2, ?_, ?_⟩
      · rw [h3.got, h3'.sent, sentIn_ops]; exact g1
      · rw [h3'.got, h3.sent, sentIn_ops]; exact g2

/-- **C124 over TCP.** The same for sessions on `SocketChannel`s whose connection breaks: bytes are lost, `recv` and `sendall`
raise anything, `recv` returns `b''`. Both sides come to an end, and all that handshakes and programs see of it is `ComException`. -/
theorem C124_broken_socket {L : Lib} {cc cs : Clock} {cfgC : ClientCfg} {cfgS : ServerCfg} {kc ks : KeyPair}
    (S : Setup L cc cs cfgC cfgS kc ks) (hL : BoxSize L) (pA : IT appSig α) (pB : IT appSig β) {n : Nat}
    (hn : n ≤ 2 ^ 62) (hA : Modest 65535 pA n) (hB : Modest 65535 pB n)
    (hb : cfgC.bufferM4 = true → ∃ ms l k, pA = .op (S := appSig) (.write ms l) k)
    (wA : CallsWithin (2 ^ 31 - 27) pA) (wB : CallsWithin (2 ^ 31 - 27) pB)
    (ha2 : ((cfgS.a2.getD (A2.ofCase .default)).toBytes).length < 2 ^ 31) :
    BreakSock.Terminates (BreakSock.start (onSocket (party L cc (clientSession cfgC pA) 0))
      (onSocket (party L cs (serverSession cfgS pB) 0))) ∧
    ∀ Z, BreakSock.Reach (BreakSock.start (onSocket (party L cc (clientSession cfgC pA) 0))
      (onSocket (party L cs (serverSession cfgS pB) 0))) Z → Z.alive = false → BreakSock.Stuck Z →
      ∃ ra sa rb sb, Z.net.a = .ret (ra, sa) ∧ Z.net.b = .ret (rb, sb) ∧
        ∃ hA hB, SideEnd (· = .comException) pA ra hA ∧ SideEnd (· = .comException) pB rb hB ∧
          FailsWith (· = .comException) hA ∧ FailsWith (· = .comException) hB ∧
          gotIn hA <+: sentIn hB ∧ gotIn hB <+: sentIn hA := by
  refine ⟨breakSock_terminates _, fun Z hZ hd hs => ?_⟩
  have sA := party_short cc _ (client_size hL S.encC S.honest.dh.aPub S.honest.sigC.pub pA wA) 0
  have sB := party_short cs _ (server_size hL S.encS S.honest.dh.bPub S.honest.sigS.pub ha2 pB wB) 0
  obtain ⟨z, h1, h2⟩ := breakSock_sim sA sB hZ
  obtain ⟨⟨ra, hra⟩, ⟨rb, hrb⟩⟩ := breakSock_stuck hZ hd hs
  obtain ⟨ca, cb, e1, e2, -⟩ := h2.ex
  rw [hra] at e1
  rw [hrb] at e2
  have e1 := e1.returned h2.shortA
  have e2 := e2.returned h2.shortB
  have hz : z.alive = false := h2.alive.trans hd
  have hst : BreakNet.Stuck (· = .comException) z := by
    intro y hy
    obtain ⟨⟨a, b, ab, ba⟩, v, u, w⟩ := z
    cases e1
    cases e2
    cases hz
    cases hy with
    | a h => cases h
    | b h => cases h
  obtain ⟨ra', sa, rb', sb, e3, e4, h⟩ := (C124_broken_connection S pA pB hn hA hB hb (· = .comException) ⟨_, rfl⟩).2 z h1 hz hst
  refine ⟨ra', sa, rb', sb, ?_, ?_, h⟩
  · rw [hra]; rw [e1] at e3; cases e3; rfl
  · rw [hrb]; rw [e2] at e4; cases e4; rfl

/-- **C124 on asyncio streams.** The same for sessions on `AsyncioChannel`s: bytes are lost, `readexactly` raises
`IncompleteReadError` or what has broken the connection, `drain` raises or not. Both sides come to an end, and these exceptions
are what handshakes and programs see. -/
theorem C124_broken_stream {L : Lib} {cc cs : Clock} {cfgC : ClientCfg} {cfgS : ServerCfg} {kc ks : KeyPair}
    (S : Setup L cc cs cfgC cfgS kc ks) (hL : BoxSize L) (pA : IT appSig α) (pB : IT appSig β) {n : Nat}
    (hn : n ≤ 2 ^ 62) (hA : Modest 65535 pA n) (hB : Modest 65535 pB n)
    (hb : cfgC.bufferM4 = true → ∃ ms l k, pA = .op (S := appSig) (.write ms l) k)
    (wA : CallsWithin (2 ^ 31 - 27) pA) (wB : CallsWithin (2 ^ 31 - 27) pB)
    (ha2 : ((cfgS.a2.getD (A2.ofCase .default)).toBytes).length < 2 ^ 31) (E : Err → Prop) (hE : E .incompleteReadError) :
    BreakStream.Terminates E (BreakStream.start (onAsyncio (party L cc (clientSession cfgC pA) 0))
      (onAsyncio (party L cs (serverSession cfgS pB) 0))) ∧
    ∀ Z, BreakStream.Reach E (BreakStream.start (onAsyncio (party L cc (clientSession cfgC pA) 0))
      (onAsyncio (party L cs (serverSession cfgS pB) 0))) Z → Z.alive = false → BreakStream.Stuck E Z →
      ∃ ra sa rb sb, Z.a = .ret (ra, sa) ∧ Z.b = .ret (rb, sb) ∧
        ∃ hA hB, SideEnd E pA ra hA ∧ SideEnd E pB rb hB ∧ FailsWith E hA ∧ FailsWith E hB ∧
          gotIn hA <+: sentIn hB ∧ gotIn hB <+: sentIn hA := by
  refine ⟨breakStream_terminates E _, fun Z hZ hd hs => ?_⟩
  have sA := party_short cc _ (client_size hL S.encC S.honest.dh.aPub S.honest.sigC.pub pA wA) 0
  have sB := party_short cs _ (server_size hL S.encS S.honest.dh.bPub S.honest.sigS.pub ha2 pB wB) 0
  obtain ⟨z, h1, h2⟩ := breakStream_sim hE sA sB hZ
  obtain ⟨⟨ra, hra⟩, ⟨rb, hrb⟩⟩ := breakStream_stuck hd hs
  obtain ⟨ca, c1, cb, c2, e1, e2, -⟩ := h2.ex
  rw [hra] at e1
  rw [hrb] at e2
  have e1 := e1.returned h2.shortA
  have e2 := e2.returned h2.shortB
  have hz : z.alive = false := h2.alive.trans hd
  have hst : BreakNet.Stuck E z := by
    intro y hy
    obtain ⟨⟨a, b, ab, ba⟩, v, u, w⟩ := z
    cases e1
    cases e2
    cases hz
    cases hy with
    | a h => cases h
    | b h => cases h
  obtain ⟨ra', sa, rb', sb, e3, e4, h⟩ := (C124_broken_connection S pA pB hn hA hB hb E ⟨_, hE⟩).2 z h1 hz hst
  refine ⟨ra', sa, rb', sb, ?_, ?_, h⟩
  · rw [hra]; rw [e1] at e3; cases e3; rfl
  · rw [hrb]; rw [e2] at e4; cases e4; rfl

/-- The client writes two messages. -/
def exTell : IT appSig Unit := .op (S := appSig) (.write [[1], [2, 3]] false) fun _ => .ret ()

/-- The server reads two. -/
def exHear : IT appSig (List (Except Err Bytes)) :=
  .op (S := appSig) .read fun x => .op (S := appSig) .read fun y => .ret [x, y]

/-- These programs, connected. -/
def exTellHear (b b' : Bool) : BreakNet (Except Err Unit × ClientSt) (Except Err (List (Except Err Bytes)) × ServerSt) :=
  BreakNet.start (party toyLib exClock (clientSession (exCfgC b) exTell) 0)
    (party toyLib exClock (serverSession (exCfgS b') exHear) 0)

/-- What the server's side may end with, if the byte channel raises `e0`. -/
def HeardOf (e0 : Err) (rb : Except Err (List (Except Err Bytes))) : Prop :=
  rb = .error e0 ∨ rb = .ok [.error e0, .error e0] ∨
    rb = .ok [.ok [1], .error e0] ∨ rb = .ok [.error e0, .ok [1]] ∨ rb = .ok [.ok [1], .ok [2, 3]]

theorem ex_heard {e0 : Err} {ra rb} {hA hB : List (Ev appSig)} (sA : SideEnd (· = e0) exTell ra hA)
    (sB : SideEnd (· = e0) exHear rb hB) (fB : FailsWith (· = e0) hB) (g : gotIn hB <+: sentIn hA) :
    HeardOf e0 rb := by
  have hsent : sentIn hA <+: [[1], [2, 3]] := by
    rcases sA with ⟨rfl, -⟩ | ⟨a, -, hx⟩
    · exact List.nil_prefix
    · cases hx with
      | op _ _ r tr _ hx => cases hx; simp [sentIn]
  have hg := g.trans hsent
  rcases sB with ⟨-, e, rfl, rfl⟩ | ⟨a, rfl, hx⟩
  · exact .inl rfl
  · cases hx with
    | op _ _ r tr _ hx =>
      cases hx with
      | op _ _ r' tr' _ hx =>
        cases hx
        have e1 := fB _ List.mem_cons_self
        have e2 := fB _ (List.mem_cons_of_mem _ List.mem_cons_self)
        right
        cases r with
        | error e =>
          cases e1 e rfl
          cases r' with
          | error e' => cases e2 e' rfl; exact .inl rfl
          | ok m => simp [gotIn] at hg; simp [hg]
        | ok m =>
          cases r' with
          | error e' => cases e2 e' rfl; simp [gotIn] at hg; simp [hg]
          | ok m' => simp [gotIn] at hg; simp [hg]

/-- These programs over a connection that breaks at once, or any time later: there is such an end, and in each of them the
server's handshake has raised `ComException`, or its program has read nothing, only the first message, or both. -/
example (b b' : Bool) :
    (∃ z, BreakNet.Reach (· = .comException) (exTellHear b b') z ∧ z.alive = false ∧ BreakNet.Stuck (· = .comException) z) ∧
    ∀ z, BreakNet.Reach (· = .comException) (exTellHear b b') z → z.alive = false → BreakNet.Stuck (· = .comException) z →
      ∃ rb sb, z.net.b = .ret (rb, sb) ∧ HeardOf .comException rb := by
  refine ⟨?_, fun z h1 h2 h3 => ?_⟩
  · obtain ⟨z, h1, h2, h3⟩ := broken_ends (α := Except Err Unit × ClientSt) (β := Except Err (List (Except Err Bytes)) × ServerSt)
      (· = .comException) ⟨⟨_, _, [], []⟩, false, false, false⟩ rfl
    exact ⟨z, .step (.cut 0 0) h1, h2, h3⟩
  · obtain ⟨ra, sa, rb, sb, -, hb, hA, hB, sA, sB, fA, fB, -, g⟩ := (C124_broken_connection (exSetup b b') exTell exHear (n := 2)
      (by decide) ⟨by decide, by decide, by decide, fun _ => trivial⟩ (fun _ _ => trivial) (fun _ => ⟨_, _, _, rfl⟩)
      (· = .comException) ⟨_, rfl⟩).2 z h1 h2 h3
    exact ⟨rb, sb, hb, ex_heard sA sB fB g⟩

/-- The same over TCP: there is an end after the connection has broken at once; in each of them the server's side has ended as before. -/
example (b b' : Bool) :
    let a := onSocket (party toyLib exClock (clientSession (exCfgC b) exTell) 0)
    let s := onSocket (party toyLib exClock (serverSession (exCfgS b') exHear) 0)
    (∃ Z, BreakSock.Reach (BreakSock.start a s) Z ∧ Z.alive = false ∧ BreakSock.Stuck Z) ∧
    ∀ Z, BreakSock.Reach (BreakSock.start a s) Z → Z.alive = false → BreakSock.Stuck Z →
      ∃ rb sb, Z.net.b = .ret (rb, sb) ∧ HeardOf .comException rb := by
  intro a s
  refine ⟨?_, fun Z h1 h2 h3 => ?_⟩
  · have hr : BreakSock.Reach (BreakSock.start a s) ⟨⟨a, s, [], []⟩, false, false, false⟩ := .step (.refl _) (.cut 0 0)
    have key : ∀ x z : BreakSock _ _, BreakSock.Reach x z → BreakSock.Reach (BreakSock.start a s) x →
        BreakSock.Reach (BreakSock.start a s) z := by
      intro x z h
      induction h with
      | refl => exact id
      | step _ hs ih => exact fun h => .step (ih h) hs
    obtain ⟨z, h1, h2, h3⟩ := breakSock_ends ⟨⟨a, s, [], []⟩, false, false, false⟩ rfl
    exact ⟨z, key _ _ h1 hr, h2, h3⟩
  · obtain ⟨ra, sa, rb, sb, -, hb, hA, hB, sA, sB, fA, fB, -, g⟩ := (C124_broken_socket (exSetup b b') toy_size exTell exHear (n := 2)
      (by decide) ⟨by decide, by decide, by decide, fun _ => trivial⟩ (fun _ _ => trivial) (fun _ => ⟨_, _, _, rfl⟩)
      ⟨by decide, fun _ => trivial⟩ (fun _ _ => trivial) (by simp only [exCfgS]; decide)).2 Z h1 h2 h3
    exact ⟨rb, sb, hb, ex_heard sA sB fB g⟩

/-- The same on asyncio streams, if nothing else breaks them than the end of the file. -/
example (b b' : Bool) :
    let a := onAsyncio (party toyLib exClock (clientSession (exCfgC b) exTell) 0)
    let s := onAsyncio (party toyLib exClock (serverSession (exCfgS b') exHear) 0)
    (∃ Z, BreakStream.Reach (· = .incompleteReadError) (BreakStream.start a s) Z ∧ Z.alive = false ∧
      BreakStream.Stuck (· = .incompleteReadError) Z) ∧
    ∀ Z, BreakStream.Reach (· = .incompleteReadError) (BreakStream.start a s) Z → Z.alive = false →
      BreakStream.Stuck (· = .incompleteReadError) Z → ∃ rb sb, Z.b = .ret (rb, sb) ∧ HeardOf .incompleteReadError rb := by
  intro a s
  refine ⟨?_, fun Z h1 h2 h3 => ?_⟩
  · have hr : BreakStream.Reach (· = .incompleteReadError) (BreakStream.start a s) ⟨a, s, [], [], false⟩ :=
      .step (.refl _) (.cut 0 0)
    have key : ∀ x z : BreakStream _ _, BreakStream.Reach (· = .incompleteReadError) x z →
        BreakStream.Reach (· = .incompleteReadError) (BreakStream.start a s) x →
        BreakStream.Reach (· = .incompleteReadError) (BreakStream.start a s) z := by
      intro x z h
      induction h with
      | refl => exact id
      | step _ hs ih => exact fun h => .step (ih h) hs
    obtain ⟨z, h1, h2, h3⟩ := breakStream_ends (· = .incompleteReadError) ⟨a, s, [], [], false⟩ rfl
    exact ⟨z, key _ _ h1 hr, h2, h3⟩
  · obtain ⟨ra, sa, rb, sb, -, hb, hA, hB, sA, sB, fA, fB, -, g⟩ := (C124_broken_stream (exSetup b b') toy_size exTell exHear (n := 2)
      (by decide) ⟨by decide, by decide, by decide, fun _ => trivial⟩ (fun _ _ => trivial) (fun _ => ⟨_, _, _, rfl⟩)
      ⟨by decide, fun _ => trivial⟩ (fun _ _ => trivial) (by simp only [exCfgS]; decide) (· = .incompleteReadError) rfl).2 Z h1 h2 h3
    exact ⟨rb, sb, hb, ex_heard sA sB fB g⟩

end Salt.Props
