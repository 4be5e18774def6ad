import Verif.Lemmas.NetSim

/-!
# What is written by programs on the application channels
-/

set_option linter.unusedSimpArgs false

namespace Salt

open Spec Props

theorem Local.le {L : Lib} {c : Clock} {i j : Nat} {tr : List (Ev env)} (h : Local L c i tr j) : i ≤ j := by
  induction h <;> omega

namespace Spec

theorem SealedAll.append {L : Lib} {key : Bytes} {n : Nat} {ps ps' : List (Bool × Bytes)} {raw raw' : List Bytes}
    (h : SealedAll L key n ps raw) (h' : SealedAll L key (n + 2 * ps.length) ps' raw') :
    SealedAll L key n (ps ++ ps') (raw ++ raw') := by
  induction h with
  | nil => simpa using h'
  | cons l p c hb _ ih =>
    refine .cons l p c hb (ih ?_)
    rw [List.length_cons] at h'
    rwa [show ∀ a b : Nat, a + 2 + 2 * b = a + 2 * (b + 1) by omega]

theorem flagged_length (l : Bool) (ps : List Bytes) : (flagged l ps).length = ps.length := by
  induction ps with
  | nil => rfl
  | cons p ps ih => simp [flagged, ih]

theorem packetsOf_cons (c : Clock) (x : AppCall) (calls : List AppCall) :
    packetsOf c (x :: calls) = flagged x.last (appPackets (c.now x.tick) x.msgs) ++ packetsOf c calls := by
  simp [packetsOf]

theorem groups_flatten (ms : List Bytes) : (groups ms).flatten = ms := by
  unfold groups
  split
  · simp
  · rename_i h
    clear h
    induction ms with
    | nil => rfl
    | cons m ms ih => simp [ih]

theorem groups_ne (ms : List Bytes) : ∀ g ∈ groups ms, g ≠ [] := by
  unfold groups
  split
  · rename_i h
    intro g hg
    simp only [List.mem_singleton] at hg
    subst hg
    intro h0
    simp [h0] at h
  · intro g hg
    simp only [List.mem_map] at hg
    obtain ⟨m, -, rfl⟩ := hg
    simp

namespace AppNet

variable {α β : Type} {x y : AppNet α β} {la lb : List AppCall}

/-- The same network seen from the other side. -/
def swap (x : AppNet α β) : AppNet β α := ⟨x.b, x.a, x.qb, x.qa, x.ba, x.ab, x.ib, x.ia⟩

/-- The call without the number of the call of the time objects. -/
def _root_.Salt.Spec.AppCall.plain (c : AppCall) : Bool × List Bytes := (c.last, c.msgs)

theorem Logged.net (h : Logged x la lb y) : Net.Logged x.net (la.map AppCall.plain) (lb.map AppCall.plain) y.net := by
  induction h with
  | refl x => exact .refl _
  | aWrite ms l k _ ih =>
    refine .aWrite ms l k ?_
    simpa only [AppNet.net, List.flatten_append, groups_flatten, List.append_assoc] using ih
  | aRead m k _ ih => exact .aRead m k ih
  | aPacket m k _ ih =>
    refine .aRead m k ?_
    simpa only [AppNet.net, List.flatten_cons, List.append_assoc, List.append_eq] using ih
  | bWrite ms l k _ ih =>
    refine .bWrite ms l k ?_
    simpa only [AppNet.net, List.flatten_append, groups_flatten, List.append_assoc] using ih
  | bRead m k _ ih => exact .bRead m k ih
  | bPacket m k _ ih =>
    refine .bRead m k ?_
    simpa only [AppNet.net, List.flatten_cons, List.append_assoc, List.append_eq] using ih

/-- Every run is one in which the packets and the calls of the time objects are followed. -/
theorem Logged.of_net {X Y : Net α β} {ca cb : List (Bool × List Bytes)} (h : Net.Logged X ca cb Y) (hx : x.net = X)
    (ha : ∀ g ∈ x.ab, g ≠ []) (hb : ∀ g ∈ x.ba, g ≠ []) : ∃ la lb y, Logged x la lb y ∧ y.net = Y ∧
      la.map AppCall.plain = ca ∧ lb.map AppCall.plain = cb := by
  induction h generalizing x with
  | refl X => exact ⟨[], [], x, .refl _, hx, rfl, rfl⟩
  | aWrite ms l k _ ih =>
    obtain ⟨a, b, qa, qb, ab, ba, ia, ib⟩ := x
    simp only [AppNet.net, Net.mk.injEq] at hx
    obtain ⟨rfl, rfl, rfl, rfl⟩ := hx
    obtain ⟨la, lb, y, h1, h2, h3, h4⟩ := ih (x := ⟨k (.ok ()), b, qa, qb, ab ++ groups ms, ba, ia + 1, ib⟩)
      (by simp only [AppNet.net, List.flatten_append, groups_flatten, List.append_assoc])
      (by
        intro g hg
        rcases List.mem_append.1 hg with hg | hg
        · exact ha g hg
        · exact groups_ne ms g hg) hb
    exact ⟨_, lb, y, .aWrite ms l k h1, h2, by rw [List.map_cons, h3]; rfl, h4⟩
  | bWrite ms l k _ ih =>
    obtain ⟨a, b, qa, qb, ab, ba, ia, ib⟩ := x
    simp only [AppNet.net, Net.mk.injEq] at hx
    obtain ⟨rfl, rfl, rfl, rfl⟩ := hx
    obtain ⟨la, lb, y, h1, h2, h3, h4⟩ := ih (x := ⟨a, k (.ok ()), qa, qb, ab, ba ++ groups ms, ia, ib + 1⟩)
      (by simp only [AppNet.net, List.flatten_append, groups_flatten, List.append_assoc]) ha
      (by
        intro g hg
        rcases List.mem_append.1 hg with hg | hg
        · exact hb g hg
        · exact groups_ne ms g hg)
    exact ⟨la, _, y, .bWrite ms l k h1, h2, h3, by rw [List.map_cons, h4]; rfl⟩
  | aRead m k _ ih =>
    obtain ⟨a, b, qa, qb, ab, ba, ia, ib⟩ := x
    simp only [AppNet.net, Net.mk.injEq] at hx
    obtain ⟨rfl, rfl, rfl, hx⟩ := hx
    cases qa with
    | cons m' qa =>
      rw [List.cons_append, List.cons.injEq] at hx
      obtain ⟨rfl, rfl⟩ := hx
      obtain ⟨la, lb, y, h1, h2, h3, h4⟩ := ih (x := ⟨k (.ok m'), b, qa, qb, ab, ba, ia, ib⟩) rfl ha hb
      exact ⟨la, lb, y, .aRead m' k h1, h2, h3, h4⟩
    | nil =>
      cases ba with
      | nil => cases hx
      | cons g gs =>
        cases g with
        | nil => exact absurd rfl (hb [] List.mem_cons_self)
        | cons m' q =>
          rw [List.nil_append, List.flatten_cons, List.cons_append, List.cons.injEq] at hx
          obtain ⟨rfl, rfl⟩ := hx
          obtain ⟨la, lb, y, h1, h2, h3, h4⟩ := ih (x := ⟨k (.ok m'), b, q, qb, ab, gs, ia + 1, ib⟩) rfl ha
            (fun g hg => hb g (List.mem_cons_of_mem _ hg))
          exact ⟨la, lb, y, .aPacket m' k h1, h2, h3, h4⟩
  | bRead m k _ ih =>
    obtain ⟨a, b, qa, qb, ab, ba, ia, ib⟩ := x
    simp only [AppNet.net, Net.mk.injEq] at hx
    obtain ⟨rfl, rfl, hx, rfl⟩ := hx
    cases qb with
    | cons m' qb =>
      rw [List.cons_append, List.cons.injEq] at hx
      obtain ⟨rfl, rfl⟩ := hx
      obtain ⟨la, lb, y, h1, h2, h3, h4⟩ := ih (x := ⟨a, k (.ok m'), qa, qb, ab, ba, ia, ib⟩) rfl ha hb
      exact ⟨la, lb, y, .bRead m' k h1, h2, h3, h4⟩
    | nil =>
      cases ab with
      | nil => cases hx
      | cons g gs =>
        cases g with
        | nil => exact absurd rfl (ha [] List.mem_cons_self)
        | cons m' q =>
          rw [List.nil_append, List.flatten_cons, List.cons_append, List.cons.injEq] at hx
          obtain ⟨rfl, rfl⟩ := hx
          obtain ⟨la, lb, y, h1, h2, h3, h4⟩ := ih (x := ⟨a, k (.ok m'), qa, q, gs, ba, ia, ib + 1⟩) rfl
            (fun g hg => ha g (List.mem_cons_of_mem _ hg)) hb
          exact ⟨la, lb, y, .bPacket m' k h1, h2, h3, h4⟩

/-- If the first side writes first, it does so in every run to the end. -/
theorem Logged.strip_write (h : Logged x la lb y) (hy : Net.Stuck y.net) {ms : List Bytes} {l : Bool}
    {k : Except Err Unit → IT appSig α} (hx : x.a = .op (S := appSig) (.write ms l) k) : ∃ la', la = ⟨x.ia, l, ms⟩ :: la' ∧
      Logged ⟨k (.ok ()), x.b, x.qa, x.qb, x.ab ++ groups ms, x.ba, x.ia + 1, x.ib⟩ la' lb y := by
  induction h with
  | refl x =>
    refine absurd ?_ (hy ⟨k (.ok ()), x.net.b, x.net.ab ++ ms, x.net.ba⟩)
    rw [show x.net = ⟨.op (S := appSig) (.write ms l) k, x.net.b, x.net.ab, x.net.ba⟩ by rw [← hx]; rfl]
    exact .aWrite ms l k
  | aWrite ms' l' k' h _ => cases hx; exact ⟨_, rfl, h⟩
  | aRead => cases hx
  | aPacket => cases hx
  | bWrite ms' l' k' _ ih =>
    obtain ⟨la', rfl, h1⟩ := ih hy hx
    exact ⟨la', rfl, .bWrite ms' l' k' h1⟩
  | bRead m k' _ ih =>
    obtain ⟨la', rfl, h1⟩ := ih hy hx
    exact ⟨la', rfl, .bRead m k' h1⟩
  | bPacket m k' _ ih =>
    obtain ⟨la', rfl, h1⟩ := ih hy hx
    exact ⟨la', rfl, .bPacket m k' h1⟩

end AppNet

end Spec

/-! ### One direction of a pair of application channels, with the packets -/

/-- The plaintext packets `ps` carry the messages `gs`, with times that `c` accepts. -/
inductive Loads (c : Clock) : List Bytes → List (List Bytes) → Prop
  | nil : Loads c [] []
  | cons {p m q gs ps t} : appParse p = .ok (t, .ok (m, q)) → (∀ i, c.check i t = .ok ()) → Loads c ps gs →
      Loads c (p :: ps) ((m :: q) :: gs)

theorem Loads.load {c : Clock} {ps : List Bytes} {gs : List (List Bytes)} (h : Loads c ps gs) : Load c ps gs.flatten := by
  induction h with
  | nil => exact .nil
  | cons h1 h2 _ ih => exact .cons h1 h2 ih

theorem Loads.append {c : Clock} {ps ps' : List Bytes} {gs gs' : List (List Bytes)} (h : Loads c ps gs) (h' : Loads c ps' gs') :
    Loads c (ps ++ ps') (gs ++ gs') := by
  induction h with
  | nil => exact h'
  | cons h1 h2 _ ih => exact .cons h1 h2 ih

theorem Loads.packets {c : Clock} {t : Nat} (ht : ∀ i, c.check i (t % 2 ^ 32) = .ok ()) (ms : List Bytes)
    (hl : ms.length ≤ 65535) : Loads c (appPackets t ms) (groups ms) := by
  unfold appPackets groups
  by_cases h : 2 ≤ ms.length ∧ ∀ m ∈ ms, m.length ≤ 65535
  · rw [if_pos h, if_pos h]
    cases ms with
    | nil => simp at h
    | cons m q => exact .cons (appParse_multi t m q hl h.2) ht .nil
  · rw [if_neg h, if_neg h]
    clear h hl
    induction ms with
    | nil => exact .nil
    | cons m ms ih => exact .cons (appParse_app t m) ht ih

/-- `AppDir`, with the packets in flight. -/
structure PackDir (L : Lib) (cw cr : Clock) (w r : AppSt) (raw : List Bytes) (gs : List (List Bytes)) (n : Nat) : Prop where
  wNonce : w.enc.sessionNonce = zeros 8
  rNonce : r.enc.sessionNonce = zeros 8
  push : r.enc.pushback = []
  key : w.enc.key = r.enc.key
  keyLen : r.enc.key.length = 32
  m4 : w.bufferedM4 = none
  flight : ∃ ps, InFlight L r.enc.key r.enc.readNonce raw ps w.enc.writeNonce ∧ Loads cr ps gs
  budget : w.enc.writeNonce + 2 * n ≤ 2 ^ 64
  times : Accepts cr cw

theorem PackDir.appDir {L : Lib} {cw cr : Clock} {w r : AppSt} {raw : List Bytes} {gs : List (List Bytes)} {n : Nat}
    (d : PackDir L cw cr w r raw gs n) : AppDir L cw cr w r raw (r.readQ ++ gs.flatten) n := by
  obtain ⟨ps, h1, h2⟩ := d.flight
  exact ⟨d.wNonce, d.rNonce, d.push, d.key, d.keyLen, d.m4, ⟨ps, _, h1, h2.load, rfl⟩, d.budget, d.times⟩

theorem PackDir.write {L : Lib} (hb : BoxLaw L) {cw cr : Clock} {w r : AppSt} {raw : List Bytes} {gs : List (List Bytes)} {n : Nat}
    (d : PackDir L cw cr w r raw gs n) (ms : List Bytes) (l : Bool) (hne : ms ≠ []) (h65 : ms.length ≤ 65535)
    (hlen : ms.length ≤ n) (i : Nat) :
    ∃ tr w' ps, Exec (App.write ms l w) tr (.ok (), w') ∧ Local L cw i tr (i + 1) ∧
      callsOf tr = [⟨AppOp.write ps l, .ok ()⟩] ∧ PackDir L cw cr w' r (raw ++ ps) (gs ++ groups ms) (n - ms.length) ∧
      (∀ raw' gs' n', PackDir L cr cw r w raw' gs' n' → PackDir L cr cw r w' raw' gs' n') ∧
      w'.enc.writeNonce = w.enc.writeNonce + 2 * (appPackets (cw.now i) ms).length ∧ w'.readQ = w.readQ ∧
      SealedAll L w.enc.key w.enc.writeNonce (flagged l (appPackets (cw.now i) ms)) ps := by
  have hbud := d.budget
  have hpend : pending w (cw.now i) = [] := by simp [pending, d.m4]
  have hl := appPackets_length (cw.now i) ms hne
  obtain ⟨tr, ps, h1, h2, h3, h4, h5⟩ := App_write_flight hb cw l ms w d.wNonce (d.key ▸ d.keyLen) i
    (by rw [hpend, List.nil_append]; omega)
  rw [hpend, List.nil_append] at h1 h4 h5
  obtain ⟨qs, f1, f2⟩ := d.flight
  refine ⟨tr, _, ps, h1, h2, h3, ⟨d.wNonce, d.rNonce, d.push, d.key, d.keyLen, rfl, ?_, ?_, d.times⟩, ?_, rfl, rfl, h5⟩
  · exact ⟨qs ++ appPackets (cw.now i) ms, f1.append (d.key ▸ h4), f2.append (.packets (fun j => d.times.check j i) ms h65)⟩
  · simp only; omega
  · intro raw' q' n' d'
    exact ⟨d'.wNonce, d'.rNonce, d'.push, d'.key, d'.keyLen, d'.m4, d'.flight, d'.budget, d'.times⟩

theorem PackDir.read {L : Lib} {cw cr : Clock} {w r : AppSt} {raw : List Bytes} {gs : List (List Bytes)} {n : Nat}
    (d : PackDir L cw cr w r raw gs n) {m : Bytes} {q : List Bytes} (hq : r.readQ = m :: q) :
    Exec (App.read r) [] (.ok m, { r with readQ := q }) ∧ PackDir L cw cr w { r with readQ := q } raw gs n := by
  refine ⟨?_, ⟨d.wNonce, d.rNonce, d.push, d.key, d.keyLen, d.m4, d.flight, d.budget, d.times⟩⟩
  rw [App_read_queued r m q hq]
  exact .ret _

theorem PackDir.packet {L : Lib} (hb : BoxLaw L) {cw cr : Clock} {w r : AppSt} {raw : List Bytes} {gs : List (List Bytes)} {n : Nat}
    {m : Bytes} {q : List Bytes} (d : PackDir L cw cr w r raw ((m :: q) :: gs) n) (hq : r.readQ = []) (i : Nat) :
    ∃ tr r' raw', Exec (App.read r) tr (.ok m, r') ∧ Local L cr i tr (i + 1) ∧ Moves (callsOf tr) raw [] raw' ∧
      PackDir L cw cr w r' raw' gs n ∧ (∀ raw' gs' n', PackDir L cr cw r w raw' gs' n' → PackDir L cr cw r' w raw' gs' n') ∧
      r'.enc.writeNonce = r.enc.writeNonce ∧ r'.readQ = q := by
  have hbud := d.budget
  obtain ⟨qs, f1, f2⟩ := d.flight
  cases f2 with
  | @cons p _ _ _ ps t hp ht hrest =>
    obtain ⟨tr, f, raw', h1, h2, h3, h4⟩ := Enc_read_flight hb cr r.enc d.rNonce d.keyLen d.push f1 (by omega)
    have h3 := h3.moves
    refine ⟨tr ++ [⟨.check t, .ok ()⟩], { r with enc := { r.enc with lastFlag := f, readNonce := r.enc.readNonce + 2 }, readQ := q },
      raw', ?_, ?_, ?_,
      ⟨d.wNonce, d.rNonce, d.push, d.key, d.keyLen, d.m4, ⟨ps, h4, hrest⟩, d.budget, d.times⟩, ?_, rfl, rfl⟩
    · rw [App_read_run r hq, Exec_bind]
      refine ⟨tr, _, _, rfl, h1, ?_⟩
      simp only [hp]
      exact .op _ _ _ _ _ (.ret _)
    · refine (h2 i).append ?_
      have := Local.check (L := L) (c := cr) (i := i) (j := i + 1) t (.nil _)
      rwa [ht] at this
    · rw [callsOf_append]; simpa [callsOf] using h3
    · intro raw' q'' n' d'
      exact ⟨d'.wNonce, d'.rNonce, d'.push, d'.key, d'.keyLen, d'.m4, d'.flight, d'.budget, d'.times⟩

section
variable {α β α' β' : Type} {L : Lib} {key : Bytes} {ca cb : Clock}
    {fa : α × AppSt → IT env α'} {fb : β × AppSt → IT env β'} {nA nB : Nat}

/-- The real network `X` is in a state that corresponds to the network `x`; the next packets are sealed with the nonces
`nA` and `nB`. -/
structure LSim (L : Lib) (key : Bytes) (ca cb : Clock) (fa : α × AppSt → IT env α') (fb : β × AppSt → IT env β')
    (x : AppNet α β) (X : Net α' β') (nA nB : Nat) : Prop where
  ex : ∃ sa sb ba bb, X.a = party L ca ((runOn App.handle x.a sa).bind fa) x.ia ∧
    X.b = party L cb ((runOn App.handle x.b sb).bind fb) x.ib ∧ PackDir L ca cb sa sb X.ab x.ab ba ∧
    PackDir L cb ca sb sa X.ba x.ba bb ∧ Modest 65535 x.a ba ∧ Modest 65535 x.b bb ∧
    sa.enc.writeNonce = nA ∧ sb.enc.writeNonce = nB ∧ sa.enc.key = key ∧ sa.readQ = x.qa ∧ sb.readQ = x.qb

theorem LSim.sim {x : AppNet α β} {X : Net α' β'} (s : LSim L key ca cb fa fb x X nA nB) :
    Sim L App.handle (AppDir L) 65535 ca cb fa fb x.net X := by
  obtain ⟨sa, sb, ba, bb, h1, h2, h3, h4, h5, h6, -, -, -, h7, h8⟩ := s.ex
  refine ⟨sa, sb, x.ia, x.ib, ba, bb, h1, h2, ?_, ?_, h5, h6⟩
  · rw [AppNet.net, ← h8]; exact h3.appDir
  · rw [AppNet.net, ← h7]; exact h4.appDir

theorem LSim.swap {x : AppNet α β} {X : Net α' β'} (s : LSim L key ca cb fa fb x X nA nB) :
    LSim L key cb ca fb fa x.swap X.swap nB nA := by
  obtain ⟨sa, sb, na, nb, h1, h2, h3, h4, h5, h6, h7, h8, h9, h10, h11⟩ := s.ex
  exact ⟨sb, sa, nb, na, h2, h1, h4, h3, h6, h5, h8, h7, h4.key.trans h9, h11, h10⟩

variable {b : IT appSig β} {qa qb : List Bytes} {ab ba : List (List Bytes)} {ia ib : Nat}

theorem LSim.aWrite (hL : BoxLaw L) {ms : List Bytes} {l : Bool} {k : Except Err Unit → IT appSig α} {X : Net α' β'}
    (s : LSim L key ca cb fa fb ⟨.op (S := appSig) (.write ms l) k, b, qa, qb, ab, ba, ia, ib⟩ X nA nB) :
    ∃ la Y, Net.Logged X la [] Y ∧ SealedAll L key nA (flagged l (appPackets (ca.now ia) ms)) (messages la) ∧
      LSim L key ca cb fa fb ⟨k (.ok ()), b, qa, qb, ab ++ groups ms, ba, ia + 1, ib⟩ Y
        (nA + 2 * (appPackets (ca.now ia) ms).length) nB := by
  obtain ⟨sa, sb, na, nb, h1, h2, h3, h4, h5, h6, h7, h8, h9, h10, h11⟩ := s.ex
  obtain ⟨A, B, AB, BA⟩ := X
  simp only at *
  obtain ⟨w1, w2, w3, w4⟩ := h5
  obtain ⟨tr, w', ps, e1, e2, e3, e4, e5, e6, e7, e8⟩ := h3.write hL ms l w1 w2 w3 ia
  have pf := party_perf e2 e1 (fun (r, s') => (runOn App.handle (k r) s').bind fa)
  rw [e3] at pf
  obtain ⟨la, m, r⟩ := Net.logged_a pf (.frame_write ps l BA) B AB
  rw [h7, h9] at e8
  refine ⟨la, ⟨_, B, AB ++ ps, BA⟩, ?_, m ▸ e8,
    ⟨w', sb, na - ms.length, nb, rfl, h2, e4, e5 _ _ _ h4, w4 _, h6, by rw [e6, h7], h8, ?_, e7.trans h10, h11⟩⟩
  · rw [h1]
    simpa only [runOn, IT.bind_assoc, App.handle] using r
  · rw [e4.key, ← h3.key, h9]

theorem LSim.aRead {m : Bytes} {k : Except Err Bytes → IT appSig α} {X : Net α' β'}
    (s : LSim L key ca cb fa fb ⟨.op (S := appSig) .read k, b, m :: qa, qb, ab, ba, ia, ib⟩ X nA nB) :
    LSim L key ca cb fa fb ⟨k (.ok m), b, qa, qb, ab, ba, ia, ib⟩ X nA nB := by
  obtain ⟨sa, sb, na, nb, h1, h2, h3, h4, h5, h6, h7, h8, h9, h10, h11⟩ := s.ex
  obtain ⟨A, B, AB, BA⟩ := X
  simp only at *
  obtain ⟨e1, e2⟩ := h4.read h10
  refine ⟨{ sa with readQ := qa }, sb, na, nb, ?_, h2,
    ⟨h3.wNonce, h3.rNonce, h3.push, h3.key, h3.keyLen, h3.m4, h3.flight, h3.budget, h3.times⟩, e2, h5 _, h6, h7, h8, h9, rfl, h11⟩
  rw [h1]
  simp only [runOn, App.handle, App_read_queued sa m qa h10, IT.ret_bind]

theorem LSim.aPacket (hL : BoxLaw L) {m : Bytes} {k : Except Err Bytes → IT appSig α} {X : Net α' β'}
    (s : LSim L key ca cb fa fb ⟨.op (S := appSig) .read k, b, [], qb, ab, (m :: qa) :: ba, ia, ib⟩ X nA nB) :
    ∃ Y la, Net.Logged X la [] Y ∧ messages la = [] ∧
      LSim L key ca cb fa fb ⟨k (.ok m), b, qa, qb, ab, ba, ia + 1, ib⟩ Y nA nB := by
  obtain ⟨sa, sb, na, nb, h1, h2, h3, h4, h5, h6, h7, h8, h9, h10, h11⟩ := s.ex
  obtain ⟨A, B, AB, BA⟩ := X
  simp only at *
  obtain ⟨tr, r', raw', e1, e2, e3, e4, e5, e6, e7⟩ := h4.packet hL h10 ia
  have pf := party_perf e2 e1 (fun (r, s') => (runOn App.handle (k r) s').bind fa)
  obtain ⟨la, m, r⟩ := Net.logged_a pf e3 B AB
  rw [List.append_nil] at r
  refine ⟨⟨_, B, AB, raw'⟩, la, ?_, m,
    ⟨r', sb, na, nb, rfl, h2, e5 _ _ _ h3, e4, h5 _, h6, by rw [e6, h7], h8, ?_, e7, h11⟩⟩
  · rw [h1]
    simpa only [runOn, IT.bind_assoc, App.handle] using r
  · rw [← e4.key, h4.key, h9]

/-- What the sides write while the programs make the calls `la` and `lb`. -/
theorem LSim.run (hL : BoxLaw L) {x y : AppNet α β} {la lb : List AppCall} (r : AppNet.Logged x la lb y)
    {X : Net α' β'} {nA nB : Nat} (s : LSim L key ca cb fa fb x X nA nB) :
    ∃ Y rA rB, Net.Logged X rA rB Y ∧ SealedAll L key nA (packetsOf ca la) (messages rA) ∧
      SealedAll L key nB (packetsOf cb lb) (messages rB) ∧
      LSim L key ca cb fa fb y Y (nA + 2 * (packetsOf ca la).length) (nB + 2 * (packetsOf cb lb).length) := by
  induction r generalizing X nA nB with
  | refl x => exact ⟨X, [], [], .refl _, .nil _, .nil _, s⟩
  | aWrite ms l k _ ih =>
    obtain ⟨ra, Y, h1, h2, h3⟩ := s.aWrite hL
    obtain ⟨Z, rA, rB, g1, g2, g3, g4⟩ := ih h3
    refine ⟨Z, ra ++ rA, rB, h1.trans g1, ?_, g3, ?_⟩
    · rw [messages_append, packetsOf_cons]
      exact h2.append (by rwa [flagged_length])
    · rw [packetsOf_cons, List.length_append, flagged_length, Nat.mul_add, ← Nat.add_assoc]
      exact g4
  | aRead m k _ ih => exact ih s.aRead
  | aPacket m k _ ih =>
    obtain ⟨Y, ra, h1, h2, h3⟩ := s.aPacket hL
    obtain ⟨Z, rA, rB, g1, g2, g3, g4⟩ := ih h3
    refine ⟨Z, ra ++ rA, rB, h1.trans g1, ?_, g3, g4⟩
    rw [messages_append, h2]
    exact g2
  | bWrite ms l k _ ih =>
    obtain ⟨rb, Y, h1, h2, h3⟩ := LSim.aWrite hL (X := X.swap) s.swap
    obtain ⟨Z, rA, rB, g1, g2, g3, g4⟩ := ih h3.swap
    refine ⟨Z, rA, rb ++ rB, h1.swap.trans g1, g2, ?_, ?_⟩
    · rw [messages_append, packetsOf_cons]
      exact h2.append (by rwa [flagged_length])
    · rw [packetsOf_cons, List.length_append, flagged_length, Nat.mul_add, ← Nat.add_assoc]
      exact g4
  | bRead m k _ ih => exact ih (LSim.aRead (X := X.swap) s.swap).swap
  | bPacket m k _ ih =>
    obtain ⟨Y, rb, h1, h2, h3⟩ := LSim.aPacket hL (X := X.swap) s.swap
    obtain ⟨Z, rA, rB, g1, g2, g3, g4⟩ := ih h3.swap
    refine ⟨Z, rA, rb ++ rB, h1.swap.trans g1, g2, ?_, g4⟩
    rw [messages_append, h2]
    exact g3

end

end Salt
