import Verif.Lemmas.BufNet
import Verif.Lemmas.SockSession

/-!
# Sessions over finite buffers

After the handshake both sides are where their programs start; two programs that begin by writing much block each other.
-/

namespace Salt

open Salt.Spec

variable {L : Lib} {α β : Type}

/-- The call of the lower channel in `App.write [m]`: one packet that is longer than the message. -/
theorem App_write_long (hb : BoxLaw L) {σ' : Type} {cw cr : Clock} {w r : AppSt} {raw q : List Bytes} {n : Nat}
    (d : AppDir L cw cr w r raw q n) (m : Bytes) (l : Bool) (hn : 1 ≤ n) (i : Nat) (f : Except Err Unit × AppSt → IT env σ') :
    ∃ p k, party L cw ((App.handle (.write [m] l) w).bind f) i = .op (S := appSig) (.write [p] l) k ∧ m.length ≤ p.length := by
  have hbud := d.budget
  have hpend : pending w (cw.now i) = [] := by simp [pending, d.m4]
  have hp : appPackets (cw.now i) [m] = [Spec.app (cw.now i) m] := by simp [appPackets]
  obtain ⟨tr, ps, h1, h2, h3, h4, -⟩ := App_write_flight hb cw l [m] w d.wNonce (d.key ▸ d.keyLen) i
    (by rw [hpend, hp]; simp; omega)
  rw [hpend, hp, List.nil_append] at h4
  have pf := party_perf h2 h1 f
  rw [h3] at pf
  obtain ⟨k, e1, -⟩ := pf.single
  generalize hx : [Spec.app (cw.now i) m] = x at h4
  cases h4 with
  | nil => cases hx
  | cons m' c l' hbx hrest =>
    injection hx with hx hx'
    subst hx hx'
    cases hrest
    refine ⟨_, k, e1, ?_⟩
    obtain ⟨c', hc', hlen⟩ := hb.total (Spec.app (cw.now i) m) (Spec.nonce w.enc.writeNonce) w.enc.key
      (by simp [Spec.nonce]) (d.key ▸ d.keyLen)
    rw [hc'] at hbx
    injection hbx with hbx
    subst hbx
    simp [encrypted, Spec.app] at hlen ⊢
    omega

theorem frames_long {p : Bytes} : p.length < (frames [p]).length := by
  simp [frames, frame]

theorem session_deadlock (hL : BoxSize L) {cc cs : Clock} {cfgC : ClientCfg} {cfgS : ServerCfg} {kc ks : KeyPair}
    (S : Setup L cc cs cfgC cfgS kc ks) (hb : cfgC.bufferM4 = false) {m m' : Bytes} {l l' : Bool}
    {k : Except Err Unit → IT appSig α} {k' : Except Err Unit → IT appSig β} {n : Nat} (hn : n ≤ 2 ^ 62)
    (hA : Modest 65535 (.op (S := appSig) (.write [m] l) k) n) (hB : Modest 65535 (.op (S := appSig) (.write [m'] l') k') n)
    (hc : Net.Calls CallFits (Net.start (.op (S := appSig) (.write [m] l) k) (.op (S := appSig) (.write [m'] l') k')))
    {cap : Nat} (hcap : 0 < cap) (h1 : cap ≤ m.length) (h2 : cap ≤ m'.length) :
    ∃ Y, SockNet.ReachB cap (SockNet.start
        (onSocket (party L cc (clientSession cfgC (.op (S := appSig) (.write [m] l) k)) 0))
        (onSocket (party L cs (serverSession cfgS (.op (S := appSig) (.write [m'] l') k')) 0))) Y ∧
      SockNet.StuckB cap Y ∧ Sending Y.a ∧ Sending Y.b := by
  have hh := S.honest
  obtain ⟨_, _, _, _, _, hF⟩ := session_short hL S _ _ hn hA hB (by simp [hb]) hc
  obtain ⟨ny, y, hy, hst⟩ := Net.exists_final (Net.start (.op (S := appSig) (.write [m] l) k) (.op (S := appSig) (.write [m'] l') k'))
  obtain ⟨-, x', -, X, -, -, ⟨hE, -, hx'⟩, sC, sS, ⟨_, _, _, _, z, hz, -, -, -, -, -, sim⟩, -, -⟩ :=
    session_sim S _ _ hn hA hB (by simp [hb]) (P := fun _ => True) (p := fun _ => True) ⟨trivial, trivial, trivial, trivial,
      fun _ _ _ _ _ _ _ _ _ _ _ _ _ _ _ _ _ => trivial⟩ hy.runC_true hst
  rw [hx' hb] at hz
  have sim := sim.sim
  rw [hz] at sim
  obtain ⟨sa, sb, ia, ib, na, nb, e1, e2, e3, e4, ⟨-, -, e5, -⟩, ⟨-, -, e6, -⟩⟩ := sim.ex
  obtain ⟨A, B, AB, BA⟩ := X
  simp only [Net.start, runOn, IT.bind_assoc] at e1 e2 e3 e4
  obtain ⟨rfl, -⟩ := (app_chan hh.box).block e3
  obtain ⟨rfl, -⟩ := (app_chan hh.box).block e4
  obtain ⟨p, q, f1, f2⟩ := App_write_long hh.box e3 m l (by simpa using e5) ia _
  obtain ⟨p', q', f3, f4⟩ := App_write_long hh.box e4 m' l' (by simpa using e6) ib _
  rw [e1, e2, f1, f3] at hE
  exact both_write hcap hE hF (by have := frames_long (p := p); omega) (by have := frames_long (p := p'); omega)

end Salt
