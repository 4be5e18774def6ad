import Verif.Lemmas.SockSession
import Verif.Props.Net1

/-!
# Two parties over sockets

C57: what C21, C27 and C47 say about reliable message links holds over byte streams too, with the framing of
`SocketChannel` on both ends and whatever the segmentation.
-/

set_option linter.unusedSimpArgs false

namespace Salt.Props

open Salt Salt.Spec

variable {α β : Type}

/-- **C57.** Two programs, each using a `SocketChannel` on one end of a byte stream, writing messages shorter than
`2^31` bytes: whatever the schedule and the segmentation, all ends as if they were connected by message links. -/
theorem C57_socket_network (pA : IT appSig α) (pB : IT appSig β) (hc : Net.Calls Fits (Net.start pA pB)) :
    ∃ y, EndsIn (Net.start pA pB) y ∧ EndsLike y (SockNet.start (onSocket pA) (onSocket pB)) := by
  obtain ⟨n, y, h1, h2⟩ := Net.exists_final (Net.start pA pB)
  exact ⟨y, h1.endsIn h2, sock_ends pA pB hc (h1.endsIn h2)⟩

/-- **C57 for sessions.** A client and a server, each on one end of a byte stream, with arbitrary programs whose calls
are of limited size when the two are directly connected: whatever the schedule and the segmentation, each side returns
what its program returns when the two programs are directly connected, or waits if it waits there. -/
theorem C57_sessions_over_sockets {L : Lib} {cc cs : Clock} {cfgC : ClientCfg} {cfgS : ServerCfg} {kc ks : KeyPair}
    (S : Setup L cc cs cfgC cfgS kc ks) (hL : BoxSize L) (pA : IT appSig α) (pB : IT appSig β) {n : Nat}
    (hn : n ≤ 2 ^ 62) (hA : Modest 65535 pA n) (hB : Modest 65535 pB n) (hc : Net.Calls CallFits (Net.start pA pB))
    (hb4 : cfgC.bufferM4 = true → ∃ ms l k, pA = .op (S := appSig) (.write ms l) k) :
    ∃ key h1 h2 y, KeysOf L cc cs cfgS.bufferM2 kc ks key h1 h2 ∧ EndsIn (Net.start pA pB) y ∧
      ∃ Z, SameEnd (ClientEnd key h1 h2 cfgS.sigKp.pub) y.a Z.a ∧ SameEnd (ServerEnd key h1 h2 cfgC.sigKp.pub) y.b Z.b ∧
        EndsLike Z (SockNet.start (onSocket (party L cc (clientSession cfgC pA) 0))
          (onSocket (party L cs (serverSession cfgS pB) 0))) := by
  obtain ⟨key, h1, h2, hk, ⟨y, Y, e1, e2, e3, e4, -⟩, e5⟩ := session_short hL S pA pB hn hA hB hb4 hc
  exact ⟨key, h1, h2, y, hk, e1, Y, e3, e4, sock_ends _ _ e5 e2⟩

theorem toy_size : BoxSize toyLib := by
  intro m n k c h
  simp only [toyLib, Except.ok.injEq] at h
  subst h
  simp [toyTag]
  omega

/-- The server answers with the first ten bytes of each question. -/
def exEcho : IT appSig Unit :=
  .op (S := appSig) .read fun x => .op (S := appSig) .read fun y =>
    .op (S := appSig) (.write [(val y).take 10] false) fun _ =>
    .op (S := appSig) (.write [(val x).take 10] true) fun _ => .ret ()

theorem ex_echo : Net.Run 7 (Net.start exAsk exEcho) ⟨.ret [.ok [2, 3], .ok [1]], .ret (), [], []⟩ :=
  .step (.aWrite _ _ _) <| .step (.bRead _ _) <| .step (.bRead _ _) <| .step (.bWrite _ _ _) <|
    .step (.bWrite _ _ _) <| .step (.aRead _ _) <| .step (.aRead _ _) <| .refl _

/-- The whole stack on the toy library: over sockets, every schedule and segmentation ends with the client holding
both answers. -/
example (b b' : Bool) : ∀ Y, SockNet.Reach (SockNet.start
      (onSocket (party toyLib exClock (clientSession (exCfgC b) exAsk) 0))
      (onSocket (party toyLib exClock (serverSession (exCfgS b') exEcho) 0))) Y → SockNet.Stuck Y →
    ∃ s, Y.a = .ret (.ok [.ok [2, 3], .ok [1]], s) := by
  obtain ⟨key, h1, h2, y, -, e1, Z, e2, -, -, -, e3⟩ := C57_sessions_over_sockets (exSetup b b') toy_size
    exAsk exEcho (n := 2) (by decide) ex_modest.1
    (fun _ _ => ⟨by simp, by simp, by simp, fun _ => ⟨by simp, by simp, by simp, fun _ => trivial⟩⟩)
    (Net.calls_within ⟨by simp, fun _ _ _ => trivial⟩
      (fun _ _ => ⟨by simp; omega, fun _ => ⟨by simp; omega, fun _ => trivial⟩⟩)) (fun _ => ⟨_, _, _, rfl⟩)
  have hy : y = ⟨.ret [.ok [2, 3], .ok [1]], .ret (), [], []⟩ := by
    obtain ⟨h1, n, h2, h3⟩ := e1
    exact ((h3 _ _ ex_echo).2 (fun y h => by cases h)).symm
  subst hy
  intro Y hr hs
  obtain ⟨h4, -⟩ := e3 Y hr hs
  generalize hZ : Z.a = A at e2 h4
  cases e2 with
  | @ret _ p hq =>
    obtain ⟨r, s⟩ := p
    obtain ⟨rfl, -⟩ := hq
    generalize hY : Y.a = B at h4
    cases h4
    exact ⟨s, rfl⟩

end Salt.Props
