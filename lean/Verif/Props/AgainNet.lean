import Verif.Lemmas.AgainNet
import Verif.Props.Net1

/-!
# C122 end to end: sessions between used objects

Whatever happened to the two objects before, a session between them with an honest peer is as good as one between new
objects (C47); only `is_done` of the server stays as it was.
-/

namespace Salt.Props

open Salt Salt.Spec

variable {α β : Type}

/-- **C122, end to end.** Session objects with arbitrary attributes, connected with each other: whatever the schedule, all
ends as in C47, with the same results, keys and hashes, except that `is_done` keeps its value. -/
theorem C122_end_to_end {L : Lib} {cc cs : Clock} {cfgC : ClientCfg} {cfgS : ServerCfg} {kc ks : KeyPair}
    (S : Setup L cc cs cfgC cfgS kc ks) (s : ClientSt) (t : ServerSt) (pA : IT appSig α) (pB : IT appSig β) {n : Nat}
    (hn : n ≤ 2 ^ 62) (hA : Modest 65535 pA n) (hB : Modest 65535 pB n)
    (hb : cfgC.bufferM4 = true → ∃ ms l k, pA = .op (S := appSig) (.write ms l) k) :
    ∃ key h1 h2, KeysOf L cc cs cfgS.bufferM2 kc ks key h1 h2 ∧ SameOutcome
      (ClientEnd key h1 h2 cfgS.sigKp.pub) (fun b p => ServerEnd key h1 h2 cfgC.sigKp.pub b p ∧ p.2.isDone = t.isDone)
      (Net.start pA pB)
      (Net.start (party L cc (clientSessionOn cfgC s pA) 0) (party L cs (serverSessionOn cfgS t pB) 0)) := by
  obtain ⟨key, h1, h2, hk, h⟩ := C47_end_to_end S pA pB hn hA hB hb
  exact ⟨key, h1, h2, hk, sameOutcome_on s t pA pB h⟩

/-- A server object that has answered an A1 before and still holds the key of another client: the session of `exAsk` and
`exAnswer` gives the expected answers and replaces that key. -/
example (b b' : Bool) (s : ClientSt) (t : ServerSt) (_ : t.clientSigKey = some [1, 2, 3]) (ht : t.isDone = true) :
    ∃ Y p q, EndsIn (Net.start (party toyLib exClock (clientSessionOn (exCfgC b) s exAsk) 0)
      (party toyLib exClock (serverSessionOn (exCfgS b') t exAnswer) 0)) Y ∧
      Y.a = .ret p ∧ p.1 = .ok [.ok [2, 3], .ok [1]] ∧ Y.b = .ret q ∧ q.1 = .ok () ∧
      q.2.clientSigKey = some netSigC.pub ∧ q.2.isDone = true := by
  obtain ⟨key, h1, h2, -, h⟩ := C122_end_to_end (exSetup b b') s t exAsk exAnswer (n := 2) (by decide) ex_modest.1 ex_modest.2
    (fun _ => ⟨_, _, _, rfl⟩)
  obtain ⟨y, Y, ⟨hy, _, _, hu⟩, e2, e3, e4, -⟩ := h
  have hst : Net.Stuck (⟨.ret [.ok [2, 3], .ok [1]], .ret (), [], []⟩ : Net (List (Except Err Bytes)) Unit) :=
    fun y h => by cases h
  have := (hu _ _ ex_ideal).2 hst
  subst this
  obtain ⟨a, b, ab, ba⟩ := Y
  cases e3 with
  | @ret _ p hp =>
    cases e4 with
    | @ret _ q hq => exact ⟨_, p, q, e2, rfl, hp.1, rfl, hq.1.1, by obtain ⟨⟨-, h⟩, -⟩ := hq; simp_all [exCfgC], hq.2.trans ht⟩

end Salt.Props
