import Verif.Lemmas.FlowTasks
import Verif.Props.Flow

/-!
# Reading in a task of its own

C121: the deadlocks of C120 cannot happen if on each side one task reads and does not write, others write and do not
read, and everything is read.
-/

set_option linter.unusedSectionVars false

namespace Salt.Props

open Salt Salt.Spec

variable {ι κ α β : Type} [DecidableEq ι] [DecidableEq κ] [Fintype ι] [Fintype κ]

/-- **C121, without a session.** On each side of an `AsyncioChannel` at most one task reads, and does not write, and any
number of tasks write, and do not read; in the end everything is read if the tasks are directly connected.  Then all ends
as if they were directly connected, whatever the schedule, the pieces in which bytes arrive, and the limits. -/
theorem C121_plain (L : Lib) (ca cb : Clock) {pA : ι → IT appSig α} {pB : κ → IT appSig β} (sA : Split pA) (sB : Split pB)
    (hA : ∀ t, ShortWritesP (pA t)) (hB : ∀ t, ShortWritesP (pB t)) (h : AllRead pA pB) {l : Limits} (hl : l.Ok) :
    FlowLikeDirect l L ca cb pA pB (onPlain pA pB) := flow_plain hl sA sB hA hB h

/-- **C121, on a session.** The same for tasks that share the channel of a session over an `AsyncioChannel`. -/
theorem C121_session {L : Lib} (hb : BoxLaw L) (hz : BoxSize L) {ca cb : Clock} (hca : Spec.Accepts ca cb)
    (hcb : Spec.Accepts cb ca) {sA sB : AppSt} {n : Nat} (h : Paired n sA sB) (i j : Nat) {pA : ι → IT appSig α}
    {pB : κ → IT appSig β} (hsA : Split pA) (hsB : Split pB) (hmA : ModestAll 65535 pA n) (hmB : ModestAll 65535 pB n)
    (hA : ∀ t, CallsWithin (2 ^ 31 - 27) (pA t)) (hB : ∀ t, CallsWithin (2 ^ 31 - 27) (pB t)) (hr : AllRead pA pB)
    {l : Limits} (hl : l.Ok) : FlowLikeDirect l L ca cb pA pB (onSession pA pB sA sB i j) :=
  flow_session hl hb hz hca hcb h i j hsA hsB hmA hmB hA hB hr

/-- **C121, after a handshake.** The handshakes of honest parties, the client not buffering M4, end normally on both sides
with two channels on which tasks behave as in `C121_session`. -/
theorem C121_after_handshake {L : Lib} {cc cs : Clock} {cfgC : ClientCfg} {cfgS : ServerCfg} {kc ks : KeyPair}
    (S : Setup L cc cs cfgC cfgS kc ks) (hb : cfgC.bufferM4 = false) (hz : BoxSize L) :
    ∃ Y, EndsIn (Net.start (party L cc (Client.handshake cfgC Client.init) 0) (party L cs (Server.handshake cfgS Server.init) 0)) Y ∧
      ∃ sC sS a b, Y = ⟨.ret (.ok (), sC), .ret (.ok (), sS), [], []⟩ ∧ sC.chan = some a ∧ sS.chan = some b ∧
        ∀ {ι κ α β : Type} [DecidableEq ι] [DecidableEq κ] [Fintype ι] [Fintype κ] (pA : ι → IT appSig α)
          (pB : κ → IT appSig β) (n i j : Nat) (l : Limits), l.Ok → n ≤ 2 ^ 62 → Split pA → Split pB → ModestAll 65535 pA n →
          ModestAll 65535 pB n → (∀ t, CallsWithin (2 ^ 31 - 27) (pA t)) → (∀ t, CallsWithin (2 ^ 31 - 27) (pB t)) →
          AllRead pA pB → FlowLikeDirect l L cc cs pA pB (onSession pA pB a b i j) := by
  obtain ⟨Y, h1, sC, sS, a, b, h2, h3, h4, h5⟩ := C94_handshake S hb
  exact ⟨Y, h1, sC, sS, a, b, h2, h3, h4, fun pA pB n i j l hl hn o1 o2 m1 m2 w1 w2 hr =>
    C121_session S.honest.box hz S.acceptsC S.acceptsS (h5 n hn) i j o1 o2 m1 m2 w1 w2 hr hl⟩

/-! ### Full duplex -/

theorem recvAll_readOnly (n : Nat) (acc : List Bytes) : ReadOnly (recvAll n acc) := by
  induction n generalizing acc with
  | zero => trivial
  | succ n ih => intro r; cases r with
    | ok m => exact ih _
    | error e => trivial

theorem duplex_split (out : List (List Bytes)) (n : Nat) : Split (duplex out n) :=
  ⟨duplex_one out n, fun t => match t with
    | true => .inl (sendAll_writeOnly out)
    | false => .inr (recvAll_readOnly n [])⟩

theorem duplex_link {out : List (List Bytes)} {w r : IT appSig (List Bytes)} {link : List Bytes}
    (h : DuplexInv out out.flatten.length w r link) (hr : r = .ret out.flatten) : link = [] := by
  obtain ⟨rest, acc, k, e1, e2, e3, e4⟩ := h.ex
  rw [hr] at e2
  cases k with
  | succ k => cases e2
  | zero =>
    injection e2 with e2
    have := congrArg List.length e4
    simp only [List.length_append] at this
    exact List.eq_nil_of_length_eq_zero (by omega)

theorem duplex_allRead (outA outB : List (List Bytes)) :
    AllRead (duplex outA outB.flatten.length) (duplex outB outA.flatten.length) := by
  intro y hr hs
  obtain ⟨i1, i2⟩ := duplex_reach hr
  obtain ⟨-, r1, -, r2⟩ := duplex_ideal hr hs
  exact ⟨duplex_link i1 r2, duplex_link i2 r1⟩

/-- The results of tasks that talk in both directions at the same time. -/
theorem duplex_flow {σ τ : Type} {l : Limits} {L : Lib} {ca cb : Clock} {outA outB : List (List Bytes)}
    {X : AioNet Bool Bool σ τ (List Bytes) (List Bytes)} {Y : Flow Bool Bool σ τ (List Bytes) (List Bytes)}
    (h : FlowLikeDirect l L ca cb (duplex outA outB.flatten.length) (duplex outB outA.flatten.length) X)
    (hY : Flow.Reach l L ca cb (.start X) Y) (hs : Flow.Stuck l L ca cb Y) :
    Y.net.a.tasks true = .ret [] ∧ Y.net.a.tasks false = .ret outB.flatten ∧
      Y.net.b.tasks true = .ret [] ∧ Y.net.b.tasks false = .ret outA.flatten := by
  obtain ⟨-, -, h⟩ := h
  obtain ⟨y, h1, -, -, h2⟩ := h Y hY
  obtain ⟨h3, h4, h5, -⟩ := h2 hs
  obtain ⟨r1, r2, r3, r4⟩ := duplex_ideal h1 h3
  have key : ∀ {σ : Type} {S : AioSide Bool σ (List Bytes)} {t} {p : IT appSig (List Bytes)} {r}, AioEnd S t p → p = .ret r →
      S.tasks t = .ret r := by
    intro σ S t p r h e
    cases h with
    | ret x h => cases e; exact h
    | wait => cases e
  exact ⟨key (h4 true) r1, key (h4 false) r2, key (h5 true) r3, key (h5 false) r4⟩

/-- **C121, full duplex.** On both sides one task writes and another reads, at the same time, and each side reads as many
messages as the other writes: whatever the schedule, the pieces in which bytes arrive, the number and the size of the
messages, and the limits, both writers return, and both readers return exactly the messages the other side has written, in
order.  (Compare `C120_both_write`, where one task does both.) -/
theorem C121_duplex (L : Lib) (ca cb : Clock) (outA outB : List (List Bytes))
    (hA : ∀ ms ∈ outA, ∀ m ∈ ms, m.length < 2 ^ 31) (hB : ∀ ms ∈ outB, ∀ m ∈ ms, m.length < 2 ^ 31) {l : Limits} (hl : l.Ok) :
    (∃ Y, Flow.Reach l L ca cb (.start (onPlain (duplex outA outB.flatten.length) (duplex outB outA.flatten.length))) Y ∧
      Flow.Stuck l L ca cb Y) ∧
    ∀ Y, Flow.Reach l L ca cb (.start (onPlain (duplex outA outB.flatten.length) (duplex outB outA.flatten.length))) Y →
      Flow.Stuck l L ca cb Y → Y.net.a.tasks true = .ret [] ∧ Y.net.a.tasks false = .ret outB.flatten ∧
        Y.net.b.tasks true = .ret [] ∧ Y.net.b.tasks false = .ret outA.flatten := by
  have h := C121_plain L ca cb (duplex_split outA outB.flatten.length) (duplex_split outB outA.flatten.length)
    (fun t => match t with | true => sendAll_short hA | false => recvAll_short _ _)
    (fun t => match t with | true => sendAll_short hB | false => recvAll_short _ _) (duplex_allRead outA outB) hl
  exact ⟨h.2.1, fun Y hY hs => duplex_flow h hY hs⟩

/-- **C121, full duplex on a session.** -/
theorem C121_session_duplex {L : Lib} (hb : BoxLaw L) (hz : BoxSize L) {ca cb : Clock} (hca : Spec.Accepts ca cb)
    (hcb : Spec.Accepts cb ca) {sA sB : AppSt} {n : Nat} (h : Paired n sA sB) (i j : Nat) (outA outB : List (List Bytes))
    (hoA : ∀ ms ∈ outA, ms ≠ [] ∧ ms.length ≤ 65535 ∧ (ms.map fun m => m.length + 2).sum ≤ 2 ^ 31 - 27)
    (hoB : ∀ ms ∈ outB, ms ≠ [] ∧ ms.length ≤ 65535 ∧ (ms.map fun m => m.length + 2).sum ≤ 2 ^ 31 - 27)
    (hlA : outA.flatten.length ≤ n) (hlB : outB.flatten.length ≤ n) {l : Limits} (hl : l.Ok) :
    (∃ Y, Flow.Reach l L ca cb (.start (onSession (duplex outA outB.flatten.length) (duplex outB outA.flatten.length) sA sB i j)) Y ∧
      Flow.Stuck l L ca cb Y) ∧
    ∀ Y, Flow.Reach l L ca cb (.start (onSession (duplex outA outB.flatten.length) (duplex outB outA.flatten.length) sA sB i j)) Y →
      Flow.Stuck l L ca cb Y → Y.net.a.tasks true = .ret [] ∧ Y.net.a.tasks false = .ret outB.flatten ∧
        Y.net.b.tasks true = .ret [] ∧ Y.net.b.tasks false = .ret outA.flatten := by
  have h := C121_session hb hz hca hcb h i j (duplex_split outA outB.flatten.length) (duplex_split outB outA.flatten.length)
    (duplex_modest (fun ms hm => ⟨(hoA ms hm).1, (hoA ms hm).2.1⟩) _ hlA)
    (duplex_modest (fun ms hm => ⟨(hoB ms hm).1, (hoB ms hm).2.1⟩) _ hlB)
    (duplex_within (fun ms hm => (hoA ms hm).2.2) _) (duplex_within (fun ms hm => (hoB ms hm).2.2) _)
    (duplex_allRead outA outB) hl
  exact ⟨h.2.1, fun Y hY hs => duplex_flow h hY hs⟩

/-! ### Examples -/

/-- Messages that overflow all buffers in both directions at the same time. -/
example := C121_duplex toyLib exClock exClock [[[1, 2, 3, 4, 5, 6, 7, 8, 9]], [[0, 0], []]] [[[1, 2, 3, 4, 5, 6, 7, 8]]] (by simp) (by simp)
  (l := ⟨0, 0, 0, 1⟩) ⟨by decide, by decide⟩

/-- The same on a session. -/
example := C121_session_duplex toy_box toy_size exAccepts exAccepts (start_paired (n := 3) (key := zeros 32) rfl rfl (by decide))
    0 0 [[[1, 2, 3, 4, 5, 6, 7, 8, 9]], [[2, 3], [4]]] [[[1, 2, 3, 4, 5, 6, 7, 8]]] (by simp) (by simp) (by decide) (by decide)
    (l := ⟨0, 0, 0, 1⟩) ⟨by decide, by decide⟩

end Salt.Props
