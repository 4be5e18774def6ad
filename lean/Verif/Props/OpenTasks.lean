import Verif.Props.AppChannel
import Verif.Props.Session1
import Verif.Props.Tasks
import Verif.Props.AioSession
import Verif.Lemmas.OpenTasks
import Verif.Lemmas.SessionOk
import Verif.Lemmas.SessionOk2

/-!
# A buffered M4 and tasks

C140: a client that buffers M4 starts several tasks on its channel; the peer may send anything. C141: the same without a buffered M4.
-/

namespace Salt.Props

open Salt Salt.Spec

variable {ι α : Type} [DecidableEq ι] [Fintype ι]

/-- **C140.** Any number of tasks that read and write share a channel with a buffered M4; whatever the schedule, and whatever arrives or whichever
exceptions the reads raise: as long as no task has written, nothing is sent and the M4 stays in the buffer; from then on what has been sent is
exactly, with consecutive nonces, the M4 with the time of the first write call, the packets of that call, and packets of other write calls of the tasks;
and the M4 is no longer in the buffer. -/
theorem C140_buffered_m4 {L : Lib} (hb : BoxLaw L) {c : Clock} {s : AppSt} (hz : s.enc.sessionNonce = zeros 8) (hk : s.enc.key.length = 32)
    (hp : s.enc.pushback = []) {t0 : Nat} {key sig : Bytes} (h4 : s.bufferedM4 = some ⟨Spec.m4 t0 key sig, none⟩) {p : ι → IT appSig α} {n : Nat}
    (hm : ModestAll 65535 p n) (hn : s.enc.writeNonce + 2 * (n + 1) ≤ 2 ^ 64) {i : Nat} {o : List Bytes} {y : Loop ι AppSt α}
    (h : Loop.Runs L c ⟨fun t => Co.task (p t), s, i⟩ o y) :
    (o = [] ∧ y.st.bufferedM4 = s.bufferedM4) ∨
    (y.st.bufferedM4 = none ∧ ∃ t l ms rest, (∃ u, MayWrite ms l (p u)) ∧
      SealedAll L s.enc.key s.enc.writeNonce (flagged l (Spec.m4 t key sig :: appPackets t ms) ++ rest) o ∧
      ∀ q ∈ rest, ∃ t l ms, (∃ u, MayWrite ms l (p u)) ∧ q ∈ flagged l (appPackets t ms)) := by
  have hpend : ∀ t, pending s t = [Spec.m4 t key sig] := fun t => by simp only [pending, h4, m4_setTime]
  obtain ⟨p', f, h⟩ := open_runs hb hm (s := s) ⟨hz, hk, hp, by rw [hpend]; exact hn⟩ h
  rcases h.sent with ⟨h1, h2⟩ | ⟨h1, -, t, l, ms, rest, h2, h3, -, h5⟩
  · exact .inl ⟨h1, (Prod.mk.injEq _ _ _ _ ▸ h2 : _ ∧ _).2⟩
  · rw [hpend] at h3
    exact .inr ⟨h1, t, l, ms, rest, h2, h3, h5⟩

/-- **C140**, continued. A packet of a write call is not an M4, so what `C140_buffered_m4` says was sent has exactly one M4, the first one. -/
theorem C140_no_other_m4 {t t' : Nat} {ms : List Bytes} {l : Bool} {q : Bool × Bytes} (h : q ∈ flagged l (appPackets t ms)) (key sig : Bytes) :
    q.2 ≠ Spec.m4 t' key sig := by
  have hmem : ∀ ps : List Bytes, q ∈ flagged l ps → q.2 ∈ ps := by
    intro ps
    induction ps with
    | nil => exact fun h => absurd h (by simp [flagged])
    | cons p ps ih =>
      intro h
      rcases List.mem_cons.1 h with rfl | h
      · exact List.mem_cons_self
      · exact List.mem_cons_of_mem _ (ih h)
  have h := hmem _ h
  intro he
  rw [he] at h
  unfold appPackets at h
  split at h
  · rw [List.mem_singleton] at h
    simp [Spec.m4, Spec.multiApp] at h
  · obtain ⟨m, -, h⟩ := List.mem_map.1 h
    simp [Spec.m4, Spec.app] at h

/-- **C140**, continued. A client that buffers M4, with any peer: when its handshake has returned and tasks share its channel, the M4 that is sent
before everything else has the client's public key and what the library returned when the client signed. -/
theorem C140_client {L : Lib} (hb : BoxLaw L) {c : Clock} {cfg : ClientCfg} {s s' : ClientSt} {tr : List (Ev env)} (h4 : cfg.bufferM4 = true)
    (h : Call (Client.handshake cfg) s tr (.ok ()) s') :
    ∃ chan m sm, s'.chan = some chan ∧ ⟨EnvOp.sign m cfg.sigKp.sec, .ok sm⟩ ∈ tr ∧
      ∀ {ι α : Type} [DecidableEq ι] [Fintype ι] {p : ι → IT appSig α} {n : Nat}, ModestAll 65535 p n → n ≤ 2 ^ 62 →
      ∀ {i : Nat} {o : List Bytes} {y : Loop ι AppSt α}, Loop.Runs L c ⟨fun t => Co.task (p t), chan, i⟩ o y →
        (o = [] ∧ y.st.bufferedM4 = chan.bufferedM4) ∨
        (y.st.bufferedM4 = none ∧ ∃ t l ms rest, (∃ u, MayWrite ms l (p u)) ∧
          SealedAll L s'.sessionKey 1 (flagged l (Spec.m4 t cfg.sigKp.pub (sm.take 64) :: appPackets t ms) ++ rest) o ∧
          ∀ q ∈ rest, ∃ t l ms, (∃ u, MayWrite ms l (p u)) ∧ q ∈ flagged l (appPackets t ms)) := by
  obtain ⟨kp, t1, h1, raw2, m2, h2, k, p3, m3, m3p, x, t4, sm, tail, -, -, -, -, -, hk, -, -, -, -, -, -, htr, hkey, -, -, -, -, -, -, hch⟩ :=
    (client_ok h).ex
  rcases hch with ⟨-, -, hch⟩ | ⟨h0, -⟩
  · refine ⟨_, _, sm, hch, by rw [htr]; simp, fun {ι α} _ _ {p n} hm hn {i o y} hr => ?_⟩
    have := C140_buffered_m4 hb (t0 := t4) (key := cfg.sigKp.pub) (sig := sm.take 64) rfl hk rfl rfl hm
      (by simp only [encInit, if_true]; omega) hr
    rw [hkey]
    exact this
  · rw [h4] at h0
    cases h0

/-- The hypotheses of `C140_client` can be met. -/
example : ∃ tr s', BoxLaw toyLib ∧ (exClient true).bufferM4 = true ∧ Call (Client.handshake (exClient true)) Client.init tr (.ok ()) s' :=
  let ⟨tr, s', h⟩ := exClient_call true Client.init
  ⟨tr, s', toy_box, rfl, h⟩

/-- The hypotheses of `C140_no_other_m4` can be met: two packets, the second one with the last flag. -/
example : (true, Spec.app 7 []) ∈ flagged true (Spec.app 3 [1] :: appPackets 7 [[]]) ∧ (true, Spec.app 7 []) ∈ flagged true (appPackets 7 [[]]) := by
  decide

/-- The channel of a client that has buffered M4. -/
def exBuffered : AppSt := { App.init ⟨zeros 32, zeros 8, 3, 4, [], false⟩ with bufferedM4 := some ⟨Spec.m4 0 (zeros 32) (zeros 64), none⟩ }

section
variable {σ : Type}

def readyB : IT (sh σ) α → Bool
  | .ret _ => false
  | .op (.env .read) _ => false
  | _ => true

theorem readyB_ready {T : IT (sh σ) α} (h : readyB T = true) : Spec.Ready T := by
  cases T with
  | ret a => cases h
  | op e k =>
    rcases e with _ | _ | e
    · trivial
    · trivial
    · cases e <;> trivial

/-- What the task does when the read it waits for has the result `r`. -/
def answered (r : Except Err Bytes) : IT (sh σ) α → Option (IT (sh σ) α)
  | .op (.env .read) k => some (k r)
  | _ => none

theorem answered_eq {r : Except Err Bytes} {T T' : IT (sh σ) α} (h : answered r T = some T') :
    ∃ k, T = .op (S := sh σ) (.env .read) k ∧ T' = k r := by
  cases T with
  | ret a => cases h
  | op e k =>
    rcases e with _ | _ | e
    · cases h
    · cases h
    · cases e <;> first | exact ⟨k, rfl, (Option.some.inj h).symm⟩ | cases h

end

/-- Task `t` runs. -/
def exRun (t : Bool) (x : Loop Bool AppSt (List Bytes) × List Bytes) : Loop Bool AppSt (List Bytes) × List Bytes :=
  ((x.1.run toyLib exClock t (x.1.tasks t)).1, x.2 ++ (x.1.run toyLib exClock t (x.1.tasks t)).2)

/-- One task waits for a message, then another one writes twice. -/
def exWritten : Loop Bool AppSt (List Bytes) × List Bytes :=
  exRun true (exRun true (exRun false (⟨fun t => Co.task (duplex [[[1], [2, 3]], [[4]]] 1 t), exBuffered, 0⟩, [])))

/-- The first one goes on with something that is not a packet. -/
def exAnswered : IT (sh AppSt) (List Bytes) := (answered (.ok [9]) (exWritten.1.tasks false)).get (by decide +kernel)

/-- The hypotheses of `C140_buffered_m4` can be met, and the second case occurs: one task waits for a message, then another one writes twice,
then the first one gets something that is not a packet. -/
example : ∃ o y, Loop.Runs toyLib exClock ⟨fun t => Co.task (duplex [[[1], [2, 3]], [[4]]] 1 t), exBuffered, 0⟩ o y ∧ o.length = 3 ∧
    y.st.bufferedM4 = none ∧ ∃ t l ms rest,
      SealedAll toyLib (zeros 32) 4 (flagged l (Spec.m4 t (zeros 32) (zeros 64) :: appPackets t ms) ++ rest) o := by
  obtain ⟨k, h1, h2⟩ := answered_eq (r := .ok [9]) (T := exWritten.1.tasks false) (T' := exAnswered) (Option.some_get _).symm
  have hr : Loop.Runs toyLib exClock ⟨fun t => Co.task (duplex [[[1], [2, 3]], [[4]]] 1 t), exBuffered, 0⟩ exWritten.2 exWritten.1 := by
    refine .run true (.run true (.run false .refl (readyB_ready ?_)) (readyB_ready ?_)) (readyB_ready ?_) <;> decide +kernel
  have hr := hr.recv false (.ok [9]) k h1
  rw [← h2] at hr
  have hl : (exWritten.2 ++ (exWritten.1.run toyLib exClock false exAnswered).2).length = 3 := by decide +kernel
  refine ⟨_, _, hr, hl, ?_⟩
  have hm : ModestAll 65535 (duplex [[[1], [2, 3]], [[4]]] 1) 3 := by
    refine ⟨fun t => match t with | true => 3 | false => 0, ?_, by simp⟩
    intro t
    match t with
    | true => exact sendAll_modest [[[1], [2, 3]], [[4]]] (by simp)
    | false => exact recvAll_modest 1 []
  rcases C140_buffered_m4 toy_box (s := exBuffered) rfl rfl rfl rfl hm (by decide) hr with ⟨h, -⟩ | ⟨h, t, l, ms, rest, -, h2, -⟩
  · rw [h] at hl
    cases hl
  · exact ⟨h, t, l, ms, rest, h2⟩

/-- What tasks have sent on a channel since it had the write nonce `n`: nothing but packets of their write calls, with consecutive nonces. -/
def OnlyPackets (L : Lib) (p : ι → IT appSig α) (key : Bytes) (n : Nat) (o : List Bytes) : Prop :=
  ∃ ps, SealedAll L key n ps o ∧ ∀ q ∈ ps, ∃ t l ms, (∃ u, MayWrite ms l (p u)) ∧ q ∈ flagged l (appPackets t ms)

/-- **C141.** Any number of tasks that read and write share a channel without a buffered M4; whatever the schedule, and whatever arrives or
whichever exceptions the reads raise: what has been sent are packets of write calls of the tasks, encrypted with consecutive nonces (steps of 2)
from the nonce of the channel on, so no nonce is used twice; and no M4 appears. -/
theorem C141_packets {L : Lib} (hb : BoxLaw L) {c : Clock} {s : AppSt} (hz : s.enc.sessionNonce = zeros 8) (hk : s.enc.key.length = 32)
    (hp : s.enc.pushback = []) (h4 : s.bufferedM4 = none) {p : ι → IT appSig α} {n : Nat}
    (hm : ModestAll 65535 p n) (hn : s.enc.writeNonce + 2 * n ≤ 2 ^ 64) {i : Nat} {o : List Bytes} {y : Loop ι AppSt α}
    (h : Loop.Runs L c ⟨fun t => Co.task (p t), s, i⟩ o y) :
    OnlyPackets L p s.enc.key s.enc.writeNonce o ∧ y.st.bufferedM4 = none ∧ y.st.enc.key = s.enc.key ∧
      y.st.enc.writeNonce = s.enc.writeNonce + 2 * o.length := by
  have hpend : ∀ t, pending s t = [] := fun t => by simp only [pending, h4]
  have hlen : ∀ {k : Bytes} {m : Nat} {ps : List (Bool × Bytes)} {raw : List Bytes}, SealedAll L k m ps raw → ps.length = raw.length := by
    intro k m ps raw h
    induction h with
    | nil => rfl
    | cons l p c hb _ ih => simp [ih]
  obtain ⟨p', f, h⟩ := open_runs hb hm (s := s) ⟨hz, hk, hp, by rw [hpend]; exact hn⟩ h
  rcases h.sent with ⟨h1, h2⟩ | ⟨h1, h0, t, l, ms, rest, h2, h3, h4, h5⟩
  · simp only [appKept, encKept, Prod.mk.injEq] at h2
    obtain ⟨⟨k1, -, k3, -⟩, k5⟩ := h2
    subst h1
    exact ⟨⟨[], .nil _, by simp⟩, k5.trans h4, k1, k3⟩
  · rw [hpend, List.nil_append] at h3 h4
    refine ⟨⟨_, h3, fun q hq => ?_⟩, h1, h0, by rw [← hlen h3]; exact h4⟩
    rcases List.mem_append.1 hq with hq | hq
    · exact ⟨t, l, ms, h2, hq⟩
    · exact h5 q hq

/-- **C141** for a server, after a handshake with any peer that has returned without having answered an A1. -/
theorem C141_server {L : Lib} (hb : BoxLaw L) {c : Clock} {cfg : ServerCfg} {s s' : ServerSt} {tr : List (Ev env)}
    (h : Call (Server.handshake cfg) s tr (.ok ()) s') (hd : s'.isDone = false) :
    ∃ chan, s'.chan = some chan ∧
      ∀ {ι α : Type} [DecidableEq ι] [Fintype ι] {p : ι → IT appSig α} {n : Nat}, ModestAll 65535 p n → n ≤ 2 ^ 62 →
      ∀ {i : Nat} {o : List Bytes} {y : Loop ι AppSt α}, Loop.Runs L c ⟨fun t => Co.task (p t), chan, i⟩ o y →
        OnlyPackets L p s'.sessionKey 4 o := by
  rcases (server_ok h).ex with ⟨_, _, _, _, _, _, rfl⟩ | ⟨kp, raw1, m1, h1, m2, h2, k, mid, p4, m4, m4p, x, -, -, -, -, -, -, hk, -, -, -, -, -, rfl⟩
  · cases hd
  · refine ⟨_, rfl, fun {ι α} _ _ {p n} hm hn {i o y} hr => ?_⟩
    exact (C141_packets hb rfl hk rfl rfl hm (by simp only []; omega) hr).1

/-- **C141** for a client that does not buffer M4, after a handshake with any peer that has returned. -/
theorem C141_client {L : Lib} (hb : BoxLaw L) {c : Clock} {cfg : ClientCfg} {s s' : ClientSt} {tr : List (Ev env)} (h4 : cfg.bufferM4 = false)
    (h : Call (Client.handshake cfg) s tr (.ok ()) s') :
    ∃ chan, s'.chan = some chan ∧
      ∀ {ι α : Type} [DecidableEq ι] [Fintype ι] {p : ι → IT appSig α} {n : Nat}, ModestAll 65535 p n → n ≤ 2 ^ 62 →
      ∀ {i : Nat} {o : List Bytes} {y : Loop ι AppSt α}, Loop.Runs L c ⟨fun t => Co.task (p t), chan, i⟩ o y →
        OnlyPackets L p s'.sessionKey 3 o := by
  obtain ⟨kp, t1, h1, raw2, m2, h2, k, p3, m3, m3p, x, t4, sm, tail, -, -, -, -, -, hk, -, -, -, -, -, -, htr, hkey, -, -, -, -, -, -, hch⟩ :=
    (client_ok h).ex
  rcases hch with ⟨h0, -⟩ | ⟨-, hch, -⟩
  · rw [h4] at h0
    cases h0
  · refine ⟨_, hch, fun {ι α} _ _ {p n} hm hn {i o y} hr => ?_⟩
    rw [hkey]
    exact (C141_packets hb rfl hk rfl rfl hm (by simp only []; omega) hr).1

/-- The hypotheses of `C141_packets` can be met: three tasks, of which two have run. -/
example : ∃ o y, Loop.Runs toyLib exClock ⟨fun t => Co.task (exTasks t), App.init ⟨zeros 32, zeros 8, 3, 4, [], false⟩, 0⟩ o y ∧ o.length = 2 ∧
    OnlyPackets toyLib exTasks (zeros 32) 4 o := by
  have hr : Loop.Runs toyLib exClock ⟨fun t => Co.task (exTasks t), App.init ⟨zeros 32, zeros 8, 3, 4, [], false⟩, 0⟩ _ _ :=
    .run 1 (.run 0 .refl (readyB_ready (by decide +kernel))) (readyB_ready (by decide +kernel))
  refine ⟨_, _, hr, by decide +kernel, (C141_packets toy_box rfl rfl rfl rfl exTasks_modest (by decide) hr).1⟩

/-- The hypotheses of `C141_client` can be met. -/
example : ∃ tr s', BoxLaw toyLib ∧ (exClient false).bufferM4 = false ∧ Call (Client.handshake (exClient false)) Client.init tr (.ok ()) s' :=
  let ⟨tr, s', h⟩ := exClient_call false Client.init
  ⟨tr, s', toy_box, rfl, h⟩

/-- The hypotheses of `C141_server` can be met. -/
example : ∃ tr s', BoxLaw toyLib ∧ Call (Server.handshake (exServer true)) Server.init tr (.ok ()) s' ∧ s'.isDone = false :=
  let ⟨tr, s', h⟩ := exServer_call_open true
  ⟨tr, s', toy_box, h⟩

end Salt.Props
