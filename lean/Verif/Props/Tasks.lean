import Verif.Lemmas.TaskSim
import Verif.Props.Net1

/-!
# Several tasks on one session

C91: asyncio tasks that share the application channel of a session.
-/

set_option linter.unusedSimpArgs false
set_option linter.unusedSectionVars false

namespace Salt.Props

open Salt Salt.Spec

variable {ι κ α β : Type} [DecidableEq ι] [DecidableEq κ] [Fintype ι] [Fintype κ]

/-- **C91, as users would expect it.** Any number of tasks on each side may read and write at the same time. -/
def C91_claim : Prop := ∀ {ι κ α β : Type} [DecidableEq ι] [DecidableEq κ] [Fintype ι] [Fintype κ] (L : Lib) (ca cb : Clock)
  (key : Bytes) (sA sB : EncSt) (pA : ι → IT appSig α) (pB : κ → IT appSig β) (n : Nat), BoxLaw L → Spec.Accepts ca cb →
  Spec.Accepts cb ca → Enc.init key .client = .ok sA → Enc.init key .server = .ok sB → n ≤ 2 ^ 62 → ModestAll 65535 pA n →
  ModestAll 65535 pB n → LikeDirect L ca cb pA pB (onChannels pA pB (App.init sA) (App.init sB))

theorem start_paired {key : Bytes} {sA sB : EncSt} (hA : Enc.init key .client = .ok sA) (hB : Enc.init key .server = .ok sB)
    {n : Nat} (hn : n ≤ 2 ^ 62) : Paired n (App.init sA) (App.init sB) := by
  unfold Enc.init at hA hB
  split at hA
  · cases hA
  rename_i hk
  rw [if_neg hk] at hB
  have hk : key.length = 32 := by simpa [boxSecretKeyBytes] using hk
  cases hA
  cases hB
  exact ⟨rfl, hk, ⟨rfl, rfl⟩, rfl, rfl, ⟨by simp [App.init]; omega, by simp [App.init]; omega⟩, ⟨rfl, rfl⟩, ⟨rfl, rfl⟩,
    ⟨rfl, rfl⟩⟩

theorem paired_dirs {L : Lib} {ca cb : Clock} (hca : Spec.Accepts ca cb) (hcb : Spec.Accepts cb ca) {sA sB : AppSt} {n : Nat}
    (h : Paired n sA sB) : AppDir L ca cb sA sB [] [] n ∧ AppDir L cb ca sB sA [] [] n := by
  obtain ⟨h1, h2, ⟨h3, h3'⟩, h4, h5, ⟨h6, h6'⟩, ⟨h7, h7'⟩, ⟨h8, h8'⟩, ⟨h9, h9'⟩⟩ := h
  refine ⟨⟨h3, h3', h7', h1, h1 ▸ h2, h8, ⟨[], [], by rw [h4]; exact .nil _, .nil, by rw [h9']; rfl⟩, h6, hcb⟩,
    ⟨h3', h3, h7, h1.symm, h2, h8', ⟨[], [], by rw [h5]; exact .nil _, .nil, by rw [h9]; rfl⟩, h6', hca⟩⟩

theorem start_dirs {L : Lib} {ca cb : Clock} (hca : Spec.Accepts ca cb) (hcb : Spec.Accepts cb ca) {key : Bytes}
    {sA sB : EncSt} (hA : Enc.init key .client = .ok sA) (hB : Enc.init key .server = .ok sB) {n : Nat} (hn : n ≤ 2 ^ 62) :
    AppDir L ca cb (App.init sA) (App.init sB) [] [] n ∧ AppDir L cb ca (App.init sB) (App.init sA) [] [] n :=
  paired_dirs hca hcb (start_paired hA hB hn)

theorem start_inv {L : Lib} {ca cb : Clock} (hca : Spec.Accepts ca cb) (hcb : Spec.Accepts cb ca) {S : Prop} {sA sB : AppSt}
    {pA : ι → IT appSig α} {pB : κ → IT appSig β} (h1A : OneReader pA) (h1B : OneReader pB) {n : Nat} (h : Paired n sA sB)
    (hmA : ModestAll 65535 pA n) (hmB : ModestAll 65535 pB n) (i j : Nat)
    (hS : S → BoxSize L ∧ (∀ t, CallsWithin (2 ^ 31 - 27) (pA t)) ∧ ∀ t, CallsWithin (2 ^ 31 - 27) (pB t)) :
    TaskInv S L ca cb ⟨pA, pB, [], []⟩ (onChannels pA pB sA sB i j) := by
  obtain ⟨d1, d2⟩ := paired_dirs (L := L) hca hcb h
  refine ⟨⟨n, n, d1, d2, ⟨fun t => .call _, h1A, fun t h => absurd h (task_not_atRead _), hmA⟩,
    ⟨fun t => .call _, h1B, fun t h => absurd h (task_not_atRead _), hmB⟩⟩, fun hs => ?_⟩
  obtain ⟨s1, s2, s3⟩ := hS hs
  exact ⟨s1, s2, s3, by intro m hm; simp [onChannels] at hm, by intro m hm; simp [onChannels] at hm⟩

/-- **C91, what holds, at any point of a session.** As `C91_tasks_partial`, for two channels that match. -/
theorem C91_paired_partial {L : Lib} (hb : BoxLaw L) {ca cb : Clock} (hca : Spec.Accepts ca cb) (hcb : Spec.Accepts cb ca)
    {sA sB : AppSt} {n : Nat} (h : Paired n sA sB) (i j : Nat)
    (pA : ι → IT appSig α) (pB : κ → IT appSig β) (h1A : OneReader pA) (h1B : OneReader pB)
    (hmA : ModestAll 65535 pA n) (hmB : ModestAll 65535 pB n) :
    LikeDirect L ca cb pA pB (onChannels pA pB sA sB i j) := by
  have inv := start_inv (L := L) hca hcb (S := False) h1A h1B h hmA hmB i j False.elim
  refine ⟨tasks_terminate _, tasks_final _, fun Y hY => ?_⟩
  obtain ⟨y, h1, h2⟩ := inv.reach hb hY
  refine ⟨y, h1, ?_, ?_, h2.final⟩
  · intro t r hr
    obtain ⟨na, nb, -, -, h3, -⟩ := h2.ex
    exact (h3.rel t).result hr
  · intro t r hr
    obtain ⟨na, nb, -, -, -, h3⟩ := h2.ex
    exact (h3.rel t).result hr

/-- **C91, what holds.** Any number of tasks on each side may write at the same time while at most one of them reads:
whatever the schedule, all ends as if the tasks were directly connected.  Missing: several tasks that read. -/
theorem C91_tasks_partial {L : Lib} (hb : BoxLaw L) {ca cb : Clock} (hca : Spec.Accepts ca cb) (hcb : Spec.Accepts cb ca)
    {key : Bytes} {sA sB : EncSt} (hA : Enc.init key .client = .ok sA) (hB : Enc.init key .server = .ok sB)
    (pA : ι → IT appSig α) (pB : κ → IT appSig β) (h1A : OneReader pA) (h1B : OneReader pB) {n : Nat} (hn : n ≤ 2 ^ 62)
    (hmA : ModestAll 65535 pA n) (hmB : ModestAll 65535 pB n) :
    LikeDirect L ca cb pA pB (onChannels pA pB (App.init sA) (App.init sB)) :=
  C91_paired_partial hb hca hcb (start_paired hA hB hn) 0 0 pA pB h1A h1B hmA hmB

/-- The methods with attribute accesses made explicit are those of the channel model: a task that has the channel for
itself is a program on the channel. -/
theorem C91_model (p : IT appSig β) (s : AppSt) : Co.alone (Co.task p) s = App.run p s := Co.task_alone p s

/-! ### Full duplex -/

/-- Make these write calls. -/
def sendAll : List (List Bytes) → IT appSig (List Bytes)
  | [] => .ret []
  | ms :: rest => .op (S := appSig) (.write ms false) fun _ => sendAll rest

/-- Read that many messages, after `acc`. -/
def recvAll : Nat → List Bytes → IT appSig (List Bytes)
  | 0, acc => .ret acc
  | n + 1, acc => .op (S := appSig) .read fun
    | .ok m => recvAll n (acc ++ [m])
    | .error _ => .ret acc

/-- One task writes and one reads. -/
def duplex (out : List (List Bytes)) (n : Nat) : Bool → IT appSig (List Bytes)
  | true => sendAll out
  | false => recvAll n []

theorem sendAll_writeOnly (out : List (List Bytes)) : WriteOnly (sendAll out) := by
  induction out with
  | nil => trivial
  | cons ms rest ih => exact fun _ => ih

theorem sendAll_modest (out : List (List Bytes)) (h : ∀ ms ∈ out, ms ≠ [] ∧ ms.length ≤ 65535) :
    Modest 65535 (sendAll out) out.flatten.length := by
  induction out with
  | nil => trivial
  | cons ms rest ih =>
    obtain ⟨h1, h2⟩ := h ms (by simp)
    refine ⟨h1, h2, by simp, fun _ => ?_⟩
    rw [List.flatten_cons, List.length_append, Nat.add_sub_cancel_left]
    exact ih fun m hm => h m (by simp [hm])

theorem recvAll_modest (n : Nat) (acc : List Bytes) : Modest 65535 (recvAll n acc) 0 := by
  induction n generalizing acc with
  | zero => trivial
  | succ n ih =>
    intro r
    cases r with
    | ok m => exact ih _
    | error e => trivial

/-- What a direct connection does with writers and readers: one direction. -/
structure DuplexInv (out : List (List Bytes)) (n : Nat) (w r : IT appSig (List Bytes)) (link : List Bytes) : Prop where
  ex : ∃ rest acc k, w = sendAll rest ∧ r = recvAll k acc ∧ acc.length + k = n ∧ acc ++ link ++ rest.flatten = out.flatten

theorem duplex_step {oA oB : List (List Bytes)} {nA nB : Nat} {x y : Direct Bool Bool (List Bytes) (List Bytes)}
    (h : Direct.Step x y) (h1 : DuplexInv oA nA (x.a true) (x.b false) x.ab)
    (h2 : DuplexInv oB nB (x.b true) (x.a false) x.ba) :
    DuplexInv oA nA (y.a true) (y.b false) y.ab ∧ DuplexInv oB nB (y.b true) (y.a false) y.ba := by
  obtain ⟨rA, accA, kA, e1, e2, e3, e4⟩ := h1.ex
  obtain ⟨rB, accB, kB, f1, f2, f3, f4⟩ := h2.ex
  cases h with
  | aWrite t ms l k hk =>
    simp only at *
    cases t with
    | false =>
      rw [f2] at hk
      cases kB <;> cases hk
    | true =>
      rw [e1] at hk
      cases rA with
      | nil => cases hk
      | cons ms' rest =>
        cases hk
        refine ⟨⟨rest, accA, kA, rfl, e2, e3, ?_⟩, ⟨rB, accB, kB, f1, f2, f3, f4⟩⟩
        rw [← e4]; simp
  | bWrite t ms l k hk =>
    simp only at *
    cases t with
    | false =>
      rw [e2] at hk
      cases kA <;> cases hk
    | true =>
      rw [f1] at hk
      cases rB with
      | nil => cases hk
      | cons ms' rest =>
        cases hk
        refine ⟨⟨rA, accA, kA, e1, e2, e3, e4⟩, ⟨rest, accB, kB, rfl, f2, f3, ?_⟩⟩
        rw [← f4]; simp
  | aRead t m k hk =>
    simp only at *
    cases t with
    | true =>
      rw [e1] at hk
      cases rA <;> cases hk
    | false =>
      rw [f2] at hk
      cases kB with
      | zero => cases hk
      | succ kB =>
        cases hk
        refine ⟨⟨rA, accA, kA, e1, e2, e3, e4⟩, ⟨rB, accB ++ [m], kB, f1, rfl, by simp; omega, ?_⟩⟩
        rw [← f4]; simp
  | bRead t m k hk =>
    simp only at *
    cases t with
    | true =>
      rw [f1] at hk
      cases rB <;> cases hk
    | false =>
      rw [e2] at hk
      cases kA with
      | zero => cases hk
      | succ kA =>
        cases hk
        refine ⟨⟨rA, accA ++ [m], kA, e1, rfl, by simp; omega, ?_⟩, ⟨rB, accB, kB, f1, f2, f3, f4⟩⟩
        rw [← e4]; simp

theorem duplex_reach {oA oB : List (List Bytes)} {nA nB : Nat} {y : Direct Bool Bool (List Bytes) (List Bytes)}
    (h : Direct.Reach ⟨duplex oA nB, duplex oB nA, [], []⟩ y) :
    DuplexInv oA nA (y.a true) (y.b false) y.ab ∧ DuplexInv oB nB (y.b true) (y.a false) y.ba := by
  generalize hx : (⟨duplex oA nB, duplex oB nA, [], []⟩ : Direct Bool Bool (List Bytes) (List Bytes)) = x at h
  induction h with
  | refl =>
    subst hx
    exact ⟨⟨oA, [], nA, rfl, rfl, by simp, by simp⟩, ⟨oB, [], nB, rfl, rfl, by simp, by simp⟩⟩
  | step _ s ih => exact duplex_step s ih.1 ih.2

theorem duplex_final {oA : List (List Bytes)} {y : Direct Bool Bool (List Bytes) (List Bytes)}
    (hs : Direct.Stuck y) (h1 : DuplexInv oA oA.flatten.length (y.a true) (y.b false) y.ab) :
    y.a true = .ret [] ∧ y.b false = .ret oA.flatten := by
  obtain ⟨rA, accA, kA, e1, e2, e3, e4⟩ := h1.ex
  obtain ⟨a, b, ab, ba⟩ := y
  simp only at *
  have hr : rA = [] := by
    cases rA with
    | nil => rfl
    | cons ms rest => exact absurd (Direct.Step.aWrite true ms false _ e1) (hs _)
  subst hr
  simp only [List.flatten_nil, List.append_nil] at e4
  have hlen := congrArg List.length e4
  rw [List.length_append] at hlen
  cases kA with
  | zero =>
    have : ab = [] := List.length_eq_zero_iff.1 (by omega)
    subst this
    rw [List.append_nil] at e4
    subst e4
    exact ⟨e1, e2⟩
  | succ k =>
    cases ab with
    | nil => rw [List.length_nil] at hlen; omega
    | cons m ab => exact absurd (Direct.Step.bRead false m _ e2) (hs _)

theorem duplex_one (out : List (List Bytes)) (n : Nat) : OneReader (duplex out n) := by
  intro t t' h
  cases t <;> cases t'
  · exact absurd rfl h
  · exact .inr (sendAll_writeOnly out)
  · exact .inl (sendAll_writeOnly out)
  · exact absurd rfl h

theorem duplex_modest {out : List (List Bytes)} (h : ∀ ms ∈ out, ms ≠ [] ∧ ms.length ≤ 65535) (n : Nat) {m : Nat}
    (hm : out.flatten.length ≤ m) : ModestAll 65535 (duplex out n) m := by
  refine ⟨fun t => if t then out.flatten.length else 0, ?_, ?_⟩
  · rintro (_ | _)
    · exact recvAll_modest n []
    · exact sendAll_modest out h
  · simpa using hm

/-- What the ideal does: both readers end with what the other side has written. -/
theorem duplex_ideal {outA outB : List (List Bytes)} {y : Direct Bool Bool (List Bytes) (List Bytes)}
    (h : Direct.Reach ⟨duplex outA outB.flatten.length, duplex outB outA.flatten.length, [], []⟩ y) (hs : Direct.Stuck y) :
    y.a true = .ret [] ∧ y.a false = .ret outB.flatten ∧ y.b true = .ret [] ∧ y.b false = .ret outA.flatten := by
  obtain ⟨i1, i2⟩ := duplex_reach h
  obtain ⟨r1, r2⟩ := duplex_final hs i1
  have hsw : Direct.Stuck y.swap := fun z hz => hs z.swap hz.swap
  obtain ⟨r3, r4⟩ := duplex_final (y := y.swap) hsw i2
  exact ⟨r1, r4, r3, r2⟩

/-- **C91, full duplex.** On both sides one task writes and another reads, at the same time, and each side reads as many
messages as the other writes: whatever the schedule, both readers end with exactly the messages the other side has
written, in order. -/
theorem C91_duplex {L : Lib} (hb : BoxLaw L) {ca cb : Clock} (hca : Spec.Accepts ca cb) (hcb : Spec.Accepts cb ca)
    {key : Bytes} {sA sB : EncSt} (hA : Enc.init key .client = .ok sA) (hB : Enc.init key .server = .ok sB)
    (outA outB : List (List Bytes)) (hoA : ∀ ms ∈ outA, ms ≠ [] ∧ ms.length ≤ 65535)
    (hoB : ∀ ms ∈ outB, ms ≠ [] ∧ ms.length ≤ 65535) (hlA : outA.flatten.length ≤ 2 ^ 62) (hlB : outB.flatten.length ≤ 2 ^ 62)
    {Y : TaskNet Bool Bool AppSt AppSt (List Bytes) (List Bytes)}
    (hY : TaskNet.Reach L ca cb (onChannels (duplex outA outB.flatten.length) (duplex outB outA.flatten.length)
      (App.init sA) (App.init sB)) Y) (hs : TaskNet.Stuck L ca cb Y) :
    Y.a.tasks true = .ret [] ∧ Y.a.tasks false = .ret outB.flatten ∧
      Y.b.tasks true = .ret [] ∧ Y.b.tasks false = .ret outA.flatten := by
  obtain ⟨-, -, h⟩ := C91_tasks_partial hb hca hcb hA hB (duplex outA outB.flatten.length)
    (duplex outB outA.flatten.length) (duplex_one _ _) (duplex_one _ _) le_rfl (duplex_modest hoA _ hlA)
    (duplex_modest hoB _ hlB)
  obtain ⟨y, h1, -, -, h2⟩ := h Y hY
  obtain ⟨h3, h4, h5⟩ := h2 hs
  obtain ⟨r1, r4, r3, r2⟩ := duplex_ideal h1 h3
  have key : ∀ {p : IT appSig (List Bytes)} {T : IT (sh AppSt) (List Bytes)} {r}, TaskEnd p T → p = .ret r → T = .ret r := by
    intro p T r h e
    cases h with
    | ret => cases e; rfl
    | wait => cases e
  exact ⟨key (h4 true) r1, key (h4 false) r4, key (h5 true) r3, key (h5 false) r2⟩

/-! ### Two readers -/

/-- One task that makes one write call with two messages. -/
def oneWriter : Unit → IT appSig (List Bytes) := fun _ => sendAll [[[1], [2]]]

/-- Two tasks, each of which reads one message. -/
def twoReaders : Bool → IT appSig (List Bytes) := fun _ => recvAll 1 []

/-- What remains in flight when two readers are directly connected to the writer. -/
structure TwoInv (x : Direct Unit Bool (List Bytes) (List Bytes)) : Prop where
  ex : ∃ f : Bool → Bool, (∀ t, f t = false → x.b t = recvAll 1 []) ∧ (∀ t, f t = true → ∃ r, x.b t = .ret r) ∧
    ((x.a () = sendAll [[[1], [2]]] ∧ x.ab.length + (f true).toNat + (f false).toNat = 0) ∨
      (x.a () = sendAll [] ∧ x.ab.length + (f true).toNat + (f false).toNat = 2))

theorem two_step {x y : Direct Unit Bool (List Bytes) (List Bytes)} (h : Direct.Step x y) (i : TwoInv x) : TwoInv y := by
  obtain ⟨f, f1, f2, f3⟩ := i.ex
  cases h with
  | aWrite t ms l k hk =>
    simp only at *
    rcases f3 with ⟨e, f3⟩ | ⟨e, f3⟩
    · rw [show t = () from rfl, e] at hk
      cases hk
      refine ⟨f, f1, f2, .inr ⟨rfl, ?_⟩⟩
      simp only [List.length_append, List.length_cons, List.length_nil]
      omega
    · rw [show t = () from rfl, e] at hk
      cases hk
  | aRead t m k hk =>
    simp only at *
    rcases f3 with ⟨e, f3⟩ | ⟨e, f3⟩ <;> · rw [show t = () from rfl, e] at hk; cases hk
  | bWrite t ms l k hk =>
    simp only at *
    cases hf : f t with
    | false => rw [f1 t hf] at hk; cases hk
    | true => obtain ⟨r, e⟩ := f2 t hf; rw [e] at hk; cases hk
  | bRead t m k hk =>
    simp only at *
    cases hf : f t with
    | true => obtain ⟨r, e⟩ := f2 t hf; rw [e] at hk; cases hk
    | false =>
      rw [f1 t hf] at hk
      cases hk
      refine ⟨Function.update f t true, ?_, ?_, ?_⟩
      · intro u hu
        by_cases h : u = t
        · subst h; simp at hu
        · rw [Function.update_of_ne h] at hu
          simpa only [Function.update_of_ne h] using f1 u hu
      · intro u hu
        by_cases h : u = t
        · subst h; exact ⟨[] ++ [m], by simp only [Function.update_self]; rfl⟩
        · rw [Function.update_of_ne h] at hu
          simpa only [Function.update_of_ne h] using f2 u hu
      · simp only [List.length_cons] at f3
        rcases f3 with ⟨e, f3⟩ | ⟨e, f3⟩
        · omega
        · refine .inr ⟨e, ?_⟩
          cases t <;> simp [hf] at f3 ⊢ <;> omega

theorem two_reach {y : Direct Unit Bool (List Bytes) (List Bytes)}
    (h : Direct.Reach ⟨oneWriter, twoReaders, [], []⟩ y) : TwoInv y := by
  generalize hx : (⟨oneWriter, twoReaders, [], []⟩ : Direct Unit Bool (List Bytes) (List Bytes)) = x at h
  induction h with
  | refl =>
    subst hx
    exact ⟨fun _ => false, fun _ _ => rfl, fun _ h => (by cases h), .inl ⟨rfl, rfl⟩⟩
  | step _ s ih => exact two_step s ih

/-- Directly connected, both readers always get their message. -/
theorem two_final {y : Direct Unit Bool (List Bytes) (List Bytes)}
    (h : Direct.Reach ⟨oneWriter, twoReaders, [], []⟩ y) (hs : Direct.Stuck y) (t : Bool) : ∃ r, y.b t = .ret r := by
  obtain ⟨f, f1, f2, f3⟩ := (two_reach h).ex
  cases hf : f t with
  | true => exact f2 t hf
  | false =>
    exfalso
    obtain ⟨a, b, ab, ba⟩ := y
    simp only at *
    rcases f3 with ⟨e, f3⟩ | ⟨e, f3⟩
    · exact hs _ (Direct.Step.aWrite () _ _ _ e)
    · cases ab with
      | cons m ab => exact hs _ (Direct.Step.bRead t m _ (f1 t hf))
      | nil => cases t <;> simp [hf] at f3 <;> revert f3 <;> cases f true <;> cases f false <;> simp

theorem write_two {L : Lib} (hb : BoxLaw L) {ca cb : Clock} {w r : AppSt} (d : AppDir L ca cb w r [] [] 2)
    (hw : w.bufferedM4 = none) (hr : r.readQ = []) :
    ∃ tr p s1, Exec (App.write [[1], [2]] false w) tr (.ok (), s1) ∧ Local L ca 0 tr 1 ∧
      callsOf tr = [⟨AppOp.write [p] false, .ok ()⟩] ∧ AppDir L ca cb s1 r [p] [[1], [2]] 0 := by
  have hbud := d.budget
  have hpk : pending w (ca.now 0) ++ appPackets (ca.now 0) [[1], [2]] = [multiApp (ca.now 0) [[1], [2]]] := by
    simp [pending, hw, appPackets]
  obtain ⟨tr, ps, e1, e2, e3, e4, -⟩ := App_write_flight hb ca false [[1], [2]] w d.wNonce (d.key ▸ d.keyLen) 0 (by
    rw [hpk, List.length_singleton]; omega)
  rw [hpk, List.length_singleton] at e1 e4
  obtain ⟨p, rfl⟩ : ∃ p, ps = [p] := by
    generalize w.enc.writeNonce + 2 * 1 = N at e4
    cases e4 with
    | cons _ c l hbox hrest =>
      cases hrest
      exact ⟨_, rfl⟩
  refine ⟨tr, p, _, e1, e2, e3, d.wNonce, d.rNonce, d.push, d.key, d.keyLen, rfl,
    ⟨appPackets (ca.now 0) [[1], [2]], [[1], [2]], ?_, .packets (fun j => d.times.check j 0) _ (by simp), by rw [hr]; rfl⟩,
    by simp only; omega, d.times⟩
  obtain ⟨qs, rest, f1, -, -⟩ := d.flight
  have hn := f1.le
  generalize w.enc.writeNonce = N at f1 hn e4 ⊢
  cases f1
  rw [← d.key]
  simpa [appPackets] using e4

/-- **C91, what goes wrong with two readers.** Both tasks of one side wait for a message when a packet with two messages
arrives: the first gets its message, the second message stays in the queue of the channel, and the other task waits for
good. -/
theorem C91_two_readers {L : Lib} (hb : BoxLaw L) {ca cb : Clock} (hca : Spec.Accepts ca cb) (hcb : Spec.Accepts cb ca)
    {key : Bytes} {sA sB : EncSt} (hA : Enc.init key .client = .ok sA) (hB : Enc.init key .server = .ok sB) :
    ∃ Y, TaskNet.Reach L ca cb (onChannels oneWriter twoReaders (App.init sA) (App.init sB)) Y ∧
      TaskNet.Stuck L ca cb Y ∧ Y.b.tasks false = .ret [[1]] ∧
      (∃ k, Y.b.tasks true = .op (S := sh AppSt) (.env .read) k) ∧ Y.b.st.readQ = [[2]] := by
  obtain ⟨d1, d2⟩ := start_dirs (L := L) hca hcb hA hB (n := 2) (by decide)
  let W : IT (sh AppSt) (List Bytes) := .op (S := sh AppSt) (.env .read) fun r => IT.bind (Co.readRest r) fun r =>
    Co.task (match r with | .ok m => recvAll 0 ([] ++ [m]) | .error _ => .ret [])
  have hw : ∀ i, block L cb (Co.task (recvAll 1 [])) (App.init sB) i = (W, App.init sB, i, []) := fun i =>
    Co.block_read _ rfl d1.push
  obtain ⟨tr, p, s1, e1, e2, e3, d1'⟩ := write_two hb d1 rfl rfl
  have hx : Exec (Co.alone (Co.handle (.write [[1], [2]] false)) (App.init sA)) tr (.ok (), s1) := by
    rw [Co.handle_means (.write [[1], [2]] false) (App.init sA)]; exact e1
  have hblk := Co.block_write (fun _ => Co.task (sendAll [])) hx e2 e3 (Co.write_last _ _)
  obtain ⟨m', q, s2, j, f1, f2, f3, -⟩ := recv_block hb p 0 d1' rfl fun r =>
    Co.task (match r with | .ok m => recvAll 0 ([] ++ [m]) | .error _ => .ret [])
  obtain ⟨rfl, rfl⟩ := List.cons.inj f1
  have hq : s2.readQ = [[2]] := by
    obtain ⟨qs, rest, g1, g2, g3⟩ := f3.flight
    generalize s1.enc.writeNonce = N at g1
    cases g1
    cases g2
    rw [List.append_nil] at g3
    exact g3.symm
  let a0 : Loop Unit AppSt (List Bytes) := ⟨fun t => Co.task (oneWriter t), App.init sA, 0⟩
  let b0 : Loop Bool AppSt (List Bytes) := ⟨fun t => Co.task (twoReaders t), App.init sB, 0⟩
  let b1 : Loop Bool AppSt (List Bytes) := ⟨Function.update b0.tasks false W, App.init sB, 0⟩
  let b2 : Loop Bool AppSt (List Bytes) := ⟨Function.update b1.tasks true W, App.init sB, 0⟩
  let a1 : Loop Unit AppSt (List Bytes) := ⟨Function.update a0.tasks () (.ret []), s1, 1⟩
  let b3 : Loop Bool AppSt (List Bytes) := ⟨Function.update b2.tasks false (.ret [[1]]), s2, j⟩
  have r1 : b0.run L cb false (b0.tasks false) = (b1, []) := by
    show Loop.run L cb b0 false (Co.task (recvAll 1 [])) = _
    simp only [Loop.run, b0, hw]; rfl
  have r2 : b1.run L cb true (b1.tasks true) = (b2, []) := by
    show Loop.run L cb b1 true (Co.task (recvAll 1 [])) = _
    simp only [Loop.run, b1, hw]; rfl
  have r3 : a0.run L ca () (a0.tasks ()) = (a1, [p]) := by
    show (_, _) = _
    have : block L ca (a0.tasks ()) a0.st a0.calls = _ := hblk
    rw [this]
    rfl
  have r4 : b2.run L cb false (IT.bind (Co.readRest (.ok p)) fun r =>
      Co.task (match r with | .ok m => recvAll 0 ([] ++ [m]) | .error _ => .ret [])) = (b3, []) := by
    simp only [Loop.run]
    rw [show b2.st = App.init sB from rfl, show b2.calls = 0 from rfl, f2]
    rfl
  have h1 : TaskNet.Step L ca cb ⟨a0, b0, [], []⟩ ⟨a0, b1, [], []⟩ := by
    have := TaskNet.Step.bRun (L := L) (ca := ca) (cb := cb) (a := a0) (b := b0) (ab := []) (ba := []) false trivial
    rwa [r1] at this
  have h2 : TaskNet.Step L ca cb ⟨a0, b1, [], []⟩ ⟨a0, b2, [], []⟩ := by
    have := TaskNet.Step.bRun (L := L) (ca := ca) (cb := cb) (a := a0) (b := b1) (ab := []) (ba := []) true trivial
    rwa [r2] at this
  have h3 : TaskNet.Step L ca cb ⟨a0, b2, [], []⟩ ⟨a1, b2, [p], []⟩ := by
    have := TaskNet.Step.aRun (L := L) (ca := ca) (cb := cb) (a := a0) (b := b2) (ab := []) (ba := []) () trivial
    rwa [r3] at this
  have h4 : TaskNet.Step L ca cb ⟨a1, b2, [p], []⟩ ⟨a1, b3, [], []⟩ := by
    have := TaskNet.Step.bRecv (L := L) (ca := ca) (cb := cb) (a := a1) (b := b2) (ab := []) (ba := []) false p _ rfl
    rwa [r4] at this
  refine ⟨⟨a1, b3, [], []⟩, .step (.step (.step (.step (.refl _) h1) h2) h3) h4, ?_, rfl, ⟨_, rfl⟩, hq⟩
  intro y hy
  cases hy with
  | aRun t ht => exact ht
  | bRun t ht => cases t <;> exact ht

theorem exAccepts : Spec.Accepts exClock exClock := (exSetup true true).acceptsC

theorem C91_violated : ¬ C91_claim := by
  intro h
  have hm : ModestAll 65535 oneWriter 2 := ⟨fun _ => 2, fun _ => ⟨by simp, by simp, by simp, fun _ => trivial⟩, by simp⟩
  have hr : ModestAll 65535 twoReaders 2 := ⟨fun _ => 0, fun _ => recvAll_modest 1 [], by simp⟩
  obtain ⟨-, -, h⟩ := h toyLib exClock exClock (zeros 32) _ _ oneWriter twoReaders 2 toy_box
    exAccepts exAccepts rfl rfl (by decide) hm hr
  obtain ⟨Y, h1, h2, -, ⟨k, h3⟩, -⟩ := C91_two_readers toy_box exAccepts exAccepts (key := zeros 32) rfl rfl
  obtain ⟨y, k1, -, -, k2⟩ := h Y h1
  obtain ⟨k3, -, k4⟩ := k2 h2
  obtain ⟨r, e⟩ := two_final k1 k3 true
  have := k4 true
  rw [e, h3] at this
  cases this

/-! ### Examples -/

/-- Three tasks: two that write, one that reads two messages and then answers. -/
def exTasks : Fin 3 → IT appSig (List Bytes)
  | 0 => sendAll [[[1], [2, 3]], [[4]]]
  | 1 => sendAll [[[5]]]
  | 2 => .op (S := appSig) .read fun _ => .op (S := appSig) .read fun _ => sendAll [[[6]]]

/-- The hypotheses of `C91_tasks_partial` can be met: three tasks on each side. -/
example : LikeDirect toyLib exClock exClock exTasks exTasks
    (onChannels exTasks exTasks (App.init ⟨zeros 32, zeros 8, 2, 1, [], false⟩)
      (App.init ⟨zeros 32, zeros 8, 1, 2, [], false⟩)) := by
  have h1 : OneReader exTasks := by
    have h0 : WriteOnly (exTasks 0) := sendAll_writeOnly _
    have h1 : WriteOnly (exTasks 1) := sendAll_writeOnly _
    intro t t' h
    match t, t' with
    | 0, _ => exact .inl h0
    | 1, _ => exact .inl h1
    | 2, 0 => exact .inr h0
    | 2, 1 => exact .inr h1
    | 2, 2 => exact absurd rfl h
  have h2 : ModestAll 65535 exTasks 5 := by
    refine ⟨fun t => match t with | 0 => 3 | 1 => 1 | 2 => 1, ?_, by simp [Fin.sum_univ_three]⟩
    intro t
    match t with
    | 0 => exact sendAll_modest [[[1], [2, 3]], [[4]]] (by simp)
    | 1 => exact sendAll_modest [[[5]]] (by simp)
    | 2 => exact fun _ _ => sendAll_modest [[[6]]] (by simp)
  exact C91_tasks_partial toy_box exAccepts exAccepts (key := zeros 32) rfl rfl exTasks exTasks h1 h1 (by decide) h2 h2

/-- The hypotheses of `C91_duplex` can be met: both sides talk at the same time, and there is a final configuration. -/
example : ∃ Y : TaskNet Bool Bool AppSt AppSt (List Bytes) (List Bytes), TaskNet.Reach toyLib exClock exClock
    (onChannels (duplex [[[1], [2, 3]], [[4]]] 1) (duplex [[[7, 8]]] 3)
      (App.init ⟨zeros 32, zeros 8, 2, 1, [], false⟩) (App.init ⟨zeros 32, zeros 8, 1, 2, [], false⟩)) Y ∧
    Y.a.tasks false = .ret [[7, 8]] ∧ Y.b.tasks false = .ret [[1], [2, 3], [4]] := by
  obtain ⟨Y, h1, h2⟩ := tasks_final (L := toyLib) (ca := exClock) (cb := exClock)
    (onChannels (duplex [[[1], [2, 3]], [[4]]] 1) (duplex [[[7, 8]]] 3)
      (App.init ⟨zeros 32, zeros 8, 2, 1, [], false⟩) (App.init ⟨zeros 32, zeros 8, 1, 2, [], false⟩))
  obtain ⟨-, h3, -, h4⟩ := C91_duplex toy_box exAccepts exAccepts (key := zeros 32) rfl rfl [[[1], [2, 3]], [[4]]] [[[7, 8]]]
    (by simp) (by simp) (by decide) (by decide) h1 h2
  exact ⟨Y, h1, h3, h4⟩

end Salt.Props
