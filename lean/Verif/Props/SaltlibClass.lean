import Verif.Model.SaltlibClass
import Verif.Props.Saltlib1

/-!
# C132: the library and the random number generator that were asked for
-/

namespace Salt.Spec

open Salt

/-- The library that `lib_map` has for a type; for `LIB_TYPE_BEST` the most preferred one that is available. -/
def Wanted {α : Type} (avail : α → Bool) (n p t : α) : LibType → α → Prop
  | .best, a => MostPreferred avail [n, p, t] a
  | .native, a => a = n
  | .pynacl, a => a = p
  | .tweetnaclExt, a => a = t

/-- The random number generator of a type, with a library. -/
def Source {α : Type} (a : α) : RngType → RandFn α
  | .urandom => .os
  | .impl => .method a

/-- `void randombytes(unsigned char *buf, unsigned long long buf_len)` of libsodium is called with a buffer and its size. -/
def RandombytesOk (args : List CArg) : Prop := ∃ size n : Nat, args = [.buffer size, .int n] ∧ n ≤ size

end Salt.Spec

namespace Salt.Props

open Salt Salt.Spec SaltLibClass

variable {α : Type} (avail : α → Bool)

/-- C132 as intended: whatever was done before in the process (`pre`), an object `SaltLib(t, r)` that can be made uses the library
of type `t`, and random numbers come from the generator of type `r` afterwards. -/
def C132_claim (n p t : α) (pre : List Op) (lt : LibType) (r : RngType) : Prop :=
  ∀ rs s, run avail (libMap n p t) (pre ++ [.construct lt r, .random]) {} = (rs, s) →
    ∃ a, Wanted avail n p t lt a ∧ rs[pre.length]? = some (.object (.ok (some a))) ∧
      rs[pre.length + 1]? = some (.called (.ok (Source a r)))

section run

variable {avail} {m : List (Nat × α)}

theorem slrun_length (os : List Op) (s : SaltLibClass α) : (run avail m os s).1.length = os.length := by
  induction os generalizing s with
  | nil => rfl
  | cons o os ih => simp [run, ih]

theorem slrun_append (os os' : List Op) (s : SaltLibClass α) :
    run avail m (os ++ os') s =
      ((run avail m os s).1 ++ (run avail m os' (run avail m os s).2).1, (run avail m os' (run avail m os s).2).2) := by
  induction os generalizing s with
  | nil => rfl
  | cons o os ih => simp [run, ih]

/-- The class has no generator as long as it has no instance. -/
theorem slrun_fresh {s : SaltLibClass α} (h : s.inst = none ↔ s.rand = none) (os : List Op) :
    (run avail m os s).2.inst = none ↔ (run avail m os s).2.rand = none := by
  induction os generalizing s with
  | nil => exact h
  | cons o os ih =>
    refine ih ?_
    cases o with
    | random => exact h
    | getLib t => exact h
    | construct t r =>
      simp only [step, call]
      cases hi : s.inst with
      | some api => simpa [hi] using h
      | none =>
        have hr := h.1 hi
        simp only [init, SaltLibClass.getLib]
        cases Salt.getLib avail m t with
        | error e => simp [hi, hr]
        | ok api =>
          cases r <;> cases api <;> simp [hi, hr]

end run

/-- **C132, the first object counts.** Once an object has been made, everything stays as it is, whatever is done: every
construction returns that object, whatever its arguments; the library and the random number generator are those of the first
one.  Only `lib_type` follows later calls of `getLib`. -/
theorem C132_frozen (m : List (Nat × α)) {s : SaltLibClass α} {api : Option α} {f : RandFn α} (hi : s.inst = some api)
    (hf : s.rand = some f) (os : List Op) :
    (run avail m os s).2.inst = some api ∧ (run avail m os s).2.rand = some f ∧
    ∀ (i : Nat) (o : Op), os[i]? = some o →
      match o with
      | .construct _ _ => (run avail m os s).1[i]? = some (.object (.ok api))
      | .random => (run avail m os s).1[i]? = some (.called (.ok f))
      | .getLib t => (run avail m os s).1[i]? = some (.lib (Salt.getLib avail m t)) := by
  induction os generalizing s with
  | nil => exact ⟨hi, hf, by simp⟩
  | cons o os ih =>
    have hs : (step avail m o s).2.inst = some api ∧ (step avail m o s).2.rand = some f := by
      cases o <;> simp [step, call, SaltLibClass.getLib, hi, hf]
    obtain ⟨h1, h2, h3⟩ := ih hs.1 hs.2
    refine ⟨h1, h2, fun i o' ho => ?_⟩
    cases i with
    | zero =>
      simp only [List.getElem?_cons_zero, Option.some.injEq] at ho
      subst ho
      cases o <;> simp [run, step, call, SaltLibClass.getLib, randomBytes, hi, hf]
    | succ i =>
      have := h3 i o' (by simpa using ho)
      cases o' <;> simpa [run] using this

/-- **C132, the first object.** What `SaltLib(t, r)` does as long as there is no object: with an explicitly requested library it
makes an object without library, or raises AttributeError if the random numbers are to come from the library; by
default it takes libsodium, or raises NoSuchLibException without. -/
theorem C132_first (n p t : α) {s : SaltLibClass α} (hi : s.inst = none) (lt : LibType) (r : RngType) :
    (call avail (libMap n p t) lt r s).1 =
      (if lt ≠ .best then (if r = .urandom then .ok none else .error .attributeError)
       else if avail n then .ok (some n) else .error .noSuchLib) ∧
    ((call avail (libMap n p t) lt r s).1 = .ok none → (call avail (libMap n p t) lt r s).2.rand = some .os) ∧
    (∀ a, (call avail (libMap n p t) lt r s).1 = .ok (some a) → (call avail (libMap n p t) lt r s).2.rand = some (Source a r)) ∧
    ∀ api, (call avail (libMap n p t) lt r s).1 = .ok api → (call avail (libMap n p t) lt r s).2.inst = some api := by
  simp only [call, hi, init, SaltLibClass.getLib]
  by_cases hl : lt = .best
  · subst hl
    cases ha : avail n with
    | false => simp [Salt.getLib, libMap, getLibLoop, ha]
    | true => cases r <;> simp [Salt.getLib, libMap, getLibLoop, ha, Source]
  · rw [C50_requested avail _ lt hl]
    cases r <;> simp [hl]

/-- **C132, before the first object** there are no random numbers: as long as no construction has succeeded, `random_bytes`
raises AttributeError. -/
theorem C132_before (m : List (Nat × α)) (pre : List Op) (hno : ∀ (i : Nat) api, (run avail m pre {}).1[i]? ≠ some (.object (.ok api))) :
    randomBytes (run avail m pre {}).2 = .error .attributeError := by
  have key : ∀ (pre : List Op) (s : SaltLibClass α), s.inst = none →
      (∀ (i : Nat) api, (run avail m pre s).1[i]? ≠ some (.object (.ok api))) → (run avail m pre s).2.inst = none := by
    intro pre
    induction pre with
    | nil => intro s hs _; exact hs
    | cons o pre ih =>
      intro s hs h
      refine ih _ ?_ fun i api => by simpa [run] using h (i + 1) api
      cases o with
      | random => exact hs
      | getLib t => exact hs
      | construct t r =>
        have h0 := h 0
        simp only [run, step, List.getElem?_cons_zero, ne_eq, Option.some.injEq, Res.object.injEq] at h0
        simp only [step]
        unfold call at h0 ⊢
        simp only [hs] at h0 ⊢
        cases hc : init avail m t r s with
        | mk x s' =>
          rw [hc] at h0
          cases x with
          | ok api => exact absurd rfl (h0 api)
          | error e =>
            simp only [init, SaltLibClass.getLib] at hc
            dsimp only
            generalize Salt.getLib avail m t = g at hc
            cases g with
            | error e' => cases hc; exact hs
            | ok api => cases r <;> cases api <;> cases hc; exact hs
  have h := (slrun_fresh (avail := avail) (m := m) (s := {}) ⟨fun _ => rfl, fun _ => rfl⟩ pre).1 (key pre {} rfl hno)
  simp [randomBytes, h]

/-- **C132, by default.** In a process in which all objects are made by default, as sessions and channels do, with libsodium, every
object uses it, which is the most preferred library, and the random numbers are those of the operating system. Missing for the full
claim: other libraries, other generators, and processes that ask for different ones. -/
theorem C132_default_partial (n p t : α) (ha : avail n = true) (pre : List Op)
    (hd : ∀ lt r, Op.construct lt r ∈ pre → lt = .best ∧ r = .urandom) :
    C132_claim avail n p t pre .best .urandom := by
  intro rs s h
  have inv : ∀ (pre : List Op) (s : SaltLibClass α), (s.inst = none ∨ s.inst = some (some n) ∧ s.rand = some .os) →
      (∀ lt r, Op.construct lt r ∈ pre → lt = .best ∧ r = .urandom) →
      ((run avail (libMap n p t) pre s).2.inst = none ∨
        (run avail (libMap n p t) pre s).2.inst = some (some n) ∧ (run avail (libMap n p t) pre s).2.rand = some .os) := by
    intro pre
    induction pre with
    | nil => intro s hs _; exact hs
    | cons o pre ih =>
      intro s hs h
      refine ih _ ?_ fun lt r hm => h lt r (List.mem_cons_of_mem _ hm)
      cases o with
      | random => exact hs
      | getLib _ => exact hs
      | construct lt r =>
        obtain ⟨rfl, rfl⟩ := h lt r List.mem_cons_self
        rcases hs with hs | ⟨h1, h2⟩
        · obtain ⟨c1, -, c3, c4⟩ := C132_first avail n p t hs .best .urandom
          simp only [ne_eq, not_true_eq_false, if_false, ha, if_true] at c1
          exact .inr ⟨c4 _ c1, c3 _ c1⟩
        · simp [step, call, h1, h2]
  have hi := inv pre {} (.inl rfl) hd
  rw [slrun_append] at h
  cases h
  have hl := slrun_length (avail := avail) (m := libMap n p t) pre {}
  refine ⟨n, ⟨[], [p, t], rfl, ha, by simp⟩, ?_, ?_⟩
  all_goals
    rw [List.getElem?_append_right (by omega), hl]
    rcases hi with hi | ⟨h1, h2⟩
    · obtain ⟨c1, -, c3, c4⟩ := C132_first avail n p t hi .best .urandom
      simp only [ne_eq, not_true_eq_false, if_false, ha, if_true] at c1
      simp [run, step, c1, randomBytes, c3 _ c1, Source]
    · simp [run, step, call, h1, h2, randomBytes, Source]

/-- **C132, `lib_type`** is the type in the last call of `getLib`, also when that is not the library that the objects use. The
constructor of the first object calls `getLib`, the later ones do not. -/
theorem C132_lib_type (m : List (Nat × α)) (os : List Op) (s : SaltLibClass α) :
    (∀ api, s.inst = some api → (run avail m os s).2.libType =
      ((os.filterMap fun o => match o with | .getLib t => some t | _ => none).getLast?).or s.libType) ∧
    (s.inst = none → ∀ lt r, (call avail m lt r s).2.libType = some lt) := by
  constructor
  · induction os generalizing s with
    | nil => intro api _; simp [run]
    | cons o os ih =>
      intro api hi
      have hs : (step avail m o s).2.inst = some api := by
        cases o <;> simp [step, call, SaltLibClass.getLib, hi]
      rw [run, ih _ api hs]
      cases o with
      | random => simp [step]
      | construct t r => simp [step, call, hi]
      | getLib t => simp [step, SaltLibClass.getLib, List.getLast?_cons]
  · intro hi lt r
    simp only [call, hi, init, SaltLibClass.getLib]
    cases Salt.getLib avail m lt with
    | error e => rfl
    | ok api => cases r <;> cases api <;> rfl

/-- **C132, sessions and channels.** So in a process with libsodium in which only sessions and encrypted channels make objects, however many and
whatever else is done, each of them uses libsodium and the random numbers of the operating system. -/
theorem C132_sessions (n p t : α) (ha : avail n = true) (parts : List (List Op))
    (hp : ∀ o ∈ parts, o = session ∨ o = encChannel ∨ o = [.random] ∨ ∃ lt, o = [.getLib lt]) :
    C132_claim avail n p t parts.flatten .best .urandom := by
  refine C132_default_partial avail n p t ha _ fun lt r h => ?_
  obtain ⟨o, ho, hm⟩ := List.mem_flatten.1 h
  rcases hp o ho with rfl | rfl | rfl | ⟨lt', rfl⟩ <;> simp_all [session, encChannel]

/-- **C132, violated**: by the second of two objects with different random number generators … -/
theorem C132_violated (n p t : α) (ha : avail n = true) :
    ¬ C132_claim avail n p t [.construct .best .urandom] .best .impl := by
  intro h
  obtain ⟨a, -, -, h2⟩ := h _ _ rfl
  simp [run, step, call, init, SaltLibClass.getLib, Salt.getLib, libMap, getLibLoop, ha, randomBytes, Source] at h2

/-- … and by the first object, whichever library is requested explicitly. -/
theorem C132_violated_requested (n p t : α) (lt : LibType) (hl : lt ≠ .best) (r : RngType) :
    ¬ C132_claim avail n p t [] lt r := by
  intro h
  obtain ⟨a, -, h1, -⟩ := h _ _ rfl
  have c := (C132_first avail n p t (s := {}) rfl lt r).1
  simp only [run, step, c, List.length_nil, List.getElem?_cons_zero] at h1
  cases r <;> simp [hl] at h1

/-- **C132, sessions after that.** If the first `SaltLib` object of a process is made for an explicitly requested library, then every
session of the process, as every later construction, gets the object without library, none of whose methods works
(`C50_requested_unusable`), although the encrypted channels get libsodium if there is one; whatever is done in between. -/
theorem C132_sessions_unusable (n p t : α) (lt : LibType) (hl : lt ≠ .best) (os : List Op) :
    let s := (run avail (libMap n p t) (.construct lt .urandom :: os) {}).2
    (run avail (libMap n p t) session s).1 = [.object (.ok none)] ∧
    (run avail (libMap n p t) encChannel s).1 = [.object (.ok none), .lib (Salt.getLib avail (libMap n p t) .best)] := by
  intro s
  obtain ⟨c1, c2, -, c4⟩ := C132_first avail n p t (s := {}) rfl lt .urandom
  simp only [ne_eq, hl, not_false_iff, if_true] at c1
  obtain ⟨h1, -, -⟩ := C132_frozen avail (libMap n p t) (c4 _ c1) (c2 c1) os
  have hi : s.inst = some none := h1
  exact ⟨by simp [session, run, step, call, hi], by simp [encChannel, run, step, call, SaltLibClass.getLib, hi]⟩

/-- **C132, random numbers of libsodium.** With the generator of the library, `random_bytes(n)` calls a function of libsodium with
`n` where it wants the address of a buffer, and without the size of the buffer, whatever `n` is. -/
theorem C132_randombytes_violated (n : Nat) : ¬ RandombytesOk (Native.randombytesArgs n) := by
  rintro ⟨size, k, h, -⟩
  simp [Native.randombytesArgs] at h

/-- A process: a session, `getLib(LIB_TYPE_PYNACL)`, another session, random numbers. `lib_type` is then that of the call that
was made last, not of the library that is used. -/
example : ((run (fun b => b) (libMap true true true)
    (session ++ [.getLib .pynacl, .random, .construct .pynacl .impl]) {}).2.libType = some .pynacl) ∧
    C132_claim (fun b => b) true true true (session ++ [.getLib .pynacl]) .best .urandom :=
  ⟨rfl, C132_default_partial (fun b => b) true true true rfl _ (by simp [session])⟩

end Salt.Props
