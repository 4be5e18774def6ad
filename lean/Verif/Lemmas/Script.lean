import Verif.Lemmas.SharedTime
import Verif.Lemmas.Honest

/-!
# Two scripts with a common `OneTwoThreeTimeKeeper`

If each side has a script (the calls it makes and the answers it gets), the reads of each script are the writes of the
other, and the times in the scripts fit whatever the order of the calls, then every run follows the scripts.
-/

namespace Salt

open Spec

/-- The messages written in a script. -/
def sentOf : List (Ev env) → List Bytes
  | [] => []
  | ⟨.write ms _, _⟩ :: tr => ms ++ sentOf tr
  | _ :: tr => sentOf tr

/-- The messages read in a script. -/
def gotOf : List (Ev env) → List Bytes
  | [] => []
  | ⟨.read, .ok m⟩ :: tr => m :: gotOf tr
  | _ :: tr => gotOf tr

/-- The write calls of a script. -/
def callsIn : List (Ev env) → List (Bool × List Bytes)
  | [] => []
  | ⟨.write ms l, _⟩ :: tr => (l, ms) :: callsIn tr
  | _ :: tr => callsIn tr

/-- What matters about an event for the order of events. -/
inductive EvKind
  | own | first | now (t : Nat) | wr (n : Nat) | rd | bad
  deriving DecidableEq

def kindOf : Ev env → EvKind
  | ⟨.read, .ok _⟩ => .rd
  | ⟨.read, .error _⟩ => .bad
  | ⟨.write ms _, .ok _⟩ => .wr ms.length
  | ⟨.write _ _, .error _⟩ => .bad
  | ⟨.firstTime, .ok t⟩ => if t = 1 then .first else .bad
  | ⟨.firstTime, .error _⟩ => .bad
  | ⟨.time, .ok t⟩ => .now t
  | ⟨.time, .error _⟩ => .bad
  | ⟨.report t, .ok _⟩ => if t = 0 ∨ t = 1 then .own else .bad
  | ⟨.report _, .error _⟩ => .bad
  | ⟨.check _, .ok _⟩ => .own
  | ⟨.check _, .error _⟩ => .bad
  | ⟨.sign _ _, _⟩ => .own
  | ⟨.signOpen _ _, _⟩ => .own
  | ⟨.hash _, _⟩ => .own
  | ⟨.beforenm _ _, _⟩ => .own
  | ⟨.box _ _ _, _⟩ => .own
  | ⟨.boxOpen _ _ _, _⟩ => .own

namespace EvKind

/-- Numbers of messages written, of messages read, and of time calls in a list of kinds. -/
def sent : List EvKind → Nat
  | [] => 0
  | .wr n :: k => n + sent k
  | _ :: k => sent k

def got : List EvKind → Nat
  | [] => 0
  | .rd :: k => got k + 1
  | _ :: k => got k

def nows : List EvKind → Nat
  | [] => 0
  | .now _ :: k => nows k + 1
  | _ :: k => nows k

def hasFirst : List EvKind → Bool
  | [] => false
  | .first :: _ => true
  | _ :: k => hasFirst k

/-- The value of the counter after these calls, in whatever order, when no first time is taken after another time. -/
def counter (s : Nat) (ka kb : List EvKind) : Nat :=
  if hasFirst ka || hasFirst kb then 1 + nows ka + nows kb else s + nows ka + nows kb

/-- The next event of the one side gets its answer. -/
def fits (k : EvKind) (pa pb : List EvKind) : Bool :=
  match k with
  | .bad => false
  | .first => nows pa == 0 && nows pb == 0
  | .now t => (hasFirst pa || hasFirst pb) && 2 + nows pa + nows pb == t
  | _ => true

/-- Whatever the order of the calls, they get the answers in the scripts. -/
def Fits (ka kb : List EvKind) : Prop :=
  ∀ i ≤ ka.length, ∀ j ≤ kb.length, got (kb.take j) ≤ sent (ka.take i) → got (ka.take i) ≤ sent (kb.take j) →
    (∀ k, ka[i]? = some k → fits k (ka.take i) (kb.take j)) ∧ (∀ k, kb[j]? = some k → fits k (kb.take j) (ka.take i))

end EvKind

theorem sentOf_append (a b : List (Ev env)) : sentOf (a ++ b) = sentOf a ++ sentOf b := by
  induction a with
  | nil => rfl
  | cons e a ih =>
    obtain ⟨e, r⟩ := e
    cases e <;> simp [sentOf, ih]

theorem gotOf_append (a b : List (Ev env)) : gotOf (a ++ b) = gotOf a ++ gotOf b := by
  induction a with
  | nil => rfl
  | cons e a ih =>
    obtain ⟨e, r⟩ := e
    cases e <;> cases r <;> simp [gotOf, ih]

theorem callsIn_append (a b : List (Ev env)) : callsIn (a ++ b) = callsIn a ++ callsIn b := by
  induction a with
  | nil => rfl
  | cons e a ih =>
    obtain ⟨e, r⟩ := e
    cases e <;> simp [callsIn, ih]

theorem messages_callsIn (a : List (Ev env)) : messages (callsIn a) = sentOf a := by
  induction a with
  | nil => rfl
  | cons e a ih =>
    obtain ⟨e, r⟩ := e
    cases e <;> simp_all [callsIn, sentOf, messages]

theorem sent_kinds (a : List (Ev env)) (h : EvKind.bad ∉ a.map kindOf) : EvKind.sent (a.map kindOf) = (sentOf a).length := by
  induction a with
  | nil => rfl
  | cons e a ih =>
    simp only [List.map_cons, List.mem_cons, not_or] at h
    have := ih h.2
    have h1 := h.1
    obtain ⟨e, r⟩ := e
    cases e <;> cases r <;> simp_all [kindOf, EvKind.sent, sentOf] <;> split <;> simp_all [EvKind.sent]

theorem got_kinds (a : List (Ev env)) : EvKind.got (a.map kindOf) = (gotOf a).length := by
  induction a with
  | nil => rfl
  | cons e a ih =>
    obtain ⟨e, r⟩ := e
    cases e <;> cases r <;> simp_all [kindOf, EvKind.got, gotOf] <;> split <;> simp_all [EvKind.got]

namespace EvKind

theorem nows_append (a b : List EvKind) : nows (a ++ b) = nows a + nows b := by
  induction a with
  | nil => simp [nows]
  | cons k a ih => cases k <;> simp [nows, ih] <;> omega

theorem hasFirst_append (a b : List EvKind) : hasFirst (a ++ b) = (hasFirst a || hasFirst b) := by
  induction a with
  | nil => simp [hasFirst]
  | cons k a ih => cases k <;> simp [hasFirst, ih]

theorem counter_swap (s : Nat) (a b : List EvKind) : counter s a b = counter s b a := by
  unfold counter
  rw [Bool.or_comm]
  split <;> omega

theorem Fits.swap {a b : List EvKind} (h : Fits a b) : Fits b a :=
  fun i hi j hj h1 h2 => ⟨(h j hj i hi h2 h1).2, (h j hj i hi h2 h1).1⟩

end EvKind

/-- A state in which the scripts have been followed up to `pa` and `pb`; `qa` and `qb` are to come. -/
structure Follows {α β : Type} (s : Nat) (pa qa pb qb : List (Ev env)) (ra : α) (rb : β) (x : SharedTime Nat α β) : Prop where
  a : Exec x.a qa ra
  b : Exec x.b qb rb
  ab : sentOf pa = gotOf pb ++ x.ab
  ba : sentOf pb = gotOf pa ++ x.ba
  time : x.time = EvKind.counter s (pa.map kindOf) (pb.map kindOf)

/-- Scripts that fit together. -/
structure Scripts (L : Lib) (trA trB : List (Ev env)) : Prop where
  fits : EvKind.Fits (trA.map kindOf) (trB.map kindOf)
  badA : EvKind.bad ∉ trA.map kindOf
  badB : EvKind.bad ∉ trB.map kindOf
  libA : ∀ e ∈ trA, AnsweredBy L e
  libB : ∀ e ∈ trB, AnsweredBy L e
  ab : sentOf trA = gotOf trB
  ba : sentOf trB = gotOf trA

theorem Scripts.swap {L : Lib} {trA trB : List (Ev env)} (h : Scripts L trA trB) : Scripts L trB trA :=
  ⟨h.fits.swap, h.badB, h.badA, h.libB, h.libA, h.ba, h.ab⟩

section
variable {α β : Type} {L : Lib} {s : Nat} {pa qa pb qb : List (Ev env)} {ra : α} {rb : β} {x : SharedTime Nat α β}

theorem Follows.swap (h : Follows s pa qa pb qb ra rb x) : Follows s pb qb pa qa rb ra ⟨x.b, x.a, x.ba, x.ab, x.time⟩ :=
  ⟨h.b, h.a, h.ba, h.ab, by rw [EvKind.counter_swap]; exact h.time⟩

/-- The next event of the script of the first side gets its answer. -/
theorem Follows.fit {ev : Ev env} (h : Follows s pa (ev :: qa) pb qb ra rb x) (hs : Scripts L (pa ++ ev :: qa) (pb ++ qb)) :
    EvKind.fits (kindOf ev) (pa.map kindOf) (pb.map kindOf) = true := by
  have f := hs.fits pa.length (by simp) pb.length (by simp)
  have t1 : ((pa ++ ev :: qa).map kindOf).take pa.length = pa.map kindOf := by
    rw [List.map_append, List.take_left' (by simp)]
  have t2 : ((pb ++ qb).map kindOf).take pb.length = pb.map kindOf := by
    rw [List.map_append, List.take_left' (by simp)]
  have b1 : EvKind.bad ∉ pa.map kindOf := fun hb => hs.badA (by rw [List.map_append]; exact List.mem_append_left _ hb)
  have b2 : EvKind.bad ∉ pb.map kindOf := fun hb => hs.badB (by rw [List.map_append]; exact List.mem_append_left _ hb)
  rw [t1, t2, sent_kinds _ b1, sent_kinds _ b2, got_kinds, got_kinds, h.ab, h.ba] at f
  refine (f (by simp) (by simp)).1 _ ?_
  rw [List.map_append, List.getElem?_append_right (by simp)]
  simp

theorem Follows.own {e : EnvOp} {k : Except Err e.Resp → IT env α} {b ab ba t t'} {r : Except Err e.Resp}
    (h : Follows s pa qa pb qb ra rb ⟨.op (S := env) e k, b, ab, ba, t⟩) (hs : Scripts L (pa ++ qa) (pb ++ qb))
    (ho : ownAnswer L oneTwoThreeObj e t = some (r, t')) :
    ∃ qa', qa = ⟨e, r⟩ :: qa' ∧ callsIn [(⟨e, r⟩ : Ev env)] = [] ∧
      Follows s (pa ++ [⟨e, r⟩]) qa' pb qb ra rb ⟨k r, b, ab, ba, t'⟩ := by
  have ha := h.a
  cases ha with
  | op _ _ r0 qa' _ hx =>
    have hf := h.fit hs
    have hl : AnsweredBy L ⟨e, r0⟩ := hs.libA _ (by simp)
    have key : r = r0 ∧ sentOf [(⟨e, r0⟩ : Ev env)] = [] ∧ gotOf [(⟨e, r0⟩ : Ev env)] = [] ∧ callsIn [(⟨e, r0⟩ : Ev env)] = [] ∧
        t' = EvKind.counter s (pa.map kindOf ++ [kindOf ⟨e, r0⟩]) (pb.map kindOf) := by
      have ht := h.time
      simp only at ht
      simp only [EvKind.counter, EvKind.nows_append, EvKind.hasFirst_append] at ht ⊢
      cases e with
      | read => simp [ownAnswer] at ho
      | write ms l => simp [ownAnswer] at ho
      | firstTime =>
        cases r0 with
        | error e => simp [kindOf, EvKind.fits] at hf
        | ok u =>
          by_cases hu : u = 1
          · simp only [ownAnswer, oneTwoThreeObj, oneTwoThree, Option.some.injEq, Prod.mk.injEq] at ho
            simp only [kindOf, hu, if_true, EvKind.fits, Bool.and_eq_true, beq_iff_eq] at hf
            simp [← ho.1, ← ho.2, hu, sentOf, gotOf, callsIn, kindOf, EvKind.hasFirst, EvKind.nows, hf]
          · simp [kindOf, hu, EvKind.fits] at hf
      | time =>
        cases r0 with
        | error e => simp [kindOf, EvKind.fits] at hf
        | ok u =>
          simp only [ownAnswer, oneTwoThreeObj, oneTwoThree, Option.some.injEq, Prod.mk.injEq] at ho
          simp only [kindOf, EvKind.fits, Bool.and_eq_true, beq_iff_eq] at hf
          rw [if_pos hf.1] at ht
          simp only [kindOf, EvKind.hasFirst, Bool.or_false, EvKind.nows, if_pos hf.1]
          refine ⟨?_, rfl, rfl, rfl, ?_⟩
          · have hu : t + 1 = u := by have := hf.2; omega
            rw [← ho.1, hu]
          · rw [← ho.2, ht]; omega
      | report u =>
        cases r0 with
        | error e => simp [kindOf, EvKind.fits] at hf
        | ok v =>
          have hu : u = 0 ∨ u = 1 := by
            rcases Classical.em (u = 0 ∨ u = 1) with hu | hu
            · exact hu
            · simp only [kindOf, if_neg hu, EvKind.fits, Bool.false_eq_true] at hf
          simp only [ownAnswer, oneTwoThreeObj, nullReport, Option.some.injEq, Prod.mk.injEq, if_pos hu] at ho
          simp [← ho.1, ← ho.2, sentOf, gotOf, callsIn, kindOf, EvKind.hasFirst, EvKind.nows, ht, if_pos hu]
      | check u =>
        cases r0 with
        | error e => simp [kindOf, EvKind.fits] at hf
        | ok u =>
          simp only [ownAnswer, oneTwoThreeObj, nullCheck, Option.some.injEq, Prod.mk.injEq] at ho
          simp [← ho.1, ← ho.2, sentOf, gotOf, callsIn, kindOf, EvKind.hasFirst, EvKind.nows, ht]
      | _ =>
        simp only [ownAnswer, Option.some.injEq, Prod.mk.injEq] at ho
        simp only [AnsweredBy] at hl
        simp [← ho.1, ← ho.2, hl, sentOf, gotOf, callsIn, kindOf, EvKind.hasFirst, EvKind.nows, ht]
    obtain ⟨rfl, k1, k2, k3, k4⟩ := key
    refine ⟨qa', rfl, k3, hx, h.b, ?_, ?_, ?_⟩
    · rw [sentOf_append, k1, List.append_nil]; exact h.ab
    · rw [gotOf_append, k2, List.append_nil]; exact h.ba
    · rw [List.map_append]; exact k4

theorem Follows.write {ms : List Bytes} {l : Bool} {k : Except Err Unit → IT env α} {b ab ba t}
    (h : Follows s pa qa pb qb ra rb ⟨.op (S := env) (.write ms l) k, b, ab, ba, t⟩) (hs : Scripts L (pa ++ qa) (pb ++ qb)) :
    ∃ qa', qa = ⟨.write ms l, .ok ()⟩ :: qa' ∧
      Follows s (pa ++ [⟨.write ms l, .ok ()⟩]) qa' pb qb ra rb ⟨k (.ok ()), b, ab ++ ms, ba, t⟩ := by
  have ha := h.a
  cases ha with
  | op _ _ r0 qa' _ hx =>
    have hf := h.fit hs
    cases r0 with
    | error e => simp [kindOf, EvKind.fits] at hf
    | ok u =>
      refine ⟨qa', rfl, hx, h.b, ?_, ?_, ?_⟩
      · rw [sentOf_append, h.ab]; simp [sentOf]
      · rw [gotOf_append, h.ba]; simp [gotOf]
      · have := h.time
        simpa [EvKind.counter, EvKind.nows_append, EvKind.hasFirst_append, kindOf, EvKind.nows, EvKind.hasFirst] using this

theorem Follows.read {m : Bytes} {k : Except Err Bytes → IT env α} {b ab ba t}
    (h : Follows s pa qa pb qb ra rb ⟨.op (S := env) .read k, b, ab, m :: ba, t⟩) (hs : Scripts L (pa ++ qa) (pb ++ qb)) :
    ∃ qa', qa = ⟨.read, .ok m⟩ :: qa' ∧
      Follows s (pa ++ [⟨.read, .ok m⟩]) qa' pb qb ra rb ⟨k (.ok m), b, ab, ba, t⟩ := by
  have ha := h.a
  cases ha with
  | op _ _ r0 qa' _ hx =>
    have hf := h.fit hs
    cases r0 with
    | error e => simp [kindOf, EvKind.fits] at hf
    | ok m' =>
      have hb := hs.ba
      rw [sentOf_append, gotOf_append, h.ba] at hb
      simp only [gotOf, List.append_assoc, List.append_cancel_left_eq, List.cons_append, List.cons.injEq] at hb
      obtain ⟨rfl, -⟩ := hb
      refine ⟨qa', rfl, hx, h.b, ?_, ?_, ?_⟩
      · rw [sentOf_append]; simpa [sentOf] using h.ab
      · rw [gotOf_append, h.ba]; simp [gotOf]
      · have := h.time
        simpa [EvKind.counter, EvKind.nows_append, EvKind.hasFirst_append, kindOf, EvKind.nows, EvKind.hasFirst] using this

/-- Every run follows the scripts. -/
theorem Scripts.run {z : SharedTime Nat α β} {la lb} (hz : SharedTime.Logged L oneTwoThreeObj x la lb z) :
    ∀ {pa qa pb qb}, Scripts L (pa ++ qa) (pb ++ qb) → Follows s pa qa pb qb ra rb x →
    ∃ da qa' db qb', qa = da ++ qa' ∧ qb = db ++ qb' ∧ la = callsIn da ∧ lb = callsIn db ∧
      Follows s (pa ++ da) qa' (pb ++ db) qb' ra rb z := by
  have push : ∀ {p q q' : List (Ev env)} (e : Ev env), q = e :: q' → p ++ q = (p ++ [e]) ++ q' := by
    intro p q q' e h; simp [h]
  induction hz with
  | refl x => intro pa qa pb qb _ h; exact ⟨[], qa, [], qb, rfl, rfl, rfl, rfl, by simpa using h⟩
  | aOwn e r k ho _ ih =>
    intro pa qa pb qb hs h
    obtain ⟨q, rfl, hc, h'⟩ := h.own hs ho
    rw [push _ rfl] at hs
    obtain ⟨da, qa', db, qb', rfl, h2, h3, h4, h5⟩ := ih hs h'
    refine ⟨⟨e, r⟩ :: da, qa', db, qb', rfl, h2, ?_, h4, by simpa using h5⟩
    rw [show (⟨e, r⟩ : Ev env) :: da = [⟨e, r⟩] ++ da from rfl, callsIn_append, hc, h3]; rfl
  | aWrite ms l k _ ih =>
    intro pa qa pb qb hs h
    obtain ⟨q, rfl, h'⟩ := h.write hs
    rw [push _ rfl] at hs
    obtain ⟨da, qa', db, qb', rfl, h2, h3, h4, h5⟩ := ih hs h'
    exact ⟨⟨.write ms l, .ok ()⟩ :: da, qa', db, qb', rfl, h2, by rw [h3]; rfl, h4, by simpa using h5⟩
  | aRead m k _ ih =>
    intro pa qa pb qb hs h
    obtain ⟨q, rfl, h'⟩ := h.read hs
    rw [push _ rfl] at hs
    obtain ⟨da, qa', db, qb', rfl, h2, h3, h4, h5⟩ := ih hs h'
    exact ⟨⟨.read, .ok m⟩ :: da, qa', db, qb', rfl, h2, by rw [h3]; rfl, h4, by simpa using h5⟩
  | bOwn e r k ho _ ih =>
    intro pa qa pb qb hs h
    obtain ⟨q, rfl, hc, h'⟩ := h.swap.own hs.swap ho
    rw [push (q' := q) _ rfl] at hs
    obtain ⟨da, qa', db, qb', h1, rfl, h3, h4, h5⟩ := ih hs h'.swap
    refine ⟨da, qa', ⟨e, r⟩ :: db, qb', h1, rfl, h3, ?_, by simpa using h5⟩
    rw [show (⟨e, r⟩ : Ev env) :: db = [⟨e, r⟩] ++ db from rfl, callsIn_append, hc, h4]; rfl
  | bWrite ms l k _ ih =>
    intro pa qa pb qb hs h
    obtain ⟨q, rfl, h'⟩ := h.swap.write hs.swap
    rw [push (q' := q) _ rfl] at hs
    obtain ⟨da, qa', db, qb', h1, rfl, h3, h4, h5⟩ := ih hs h'.swap
    exact ⟨da, qa', ⟨.write ms l, .ok ()⟩ :: db, qb', h1, rfl, h3, by rw [h4]; rfl, by simpa using h5⟩
  | bRead m k _ ih =>
    intro pa qa pb qb hs h
    obtain ⟨q, rfl, h'⟩ := h.swap.read hs.swap
    rw [push (q' := q) _ rfl] at hs
    obtain ⟨da, qa', db, qb', h1, rfl, h3, h4, h5⟩ := ih hs h'.swap
    exact ⟨da, qa', ⟨.read, .ok m⟩ :: db, qb', h1, rfl, h3, by rw [h4]; rfl, by simpa using h5⟩

end

end Salt
