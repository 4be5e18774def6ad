import Verif.Model.Examples
import Verif.Model.Meta
import Verif.Props.Meta1

/-!
# The time keeper of example session 3 (C75)

`OneTwoThreeTimeKeeper()` is written once on the client side and once on the server side
(dev/example_session3.py:55, 74).  The intent is that each side counts its own packets: 1, 2, 3, ….
`TimeKeeper` has the metaclass `SingletonABCMeta` (util/time.py:6), and the client and the server of
`MpClientServerPair` are threads of one process (dev/client_server.py:66-83).
-/

namespace Salt.Props

open Salt

/-- What a sequence of calls on two keeper objects returns, by either side (`true`: the client).  The objects are
names; `heap` holds their attribute `time`. -/
def keeperTimes (oc os : Nat) : List (Bool × KeeperOp) → (Nat → Nat) → List (Bool × Nat)
  | [], _ => []
  | (side, op) :: rest, heap =>
    let o := if side then oc else os
    let (t, new) := oneTwoThree op (heap o)
    (side, t) :: keeperTimes oc os rest (fun x => if x = o then new else heap x)

/-- The part of a sequence that belongs to one side. -/
def sideOf {α : Type} (b : Bool) (l : List (Bool × α)) : List α := (l.filter (fun x => x.1 = b)).map (·.2)

/-- A new keeper object: `run` counts the runs of `__init__`, and names the object made by the run. -/
def newKeeper (_ : Unit) (_ : Unit) (run : Nat) : Except Err Nat := .ok run

theorem keeper_now (oc os : Nat) (hne : oc ≠ os) (b : Bool) : ∀ (calls : List (Bool × KeeperOp)) (heap : Nat → Nat)
    (n : Nat), sideOf b calls = List.replicate n .now →
    sideOf b (keeperTimes oc os calls heap) = (List.range n).map (heap (if b then oc else os) + 1 + ·)
  | [], heap, n, h => by
    cases n with
    | zero => rfl
    | succ n => simp [sideOf, List.replicate_succ] at h
  | (side, op) :: rest, heap, n, h => by
    by_cases hs : side = b
    · subst hs
      cases n with
      | zero => simp [sideOf] at h
      | succ n =>
        have h' : op = .now ∧ sideOf side rest = List.replicate n .now := by
          simpa [sideOf, List.replicate_succ] using h
        obtain ⟨rfl, h'⟩ := h'
        have ih := keeper_now oc os hne side rest
          (fun x => if x = (if side then oc else os) then heap (if side then oc else os) + 1 else heap x) n h'
        simp only [keeperTimes, oneTwoThree]
        simp only [if_true] at ih
        have e : ∀ (t : Nat) (l : List (Bool × Nat)), sideOf side ((side, t) :: l) = t :: sideOf side l := by
          intro t l; simp [sideOf]
        rw [e, ih, List.range_succ_eq_map, List.map_cons, List.map_map]
        congr 1
        apply List.map_congr_left
        intro x _
        simp only [Function.comp_apply, Nat.succ_eq_add_one]
        omega
    · have h' : sideOf b rest = List.replicate n .now := by
        simpa [sideOf, hs] using h
      have e : ∀ (t : Nat) (l : List (Bool × Nat)), sideOf b ((side, t) :: l) = sideOf b l := by
        intro t l; simp [sideOf, hs]
      simp only [keeperTimes]
      rw [e, keeper_now oc os hne b rest _ n h']
      have : (if b = true then oc else os) ≠ (if side = true then oc else os) := by
        cases b <;> cases side <;> simp_all [Ne.symm]
      rw [if_neg this]

/-- **C75, full statement.** Of two keepers made in a process, whatever was made before and however the calls of
the two sides interleave: a side that asks for the first time and then for `n` times gets 1, 2, …, n + 1. -/
def C75_claim : Prop :=
  ∀ (s0 s1 s2 : Instances Unit Nat) (oc os : Nat),
    Singleton.call newKeeper () () s0 = (.ok oc, s1) → Singleton.call newKeeper () () s1 = (.ok os, s2) →
    ∀ (calls : List (Bool × KeeperOp)) (heap : Nat → Nat) (b : Bool) (n : Nat),
      sideOf b calls = .first :: List.replicate n .now →
      sideOf b (keeperTimes oc os calls heap) = (List.range (n + 1)).map (1 + ·)

/-- **C75, what holds.** The claim is true of two distinct keeper objects. -/
theorem C75_times_partial (oc os : Nat) (hne : oc ≠ os) (b : Bool) : ∀ (calls : List (Bool × KeeperOp))
    (heap : Nat → Nat) (n : Nat), sideOf b calls = .first :: List.replicate n .now →
    sideOf b (keeperTimes oc os calls heap) = (List.range (n + 1)).map (1 + ·)
  | [], heap, n, h => by simp [sideOf] at h
  | (side, op) :: rest, heap, n, h => by
    by_cases hs : side = b
    · subst hs
      have h' : op = .first ∧ sideOf side rest = List.replicate n .now := by
        simpa [sideOf] using h
      obtain ⟨rfl, h'⟩ := h'
      have e : ∀ (t : Nat) (l : List (Bool × Nat)), sideOf side ((side, t) :: l) = t :: sideOf side l := by
        intro t l; simp [sideOf]
      simp only [keeperTimes, oneTwoThree]
      rw [e, keeper_now oc os hne side rest _ n h', List.range_succ_eq_map, List.map_cons, List.map_map]
      congr 1
      apply List.map_congr_left
      intro x _
      simp only [if_true, Function.comp_apply, Nat.succ_eq_add_one]
      omega
    · have h' : sideOf b rest = .first :: List.replicate n .now := by
        simpa [sideOf, hs] using h
      have e : ∀ (t : Nat) (l : List (Bool × Nat)), sideOf b ((side, t) :: l) = sideOf b l := by
        intro t l; simp [sideOf, hs]
      simp only [keeperTimes]
      rw [e, C75_times_partial oc os hne b rest _ n h']

/-- The calls of example session 3 in the order M1, M2, M3, M4, request, echo, request, echo; with two keepers each side
counts 1, 2, 3, 4. -/
def exCalls : List (Bool × KeeperOp) :=
  [(true, .first), (false, .first), (false, .now), (true, .now), (true, .now), (false, .now), (true, .now),
   (false, .now)]

example : sideOf true exCalls = .first :: List.replicate 3 .now ∧
    sideOf false exCalls = .first :: List.replicate 3 .now ∧
    keeperTimes 0 1 exCalls (fun _ => 0) =
      [(true, 1), (false, 1), (false, 2), (true, 2), (true, 3), (false, 3), (true, 4), (false, 4)] := by
  decide

/-- **C75, the keepers are one object.** -/
theorem C75_shared (s0 s1 s2 : Instances Unit Nat) (oc os : Nat)
    (h1 : Singleton.call newKeeper () () s0 = (.ok oc, s1)) (h2 : Singleton.call newKeeper () () s1 = (.ok os, s2)) :
    oc = os := by
  have h := C53_same_instance newKeeper [] [] () () () oc s0 [.ok oc, .ok os] s2
    (by simp [Singleton.callAll, h1, h2]) rfl
  simpa using h.symm

/-- **C75, violated.** In one process the documented times 1, 1, 2, 2, 3, 3, 4, 4 come out as 1, 1, 2, 3, 4, 5, 6, 7. -/
theorem C75_violated : ¬ C75_claim ∧
    ∀ (s0 s1 s2 : Instances Unit Nat) (oc os : Nat),
      Singleton.call newKeeper () () s0 = (.ok oc, s1) → Singleton.call newKeeper () () s1 = (.ok os, s2) →
      ∀ heap, (keeperTimes oc os exCalls heap).map (·.2) = [1, 1, 2, 3, 4, 5, 6, 7] := by
  have key : ∀ o heap, (keeperTimes o o exCalls heap).map (·.2) = [1, 1, 2, 3, 4, 5, 6, 7] := by
    intro o heap; simp [keeperTimes, exCalls, oneTwoThree]
  refine ⟨fun h => ?_, fun s0 s1 s2 oc os h1 h2 heap => by rw [C75_shared s0 s1 s2 oc os h1 h2]; exact key _ _⟩
  have h' := h {} _ _ 0 0 rfl rfl exCalls (fun _ => 0) true 3 (by decide)
  revert h'
  decide

end Salt.Props
