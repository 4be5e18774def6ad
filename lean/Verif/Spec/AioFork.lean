import Verif.Spec.AioPair

/-!
# Coroutines that start tasks when they are done

On each end of a connection a coroutine runs a handshake; when it has returned with an application channel, the tasks of its side start, on the
same streams. The two sides do not wait for each other: the tasks of one side may read and write while the handshake of the other side still
runs.
-/

namespace Salt.Spec

open Salt

/-- What is left of the side when its coroutine has returned: bytes received and not consumed, end of file, the number of calls of the time
objects. The tasks share the channel `s`. -/
def AioSide.fork {ι α γ : Type} (x : AioSide Unit Unit γ) (s : AppSt) (p : ι → IT appSig α) : AioSide ι AppSt α :=
  ⟨fun t => Aio.on (Co.task (p t)), ⟨s, x.rt.calls, x.rt.buffer, x.rt.eof, none, fun _ => .idle, x.rt.closed⟩⟩

/-- Two sides; `m`: the coroutine runs, `t`: the tasks have started. -/
inductive ForkNet (ι κ α β γ δ : Type)
  | mm (x : AioNet Unit Unit Unit Unit γ δ)
  | tm (x : AioNet ι Unit AppSt Unit α δ)
  | mt (x : AioNet Unit κ Unit AppSt γ β)
  | tt (x : AioNet ι κ AppSt AppSt α β)

section
variable {ι κ α β γ δ : Type} [DecidableEq ι] [DecidableEq κ]

/-- One of the event loops does something, or starts the tasks of its side; `fA` and `fB` tell the application channel when the coroutine has
returned without exception. -/
inductive ForkNet.Step (L : Lib) (ca cb : Clock) (fA : γ → Option AppSt) (fB : δ → Option AppSt) (pA : ι → IT appSig α) (pB : κ → IT appSig β) :
    ForkNet ι κ α β γ δ → ForkNet ι κ α β γ δ → Prop
  | mm {x y} : AioNet.Step L ca cb x y → Step L ca cb fA fB pA pB (.mm x) (.mm y)
  | tm {x y} : AioNet.Step L ca cb x y → Step L ca cb fA fB pA pB (.tm x) (.tm y)
  | mt {x y} : AioNet.Step L ca cb x y → Step L ca cb fA fB pA pB (.mt x) (.mt y)
  | tt {x y} : AioNet.Step L ca cb x y → Step L ca cb fA fB pA pB (.tt x) (.tt y)
  | first {x r s} : x.a.tasks () = .ret r → fA r = some s → Step L ca cb fA fB pA pB (.mm x) (.tm ⟨x.a.fork s pA, x.b, x.ab, x.ba⟩)
  | first' {x r s} : x.b.tasks () = .ret r → fB r = some s → Step L ca cb fA fB pA pB (.mm x) (.mt ⟨x.a, x.b.fork s pB, x.ab, x.ba⟩)
  | second {x r s} : x.a.tasks () = .ret r → fA r = some s → Step L ca cb fA fB pA pB (.mt x) (.tt ⟨x.a.fork s pA, x.b, x.ab, x.ba⟩)
  | second' {x r s} : x.b.tasks () = .ret r → fB r = some s → Step L ca cb fA fB pA pB (.tm x) (.tt ⟨x.a, x.b.fork s pB, x.ab, x.ba⟩)

/-- Some schedule leads from one configuration to the other. -/
inductive ForkNet.Reach (L : Lib) (ca cb : Clock) (fA : γ → Option AppSt) (fB : δ → Option AppSt) (pA : ι → IT appSig α) (pB : κ → IT appSig β)
    (x : ForkNet ι κ α β γ δ) : ForkNet ι κ α β γ δ → Prop
  | refl : Reach L ca cb fA fB pA pB x x
  | step {y z} : Reach L ca cb fA fB pA pB x y → ForkNet.Step L ca cb fA fB pA pB y z → Reach L ca cb fA fB pA pB x z

/-- A task of the first side has returned. -/
def ForkNet.DoneA : ForkNet ι κ α β γ δ → ι → α → Prop
  | .tm x, t, r => x.a.tasks t = .ret r
  | .tt x, t, r => x.a.tasks t = .ret r
  | _, _, _ => False

/-- A task of the second side has returned. -/
def ForkNet.DoneB : ForkNet ι κ α β γ δ → κ → β → Prop
  | .mt x, t, r => x.b.tasks t = .ret r
  | .tt x, t, r => x.b.tasks t = .ret r
  | _, _, _ => False

/-- As `AioLikeDirect`: everything ends, at any time the tasks that have returned have returned what they do in some schedule when they are directly
connected, and when nothing more can happen, the tasks of both sides have started, nothing more can happen in the direct connection either, and
the same tasks wait for messages. -/
def ForkLikeDirect (L : Lib) (ca cb : Clock) (fA : γ → Option AppSt) (fB : δ → Option AppSt) (pA : ι → IT appSig α) (pB : κ → IT appSig β)
    (X : ForkNet ι κ α β γ δ) : Prop :=
  Acc (fun y x => ForkNet.Step L ca cb fA fB pA pB x y) X ∧
  (∃ Y, ForkNet.Reach L ca cb fA fB pA pB X Y ∧ ∀ Z, ¬ ForkNet.Step L ca cb fA fB pA pB Y Z) ∧
  ∀ Y, ForkNet.Reach L ca cb fA fB pA pB X Y → ∃ y, Direct.Reach ⟨pA, pB, [], []⟩ y ∧
    (∀ t r, Y.DoneA t r → y.a t = .ret r) ∧ (∀ t r, Y.DoneB t r → y.b t = .ret r) ∧
    ((∀ Z, ¬ ForkNet.Step L ca cb fA fB pA pB Y Z) → Direct.Stuck y ∧
      ∃ Z, Y = .tt Z ∧ (∀ t, AioEnd Z.a t (y.a t)) ∧ ∀ t, AioEnd Z.b t (y.b t))

end

end Salt.Spec
