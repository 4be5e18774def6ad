import Verif.Model.Basic

/-!
# The metaclasses (saltchannel/util/__init__.py)

Simplifications: a constructor is an arbitrary function of the class, the arguments and the number of
constructor calls made before (so two calls may build different objects); a constructor that itself
constructs singletons is not modelled.  Coroutines are run by an event loop that is not running
already.
-/

namespace Salt

/-! ### Singletons -/

/-- `Singleton._instances` / `SingletonABCMeta._instances` (util/__init__.py:22,30) and the number of
constructor calls made so far. -/
structure Instances (C O : Type) where
  map : List (C × O) := []
  runs : Nat := 0

/-- `Singleton.__call__` and `SingletonABCMeta.__call__`, util/__init__.py:23-26, 31-34. `make` is
`super().__call__`, which builds and initialises an object or raises. -/
def Singleton.call {C A O : Type} [BEq C] (make : C → A → Nat → Except Err O) (cls : C) (args : A)
    (s : Instances C O) : Except Err O × Instances C O :=
  match s.map.lookup cls with
  | some o => (.ok o, s)
  | none =>
    match make cls args s.runs with
    | .ok o => (.ok o, { map := (cls, o) :: s.map, runs := s.runs + 1 })
    | .error e => (.error e, { s with runs := s.runs + 1 })

/-- A sequence of constructions `cls(*args)`; the results in order. -/
def Singleton.callAll {C A O : Type} [BEq C] (make : C → A → Nat → Except Err O) :
    List (C × A) → Instances C O → List (Except Err O) × Instances C O
  | [], s => ([], s)
  | (cls, args) :: rest, s =>
    let (r, s1) := Singleton.call make cls args s
    let (rs, s2) := Singleton.callAll make rest s1
    (r :: rs, s2)

/-! ### Syncizer -/

/-- What a class attribute can be; `V` stands for the functions and other objects. -/
inductive Attr (V : Type)
  /-- `asyncio.iscoroutinefunction(val)` is true. -/
  | coroutine (f : V)
  | plain (v : V)
  /-- The function `sync_func` made by `sync_maker(name)`. -/
  | syncOf (name : String)
  deriving DecidableEq, Repr

/-- A class body: a dictionary in insertion order. -/
abbrev ClassDict (V : Type) := List (String × Attr V)

/-- `d[k] = v`. -/
def dictSet {V : Type} (k : String) (v : V) : List (String × V) → List (String × V)
  | [] => [(k, v)]
  | (k', v') :: d => if k' = k then (k, v) :: d else (k', v') :: dictSet k v d

/-- `d.update(e)`. -/
def dictUpdate {V : Type} (d e : List (String × V)) : List (String × V) :=
  e.foldl (fun d kv => dictSet kv.1 kv.2 d) d

namespace Syncizer

/-- The loop collecting `new_dct`, util/__init__.py:45-53. -/
def collect {V : Type} : ClassDict V → ClassDict V → ClassDict V
  | [], acc => acc
  | (name, .coroutine _) :: d, acc => collect d (dictSet (name ++ "_sync") (.syncOf name) acc)
  | _ :: d, acc => collect d acc

/-- `Syncizer.__new__`, util/__init__.py:44-55: the dictionary of the class made from the class body
`d` (`__name__` and `__qualname__` of the new methods are not modelled). -/
def new {V : Type} (d : ClassDict V) : ClassDict V := dictUpdate d (collect d [])

/-- `getattr(self, name)` for an attribute found in one of the classes, in method resolution order
(instance attributes and descriptors other than functions are not modelled). -/
def getattr {V : Type} : List (ClassDict V) → String → Except Err (Attr V)
  | [], _ => .error .attributeError
  | d :: mro, name =>
    match d.lookup name with
    | some a => .ok a
    | none => getattr mro name

/-- `self.<name>_sync(*args)` for an attribute made by `sync_maker`, util/__init__.py:57-62: the method
is looked up when called; its value is given to `run_until_complete`, which raises TypeError if that
is not a coroutine.  `run f` is the outcome of running coroutine function `f` to its end on the given
arguments. -/
def syncCall {V R : Type} (run : V → Except Err R) (mro : List (ClassDict V)) (name : String) :
    Except Err R :=
  match getattr mro name with
  | .error e => .error e
  | .ok (.coroutine f) => run f
  | .ok (.plain _) => .error .typeError
  | .ok (.syncOf _) => .error .typeError

end Syncizer

end Salt
