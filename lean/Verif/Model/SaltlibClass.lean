import Verif.Model.Saltlib

/-!
# The class `SaltLib` in a process (saltchannel/saltlib/saltlib.py:24-51)

`SaltLib` is a singleton, and its random number generator and `lib_type` are attributes of the class.
-/

namespace Salt

/-- `RngType`, saltlib/saltlib.py:20-22. -/
inductive RngType
  | urandom | impl
  deriving DecidableEq

/-- What `SaltLib._rand` can be (saltlib/saltlib.py:35): `os.urandom`, or the method `randombytes` of a library. -/
inductive RandFn (α : Type)
  | os
  | method (lib : α)

/-- The attributes of the class, and the attribute `api` of its instance if there is one (in `Singleton._instances`,
util/__init__.py:22).  `libType` and `rand` do not exist at first. -/
structure SaltLibClass (α : Type) where
  inst : Option (Option α) := none
  libType : Option LibType := none
  rand : Option (RandFn α) := none

namespace SaltLibClass

variable {α : Type} (avail : α → Bool) (m : List (Nat × α))

/-- `SaltLib.getLib(t)`, saltlib/saltlib.py:37-47, with the assignment to `lib_type`. -/
def getLib (t : LibType) (s : SaltLibClass α) : Except Err (Option α) × SaltLibClass α :=
  (Salt.getLib avail m t, { s with libType := some t })

/-- `SaltLib.__init__`, saltlib/saltlib.py:33-35; the result is the attribute `api` of the new object. -/
def init (t : LibType) (r : RngType) (s : SaltLibClass α) : Except Err (Option α) × SaltLibClass α :=
  match getLib avail m t s with
  | (.error e, s) => (.error e, s)
  | (.ok api, s) =>
    if r = .urandom then (.ok api, { s with rand := some .os })
    else match api with
      | none => (.error .attributeError, s)
      | some lib => (.ok api, { s with rand := some (.method lib) })

/-- `SaltLib(t, r)`: `Singleton.__call__`, util/__init__.py:23-26. -/
def call (t : LibType) (r : RngType) (s : SaltLibClass α) : Except Err (Option α) × SaltLibClass α :=
  match s.inst with
  | some api => (.ok api, s)
  | none =>
    match init avail m t r s with
    | (.error e, s) => (.error e, s)
    | (.ok api, s) => (.ok api, { s with inst := some api })

/-- `SaltLib.random_bytes(n)`, saltlib/saltlib.py:49-51: the function that is called with `n`. -/
def randomBytes (s : SaltLibClass α) : Except Err (RandFn α) :=
  match s.rand with
  | none => .error .attributeError
  | some f => .ok f

/-- What the code of a process can do with the class. -/
inductive Op
  | construct (t : LibType) (r : RngType)
  | getLib (t : LibType)
  | random

/-- What comes of it: an object with this `api`, a library, or a call of a random number generator. -/
inductive Res (α : Type)
  | object (r : Except Err (Option α))
  | lib (r : Except Err (Option α))
  | called (r : Except Err (RandFn α))

/-- One operation. -/
def step : Op → SaltLibClass α → Res α × SaltLibClass α
  | .construct t r, s => (.object (call avail m t r s).1, (call avail m t r s).2)
  | .getLib t, s => (.lib (getLib avail m t s).1, (getLib avail m t s).2)
  | .random, s => (.called (randomBytes s), s)

/-- A sequence of operations; the results in order. -/
def run : List Op → SaltLibClass α → List (Res α) × SaltLibClass α
  | [], s => ([], s)
  | o :: os, s => ((step avail m o s).1 :: (run os (step avail m o s).2).1, (run os (step avail m o s).2).2)

/-- What the constructor of a session does: `SaltLib()` (v2/salt_client_session.py:20, v2/salt_server_session.py:23). -/
def session : List Op := [.construct .best .urandom]

/-- What the constructor of an encrypted channel does: `SaltLib().getLib()` (v2/encrypted_channel_v2.py:44). -/
def encChannel : List Op := [.construct .best .urandom, .getLib .best]

end SaltLibClass

/-- Arguments of a C function called through ctypes without declared argument types: a number, or a buffer. -/
inductive CArg
  | int (n : Int)
  | buffer (size : Nat)

/-- `SaltLibNative.randombytes(n)`, saltlib/saltlib_native.py:174-175: the arguments with which the function `randombytes` of
libsodium is called. -/
def Native.randombytesArgs (n : Nat) : List CArg := [.int n]

end Salt
