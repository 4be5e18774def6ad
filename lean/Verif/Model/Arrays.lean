import Verif.Model.TInt

/-!
# Items of lists and bytearrays (what Python does in `x[i]` and `x[i] = a`)

The functions of tweetnacl.py are modelled twice.  In the files Tweet*.lean an index out of range is harmless: reading
gives 0, writing does nothing.  In the files Chk*.lean, which are the model of the code, it raises IndexError as in
Python.  The lemmas in Lemmas/Chk*.lean show that the two agree whenever all arrays are long enough; theorems on the
results are then proved with the simpler functions.
-/

namespace Salt.Chk

open Salt.Tweet

/-- `x[i]` of a list, a `bytes` object or a `bytearray`. -/
def get (x : List V) (i : Nat) : Except Err V :=
  match x[i]? with
  | some a => .ok a
  | none => .error .indexError

/-- `x[i] = a` of a list; the new contents of `x`. -/
def put (x : List V) (i : Nat) (a : V) : Except Err (List V) :=
  if i < x.length then .ok (x.set i a) else .error .indexError

/-- `x[i] = a` of a `bytearray`: the item becomes a plain integer, and must be in range(256). -/
def putByte (x : List V) (i : Nat) (a : V) : Except Err (List V) :=
  if 0 ≤ a.v ∧ a.v < 256 then put x i ⟨.plain, a.v⟩ else .error .valueError

/-- The two kinds of arrays that functions of tweetnacl.py write to. -/
inductive Kind
  | list | bytearray

/-- `x[i] = a`. -/
def Kind.put : Kind → List V → Nat → V → Except Err (List V)
  | .list => Chk.put
  | .bytearray => putByte

/-- `for i in range(n): s = body(i, s)`, where the body may raise an exception. -/
def loop {α : Type} (n : Nat) (s : α) (body : Nat → α → Except Err α) : Except Err α :=
  (List.range n).foldlM (fun s i => body i s) s

end Salt.Chk
