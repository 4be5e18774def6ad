import Verif.Spec.Framing

/-!
# What any stream of bytes begins with, for a reader of framed messages
-/

namespace Salt.Spec

open Salt

/-- The beginning of a stream of bytes. -/
inductive Part
  /-- A complete message. -/
  | msg (m : Bytes)
  /-- The stream ends within a message (or where a message would have to begin). -/
  | cut
  /-- A length whose sign bit is set. -/
  | negative
  deriving DecidableEq

/-- A stream `d` that ends after its last byte starts with a part, and goes on with the rest. -/
inductive Starts : Bytes → Part → Bytes → Prop
  | msg (m rest : Bytes) : m.length < 2 ^ 31 → Starts (frame m ++ rest) (.msg m) rest
  | cut (d m missing : Bytes) : m.length < 2 ^ 31 → d ++ missing = frame m → missing ≠ [] → Starts d .cut []
  | negative (n : Nat) (rest : Bytes) : 2 ^ 31 ≤ n → n < 2 ^ 32 → Starts (leBytes 4 n ++ rest) .negative rest

/-- Successive parts of a stream. -/
inductive Parts : Bytes → List Part → Bytes → Prop
  | nil (d : Bytes) : Parts d [] d
  | cons {d d' d'' : Bytes} {p : Part} {ps : List Part} : Starts d p d' → Parts d' ps d'' → Parts d (p :: ps) d''

/-- What is left in a reader and will still be fed to it before end of file. -/
def unread (st : AsyncioChannel.ReaderSt) : Bytes := st.buffer ++ st.segs.flatten

end Salt.Spec
