import Verif.Model.Basic

/-!
# Specification: UTF-8 and the protocol-name pattern of A2 packets

Written from RFC 3629 and the regular expression, independent of the decoder of the model.
-/

namespace Salt.Spec

/-- Unicode scalar values. -/
def scalar (c : Nat) : Prop := c < 0xD800 ∨ (0xE000 ≤ c ∧ c < 0x110000)

/-- UTF-8 encoding of a code point (RFC 3629, section 3). -/
def utf8Enc (c : Nat) : Bytes :=
  if c < 0x80 then [UInt8.ofNat c]
  else if c < 0x800 then [UInt8.ofNat (0xC0 + c / 64), UInt8.ofNat (0x80 + c % 64)]
  else if c < 0x10000 then
    [UInt8.ofNat (0xE0 + c / 4096), UInt8.ofNat (0x80 + c / 64 % 64), UInt8.ofNat (0x80 + c % 64)]
  else
    [UInt8.ofNat (0xF0 + c / 262144), UInt8.ofNat (0x80 + c / 4096 % 64),
      UInt8.ofNat (0x80 + c / 64 % 64), UInt8.ofNat (0x80 + c % 64)]

/-- `b` is the UTF-8 encoding of the text `cs`. -/
def IsUtf8 (b : Bytes) (cs : List Nat) : Prop :=
  (∀ c ∈ cs, scalar c) ∧ b = (cs.map utf8Enc).flatten

/-- Bytes allowed in a protocol name by the Salt Channel specification:
letters, digits, `-`, `.`, `/`, `_`. -/
def NameByte (b : UInt8) : Prop :=
  b.toNat = 0x2d ∨ b.toNat = 0x2e ∨ b.toNat = 0x2f ∨ (0x30 ≤ b.toNat ∧ b.toNat ≤ 0x39) ∨
  (0x41 ≤ b.toNat ∧ b.toNat ≤ 0x5a) ∨ b.toNat = 0x5f ∨ (0x61 ≤ b.toNat ∧ b.toNat ≤ 0x7a)

instance : DecidablePred NameByte := fun _ => by unfold NameByte; infer_instance

/-- Code points matched by `[-./\w]`; `uw` tells which non-ASCII code points are alphanumeric. -/
def NameCode (uw : Nat → Bool) (c : Nat) : Prop :=
  c = 0x2d ∨ c = 0x2e ∨ c = 0x2f ∨ (0x30 ≤ c ∧ c ≤ 0x39) ∨ (0x41 ≤ c ∧ c ≤ 0x5a) ∨ c = 0x5f ∨
  (0x61 ≤ c ∧ c ≤ 0x7a) ∨ (0x80 ≤ c ∧ uw c = true)

/-- `^[-./\w]+$` matches the text (Python: `$` also matches before a final newline). -/
def NameText (uw : Nat → Bool) (s : List Nat) : Prop :=
  ∃ body, body ≠ [] ∧ (∀ c ∈ body, NameCode uw c) ∧ (s = body ∨ s = body ++ [0x0a])

/-- A protocol-name field is acceptable: it is UTF-8 for a matching text. -/
def NameField (uw : Nat → Bool) (p : Bytes) : Prop := ∃ s, IsUtf8 p s ∧ NameText uw s

end Salt.Spec
