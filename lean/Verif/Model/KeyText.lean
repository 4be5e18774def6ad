import Verif.Model.Crypto

/-!
# Key pairs as text (saltchannel/util/key_pair.py:9-10)
-/

namespace Salt

/-- A digit of `bytes.hex`. -/
def hexDigit (n : Nat) : Char := if n < 10 then Char.ofNat (48 + n) else Char.ofNat (87 + n)

/-- `bytes.hex`: two lower-case digits for each byte. -/
def hex (b : Bytes) : List Char := b.flatMap fun x => [hexDigit (x.toNat / 16), hexDigit (x.toNat % 16)]

/-- `KeyPair.__str__`, util/key_pair.py:9-10. -/
def KeyPair.str (k : KeyPair) : List Char := hex k.sec ++ [',', ' ', '\n'] ++ hex k.pub

end Salt
