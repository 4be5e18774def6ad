import Verif.Lemmas.PureRaw
import Verif.Lemmas.Sha4

/-! C80: the hash of the pure Python backend. -/

namespace Salt.Props

open Salt.Tweet Salt.Spec

/-- C80: `crypto_hash` is SHA-512 (no Python `bytes` object has 2^64 bytes); None raises ValueError. -/
theorem C80_hash (m : Bytes) (hm : m.length < 2 ^ 64) : Pure.hash (some m) = .ok (sha512 m) ∧ Pure.hash none = .error .valueError := by
  refine ⟨?_, rfl⟩
  obtain ⟨y, e, h⟩ := hashSha512_eq (intArray .u8 64) (ofBytes m) m (areBytes_ofBytes m).has m.length (Nat.le_refl _) hm (by simp [intArray])
  rw [List.take_length] at h
  rw [List.drop_of_length_le (by simp [intArray]), List.append_nil] at e
  rw [Pure.hash_raw]
  show toBytes _ = _
  rw [e, toBytes_of h]

/-- The hash has 64 bytes. -/
theorem C80_length (m : Bytes) : (sha512 m).length = 64 := by
  unfold sha512
  have lg : ∀ l : List UInt64, (l.flatMap fun a => digitsBE 8 a.toNat).length = 8 * l.length := by
    intro l
    induction l with
    | nil => rfl
    | cons a l ih => rw [List.flatMap_cons, List.length_append, ih, digitsBE_length, List.length_cons]; omega
  rw [lg, compressAll_length _ _ rfl]

/-- The padding is 17 to 144 bytes long and makes up whole blocks. -/
theorem C80_padding (m : Bytes) : m.length + 17 ≤ (pad m).length ∧ (pad m).length ≤ m.length + 144 ∧ (pad m).length % 128 = 0 := by
  refine ⟨?_, ?_, pad_length m⟩ <;>
  · unfold pad
    simp only [List.length_append, List.length_replicate, digitsBE_length, List.length_cons, List.length_nil]
    omega

/-- A message of two blocks. -/
example : ∃ m : Bytes, m.length < 2 ^ 64 ∧ (pad m).length = 256 ∧ Pure.hash (some m) = .ok (sha512 m) :=
  ⟨List.replicate 112 7, by rw [List.length_replicate]; omega, by
    unfold pad
    simp only [List.length_append, List.length_replicate, digitsBE_length, List.length_cons, List.length_nil],
    (C80_hash _ (by rw [List.length_replicate]; omega)).1⟩

/-- The model on "abc". -/
example : Pure.hash (some [97, 98, 99]) = .ok (digitsBE 64 0xddaf35a193617abacc417349ae20413112e6fa4e89a97ea20a9eeee64b55d39a2192992a274fc1a836ba3c23a3feebbd454d4423643ce80e2a9ac94fa54ca49f) := by
  rw [(C80_hash _ (by simp)).1]
  congr 1
  decide +kernel

end Salt.Props
