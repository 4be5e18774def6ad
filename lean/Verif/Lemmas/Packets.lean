import Verif.Model.A1A2
import Verif.Lemmas.Bytes
import Verif.Spec.Wire

/-! Helper lemmas about packet buffers. -/

namespace Salt

theorem ofNat_mod (n : Nat) : UInt8.ofNat (n % 256) = UInt8.ofNat n := by
  apply UInt8.toNat_inj.mp
  simp [UInt8.toNat_ofNat']

theorem leBytes_one (n : Nat) : leBytes 1 n = [UInt8.ofNat n] := by
  simp [leBytes, ofNat_mod]

theorem leBytes_two (n : Nat) : leBytes 2 n = Spec.le16 n := by
  simp [leBytes, Spec.le16, ofNat_mod]

theorem leBytes_four (n : Nat) : leBytes 4 n = Spec.le32 n := by
  simp [leBytes, Spec.le32, ofNat_mod, Nat.div_div_eq_div_mul]

@[simp] theorem le16_length (n : Nat) : (Spec.le16 n).length = 2 := rfl
@[simp] theorem le32_length (n : Nat) : (Spec.le32 n).length = 4 := rfl

theorem leNat_le32 {t : Nat} (h : t < 2 ^ 32) : leNat (Spec.le32 t) = t := by
  rw [← leBytes_four, leNat_leBytes_of_lt (by simpa using h)]

theorem leNat_le16 {t : Nat} (h : t < 65536) : leNat (Spec.le16 t) = t := by
  rw [← leBytes_two, leNat_leBytes_of_lt (by simpa using h)]

theorem leNat_le32_mod (t : Nat) : leNat (Spec.le32 t) = t % 2 ^ 32 := by
  rw [← leBytes_four, leNat_leBytes]

theorem leNat_le16_mod (t : Nat) : leNat (Spec.le16 t) = t % 65536 := by
  rw [← leBytes_two, leNat_leBytes]

/-- The contents of a freshly built M1 after assigning time and key. -/
theorem M1_fresh_data : M1.fresh.data = [0x53, 0x43, 0x76, 0x32, 1, 0] ++ zeros 4 ++ zeros 32 := by
  decide

theorem M2_fresh_data : M2.fresh.data = [2, 0] ++ zeros 4 ++ zeros 32 := by decide

theorem M34_fresh_data (t : PacketType) (x : UInt8) (h : x.toNat = t.value) :
    (M34.fresh t).data = [x, 0] ++ zeros 4 ++ zeros 32 ++ zeros 64 := by
  have hx : x = UInt8.ofNat t.value := by rw [← h, UInt8.ofNat_toNat]
  subst hx
  simp only [M34.fresh, setLE, leBytes_one]
  rfl

theorem Enc_fresh_data : EncPkt.fresh.data = [6, 0] := by decide
theorem App_fresh_data : AppPkt.fresh.data = [5, 0] ++ zeros 4 := by decide
theorem Multi_fresh_data : MultiApp.fresh.data = [11, 0] ++ zeros 4 ++ zeros 2 := by decide
theorem A1_fresh_data : A1.fresh.data = [8, 0, 0, 0, 0] := by decide
theorem A2_fresh_data : A2.fresh.data = [9, 128, 0] := by decide

end Salt
