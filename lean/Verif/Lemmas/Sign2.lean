import Verif.Lemmas.Sign

/-! `crypto_sign_ed25519_tweet` computes the signature of RFC 8032. -/

namespace Salt.Tweet

open Salt.Spec

/-- The public key of a secret key. -/
theorem public_bytes {d : List V} {h : Bytes} (hd : AreBytes d h) (hl : h.length = 64) :
    ∃ y, pack (intArray .u8 32) (scalarbase Pt.new (clampHash d)) = y ∧ AreBytes y (edEncode (edMul (decodeScalar (h.take 32)) edBase)) := by
  obtain ⟨l0, l1, l2, l3⟩ := ptNew_len
  have hp := scalarbase_bytes (clampHash_bytes hd hl) l0 l1 l2 l3
  rw [clamp_take] at hp
  generalize scalarbase Pt.new (clampHash d) = p at hp ⊢
  obtain ⟨y, e, hy⟩ := pack_point (r := intArray .u8 32) hp (by simp [intArray])
  rw [show (intArray .u8 32).drop 32 = [] by simp [intArray], List.append_nil] at e
  refine ⟨y, e, ?_⟩
  rw [show edBase = basePt.1 from rfl, edMul_eq]
  exact hy

attribute [local irreducible] reduce scalarbase pack modL mulAdd hashSha512 clampHash forRange in
theorem sign_eq {sm m sk : List V} {n : Nat} {mb skb : Bytes} (hsm : AreBytes sm (List.replicate (n + 64) 0)) (hm : AreBytes m mb)
    (hn : mb.length = n) (hsk : AreBytes sk skb) (hskl : skb.length = 64) (h64 : n + 64 < 2 ^ 64) :
    AreBytes (sign sm m n sk) (edSign (skb.take 32) (skb.drop 32) mb ++ mb) := by
  obtain ⟨l0, l1, l2, l3⟩ := ptNew_len
  have hd := hash_bytes hsk 32 (by omega) (by omega)
  have hdl := sha512_length (skb.take 32)
  unfold sign
  simp only
  generalize hashSha512 (intArray .u8 64) sk 32 = d0 at *
  unfold edSign edScalar
  simp only
  generalize sha512 (skb.take 32) = hb at *
  have hd' := clampHash_bytes hd hdl
  generalize clampHash d0 = d at *
  have hdt := clamp_take hb
  have hdd := clamp_drop hb
  have hdl' := clamp_length hb (hb.getD 0 0 &&& 248) ((hb.getD 31 0 &&& 127) ||| 64)
  generalize (hb.set 0 (hb.getD 0 0 &&& 248)).set 31 ((hb.getD 31 0 &&& 127) ||| 64) = db at *
  rw [show decodeScalar (hb.take 32) = num (db.take 32) by rw [hdt]; rfl]
  rw [← hdd]
  -- the message and the prefix
  have s1 := store_bytes hsm hm n 64 0 (by simp; omega) (by omega)
  rw [show (fun i (sm : List V) => sm.set (i + 64) (byteItem (at' m (i + 0)))) = fun i sm => sm.set (64 + i) (byteItem (at' m i)) by
    funext i sm; rw [Nat.add_comm]; rfl] at s1
  rw [List.drop_zero, List.take_of_length_le (l := mb) (by omega), List.drop_of_length_le (by simp; omega), List.append_nil, List.take_replicate, Nat.min_eq_left (by omega)] at s1
  generalize forRange n sm _ = sm1 at *
  have s2 := store_bytes s1 hd' 32 32 32 (by simp) (by omega)
  rw [show (fun i (sm : List V) => sm.set (i + 32) (byteItem (at' d (i + 32)))) = fun i sm => sm.set (32 + i) (byteItem (at' d (32 + i))) by
    funext i sm; rw [Nat.add_comm]] at s2
  rw [List.take_append_of_le_length (by simp), List.take_replicate, Nat.min_eq_left (by omega), List.drop_left' (by simp),
    List.take_of_length_le (l := db.drop 32) (by simp; omega)] at s2
  generalize forRange 32 sm1 _ = sm2 at *
  -- the point R
  have hr := hash_bytes (s2.drop 32) (n + 32) (by simp; omega) (by omega)
  rw [List.append_assoc, List.drop_left' (by simp), List.take_of_length_le (by simp; omega)] at hr
  have hrl := sha512_length (db.drop 32 ++ mb)
  generalize sha512 (db.drop 32 ++ mb) = rb at *
  generalize hashSha512 (intArray .u8 64) (sm2.drop 32) (n + 32) = r0 at *
  obtain ⟨hr1, -⟩ := reduce_bytes hr hrl
  generalize reduce r0 = r at *
  have hR := scalarbase_bytes (p := Pt.new) hr1 l0 l1 l2 l3
  rw [take_digits, num_digits, Nat.mod_eq_of_lt (cast_mod_lt _), base_mod] at hR
  generalize scalarbase Pt.new r = p at *
  obtain ⟨y, e, hy⟩ := pack_point (r := sm2) hR (by rw [s2.length]; simp)
  rw [e, show edMul (num rb) edBase = (num rb • basePt).1 from edMul_eq _ basePt]
  have hyl := edEncode_length (num rb • basePt).1
  generalize edEncode (num rb • basePt).1 = R at *
  have s3 := byteItem_bytes (hy.append (s2.drop 32))
  rw [List.append_assoc, List.drop_left' (by simp)] at s3
  generalize (y ++ sm2.drop 32).map byteItem = sm3 at *
  have s4 := store_bytes s3 hsk 32 32 32 (by simp; omega) (by omega)
  rw [List.take_left' hyl, List.take_of_length_le (l := skb.drop 32) (by simp; omega), ← List.append_assoc, List.drop_left' (by simp; omega)] at s4
  generalize forRange 32 sm3 _ = sm4 at *
  -- the scalar S
  have hh := hash_bytes s4 (n + 64) (by simp; omega) (by omega)
  rw [List.take_of_length_le (by simp; omega)] at hh
  have hhl := sha512_length (R ++ skb.drop 32 ++ mb)
  generalize sha512 (R ++ skb.drop 32 ++ mb) = kb at *
  generalize hashSha512 (intArray .u8 64) sm4 (n + 64) = h0 at *
  obtain ⟨hh1, hh2⟩ := reduce_bytes hh hhl
  generalize reduce h0 = h at *
  obtain ⟨x1, x2, x3⟩ := sign_x hr1 (cast_mod_lt _)
  generalize forRange 32 (forRange 64 (intArray .i64 64) fun i x => x.set i 0) _ = x at *
  obtain ⟨m1, m2, m3⟩ := mulAdd_eq hh1 hh2 hd' x x1 x2
  generalize mulAdd x h d = x' at *
  have e1 : pv h 32 = ((num kb % orderL : Nat) : Int) := by
    have := pv_num (hh1.take 32)
    rw [take_digits, digits_length, num_digits, Nat.mod_eq_of_lt (cast_mod_lt _)] at this
    rw [← this]
    refine pv_congr (fun i hi => ?_)
    unfold at'
    rw [List.getD_eq_getElem?_getD, List.getD_eq_getElem?_getD, List.getElem?_take_of_lt hi]
  have e2 : pv d 32 = ((num (db.take 32) : Nat) : Int) := by
    have := pv_num (hd'.take 32)
    rw [show (db.take 32).length = 32 by simp; omega] at this
    rw [← this]
    refine pv_congr (fun i hi => ?_)
    unfold at'
    rw [List.getD_eq_getElem?_getD, List.getD_eq_getElem?_getD, List.getElem?_take_of_lt hi]
  rw [x3, e1, e2] at m3
  obtain ⟨z, e3, -, -, hz⟩ := modL_eq (r := sm4.drop 32) (N := num rb % orderL + num kb % orderL * num (db.take 32)) m1
    (by rw [List.length_drop, s4.length]; simp; omega) (by rw [m3]; push_cast; rfl) m2
  rw [e3]
  have e4 : (num rb % orderL + num kb % orderL * num (db.take 32)) % orderL = (num rb + num kb * num (db.take 32)) % orderL := by
    rw [Nat.add_mod, Nat.mod_mod, Nat.mul_mod, Nat.mod_mod, ← Nat.mul_mod, ← Nat.add_mod]
  rw [e4] at hz
  have s5 := s4.take 32
  rw [List.append_assoc, List.take_left' hyl] at s5
  have s6 := (s4.drop 32).drop 32
  rw [List.append_assoc, List.drop_left' hyl, List.drop_left' (by simp; omega)] at s6
  have := s5.append (byteItem_bytes (hz.append s6))
  rw [← List.append_assoc] at this
  exact this

end Salt.Tweet
