import Verif.Lemmas.ChkSign

/-! `crypto_sign_ed25519_tweet` and `crypto_sign_ed25519_tweet_open` neither leave the arrays nor store anything but bytes. -/

namespace Salt.Chk

open Salt.Tweet (V at' intArray forRange forRange_succ gf Pt byteItem IsByte AreBytes)
open Salt.Spec

/-- All items are plain integers, as those of a `bytearray`. -/
def Plain (x : List V) : Prop := x.map byteItem = x

theorem plain_ofBytes (b : Bytes) : Plain (Tweet.ofBytes b) := by
  unfold Plain Tweet.ofBytes
  rw [List.map_map]
  rfl

theorem Plain.set {x : List V} (h : Plain x) (i : Nat) (a : V) : Plain (x.set i (byteItem a)) := by
  unfold Plain at h ⊢
  rw [List.map_set, h]
  rfl

theorem Plain.drop {x : List V} (h : Plain x) (n : Nat) : Plain (x.drop n) := by
  unfold Plain at h ⊢
  rw [List.map_drop, h]

theorem plain_map (x : List V) : Plain (x.map byteItem) := by
  unfold Plain
  rw [List.map_map]
  rfl

theorem store_ok {sm m : List V} {mb : Bytes} {n : Nat} {f g : Nat → Nat} (hs : Plain sm) (hm : AreBytes m mb) (hf : ∀ i, i < n → f i < sm.length)
    (hg : ∀ i, i < n → g i < m.length) :
    loop n sm (fun i sm => do putByte sm (f i) (← get m (g i))) = .ok (forRange n sm fun i sm => sm.set (f i) (byteItem (at' m (g i)))) ∧
      Plain (forRange n sm fun i sm => sm.set (f i) (byteItem (at' m (g i)))) ∧
      (forRange n sm fun i sm => sm.set (f i) (byteItem (at' m (g i)))).length = sm.length :=
  loop_ok (fun x : List V => Plain x ∧ x.length = sm.length) ⟨hs, rfl⟩ fun i x hi hx => by
    have := byte_range hm (g i)
    have := hf i hi
    rw [get_ok (hg i hi), ok_bind, putByte_ok (by omega) (by omega) (by omega)]
    exact ⟨rfl, hx.1.set _ _, by rw [List.length_set, hx.2]⟩

attribute [local irreducible] Tweet.reduce Tweet.scalarbase Tweet.pack Tweet.modL Tweet.mulAdd Tweet.hashSha512 Tweet.clampHash forRange in
theorem sign_ok {sm m sk : List V} {n : Nat} {sb mb skb : Bytes} (hsm : AreBytes sm sb) (hpl : Plain sm) (hsl : sb.length = n + 64)
    (hm : AreBytes m mb) (hn : mb.length = n) (hsk : AreBytes sk skb) (hskl : 64 ≤ skb.length) (h64 : n + 64 < 2 ^ 64) :
    sign sm m n sk = .ok (Tweet.sign sm m n sk) := by
  obtain ⟨l0, l1, l2, l3⟩ := Tweet.ptNew_len
  have hskl' := hsk.length
  have hsml := hsm.length
  have hml := hm.length
  unfold sign Tweet.sign
  simp only
  have hd := Tweet.hash_bytes hsk 32 (by omega) (by omega)
  have hdl := Tweet.sha512_length (skb.take 32)
  obtain ⟨e1, le1⟩ := hashSha512_ok (out := intArray .u8 64) (m := sk) (n := 32) (by simp [intArray_length]) (by omega)
  rw [intArray_length] at le1
  rw [e1, ok_bind]
  generalize Tweet.hashSha512 (intArray .u8 64) sk 32 = d0 at *
  have hd' := Tweet.clampHash_bytes hd hdl
  obtain ⟨e2, le2⟩ := clampHash_ok (d := d0) (by omega)
  rw [e2, ok_bind]
  generalize Tweet.clampHash d0 = d at *
  generalize ((sha512 (skb.take 32)).set 0 _).set 31 _ = db at *
  -- the message and the prefix
  have s1 := Tweet.store_bytes hsm hm n 64 0 (by omega) (by omega)
  rw [show (fun i (sm : List V) => sm.set (i + 64) (byteItem (at' m (i + 0)))) = fun i sm => sm.set (64 + i) (byteItem (at' m i)) by
    funext i sm; rw [Nat.add_comm]; rfl] at s1
  obtain ⟨e3, p3, le3⟩ := store_ok (n := n) (f := fun i => 64 + i) (g := fun i => i) hpl hm (fun i hi => by omega) (fun i hi => by omega)
  rw [e3, ok_bind]
  generalize forRange n sm _ = sm1 at *
  have hs1l := s1.length
  generalize sb.take 64 ++ _ ++ _ = sb1 at s1 hs1l
  have s2 := Tweet.store_bytes s1 hd' 32 32 32 (by omega) (by rw [← hd'.length]; omega)
  rw [show (fun i (sm : List V) => sm.set (i + 32) (byteItem (at' d (i + 32)))) = fun i sm => sm.set (32 + i) (byteItem (at' d (32 + i))) by
    funext i sm; rw [Nat.add_comm]] at s2
  obtain ⟨e4, p4, le4⟩ := store_ok (n := 32) (f := fun i => 32 + i) (g := fun i => 32 + i) p3 hd' (fun i hi => by omega) (fun i hi => by omega)
  rw [e4, ok_bind]
  generalize forRange 32 sm1 _ = sm2 at *
  have hs2l := s2.length
  generalize sb1.take 32 ++ _ ++ _ = sb2 at s2 hs2l
  -- the point R
  have hr := Tweet.hash_bytes (s2.drop 32) (n + 32) (by rw [List.length_drop]; omega) (by omega)
  obtain ⟨e5, le5⟩ := hashSha512_ok (out := intArray .u8 64) (m := sm2.drop 32) (n := n + 32) (by simp [intArray_length]) (by rw [List.length_drop]; omega)
  rw [intArray_length] at le5
  rw [e5, ok_bind]
  have hrl := Tweet.sha512_length ((sb2.drop 32).take (n + 32))
  generalize sha512 ((sb2.drop 32).take (n + 32)) = rb at *
  generalize Tweet.hashSha512 (intArray .u8 64) (sm2.drop 32) (n + 32) = r0 at *
  obtain ⟨hr1, -⟩ := Tweet.reduce_bytes hr hrl
  obtain ⟨e6, le6⟩ := reduce_ok (r := r0) (by omega)
  rw [e6, ok_bind]
  generalize Tweet.reduce r0 = r at *
  have hR := Tweet.scalarbase_bytes (p := Pt.new) hr1 l0 l1 l2 l3
  obtain ⟨e7, le7⟩ := scalarbase_ok (p := Pt.new) (s := r) ptOk_new (by omega)
  rw [e7, ok_bind]
  generalize Tweet.scalarbase Pt.new r = p at *
  obtain ⟨e8, le8⟩ := pack_ok .bytearray (r := sm2) hR le7 (by omega)
  obtain ⟨y, e9, hy⟩ := Tweet.pack_point (r := sm2) hR (by omega)
  rw [show sm2.map (Kind.item .bytearray) = sm2 from p4] at e8
  rw [e8, ok_bind]
  have hy' := hy.append (s2.drop 32)
  rw [← e9] at hy'
  have s3 := Tweet.byteItem_bytes hy'
  have p5 := plain_map (Tweet.pack sm2 p)
  have le9 : ((Tweet.pack sm2 p).map byteItem).length = sm2.length := by rw [List.length_map, le8]
  change ((loop 32 ((Tweet.pack sm2 p).map byteItem) _ >>= _) : Except Err (List V)) = _
  generalize (Tweet.pack sm2 p).map byteItem = sm3 at *
  have hs3l := s3.length
  generalize edEncode _ ++ _ = sb3 at s3 hs3l
  have s4 := Tweet.store_bytes s3 hsk 32 32 32 (by omega) (by omega)
  obtain ⟨e10, p6, le10⟩ := store_ok (n := 32) (f := fun i => i + 32) (g := fun i => i + 32) p5 hsk (fun i hi => by omega) (fun i hi => by omega)
  rw [e10, ok_bind]
  generalize forRange 32 sm3 _ = sm4 at *
  have hs4l := s4.length
  generalize sb3.take 32 ++ _ ++ _ = sb4 at s4 hs4l
  -- the scalar S
  obtain ⟨e11, le11⟩ := hashSha512_ok (out := intArray .u8 64) (m := sm4) (n := n + 64) (by simp [intArray_length]) (by omega)
  rw [intArray_length] at le11
  rw [e11, ok_bind]
  generalize Tweet.hashSha512 (intArray .u8 64) sm4 (n + 64) = h0 at *
  obtain ⟨e12, le12⟩ := reduce_ok (r := h0) (by omega)
  rw [e12, ok_bind]
  generalize Tweet.reduce h0 = h at *
  obtain ⟨e13, le13⟩ := loop_ok (fun x : List V => x.length = 64) (n := 64) (s := intArray .i64 64) (body := fun i x => put x i 0)
    (body' := fun i x => x.set i 0) (intArray_length _ _) fun i x hi hx => by
      chk []
      exact ⟨trivial, hx⟩
  rw [e13, ok_bind]
  generalize forRange 64 (intArray .i64 64) _ = x at *
  obtain ⟨e14, le14⟩ := loop_ok (fun x : List V => x.length = 64) (n := 32) (s := x) (body := fun i x => do put x i (Tweet.u64 (← get r i)))
    (body' := fun i x => x.set i (Tweet.u64 (at' r i))) le13 fun i x hi hx => by
      chk []
      exact ⟨trivial, hx⟩
  rw [e14, ok_bind]
  generalize forRange 32 x _ = x at *
  obtain ⟨e15, le15⟩ := mulAdd_ok (x := x) (h := h) (d := d) le14 (by omega) (by omega)
  rw [e15, ok_bind]
  generalize Tweet.mulAdd x h d = x at *
  obtain ⟨e16, le16⟩ := modL_ok .bytearray (r := sm4.drop 32) (x := x) (by rw [List.length_drop]; omega) le15
  rw [show (sm4.drop 32).map (Kind.item .bytearray) = sm4.drop 32 from p6.drop 32] at e16
  rw [e16, ok_bind]
  rfl

theorem verify32_ok (w : Nat) {x y : List V} (hx : 32 ≤ x.length) (hy : 32 ≤ y.length) : verify32 w x y = .ok (Tweet.verify32 w x y) :=
  vn_ok w hx hy

attribute [local irreducible] Tweet.reduce Tweet.scalarbase Tweet.scalarmult Tweet.pack Tweet.hashSha512 Tweet.unpackneg Tweet.verify32 Tweet.add forRange in
theorem signOpen_ok {w : Nat} (hw : 32 ≤ w) {m sm pk : List V} {n : Nat} {mb sb pkb : Bytes} (hm : AreBytes m mb) (hpl : Plain m) (hml : mb.length = n)
    (hsm : AreBytes sm sb) (hn : sb.length = n) (hpk : AreBytes pk pkb) (hpkl : pkb.length = 32) (h64 : n < 2 ^ 64) :
    signOpen w m sm n pk = .ok (Tweet.signOpen w m sm n pk) := by
  obtain ⟨l0, l1, l2, l3⟩ := Tweet.ptNew_len
  have lm := hm.length
  have lsm := hsm.length
  have lpk := hpk.length
  unfold signOpen Tweet.signOpen
  by_cases h : n < 64
  · rw [if_pos h, if_pos h]
    rfl
  rw [if_neg h, if_neg h]
  obtain ⟨e1, le1⟩ := unpackneg_ok w (r := Pt.new) (p := pk) ptOk_new (by omega)
  rw [e1, ok_bind]
  rcases Tweet.unpackneg_eq hw _ rfl hpk hpkl l0 l1 l2 l3 with ⟨q, A, e, hq, -, -⟩ | ⟨q, e, -⟩
  swap
  · rw [e]
    simp only
    rw [if_pos (by decide), if_pos (by decide)]
    rfl
  rw [e] at le1 ⊢
  simp only at le1 ⊢
  rw [if_neg (by decide), if_neg (by decide)]
  obtain ⟨e3, p3, le3⟩ := store_ok (n := n) (f := fun i => i) (g := fun i => i) hpl hsm (fun i hi => by omega) (fun i hi => by omega)
  rw [e3, ok_bind]
  have s1 := Tweet.store_bytes hm hsm n 0 0 (by omega) (by omega)
  simp only [Nat.add_zero] at s1
  generalize forRange n m _ = m1 at *
  generalize mb.take 0 ++ _ ++ _ = mb1 at s1
  obtain ⟨e4, p4, le4⟩ := store_ok (n := 32) (f := fun i => i + 32) (g := fun i => i) p3 hpk (fun i hi => by omega) (fun i hi => by omega)
  rw [e4, ok_bind]
  have s2 := Tweet.store_bytes s1 hpk 32 32 0 (by rw [← s1.length]; omega) (by omega)
  simp only [Nat.add_zero] at s2
  generalize forRange 32 m1 _ = m2 at *
  have ls2 := s2.length
  generalize mb1.take 32 ++ _ ++ _ = mb2 at s2 ls2
  obtain ⟨e5, le5⟩ := hashSha512_ok (out := intArray .u8 64) (m := m2) (n := n) (by simp [intArray_length]) (by omega)
  rw [intArray_length] at le5
  rw [e5, ok_bind]
  have hh := Tweet.hash_bytes s2 n (by omega) h64
  have hhl := Tweet.sha512_length (mb2.take n)
  generalize sha512 (mb2.take n) = kb at *
  generalize Tweet.hashSha512 (intArray .u8 64) m2 n = h0 at *
  have hh1 := (Tweet.reduce_bytes hh hhl).1
  obtain ⟨e6, le6⟩ := reduce_ok (r := h0) (by omega)
  rw [e6, ok_bind]
  generalize Tweet.reduce h0 = hr at *
  have hp := Tweet.scalarmult_bytes (p := Pt.new) hh1 hq l0 l1 l2 l3
  obtain ⟨e7, le7⟩ := scalarmult_ok (p := Pt.new) (q := q) (s := hr) ptOk_new le1 (by omega)
  rw [e7, ok_bind]
  generalize Tweet.scalarmult Pt.new q hr = p at *
  obtain ⟨q0, q1, q2, q3⟩ := Tweet.ptIs_len hq
  have hq' := Tweet.scalarbase_bytes (hsm.drop 32) q0 q1 q2 q3
  obtain ⟨e8, le8⟩ := scalarbase_ok (p := q) (s := sm.drop 32) le1 (by rw [List.length_drop]; omega)
  rw [e8, ok_bind]
  generalize Tweet.scalarbase q (sm.drop 32) = q' at *
  have ha := Tweet.add_is hp hq'
  obtain ⟨e9, le9⟩ := add_ok le7 le8
  rw [e9, ok_bind]
  generalize Tweet.add p q' = pq at *
  obtain ⟨e10, le10⟩ := pack_ok .list (r := intArray .u8 32) ha le9 (by simp [intArray_length])
  simp only [Kind.item, List.map_id_fun, id_eq, intArray_length] at e10 le10
  rw [e10, ok_bind]
  generalize Tweet.pack (intArray .u8 32) pq = t at *
  rw [verify32_ok w (by omega) (by omega), ok_bind]
  by_cases hv : (Tweet.verify32 w sm t).v ≠ 0
  · rw [if_pos hv, if_pos hv]
    obtain ⟨e11, -⟩ := loop_ok (fun x : List V => x.length = m2.length) (n := n - 64) (s := m2) (body := fun i x => putByte x i 0)
      (body' := fun i x => x.set i 0) rfl fun i x hi hx => by
        rw [putByte_ok (by omega) (by decide) (by decide)]
        exact ⟨rfl, by rw [List.length_set, hx]⟩
    rw [e11, ok_bind]
    rfl
  · rw [if_neg hv, if_neg hv]
    obtain ⟨e11, -⟩ := store_ok (n := n - 64) (f := fun i => i) (g := fun i => i + 64) p4 hsm (fun i hi => by omega) (fun i hi => by omega)
    rw [e11, ok_bind]
    rfl

end Salt.Chk
