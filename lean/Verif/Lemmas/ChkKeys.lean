import Verif.Model.ChkKeys
import Verif.Lemmas.PureRaw

/-! Random key pairs, `crypto_box` and `crypto_box_open` with IndexError agree with those without. -/

namespace Salt.Chk

open Salt.Tweet (V at' intArray forRange randombytes AreBytes Pt ofBytes areBytes_ofBytes)

theorem randombytes_length (c : List V) (r : Bytes) (h : r.length ≤ c.length) : (randombytes c r).length = c.length := by
  unfold randombytes
  rw [List.length_append, (areBytes_ofBytes r).length, List.length_drop]
  omega

theorem boxKeypair_ok {y x : List V} {r : Bytes} (hy : 32 ≤ y.length) (hx : 32 ≤ x.length) (hr : r.length = 32) :
    boxKeypair y x r = .ok (Tweet.boxKeypair y x r) := by
  unfold boxKeypair Tweet.boxKeypair
  simp only
  rw [(scalarmultCurveBase_ok hy (by rw [randombytes_length _ _ (by omega)]; omega)).1, ok_bind]
  rfl

theorem box_ok (w : Nat) {c m n y x : List V} {d : Nat} (hc : c.length = d) (hm : m.length = d) (hn : 24 ≤ n.length) (hy : 32 ≤ y.length)
    (hx : 32 ≤ x.length) : box w c m d n y x = .ok (Tweet.box w c m d n y x) := by
  obtain ⟨e, l⟩ := boxBeforenm_ok w (k := intArray .u8 32) (by rw [intArray_length]) hy hx
  unfold box Tweet.box
  rw [e, ok_bind, secretbox_ok w hc hm hn (by rw [l, intArray_length])]

theorem boxOpen_ok (w : Nat) {c m n y x : List V} {d : Nat} (hm : m.length = d) (hc : c.length = d) (hn : 24 ≤ n.length) (hy : 32 ≤ y.length)
    (hx : 32 ≤ x.length) : boxOpen w m c d n y x = .ok (Tweet.boxOpen w m c d n y x) := by
  obtain ⟨e, l⟩ := boxBeforenm_ok w (k := intArray .u8 32) (by rw [intArray_length]) hy hx
  unfold boxOpen Tweet.boxOpen
  rw [e, ok_bind, secretboxOpen_ok w hm hc hn (by rw [l, intArray_length])]

attribute [local irreducible] Tweet.pack Tweet.scalarbase Tweet.clampHash Tweet.hashSha512 in
theorem signKeypair_ok {sk : List V} {sb r : Bytes} (hs : AreBytes sk sb) (hl : 64 ≤ sb.length) (hr : r.length = 32) :
    signKeypair (intArray .u8 32) sk r = .ok (Tweet.signKeypair (intArray .u8 32) sk r) := by
  have hr' : AreBytes (randombytes sk r) (r ++ sb.drop 32) := by
    unfold randombytes
    rw [hr]
    exact (areBytes_ofBytes r).append (hs.drop 32)
  have hlen := hr'.length
  rw [List.length_append, List.length_drop] at hlen
  obtain ⟨d, p, e1, e2, e3, e4, e5, e6⟩ := Pure.public_ok hr' (by rw [List.length_append]; omega)
  have h32 : (Tweet.pack (intArray .u8 32) p).length = 32 := by
    obtain ⟨l0, l1, l2, l3⟩ := Tweet.ptNew_len
    have hd := Tweet.hash_bytes hr' 32 (by rw [List.length_append]; omega) (by omega)
    obtain ⟨y, e, hy⟩ := Tweet.public_bytes hd (Tweet.sha512_length _)
    rw [e3, e5] at e
    rw [e, hy.length, Tweet.edEncode_length]
  unfold signKeypair Tweet.signKeypair
  simp only
  generalize randombytes sk r = sk' at *
  rw [e1, ok_bind, e2, ok_bind, e4, ok_bind, e6, ok_bind, e3, e5]
  generalize Tweet.pack (intArray .u8 32) p = pk at h32 ⊢
  obtain ⟨e7, -⟩ := loop_ok (fun x : List V => x.length = sk'.length) (n := 32) (s := sk') (body := fun i sk => do put sk (32 + i) (← get pk i))
    (body' := fun i sk => sk.set (32 + i) (at' pk i)) rfl fun i x hi hx => by
      chk []
      exact ⟨trivial, hx⟩
  rw [e7, ok_bind]
  rfl

end Salt.Chk
