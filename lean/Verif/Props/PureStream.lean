import Verif.Props.PureBox
import Verif.Lemmas.Lanes

/-! C109: the key stream of the boxes of the pure Python backend. -/

namespace Salt.Props

open Salt.Tweet Salt.Spec Salt.Pure

/-- Block `i` of a message or of the encrypted message, `1 ≤ i`: the first 32 bytes of the key stream are taken for the
authenticator, so that block `i` of the stream meets the bytes from `64 * i - 32` on. -/
def blockAt (i : Nat) (b : Bytes) : Bytes := (b.drop (64 * i - 32)).take 64

/-- The encrypted message in a box: all behind the authenticator. -/
def bodyOf (c : Bytes) : Bytes := c.drop 16

/-- C109: no two blocks of a message are always encrypted with the same part of the key stream: for every two blocks
there are a key, a nonce and a message such that the difference of the two encrypted blocks is not that of the two
blocks. -/
def C109_claim : Prop := ∀ (w : Nat), 32 ≤ w → ∀ i j, 1 ≤ i → i < j → ∃ k n m c : Bytes, k.length = 32 ∧ n.length = 24 ∧
  64 * j + 32 ≤ m.length ∧ boxAfternm w m n k = .ok c ∧
  xorBytes (blockAt i (bodyOf c)) (blockAt j (bodyOf c)) ≠ xorBytes (blockAt i m) (blockAt j m)

/-- The box of every message: block `i` of the key stream is that of Salsa20 with the counter `ctr w i`. -/
theorem C109_stream (w : Nat) (hw : 32 ≤ w) (k n m : Bytes) (hk : k.length = 32) (hn : n.length = 24) :
    let s := ((List.range ((32 + m.length) / 64 + 1)).flatMap fun i =>
      salsa20 (hsalsa20 k (n.take 16)) (n.drop 16 ++ digits 8 (ctr w i))).take (32 + m.length)
    let c := xorBytes m (s.drop 32)
    boxAfternm w m n k = .ok (Spec.poly1305 (s.take 32) c ++ c) := by
  obtain ⟨y, e, hy⟩ := secretbox_ctr hw (m := m) (areBytes_ofBytes n) (areBytes_ofBytes k) hk hn
  have hsub := (subkey (w := 32) (by omega) (areBytes_ofBytes n) (areBytes_ofBytes k) hk hn).2
  rw [← keyStream_eq (ctr w) hsub (by simp [hn]), ← List.range_eq_range'] at hy
  exact boxAfternm_of e hy hn hk

theorem xorBytes_drop (a b : Bytes) (n : Nat) : (xorBytes a b).drop n = xorBytes (a.drop n) (b.drop n) := by
  unfold xorBytes
  exact List.drop_zipWith

theorem xorBytes_takes (a b : Bytes) (n : Nat) : (xorBytes a b).take n = xorBytes (a.take n) (b.take n) := by
  unfold xorBytes
  exact List.take_zipWith

/-- Each block of a message is combined with its block of the key stream. -/
theorem C109_block (w : Nat) (hw : 32 ≤ w) (k n m : Bytes) (hk : k.length = 32) (hn : n.length = 24) :
    ∃ c, boxAfternm w m n k = .ok c ∧ ∀ i, 1 ≤ i → 64 * i + 32 ≤ m.length →
      blockAt i (bodyOf c) = xorBytes (blockAt i m) (salsa20 (hsalsa20 k (n.take 16)) (n.drop 16 ++ digits 8 (ctr w i))) := by
  obtain ⟨y, e, hy⟩ := secretbox_ctr hw (m := m) (areBytes_ofBytes n) (areBytes_ofBytes k) hk hn
  have hsub := (subkey (w := 32) (by omega) (areBytes_ofBytes n) (areBytes_ofBytes k) hk hn).2
  refine ⟨_, boxAfternm_of e hy hn hk, ?_⟩
  intro i h1 hi
  have hs := keyStream_split (ctr w) (hsalsa20 k (n.take 16)) (n.drop 16) (32 + m.length - 64 * i) i 0
  rw [show 64 * i + (32 + m.length - 64 * i) = 32 + m.length by omega, Nat.zero_add] at hs
  have hl := keyStream_length (ctr w) hsub (nb := n.drop 16) (by simp [hn]) 0 (64 * i)
  have hb := salsa20_length (n := n.drop 16 ++ digits 8 (ctr w i)) hsub (by simp [hn, digits])
  have hblk : ((keyStream (ctr w) (hsalsa20 k (n.take 16)) (n.drop 16) 0 (32 + m.length)).drop (64 * i)).take 64 =
      salsa20 (hsalsa20 k (n.take 16)) (n.drop 16 ++ digits 8 (ctr w i)) := by
    rw [hs, List.drop_left' hl, keyStream, if_pos (by omega), List.take_left' hb]
  unfold bodyOf boxWith blockAt
  rw [List.drop_left' (spec_poly1305_length _ _), xorBytes_drop, xorBytes_takes, List.drop_drop,
    show 32 + (64 * i - 32) = 64 * i by omega, hblk]

theorem xor_cancel (a b s : Bytes) (ha : a.length ≤ s.length) (hb : b.length = a.length) :
    xorBytes (xorBytes a s) (xorBytes b s) = xorBytes a b := by
  unfold xorBytes
  induction a generalizing b s with
  | nil => rfl
  | cons x a ih =>
    cases b with
    | nil => simp at hb
    | cons y b =>
      cases s with
      | nil => simp at ha
      | cons z s =>
        simp only [List.zipWith_cons_cons]
        rw [ih b s (by simpa using ha) (by simpa using hb)]
        congr 1
        rw [UInt8.xor_comm y z, UInt8.xor_assoc, ← UInt8.xor_assoc z z y, UInt8.xor_self, UInt8.zero_xor]

/-- Blocks with the same counter are encrypted with the same part of the key stream. -/
theorem C109_same (w : Nat) (hw : 32 ≤ w) (i j : Nat) (hi : 1 ≤ i) (hij : i < j) (hc : ctr w i = ctr w j) (k n m : Bytes)
    (hk : k.length = 32) (hn : n.length = 24) (hm : 64 * j + 32 ≤ m.length) :
    ∃ c, boxAfternm w m n k = .ok c ∧
      xorBytes (blockAt i (bodyOf c)) (blockAt j (bodyOf c)) = xorBytes (blockAt i m) (blockAt j m) := by
  obtain ⟨c, e, h⟩ := C109_block w hw k n m hk hn
  have hsub := (subkey (w := 32) (by omega) (areBytes_ofBytes n) (areBytes_ofBytes k) hk hn).2
  have hb := salsa20_length (n := n.drop 16 ++ digits 8 (ctr w j)) hsub (by simp [hn, digits])
  refine ⟨c, e, ?_⟩
  rw [h i hi (by omega), h j (by omega) hm, hc]
  exact xor_cancel _ _ _ (by simp [blockAt, hb]) (by simp [blockAt]; omega)

/-- With an unsigned long of 64 bits, the blocks 385020 and 589820 of every message that has them are encrypted with
the same part of the key stream, under every key and nonce. -/
theorem C109_reused_64 (k n m : Bytes) (hk : k.length = 32) (hn : n.length = 24) (hm : 37748512 ≤ m.length) :
    ∃ c, boxAfternm 64 m n k = .ok c ∧
      xorBytes (blockAt 385020 (bodyOf c)) (blockAt 589820 (bodyOf c)) = xorBytes (blockAt 385020 m) (blockAt 589820 m) :=
  C109_same 64 (by omega) 385020 589820 (by omega) (by omega) Lanes.ctr64_same k n m hk hn (by omega)

/-- With an unsigned long of 32 bits, so are the blocks 522614 and 523638. -/
theorem C109_reused_32 (k n m : Bytes) (hk : k.length = 32) (hn : n.length = 24) (hm : 33512864 ≤ m.length) :
    ∃ c, boxAfternm 32 m n k = .ok c ∧
      xorBytes (blockAt 522614 (bodyOf c)) (blockAt 523638 (bodyOf c)) = xorBytes (blockAt 522614 m) (blockAt 523638 m) :=
  C109_same 32 (by omega) 522614 523638 (by omega) (by omega) Lanes.ctr32_same k n m hk hn (by omega)

/-- C109 fails. -/
theorem C109_violated : ¬ C109_claim := by
  intro h
  obtain ⟨k, n, m, c, hk, hn, hm, e, hne⟩ := h 64 (by omega) 385020 589820 (by omega) (by omega)
  obtain ⟨c', e', h'⟩ := C109_reused_64 k n m hk hn (by omega)
  rw [e] at e'
  injection e' with e'
  subst e'
  exact hne h'

/-- The first bytes of the blocks of the stream under the zero key and nonce. -/
def zeroBlock (i : Nat) : Nat :=
  num ((salsa20 (hsalsa20 (List.replicate 32 0) (List.replicate 16 0)) (List.replicate 8 0 ++ digits 8 i)).take 8)

theorem zeroBlocks_differ : ((List.range 257).map zeroBlock).Pairwise (· ≠ ·) := by decide +kernel

theorem blockAt_zeros (N t : Nat) (h : 64 * t + 32 ≤ N) (h1 : 1 ≤ t) : blockAt t (List.replicate N 0) = List.replicate 64 0 := by
  unfold blockAt
  rw [List.drop_replicate, List.take_replicate]
  congr 1
  omega

theorem zeros_xor (b : Bytes) (N : Nat) (h : b.length = N) : xorBytes (List.replicate N 0) b = b := by
  subst h
  unfold xorBytes
  induction b with
  | nil => rfl
  | cons x b ih => rw [List.length_cons, List.replicate_succ, List.zipWith_cons_cons, ih, UInt8.zero_xor]

theorem eq_of_xor (a b : Bytes) (N : Nat) (ha : a.length = N) (hb : b.length = N) (h : xorBytes a b = List.replicate N 0) : a = b := by
  subst ha
  unfold xorBytes at h
  induction a generalizing b with
  | nil => exact (List.length_eq_zero_iff.mp hb).symm
  | cons x a ih =>
    cases b with
    | nil => simp at hb
    | cons y b =>
      rw [List.length_cons, List.replicate_succ, List.zipWith_cons_cons] at h
      injection h with h1 h2
      rw [UInt8.xor_eq_zero_iff.mp h1, ih b (by simpa using hb) h2]

/-- C109 holds for the blocks up to number 256, that is for messages of up to 16416 bytes.  Missing: later blocks, of
which some are encrypted with the same part of the key stream (C109_violated). -/
theorem C109_fresh_partial (w : Nat) (hw : 32 ≤ w) (i j : Nat) (hi : 1 ≤ i) (hij : i < j) (hj : j ≤ 256) :
    ∃ k n m c : Bytes, k.length = 32 ∧ n.length = 24 ∧ 64 * j + 32 ≤ m.length ∧ boxAfternm w m n k = .ok c ∧
      xorBytes (blockAt i (bodyOf c)) (blockAt j (bodyOf c)) ≠ xorBytes (blockAt i m) (blockAt j m) := by
  have hk : (List.replicate 32 (0 : UInt8)).length = 32 := List.length_replicate
  have hn : (List.replicate 24 (0 : UInt8)).length = 24 := List.length_replicate
  have hd : zeroBlock i ≠ zeroBlock j := by
    have := List.pairwise_iff_getElem.mp zeroBlocks_differ i j (by rw [List.length_map, List.length_range]; omega)
      (by rw [List.length_map, List.length_range]; omega) hij
    rw [List.getElem_map, List.getElem_map, List.getElem_range, List.getElem_range] at this
    exact this
  unfold zeroBlock at hd
  rw [show List.replicate 16 (0 : UInt8) = (List.replicate 24 0).take 16 from rfl,
    show List.replicate 8 (0 : UInt8) = (List.replicate 24 0).drop 16 from rfl] at hd
  generalize hkk : List.replicate 32 (0 : UInt8) = k at hk hd
  generalize hnn : List.replicate 24 (0 : UInt8) = n at hn hd
  clear hkk hnn
  obtain ⟨c, e, h⟩ := C109_block w hw k n (List.replicate (64 * j + 32) 0) hk hn
  have hsub := (subkey (w := 32) (by omega) (areBytes_ofBytes n) (areBytes_ofBytes k) hk hn).2
  have hbi := salsa20_length (n := n.drop 16 ++ digits 8 i) hsub (by simp [hn, digits])
  have hbj := salsa20_length (n := n.drop 16 ++ digits 8 j) hsub (by simp [hn, digits])
  refine ⟨k, n, _, c, hk, hn, by rw [List.length_replicate], e, ?_⟩
  have hi' := h i hi (by rw [List.length_replicate]; omega)
  have hj' := h j (by omega) (by rw [List.length_replicate])
  rw [blockAt_zeros _ _ (by omega) (by omega)] at hi' hj'
  rw [hi', hj', blockAt_zeros _ _ (by omega) (by omega), blockAt_zeros _ _ (by omega) (by omega), ctr_right hw (by omega),
    ctr_right hw hj, zeros_xor _ _ hbi, zeros_xor _ _ hbj, zeros_xor _ _ List.length_replicate]
  intro h0
  exact hd (by rw [eq_of_xor _ _ 64 hbi hbj h0])

/-- A message that has the blocks of C109_reused_64. -/
example : ∃ k n m : Bytes, k.length = 32 ∧ n.length = 24 ∧ 37748512 ≤ m.length ∧ m.getD 5 0 = 7 := by
  refine ⟨List.replicate 32 3, List.replicate 24 5, List.replicate 37748513 7, List.length_replicate, List.length_replicate, ?_, ?_⟩
  · rw [List.length_replicate]
    omega
  · rw [List.getD_eq_getElem?_getD, List.getElem?_replicate, if_pos (by omega)]
    rfl

/-- The counter is right up to block 256 and wrong at block 257. -/
example : ctr 64 256 = 256 ∧ ctr 64 257 = 0x301 := ⟨ctr_right (by omega) (by omega), ctr_257 (by omega)⟩

end Salt.Props
