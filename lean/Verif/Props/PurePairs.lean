import Verif.Lemmas.ChkKeys
import Verif.Props.PureBox
import Verif.Props.PureAgree
import Verif.Props.PureSign

/-! C107: random key pairs, `crypto_box` and `crypto_box_open` of the pure Python library. -/

namespace Salt.Props

open Salt.Tweet Salt.Spec Salt.Pure

theorem areBytes_append {x y : List V} {a b : Bytes} (h : AreBytes x a) (h' : AreBytes y b) : AreBytes (x ++ y) (a ++ b) := by
  induction h with
  | nil => exact h'
  | cons h1 _ ih => exact .cons h1 ih

theorem randombytes_eq {c : List V} {r : Bytes} (h : c.length = r.length) : randombytes c r = ofBytes r := by
  unfold randombytes
  rw [← h, List.drop_length, List.append_nil]

/-- C107: the key pair of `crypto_box_keypair` is the one that `crypto_box_keypair_not_random` makes of the same random bytes. -/
theorem C107_box_keypair (y x : List V) (r : Bytes) (hy : y.length = 32) (hx : x.length = 32) (hr : r.length = 32) :
    ∃ pk sk a b, Pure.boxKeypair r = .ok (pk, sk) ∧ Chk.boxKeypair y x r = .ok (a, b) ∧ toBytes a = .ok pk ∧ toBytes b = .ok sk := by
  have hb := scalarmultCurve_eq (q := y) (areBytes_ofBytes r) nine_bytes hr rfl hy
  have e : Tweet.boxKeypair y x r = (scalarmultCurve y (ofBytes r) nine, ofBytes r) := by
    rw [Tweet.boxKeypair, randombytes_eq (hx.trans hr.symm), scalarmultCurveBase]
  have k := C81_keypair r hr
  rw [Chk.boxKeypair_ok (Nat.le_of_eq hy.symm) (Nat.le_of_eq hx.symm) hr, e]
  generalize scalarmultCurve _ _ _ = z at hb ⊢
  generalize x25519 r base9 = pk at hb k
  exact ⟨pk, r, _, _, k, rfl, toBytes_of hb, toBytes_of (areBytes_ofBytes r)⟩

theorem beforenm_bytes {w : Nat} (hw : 32 ≤ w) {y x : List V} {pk sk : Bytes} (hy : AreBytes y pk) (hx : AreBytes x sk)
    (hp : pk.length = 32) (hs : sk.length = 32) :
    AreBytes (Tweet.boxBeforenm w (intArray .u8 32) y x) (hsalsa20 (x25519 sk pk) (List.replicate 16 0)) := by
  have hb := scalarmultCurve_eq (q := intArray .u8 32) hx hy hs hp (by simp [intArray])
  unfold Tweet.boxBeforenm
  simp only
  generalize scalarmultCurve _ _ _ = y at hb ⊢
  have h0 : AreBytes (intArray .u8 16) (List.replicate 16 0) :=
    areBytes_of_at (by decide) (by
      have : ∀ i, i < 16 → ((at' (intArray .u8 16) i).ty = .u8 ∧ (at' (intArray .u8 16) i).v = (((List.replicate 16 (0 : UInt8)).getD i 0).toNat : Int)) := by
        decide
      intro i hi
      exact ⟨.inl (this i hi).1, (this i hi).2⟩)
  have hc := core_hsalsa hw (out := intArray .u8 32) hb (x25519_length _ _) h0 (by decide) (by simp [intArray])
  rwa [show (List.replicate 16 (0 : UInt8)).take 16 = List.replicate 16 0 from rfl] at hc

/-- The shared key of "Cryptography in NaCl" for a secret key and a public key. -/
abbrev sharedKey (sk pk : Bytes) : Bytes := hsalsa20 (x25519 sk pk) (List.replicate 16 0)

/-- C107, what holds of `crypto_box`: a message of up to 16416 bytes, preceded by 32 zeros, gives the box of "Cryptography
in NaCl" for the shared key, preceded by 16 zeros. -/
theorem C107_box_partial (w : Nat) (hw : 32 ≤ w) (m n pk sk : Bytes) (hn : n.length = 24) (hp : pk.length = 32)
    (hs : sk.length = 32) (hm : m.length ≤ 16416) :
    ∃ c, Chk.box w (intArray .u8 (32 + m.length)) (ofBytes (List.replicate 32 0 ++ m)) (32 + m.length) (ofBytes n)
        (ofBytes pk) (ofBytes sk) = .ok (0, c) ∧
      toBytes c = .ok (List.replicate 16 0 ++ Spec.secretbox (sharedKey sk pk) n m) := by
  have hk := beforenm_bytes hw (areBytes_ofBytes pk) (areBytes_ofBytes sk) hp hs
  obtain ⟨y, e, h⟩ := secretbox_eq hw (areBytes_ofBytes n) hk (hsalsa20_length _ (x25519_length _ _)) hn hm
  refine ⟨y, ?_, toBytes_of h⟩
  rw [Chk.box_ok w (Chk.intArray_length _ _) (by rw [ofBytes_length, List.length_append, List.length_replicate]) (by rw [ofBytes_length, hn])
    (by rw [ofBytes_length, hp]) (by rw [ofBytes_length, hs]), Tweet.box, e]

/-- C107, what holds of `crypto_box_open`: it returns 0 exactly for the boxes of that shared key, of any length. -/
theorem C107_open_partial (w : Nat) (hw : 32 ≤ w) (m : List V) (c n pk sk : Bytes) (hm : m.length = 16 + c.length) (hn : n.length = 24)
    (hp : pk.length = 32) (hs : sk.length = 32) :
    let r := Chk.boxOpen w m (ofBytes (List.replicate 16 0 ++ c)) (16 + c.length) (ofBytes n) (ofBytes pk) (ofBytes sk)
    ((∃ t, c = Spec.secretbox (sharedKey sk pk) n t) → r = .ok (0, intArray .u8 32)) ∧
    ((∀ t, c ≠ Spec.secretbox (sharedKey sk pk) n t) → r = .ok (-1, m)) := by
  have hk := beforenm_bytes hw (areBytes_ofBytes pk) (areBytes_ofBytes sk) hp hs
  have hkl : (sharedKey sk pk).length = 32 := hsalsa20_length _ (x25519_length _ _)
  have hb := is_box hkl hn c
  have hl : (List.replicate 16 (0 : UInt8) ++ c).length = 16 + c.length := by rw [List.length_append, List.length_replicate]
  have key : Tweet.boxOpen w m (ofBytes (List.replicate 16 0 ++ c)) (16 + c.length) (ofBytes n) (ofBytes pk) (ofBytes sk) =
      if 16 ≤ c.length ∧ c.take 16 = Spec.poly1305 (xsalsaStream (sharedKey sk pk) n 32) (c.drop 16) then (0, intArray .u8 32) else (-1, m) := by
    unfold Tweet.boxOpen
    by_cases h : 16 ≤ c.length
    · rw [← hl, secretboxOpen_eq hw (areBytes_ofBytes n) hk hkl hn (areBytes_ofBytes _) (by omega)]
      have e1 : (List.replicate 16 (0 : UInt8) ++ c).drop 16 = c := List.drop_left' (List.length_replicate ..)
      have e2 : (List.replicate 16 (0 : UInt8) ++ c).drop 32 = c.drop 16 := by
        rw [show 32 = 16 + 16 from rfl, ← List.drop_drop, e1]
      rw [e1, e2]
      by_cases h' : c.take 16 = Spec.poly1305 (xsalsaStream (sharedKey sk pk) n 32) (c.drop 16)
      · rw [if_pos h', if_pos ⟨h, h'⟩]
      · rw [if_neg h', if_neg fun hh => h' hh.2]
    · rw [if_neg (fun hh => h hh.1)]
      unfold secretboxOpen
      rw [if_pos (by omega)]
  rw [Chk.boxOpen_ok w hm (by rw [ofBytes_length, hl]) (by rw [ofBytes_length, hn]) (by rw [ofBytes_length, hp]) (by rw [ofBytes_length, hs])]
  refine ⟨fun h => ?_, fun h => ?_⟩
  · simp only [key, if_pos (hb.1 h)]
  · simp only [key]
    rw [if_neg fun h' => ?_]
    obtain ⟨t, ht⟩ := hb.2 h'
    exact h t ht

/-- C107 as intended: what one party puts into a box for another one, the latter gets out, whatever the random bytes of
the two. -/
def C107_claim : Prop := ∀ (w : Nat), 32 ≤ w → ∀ rA rB n m pkA skA pkB skB : Bytes, n.length = 24 →
  Pure.boxKeypair rA = .ok (pkA, skA) → Pure.boxKeypair rB = .ok (pkB, skB) → ∃ c c' t,
    Chk.box w (intArray .u8 (32 + m.length)) (ofBytes (List.replicate 32 0 ++ m)) (32 + m.length) (ofBytes n)
      (ofBytes pkB) (ofBytes skA) = .ok (0, c) ∧ toBytes c = .ok (List.replicate 16 0 ++ c') ∧
    Chk.boxOpen w (intArray .u8 (32 + m.length)) (ofBytes (List.replicate 16 0 ++ c')) (16 + c'.length) (ofBytes n)
      (ofBytes pkA) (ofBytes skB) = .ok (0, t) ∧ toBytes t = .ok (List.replicate 32 0 ++ m)

theorem keys_of {r pk sk : Bytes} (h : Pure.boxKeypair r = .ok (pk, sk)) : r.length = 32 ∧ pk = x25519 r base9 ∧ sk = r := by
  have hl : r.length = 32 := Decidable.byContradiction fun hl => by
    rw [C81_length r hl] at h
    cases h
  rw [C81_keypair r hl] at h
  cases h
  exact ⟨hl, rfl, rfl⟩

/-- C107: the receiver accepts the box, but gets 32 zeros and nothing else. -/
theorem C107_exchange (w : Nat) (hw : 32 ≤ w) (rA rB n m pkA skA pkB skB : Bytes) (hn : n.length = 24) (hm : m.length ≤ 16416)
    (hA : Pure.boxKeypair rA = .ok (pkA, skA)) (hB : Pure.boxKeypair rB = .ok (pkB, skB)) : ∃ c c',
    Chk.box w (intArray .u8 (32 + m.length)) (ofBytes (List.replicate 32 0 ++ m)) (32 + m.length) (ofBytes n)
      (ofBytes pkB) (ofBytes skA) = .ok (0, c) ∧ toBytes c = .ok (List.replicate 16 0 ++ c') ∧
    Chk.boxOpen w (intArray .u8 (32 + m.length)) (ofBytes (List.replicate 16 0 ++ c')) (16 + c'.length) (ofBytes n)
      (ofBytes pkA) (ofBytes skB) = .ok (0, intArray .u8 32) := by
  obtain ⟨la, e1, e2⟩ := keys_of hA
  obtain ⟨lb, e3, e4⟩ := keys_of hB
  have lpA : pkA.length = 32 := e1 ▸ x25519_length _ _
  have lpB : pkB.length = 32 := e3 ▸ x25519_length _ _
  have hk : sharedKey skA pkB = sharedKey skB pkA := by
    rw [sharedKey, sharedKey, e1, e2, e3, e4, C87_commutes _ _ _ la lb]
  rw [← e2] at la
  rw [← e4] at lb
  clear e1 e2 e3 e4 hA hB
  obtain ⟨c, h1, h2⟩ := C107_box_partial w hw m n pkB skA hn lpB la hm
  have hsl : (Spec.secretbox (sharedKey skA pkB) n m).length = 16 + m.length := by
    unfold Spec.secretbox
    simp only
    rw [List.length_append, spec_poly1305_length, xorBytes_length, List.length_drop,
      xsalsaStream_length (show (sharedKey skA pkB).length = 32 from hsalsa20_length _ (x25519_length _ _)) hn]
    omega
  exact ⟨c, _, h1, h2, (C107_open_partial w hw (intArray .u8 (32 + m.length)) (Spec.secretbox (sharedKey skA pkB) n m) n
    pkA skB (by rw [Chk.intArray_length, hsl]; omega) hn lpA lb).1 ⟨m, by rw [hk]⟩⟩

theorem C107_violated : ¬ C107_claim := by
  intro h
  obtain ⟨c, c', t, h1, h2, h3, h4⟩ := h 32 (by omega) (zeros 32) (zeros 32) (zeros 24) [7] _ _ _ _ rfl
    (C81_keypair _ rfl) (C81_keypair _ rfl)
  obtain ⟨d, d', k1, k2, k3⟩ := C107_exchange 32 (by omega) (zeros 32) (zeros 32) (zeros 24) [7] _ _ _ _ rfl (by simp)
    (C81_keypair _ rfl) (C81_keypair _ rfl)
  have e1 := h1.symm.trans k1
  cases e1
  have e2 := h2.symm.trans k2
  have e3 : c' = d' := List.append_cancel_left (Except.ok.inj e2)
  subst e3
  have e4 := h3.symm.trans k3
  cases e4
  have := congrArg (fun r => match r with | .ok b => b.length | .error _ => 0) h4
  revert this
  decide

theorem copy_into (a b pk : List V) (n : Nat) (hb : n ≤ b.length) (hp : n ≤ pk.length) :
    (List.range n).foldl (fun s i => s.set (a.length + i) (at' pk i)) (a ++ b) = a ++ (pk.take n ++ b.drop n) := by
  induction n with
  | zero => simp
  | succ n ih =>
    have e : b.drop n = b[n] :: b.drop (n + 1) := List.drop_eq_getElem_cons (by omega)
    have hl : (pk.take n).length = n := by rw [List.length_take]; omega
    rw [List.range_succ, List.foldl_append, ih (by omega) (by omega), List.foldl_cons, List.foldl_nil,
      List.set_append_right _ _ (by omega), Nat.add_sub_cancel_left, List.set_append_right _ _ (by omega), hl, Nat.sub_self, e,
      List.set_cons_zero, List.take_succ_eq_append_getElem (by omega), List.append_assoc, List.singleton_append]
    congr 4
    simp [at', List.getD_eq_getElem?_getD, List.getElem?_eq_getElem (show n < pk.length by omega)]

/-- C107: the key pair of `crypto_sign_keypair` is the one that `crypto_sign_keypair_not_random` makes of the same random
bytes; `sk` is any array of 64 bytes. -/
theorem C107_sign_keypair (sk : List V) (sb r : Bytes) (hsk : AreBytes sk sb) (hx : sb.length = 64) (hr : r.length = 32) :
    ∃ pk sk' a b, Pure.signKeypair r = .ok (pk, sk') ∧ Chk.signKeypair (intArray .u8 32) sk r = .ok (a, b) ∧ toBytes a = .ok pk ∧
      toBytes b = .ok sk' := by
  have hab := areBytes_append (areBytes_ofBytes r) (hsk.drop 32)
  have hh := hash_bytes hab 32 (by rw [List.length_append]; omega) (by omega)
  rw [List.take_left' hr] at hh
  obtain ⟨y, e, hy⟩ := public_bytes hh (sha512_length r)
  have k := C83_keypair r hr
  have hyl : y.length = 32 := hy.length.trans (edEncode_length _)
  have hrl : (ofBytes r).length = 32 := (areBytes_ofBytes r).length.trans hr
  have hsl : (sk.drop 32).length = 32 := by rw [List.length_drop, hsk.length, hx]
  have hc := copy_into (ofBytes r) (sk.drop 32) y 32 (by omega) (by omega)
  rw [hrl, List.take_of_length_le (by omega), List.drop_of_length_le (Nat.le_of_eq hsl), List.append_nil] at hc
  have e0 : Tweet.signKeypair (intArray .u8 32) sk r = (y, ofBytes r ++ y) := by
    rw [Tweet.signKeypair, randombytes, hr]
    rw [e, hc]
  rw [Chk.signKeypair_ok hsk (Nat.le_of_eq hx.symm) hr, e0]
  have hy' : AreBytes y (edPublic r) := hy
  clear hy e hc e0 hh
  generalize edPublic r = pk at k hy'
  exact ⟨pk, r ++ pk, _, _, k, rfl, toBytes_of hy', toBytes_of (areBytes_append (areBytes_ofBytes r) hy')⟩

/-- An exchange between two parties with concrete random bytes. -/
example : ∃ c c', Chk.box 64 (intArray .u8 36) (ofBytes (List.replicate 32 0 ++ [1, 2, 3, 4])) 36 (ofBytes (zeros 24))
      (ofBytes (x25519 (List.replicate 32 2) base9)) (ofBytes (List.replicate 32 1)) = .ok (0, c) ∧
    toBytes c = .ok (List.replicate 16 0 ++ c') ∧
    Chk.boxOpen 64 (intArray .u8 36) (ofBytes (List.replicate 16 0 ++ c')) (16 + c'.length) (ofBytes (zeros 24))
      (ofBytes (x25519 (List.replicate 32 1) base9)) (ofBytes (List.replicate 32 2)) = .ok (0, intArray .u8 32) :=
  C107_exchange 64 (by omega) (List.replicate 32 1) (List.replicate 32 2) (zeros 24) [1, 2, 3, 4] _ _ _ _ rfl (by simp)
    (C81_keypair _ rfl) (C81_keypair _ rfl)

end Salt.Props
