import Verif.Lemmas.ChkShort
import Verif.Props.PureBox
import Verif.Props.PureX25519
import Verif.Props.PureSignOpen

/-! C108: keys and nonces of the wrong length in the pure Python backend, and boxes of any length. -/

namespace Salt.Props

open Salt.Tweet Salt.Spec Salt.Pure
open Salt.Chk (Le)

/-! ### Shorter and longer arguments -/

theorem ofBytes_prefix {a b : Bytes} (h : a <+: b) : ofBytes a <+: ofBytes b := h.map _

theorem boxAfternm_le (w : Nat) (m : Bytes) {n n' k k' : Bytes} (hn : n <+: n') (hk : k <+: k') :
    Le (boxAfternm w m n k) (boxAfternm w m n' k') := by
  unfold boxAfternm
  exact (Chk.secretbox_le w _ _ _ (ofBytes_prefix hn) (ofBytes_prefix hk)).bind fun _ => .refl _

theorem boxBeforenm_le (w : Nat) {pk pk' sk sk' : Bytes} (hp : pk <+: pk') (hs : sk <+: sk') :
    Le (boxBeforenm w pk sk) (boxBeforenm w pk' sk') := by
  unfold Pure.boxBeforenm
  exact (Chk.boxBeforenm_le w _ (ofBytes_prefix hp) (ofBytes_prefix hs)).bind fun _ => .refl _

theorem sign_le (m : Bytes) {sk sk' : Bytes} (h : sk <+: sk') : Le (Pure.sign m sk) (Pure.sign m sk') := by
  unfold Pure.sign
  exact (Chk.sign_le _ _ _ (ofBytes_prefix h)).bind fun _ => .refl _

theorem signOpen_le (w : Nat) (sm : Bytes) {pk pk' : Bytes} (h : pk <+: pk') : Le (Pure.signOpen w sm pk) (Pure.signOpen w sm pk') := by
  unfold Pure.signOpen
  exact (Chk.signOpen_le w _ _ _ (ofBytes_prefix h)).bind fun _ => .refl _

/-- A result that can only be IndexError. -/
theorem le_short {α : Type} {r r' : Except Err α} {x : α} (h : Le r r') (e : r' = .ok x) (hr : ∀ x, r ≠ .ok x) : r = .error .indexError := by
  rcases h with h | h
  · exact h
  · exact absurd (h.trans e) (hr x)

/-! ### C108 -/

/-- C108: with a nonce of at least 24 bytes and a key of at least 32, `crypto_box_afternm` succeeds on messages of every length (also
those whose box is wrong, C78), and only uses the first 24 and 32 bytes. -/
theorem C108_box (w : Nat) (hw : 32 ≤ w) (m n k : Bytes) (hn : 24 ≤ n.length) (hk : 32 ≤ k.length) :
    ∃ c, boxAfternm w m n k = .ok c ∧ c.length = m.length + 16 ∧ boxAfternm w m (n.take 24) (k.take 32) = .ok c := by
  have hn' : (n.take 24).length = 24 := by rw [List.length_take]; omega
  have hk' : (k.take 32).length = 32 := by rw [List.length_take]; omega
  have key : ∃ c, boxAfternm w m (n.take 24) (k.take 32) = .ok c ∧ c.length = m.length + 16 := by
    obtain ⟨cb, hcb⟩ := (Chk.streamXsalsaXor_bytish w (c := intArray .u8 (32 + m.length)) (m := ofBytes (List.replicate 32 0 ++ m)) (n := ofBytes (n.take 24))
      (k := ofBytes (k.take 32)) (d := 32 + m.length) (Chk.bytish_zeros _) (Chk.bytish_of (areBytes_ofBytes _))).bytes
    have hl := (Chk.streamXsalsaXor_ok w (c := intArray .u8 (32 + m.length)) (m := ofBytes (List.replicate 32 0 ++ m)) (n := ofBytes (n.take 24))
      (k := ofBytes (k.take 32)) (d := 32 + m.length) (by rw [Chk.intArray_length]) (fun _ => by rw [ofBytes_length, List.length_append, List.length_replicate]) (by rw [ofBytes_length]; omega)
      (by rw [ofBytes_length]; omega)).2
    rw [hcb.length, Chk.intArray_length] at hl
    obtain ⟨y, e, hy⟩ := secretbox_any hw (32 + m.length) (by omega) hcb hl
    rw [List.append_assoc] at hy
    refine ⟨_, boxAfternm_of e hy hn' hk', ?_⟩
    rw [List.length_append, spec_poly1305_length, List.length_drop, hl]
    omega
  obtain ⟨c, e, hc⟩ := key
  refine ⟨c, ?_, hc, e⟩
  have := (boxAfternm_le w m (List.take_prefix 24 n) (List.take_prefix 32 k)).eq (by rw [e]; simp)
  rw [this, e]

/-- C108: a shorter nonce or key is refused with IndexError; it is not padded. -/
theorem C108_box_short (w : Nat) (hw : 32 ≤ w) (m n k : Bytes) (h : n.length < 24 ∨ k.length < 32) :
    boxAfternm w m n k = .error .indexError := by
  obtain ⟨c, e, -⟩ := C108_box w hw m (n ++ zeros 24) (k ++ zeros 32) (by simp [zeros]) (by simp [zeros])
  refine le_short (boxAfternm_le w m (List.prefix_append _ _) (List.prefix_append _ _)) e fun x hx => ?_
  unfold boxAfternm at hx
  simp only at hx
  obtain ⟨_, hx, _⟩ := Chk.bind_inv hx
  unfold Chk.secretbox at hx
  have hl : (zeros 32 ++ m).length = 32 + m.length := by rw [List.length_append]; simp [zeros]
  rw [hl, if_neg (by omega)] at hx
  obtain ⟨_, hx, _⟩ := Chk.bind_inv hx
  have := Chk.streamXsalsaXor_inv (by omega) hx
  rw [ofBytes_length, ofBytes_length] at this
  omega

/-- C108: opening with a shorter nonce or key raises NameError, as every failure does. -/
theorem C108_open_short (w : Nat) (c n k : Bytes) (h : n.length < 24 ∨ k.length < 32) :
    boxOpenAfternm w c n k = .error .nameError := by
  unfold boxOpenAfternm
  simp only
  have hl : (zeros 16 ++ c).length = 16 + c.length := by rw [List.length_append]; simp [zeros]
  rw [hl]
  by_cases hc : 16 + c.length < 32
  · unfold Chk.secretboxOpen
    rw [if_pos hc]
    rfl
  · generalize e : Chk.secretboxOpen _ _ _ _ _ _ = r
    cases r with
    | error e => rfl
    | ok r =>
      exfalso
      unfold Chk.secretboxOpen at e
      rw [if_neg hc] at e
      obtain ⟨_, e, _⟩ := Chk.bind_inv e
      have := Chk.streamXsalsaXor_inv (m := []) (by omega) e
      rw [ofBytes_length, ofBytes_length] at this
      omega

/-- C108: opening only uses the first 24 bytes of a nonce and the first 32 of a key. -/
theorem C108_open_long (w : Nat) (c n k : Bytes) (hn : 24 ≤ n.length) (hk : 32 ≤ k.length) :
    boxOpenAfternm w c n k = boxOpenAfternm w c (n.take 24) (k.take 32) := by
  have e : ∀ x y : List V, x.length = y.length → Chk.secretboxOpen w x y y.length (ofBytes n) (ofBytes k) =
      Chk.secretboxOpen w x y y.length (ofBytes (n.take 24)) (ofBytes (k.take 32)) := fun x y h =>
    (Chk.secretboxOpen_le w x y y.length (ofBytes_prefix (List.take_prefix 24 n)) (ofBytes_prefix (List.take_prefix 32 k))).eq (by
      rw [Chk.secretboxOpen_ok w h rfl (by rw [ofBytes_length, List.length_take]; omega) (by rw [ofBytes_length, List.length_take]; omega)]
      simp)
  unfold boxOpenAfternm
  simp only
  have := e (intArray .u8 (zeros 16 ++ c).length) (ofBytes (zeros 16 ++ c)) (by rw [Chk.intArray_length, ofBytes_length])
  rw [ofBytes_length] at this
  rw [this]

/-- C108: `crypto_box_beforenm` uses the first 32 bytes of each key. -/
theorem C108_beforenm (w : Nat) (hw : 32 ≤ w) (pk sk : Bytes) (hp : 32 ≤ pk.length) (hs : 32 ≤ sk.length) :
    boxBeforenm w pk sk = .ok (hsalsa20 (x25519 (sk.take 32) (pk.take 32)) (List.replicate 16 0)) := by
  have e := C82_beforenm w hw (pk.take 32) (sk.take 32) (by rw [List.length_take]; omega) (by rw [List.length_take]; omega)
  rw [(boxBeforenm_le w (List.take_prefix 32 pk) (List.take_prefix 32 sk)).eq (by rw [e]; simp), e]

/-- C108: shorter keys are refused with IndexError. -/
theorem C108_beforenm_short (w : Nat) (hw : 32 ≤ w) (pk sk : Bytes) (h : pk.length < 32 ∨ sk.length < 32) :
    boxBeforenm w pk sk = .error .indexError := by
  have e := C108_beforenm w hw (pk ++ zeros 32) (sk ++ zeros 32) (by simp [zeros]) (by simp [zeros])
  refine le_short (boxBeforenm_le w (List.prefix_append _ _) (List.prefix_append _ _)) e fun x hx => ?_
  unfold Pure.boxBeforenm at hx
  obtain ⟨_, hx, _⟩ := Chk.bind_inv hx
  obtain ⟨_, hx, _⟩ := Chk.bind_inv hx
  have := Chk.scalarmultCurve_inv hx
  rw [ofBytes_length, ofBytes_length] at this
  omega

/-- C108: `crypto_sign` uses the first 64 bytes of the secret key. -/
theorem C108_sign (m sk : Bytes) (h : 64 ≤ sk.length) (hm : m.length + 64 < 2 ^ 64) :
    Pure.sign m sk = .ok (edSign (sk.take 32) ((sk.drop 32).take 32) m ++ m) := by
  have e := C84_sign m (sk.take 64) (by rw [List.length_take]; omega) hm
  rw [List.take_take, List.drop_take] at e
  rw [(sign_le m (List.take_prefix 64 sk)).eq (by rw [e]; simp), e]
  rfl

/-- C108: a shorter secret key, for example the seed alone, is refused with IndexError. -/
theorem C108_sign_short (m sk : Bytes) (h : sk.length < 64) (hm : m.length + 64 < 2 ^ 64) : Pure.sign m sk = .error .indexError := by
  have e := C108_sign m (sk ++ zeros 64) (by simp [zeros]) hm
  refine le_short (sign_le m (List.prefix_append _ _)) e fun x hx => ?_
  unfold Pure.sign at hx
  obtain ⟨_, hx, _⟩ := Chk.bind_inv hx
  have := Chk.sign_inv hx
  rw [ofBytes_length] at this
  omega

/-- C108: `crypto_sign_open` uses the first 32 bytes of the public key. -/
theorem C108_signOpen (w : Nat) (hw : 32 ≤ w) (sm pk : Bytes) (h : 32 ≤ pk.length) (h64 : sm.length < 2 ^ 64) :
    Pure.signOpen w sm pk = Pure.signOpen w sm (pk.take 32) := by
  refine (signOpen_le w sm (List.take_prefix 32 pk)).eq ?_
  obtain ⟨h1, h2⟩ := C86_open_partial w hw sm (pk.take 32) (by rw [List.length_take]; omega) h64
  by_cases hl : EdLenient (pk.take 32) (sm.drop 64) (sm.take 64)
  · rw [h1 hl]; simp
  · rw [h2 hl]; simp

/-- C108: with a shorter public key nothing is accepted: IndexError, or NameError for what is shorter than a signature. -/
theorem C108_signOpen_short (w : Nat) (hw : 32 ≤ w) (sm pk : Bytes) (h : pk.length < 32) (h64 : sm.length < 2 ^ 64) :
    Pure.signOpen w sm pk = .error (if sm.length < 64 then .nameError else .indexError) := by
  by_cases hs : sm.length < 64
  · rw [if_pos hs]
    exact C86_short w sm pk hs
  · rw [if_neg hs]
    have hp : (pk ++ zeros (32 - pk.length)).length = 32 := by
      rw [List.length_append]
      simp only [zeros, List.length_replicate]
      omega
    unfold Pure.signOpen
    have e := Chk.signOpen_ok hw (areBytes_ofBytes (zeros sm.length)) (Chk.plain_ofBytes _) (by simp [zeros]) (areBytes_ofBytes sm) rfl
      (areBytes_ofBytes (pk ++ zeros (32 - pk.length))) hp h64
    rw [le_short (Chk.signOpen_le w _ _ _ (ofBytes_prefix (List.prefix_append pk (zeros (32 - pk.length))))) e fun x hx => ?_]
    · rfl
    · have := Chk.signOpen_inv (by omega) hx
      rw [ofBytes_length] at this
      omega

/-! ### Examples -/

/-- The seed alone is no secret key. -/
example : Pure.sign [1, 2, 3] (List.replicate 32 7) = .error .indexError := C108_sign_short _ _ (by decide) (by decide)

/-- A key of 31 bytes, and one of 33. -/
example : boxAfternm 64 [1, 2, 3] (zeros 24) (List.replicate 31 7) = .error .indexError ∧
    boxAfternm 64 [1, 2, 3] (zeros 24) (List.replicate 33 7) = boxAfternm 64 [1, 2, 3] (zeros 24) (List.replicate 32 7) := by
  refine ⟨C108_box_short 64 (by omega) _ _ _ (.inr (by decide)), ?_⟩
  obtain ⟨c, e, -, e'⟩ := C108_box 64 (by omega) [1, 2, 3] (zeros 24) (List.replicate 33 7) (by decide) (by decide)
  rw [e, ← e']
  rfl

/-- A message for which the box is not the right one. -/
example : ∃ c, boxAfternm 64 (List.replicate 100000 7) (zeros 24) (zeros 32) = .ok c ∧ c.length = 100016 := by
  obtain ⟨c, e, hc, -⟩ := C108_box 64 (by omega) (List.replicate 100000 7) (zeros 24) (zeros 32) (by decide) (by decide)
  exact ⟨c, e, by rw [hc, List.length_replicate]⟩

/-- A public key of 16 bytes. -/
example : Pure.signOpen 64 (List.replicate 64 7) (List.replicate 16 9) = .error .indexError :=
  C108_signOpen_short 64 (by omega) _ _ (by decide) (by decide)

end Salt.Props
