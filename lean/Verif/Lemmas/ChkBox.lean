import Verif.Lemmas.Chk

/-! The functions of the secret box with IndexError agree with those without. -/

namespace Salt.Chk

open Salt.Tweet (V at' intArray forRange forRange_succ)

/-! ### The stream -/

theorem at'_drop (m : List V) (k i : Nat) : at' (m.drop k) i = at' m (i + k) := by
  unfold at'
  rw [List.getD_eq_getElem?_getD, List.getD_eq_getElem?_getD, List.getElem?_drop, Nat.add_comm]

theorem xorBlock_ok {c m x : List V} {off moff n : Nat} (hc : off + n ≤ c.length) (hm : m.isEmpty = false → off + n ≤ m.length)
    (hx : n ≤ x.length) (ho : m.isEmpty = false → moff = off) :
    xorBlock c off m moff x n = .ok (Tweet.xorBlock c off (m.drop off) x m.isEmpty n) ∧
      (Tweet.xorBlock c off (m.drop off) x m.isEmpty n).length = c.length := by
  refine loop_ok (fun y : List V => y.length = c.length) rfl fun i y hi hy => ?_
  cases he : m.isEmpty with
  | true =>
    simp only [if_true]
    chk []
    exact ⟨trivial, hy⟩
  | false =>
    have := hm he
    have := ho he
    subst this
    simp only [Bool.false_eq_true, if_false]
    rw [at'_drop]
    chk []
    exact ⟨trivial, hy⟩

theorem bumpCounter_ok (w : Nat) {z : List V} (h : z.length = 16) :
    bumpCounter w z = .ok (Tweet.bumpCounter w z) ∧ (Tweet.bumpCounter w z).length = 16 := by
  unfold bumpCounter Tweet.bumpCounter
  obtain ⟨e, l⟩ := loop_ok (fun s : List V × V => s.1.length = 16) (n := 8) (s := (z, Tweet.cast (.u32 w) 1))
    (body := fun i s => do
      let u := s.2 + Tweet.u32 w (← get s.1 (i + 8))
      let z ← put s.1 (i + 8) u
      pure (z, u >>> 8))
    (body' := fun i (z, u) =>
      let u := u + Tweet.u32 w (at' z (i + 8))
      (z.set (i + 8) u, u >>> 8)) h fun i s hi hs => by
    chk []
    exact ⟨trivial, hs⟩
  rw [e]
  exact ⟨rfl, l⟩

theorem sigma_length : Tweet.sigma.length = 16 := rfl

theorem streamLoop_ok (w : Nat) {m k : List V} (hk : 32 ≤ k.length) (b : Nat) : ∀ (c z x : List V) (off moff : Nat), off + b ≤ c.length →
    (m.isEmpty = false → off + b ≤ m.length) → (m.isEmpty = false → moff = off) → z.length = 16 → x.length = 64 →
    streamLoop w c m b off moff z k x = .ok (Tweet.streamLoop w c m b off z k x) ∧
      (Tweet.streamLoop w c m b off z k x).length = c.length := by
  induction b using Nat.strong_induction_on with
  | _ b ih =>
    intro c z x off moff hc hm ho hz hx
    have hcore := core_ok w (out := x) (in_ := z) (k := k) (c := Tweet.sigma) (h := false) (by omega) hk (by rw [sigma_length]) (by simp [hx])
    rw [streamLoop, Tweet.streamLoop]
    by_cases h64 : 64 ≤ b
    · rw [if_pos h64, if_pos h64, hcore.1, ok_bind]
      simp only
      obtain ⟨e, l⟩ := xorBlock_ok (c := c) (m := m) (x := Tweet.core w x z k Tweet.sigma false) (off := off) (moff := moff) (n := 64) (by omega)
        (fun h => by have := hm h; omega) (by rw [hcore.2]; omega) ho
      obtain ⟨e', l'⟩ := bumpCounter_ok w hz
      rw [e, ok_bind, e', ok_bind]
      have := ih (b - 64) (by omega) (Tweet.xorBlock c off (m.drop off) (Tweet.core w x z k Tweet.sigma false) m.isEmpty 64)
        (Tweet.bumpCounter w z) (Tweet.core w x z k Tweet.sigma false) (off + 64) (if m.isEmpty then moff else moff + 64) (by rw [l]; omega)
        (fun h => by have := hm h; omega) (fun h => by simp [h, ho h]) l' (hcore.2.trans hx)
      rw [this.1]
      exact ⟨rfl, by rw [this.2, l]⟩
    · rw [if_neg h64, if_neg h64]
      by_cases h0 : 0 < b
      · rw [if_pos h0, if_pos h0, hcore.1, ok_bind]
        exact xorBlock_ok hc hm (by rw [hcore.2]; omega) ho
      · rw [if_neg h0, if_neg h0]
        exact ⟨rfl, rfl⟩

theorem streamSalsaXor_ok (w : Nat) {c m n k : List V} {b : Nat} (hc : b ≤ c.length) (hm : m.isEmpty = false → b ≤ m.length)
    (hn : 8 ≤ n.length) (hk : 32 ≤ k.length) :
    streamSalsaXor w c m b n k = .ok (Tweet.streamSalsaXor w c m b n k) ∧ (Tweet.streamSalsaXor w c m b n k).length = c.length := by
  unfold streamSalsaXor Tweet.streamSalsaXor
  by_cases h : b = 0
  · rw [if_pos h, if_pos h]; exact ⟨rfl, rfl⟩
  · rw [if_neg h, if_neg h]
    obtain ⟨e, l⟩ := loop_ok (fun z : List V => z.length = 16) (n := 8) (s := intArray .u8 16)
      (body := fun i z => do put z i (← get n i)) (body' := fun i z => z.set i (at' n i)) (intArray_length _ _) fun i z hi hz => by
        chk []
        exact ⟨trivial, hz⟩
    rw [e, ok_bind]
    exact streamLoop_ok w hk b _ _ _ _ _ (by omega) (fun h => by have := hm h; omega) (fun _ => rfl) l (intArray_length _ _)

theorem subkey_ok (w : Nat) {n k : List V} (hn : 16 ≤ n.length) (hk : 32 ≤ k.length) :
    core w (intArray .u8 32) n k Tweet.sigma true = .ok (Tweet.core w (intArray .u8 32) n k Tweet.sigma true) ∧
      (Tweet.core w (intArray .u8 32) n k Tweet.sigma true).length = 32 := by
  have := core_ok w (out := intArray .u8 32) (h := true) hn hk (c := Tweet.sigma) (by rw [sigma_length]) (by simp [intArray_length])
  rw [intArray_length] at this
  exact this

theorem streamXsalsaXor_ok (w : Nat) {c m n k : List V} {d : Nat} (hc : d ≤ c.length) (hm : m.isEmpty = false → d ≤ m.length)
    (hn : 24 ≤ n.length) (hk : 32 ≤ k.length) :
    streamXsalsaXor w c m d n k = .ok (Tweet.streamXsalsaXor w c m d n k) ∧ (Tweet.streamXsalsaXor w c m d n k).length = c.length := by
  obtain ⟨e, l⟩ := subkey_ok w (n := n) (k := k) (by omega) hk
  unfold streamXsalsaXor Tweet.streamXsalsaXor
  rw [e, ok_bind]
  exact streamSalsaXor_ok w hc hm (by simp only [List.length_drop]; omega) (by rw [l])

theorem streamXsalsa_ok (w : Nat) {c n k : List V} {d : Nat} (hc : d ≤ c.length) (hn : 24 ≤ n.length) (hk : 32 ≤ k.length) :
    streamXsalsa w c d n k = .ok (Tweet.streamXsalsa w c d n k) ∧ (Tweet.streamXsalsa w c d n k).length = c.length :=
  streamXsalsaXor_ok w (m := []) hc (by simp) hn hk

/-! ### Poly1305 -/

theorem add1305_ok (w : Nat) {h c : List V} (hh : h.length = 17) (hc : c.length = 17) :
    add1305 w h c = .ok (Tweet.add1305 w h c) ∧ (Tweet.add1305 w h c).length = 17 := by
  unfold add1305 Tweet.add1305
  obtain ⟨e, l⟩ := loop_ok (fun s : List V × V => s.1.length = 17) (n := 17) (s := (h, (⟨.u32 w, 0⟩ : V)))
    (body := fun j s => do
      let a ← get s.1 j
      let u := s.2 + Tweet.u32 w (a + (← get c j))
      let h ← put s.1 j (u &&& 255)
      pure (h, u >>> 8))
    (body' := fun j (h, u) =>
      let u := u + Tweet.u32 w (at' h j + at' c j)
      (h.set j (u &&& 255), u >>> 8)) hh fun i s hi hs => by
    chk []
    exact ⟨trivial, hs⟩
  rw [e]
  exact ⟨rfl, l⟩

theorem fill_ok {n off l : Nat} {x k : List V} (hx : x.length = l) (hn : n ≤ l) (hk : off + n ≤ k.length) :
    loop n x (fun j r => do put r j (← get k (j + off))) = .ok (forRange n x fun j r => r.set j (at' k (j + off))) ∧
      (forRange n x fun j r => r.set j (at' k (j + off))).length = l :=
  loop_ok (fun z : List V => z.length = l) hx fun i z hi hz => by
    chk []
    exact ⟨trivial, hz⟩

theorem polyR_ok (w : Nat) {k : List V} (hk : 16 ≤ k.length) :
    polyR w k = .ok (Tweet.polyR w k) ∧ (Tweet.polyR w k).length = 17 := by
  unfold polyR Tweet.polyR
  obtain ⟨e, l⟩ := fill_ok (n := 16) (off := 0) (x := intArray (.u32 w) 17) (intArray_length _ _) (by omega) (by omega : 0 + 16 ≤ k.length)
  simp only [Nat.add_zero] at e l
  rw [e, ok_bind]
  generalize forRange 16 _ _ = r at l ⊢
  unfold andItem
  chk [l]
  trivial

theorem polyBlock_ok (w : Nat) {m : List V} {j : Nat} (hj : j ≤ 16) (hm : j ≤ m.length) :
    polyBlock w m j = .ok (Tweet.polyBlock w m j) ∧ (Tweet.polyBlock w m j).length = 17 := by
  unfold polyBlock Tweet.polyBlock
  obtain ⟨e, l⟩ := fill_ok (n := j) (off := 0) (x := intArray (.u32 w) 17) (intArray_length _ _) (by omega) (by omega : 0 + j ≤ m.length)
  simp only [Nat.add_zero] at e l
  rw [e, ok_bind]
  generalize forRange j _ _ = r at l ⊢
  chk [l]
  trivial

theorem polyMul_ok (w : Nat) {h r : List V} (hh : h.length = 17) (hr : r.length = 17) :
    polyMul w h r = .ok (Tweet.polyMul h r) ∧ (Tweet.polyMul h r).length = 17 := by
  unfold polyMul Tweet.polyMul
  let f : Nat → V := fun i => forRange 17 (0 : V) fun j x => x + at' h j * (if j ≤ i then at' r (i - j) else 320 * at' r (i + 17 - j))
  obtain ⟨e, l⟩ := loop_ok (fun x : List V => x.length = 17) (n := 17) (s := intArray (.u32 w) 17)
    (body := fun i x => do
      let a ← loop 17 (0 : V) fun j a => do
        let b ← get h j
        if j ≤ i then pure (a + b * (← get r (i - j))) else pure (a + b * (320 * (← get r (i + 17 - j))))
      put x i a)
    (body' := fun i x => x.set i (f i)) (intArray_length _ _) fun i x hi hx => by
      rw [(loop_ok (fun _ => True) (body' := fun j x => x + at' h j * (if j ≤ i then at' r (i - j) else 320 * at' r (i + 17 - j))) trivial
        fun j a hj _ => ?_).1, ok_bind]
      · refine ⟨put_ok _ (by omega), ?_⟩
        rw [List.length_set, hx]
      · by_cases hji : j ≤ i
        · chk [if_pos hji, and_self]
        · chk [if_neg hji, and_self]
  rw [e, ok_bind]
  have e2 := Tweet.forRange_set 17 0 (intArray (.u32 w) 17) f (by simp [intArray_length])
  simp only [Nat.add_zero, Nat.zero_add, List.take_zero, List.nil_append] at e2
  rw [e2, List.drop_of_length_le (by simp [intArray_length]), List.append_nil]
  have l2 : ((List.range 17).map f).length = 17 := by simp
  obtain ⟨e3, l3⟩ := fill_ok (n := 17) (off := 0) (k := (List.range 17).map f) hh (by omega) (by omega)
  exact ⟨e3, l3⟩

theorem polyCarry_ok {h : List V} (u : V) (hh : h.length = 17) :
    polyCarry h u = .ok (Tweet.polyCarry h u) ∧ (Tweet.polyCarry h u).1.length = 17 :=
  loop_ok (fun s : List V × V => s.1.length = 17) hh fun i s hi hs => by
    chk []
    exact ⟨trivial, hs⟩

theorem polyReduce_ok {h : List V} (hh : h.length = 17) :
    polyReduce h = .ok (Tweet.polyReduce h) ∧ (Tweet.polyReduce h).length = 17 := by
  unfold polyReduce Tweet.polyReduce
  obtain ⟨e, l⟩ := polyCarry_ok 0 hh
  rw [e, ok_bind, get_ok (by omega), ok_bind]
  simp only
  rw [put_ok _ (by omega), ok_bind]
  obtain ⟨e, l⟩ := polyCarry_ok ((5 : V) * ((Tweet.polyCarry h 0).2 + at' (Tweet.polyCarry h 0).1 16) >>> 2)
    (h := (Tweet.polyCarry h 0).1.set 16 ((Tweet.polyCarry h 0).2 + at' (Tweet.polyCarry h 0).1 16 &&& 3)) (by rw [List.length_set, l])
  rw [e, ok_bind, get_ok (by omega), ok_bind, put_ok _ (by omega)]
  exact ⟨rfl, by rw [List.length_set, l]⟩

theorem polyLoop_ok (w : Nat) {r : List V} (hr : r.length = 17) (n : Nat) : ∀ (h m : List V), h.length = 17 → n ≤ m.length →
    polyLoop w h r m n = .ok (Tweet.polyLoop w h r m n) ∧ (Tweet.polyLoop w h r m n).length = 17 := by
  induction n using Nat.strong_induction_on with
  | _ n ih =>
    intro h m hh hm
    rw [polyLoop, Tweet.polyLoop]
    by_cases h0 : n = 0
    · rw [if_pos h0, if_pos h0]; exact ⟨rfl, hh⟩
    · rw [if_neg h0, if_neg h0]
      obtain ⟨e1, l1⟩ := polyBlock_ok w (m := m) (j := min n 16) (by omega) (by omega)
      obtain ⟨e2, l2⟩ := add1305_ok w hh l1
      obtain ⟨e3, l3⟩ := polyMul_ok w l2 hr
      obtain ⟨e4, l4⟩ := polyReduce_ok l3
      simp only [e1, e2, e3, e4, ok_bind]
      exact ih (n - min n 16) (by omega) _ _ l4 (by simp only [List.length_drop]; omega)

theorem minusp_length (w : Nat) : (Tweet.minusp w).length = 17 := rfl

theorem poly1305_ok (w : Nat) {out m k : List V} {n : Nat} (ho : 16 ≤ out.length) (hm : n ≤ m.length) (hk : 32 ≤ k.length) :
    poly1305 w out m n k = .ok (Tweet.poly1305 w out m n k) ∧ (Tweet.poly1305 w out m n k).length = out.length := by
  unfold poly1305 Tweet.poly1305
  obtain ⟨e1, l1⟩ := polyR_ok w (k := k) (by omega)
  obtain ⟨e2, l2⟩ := polyLoop_ok w l1 n (intArray (.u32 w) 17) m (intArray_length _ _) hm
  rw [e1, ok_bind, e2, ok_bind]
  simp only
  generalize Tweet.polyLoop w _ _ _ _ = g at l2 ⊢
  rw [copy_all l2 (intArray_length _ _), ok_bind]
  obtain ⟨e3, l3⟩ := add1305_ok w l2 (minusp_length w)
  rw [e3, ok_bind]
  generalize Tweet.add1305 w g (Tweet.minusp w) = h at l3 ⊢
  rw [get_ok (by omega), ok_bind]
  obtain ⟨e4, l4⟩ := loop_ok (fun h : List V => h.length = 17) (n := 17)
    (body := fun j h' => do
      let a ← get h' j
      let b ← get g j
      put h' j (a ^^^ (-(at' h 16 >>> 7) &&& (b ^^^ a))))
    (body' := fun j h' => h'.set j (at' h' j ^^^ (-(at' h 16 >>> 7) &&& (at' g j ^^^ at' h' j)))) l3 fun i s hi hs => by
    chk []
    exact ⟨trivial, hs⟩
  rw [e4, ok_bind]
  generalize forRange 17 h _ = h at l4 ⊢
  obtain ⟨e5, l5⟩ := fill_ok (n := 16) (off := 16) (x := intArray (.u32 w) 17) (k := k) (intArray_length _ _) (by omega) (by omega)
  rw [e5, ok_bind]
  generalize forRange 16 (intArray (.u32 w) 17) _ = c at l5 ⊢
  rw [put_ok _ (by omega), ok_bind]
  obtain ⟨e6, l6⟩ := add1305_ok w l4 (c := c.set 16 0) (by rw [List.length_set, l5])
  rw [e6, ok_bind]
  exact fill_ok (n := 16) (off := 0) (l := out.length) rfl ho (by omega)

theorem polyVerify_ok (w : Nat) {h m k : List V} {n : Nat} (hh : 16 ≤ h.length) (hm : n ≤ m.length) (hk : 32 ≤ k.length) :
    polyVerify w h m n k = .ok (Tweet.polyVerify w h m n k) := by
  unfold polyVerify Tweet.polyVerify
  obtain ⟨e, l⟩ := poly1305_ok w (out := intArray .u8 16) (k := k) (m := m) (n := n) (by rw [intArray_length]) hm hk
  rw [e, ok_bind]
  exact vn_ok w hh (by rw [l, intArray_length])

/-! ### The secret box -/

theorem secretbox_ok (w : Nat) {c m n k : List V} {d : Nat} (hc : c.length = d) (hm : m.length = d) (hn : 24 ≤ n.length) (hk : 32 ≤ k.length) :
    secretbox w c m d n k = .ok (Tweet.secretbox w c m d n k) := by
  unfold secretbox Tweet.secretbox
  by_cases h : d < 32
  · rw [if_pos h, if_pos h]; rfl
  · rw [if_neg h, if_neg h]
    obtain ⟨e, l⟩ := streamXsalsaXor_ok w (c := c) (m := m) (d := d) (by omega) (fun _ => by omega) hn hk
    rw [e, ok_bind]
    simp only
    generalize Tweet.streamXsalsaXor w c m d n k = y at l ⊢
    obtain ⟨e, -⟩ := poly1305_ok w (out := y.drop 16) (m := y.drop 32) (n := d - 32) (k := y) (by simp only [List.length_drop]; omega)
      (by simp only [List.length_drop]; omega) (by omega)
    rw [e]
    rfl

theorem secretboxOpen_ok (w : Nat) {c m n k : List V} {d : Nat} (hm : m.length = d) (hc : c.length = d) (hn : 24 ≤ n.length) (hk : 32 ≤ k.length) :
    secretboxOpen w m c d n k = .ok (Tweet.secretboxOpen w m c d n k) := by
  unfold secretboxOpen Tweet.secretboxOpen
  by_cases h : d < 32
  · rw [if_pos h, if_pos h]; rfl
  · rw [if_neg h, if_neg h]
    obtain ⟨e, l⟩ := streamXsalsa_ok w (c := intArray .u8 32) (d := 32) (by rw [intArray_length]) hn hk
    rw [e, ok_bind]
    simp only
    rw [intArray_length] at l
    generalize Tweet.streamXsalsa w _ _ _ _ = x at l ⊢
    rw [polyVerify_ok w (by simp only [List.length_drop]; omega) (by simp only [List.length_drop]; omega) (by omega), ok_bind]
    split
    · rfl
    · rw [(streamXsalsaXor_ok w (c := m) (m := c) (d := d) (by omega) (fun _ => by omega) hn hk).1]
      rfl

end Salt.Chk
