import Verif.Lemmas.ChkBox
import Verif.Model.ChkSha

/-! SHA-512 with IndexError agrees with that without. -/

namespace Salt.Chk

open Salt.Tweet (V at' intArray forRange forRange_succ ShaState)

theorem dl64_ok {x : List V} (h : 8 ≤ x.length) : dl64 x = .ok (Tweet.dl64 x) :=
  (loop_ok (fun _ => True) trivial fun i u hi _ => by chk [and_self]).1

theorem ts64_ok {x : List V} (u : V) (h : 8 ≤ x.length) : ts64 x u = .ok (Tweet.ts64 x u) ∧ (Tweet.ts64 x u).length = x.length := by
  unfold ts64 Tweet.ts64
  obtain ⟨e, l⟩ := loop_ok (fun s : List V × V => s.1.length = x.length) (n := 8) (s := (x, u))
    (body := fun i s => do
      let x ← put s.1 (7 - i) (Tweet.u8 s.2)
      pure (x, s.2 >>> 8))
    (body' := fun i (x, u) => (x.set (7 - i) (Tweet.u8 u), u >>> 8)) rfl fun i s hi hs => by
      chk []
      exact ⟨trivial, hs⟩
  rw [e]
  exact ⟨rfl, l⟩

theorem shaWords_ok {w : List V} (h : w.length = 16) : shaWords w = .ok (Tweet.shaWords w) ∧ (Tweet.shaWords w).length = 16 :=
  loop_ok (fun w : List V => w.length = 16) h fun i s hi hs => by
    chk []
    exact ⟨trivial, hs⟩

/-- The arrays have their lengths. -/
def ShaOk (s : ShaState) : Prop := s.a.length = 8 ∧ s.b.length = 8 ∧ s.w.length = 16

theorem K512_length : Tweet.K512.length = 80 := rfl

theorem shaRound_ok {i : Nat} {s : ShaState} (hi : i < 80) (h : ShaOk s) :
    shaRound i s = .ok (Tweet.shaRound i s) ∧ ShaOk (Tweet.shaRound i s) := by
  obtain ⟨a, b, w⟩ := s
  obtain ⟨ha, hb, hw⟩ := h
  simp only at ha hb hw
  unfold shaRound Tweet.shaRound ShaOk
  simp only
  obtain ⟨e1, l1⟩ := fill_ok (n := 8) (off := 0) (l := 8) (x := b) (k := a) hb (by omega) (by omega)
  simp only [Nat.add_zero] at e1 l1
  rw [e1, ok_bind]
  generalize forRange 8 b _ = b at l1 ⊢
  have hK := K512_length
  rw [get_ok (by omega), ok_bind, get_ok (by omega), ok_bind, get_ok (by omega), ok_bind, get_ok (by omega), ok_bind, get_ok (by omega),
    ok_bind, get_ok (by omega), ok_bind, get_ok (by omega), ok_bind, get_ok (x := Tweet.K512) (by omega), ok_bind, get_ok (by omega), ok_bind]
  generalize at' a 7 + Tweet.bigSigma1 (at' a 4) + Tweet.Ch (at' a 4) (at' a 5) (at' a 6) + at' Tweet.K512 i + at' w (i % 16) = t
  rw [put_ok _ (by omega), ok_bind]
  have l2 : (b.set 7 (t + Tweet.bigSigma0 (at' a 0) + Tweet.Maj (at' a 0) (at' a 1) (at' a 2))).length = 8 := by rw [List.length_set, l1]
  generalize b.set 7 (t + Tweet.bigSigma0 (at' a 0) + Tweet.Maj (at' a 0) (at' a 1) (at' a 2)) = b at l2 ⊢
  rw [get_ok (by omega), ok_bind, put_ok _ (by omega), ok_bind]
  have l3 : (b.set 3 (at' b 3 + t)).length = 8 := by rw [List.length_set, l2]
  generalize b.set 3 (at' b 3 + t) = b at l3 ⊢
  obtain ⟨e4, l4⟩ := loop_ok (fun a : List V => a.length = 8) (n := 8) (s := a)
    (body := fun j a => do put a ((j + 1) % 8) (← get b j))
    (body' := fun j a => a.set ((j + 1) % 8) (at' b j)) ha fun i s hi hs => by
      chk []
      exact ⟨trivial, hs⟩
  rw [e4, ok_bind]
  generalize forRange 8 a _ = a at l4 ⊢
  by_cases h15 : i % 16 = 15
  · obtain ⟨e5, l5⟩ := shaWords_ok hw
    rw [if_pos h15, if_pos h15, e5]
    exact ⟨rfl, l4, l3, l5⟩
  · rw [if_neg h15, if_neg h15]
    exact ⟨rfl, l4, l3, hw⟩

theorem shaBlock_ok {m z : List V} {off : Nat} {s : ShaState} (hm : off + 128 ≤ m.length) (hz : z.length = 8) (h : ShaOk s) :
    shaBlock m off z s = .ok (Tweet.shaBlock (m.drop off) z s) ∧ (Tweet.shaBlock (m.drop off) z s).1.length = 8 ∧
      ShaOk (Tweet.shaBlock (m.drop off) z s).2 := by
  unfold shaBlock Tweet.shaBlock
  obtain ⟨a, b, w⟩ := s
  obtain ⟨ha, hb, hw⟩ := h
  simp only at ha hb hw ⊢
  obtain ⟨e1, l1⟩ := loop_ok (fun w : List V => w.length = 16) (n := 16) (s := w)
    (body := fun i w => do put w i (← dl64 (m.drop (8 * i + off))))
    (body' := fun i w => w.set i (Tweet.dl64 ((m.drop off).drop (8 * i)))) hw fun i s hi hs => by
      rw [dl64_ok (by simp only [List.length_drop]; omega), List.drop_drop, Nat.add_comm off]
      chk []
      exact ⟨trivial, hs⟩
  rw [e1, ok_bind]
  generalize forRange 16 w _ = w at l1 ⊢
  obtain ⟨e2, l2⟩ := loop_ok ShaOk (n := 80) (s := ⟨a, b, w⟩) (body := shaRound) (body' := Tweet.shaRound) ⟨ha, hb, l1⟩
    fun i s hi hs => shaRound_ok hi hs
  rw [e2, ok_bind]
  generalize forRange 80 (_ : ShaState) _ = s at l2 ⊢
  obtain ⟨ha, hb, hw⟩ := l2
  obtain ⟨e3, l3⟩ := loop_ok (fun p : List V × List V => p.1.length = 8 ∧ p.2.length = 8) (n := 8) (s := (s.a, z))
    (body := fun i p => do
      let x ← get p.1 i
      let a ← put p.1 i (x + (← get p.2 i))
      let z ← put p.2 i (← get a i)
      pure (a, z))
    (body' := fun i (a, z) =>
      let a := a.set i (at' a i + at' z i)
      (a, z.set i (at' a i))) ⟨ha, hz⟩ fun i p hi hp => by
        obtain ⟨h1, h2⟩ := hp
        chk [h1, h2]
        exact ⟨trivial, trivial, trivial⟩
  rw [e3, ok_bind]
  generalize forRange 8 (s.a, z) _ = p at l3 ⊢
  obtain ⟨a, z⟩ := p
  exact ⟨rfl, l3.2, l3.1, hb, hw⟩

theorem shaLoop_ok {m : List V} (n : Nat) : ∀ (off : Nat) (z : List V) (s : ShaState), off + n ≤ m.length → z.length = 8 → ShaOk s →
    shaLoop m off z s n = .ok (Tweet.shaLoop (m.drop off) z s n) ∧ (Tweet.shaLoop (m.drop off) z s n).length = 8 := by
  induction n using Nat.strong_induction_on with
  | _ n ih =>
    intro off z s hm hz hs
    rw [shaLoop, Tweet.shaLoop]
    by_cases h : 128 ≤ n
    · rw [if_pos h, if_pos h]
      obtain ⟨e, l1, l2⟩ := shaBlock_ok (m := m) (off := off) (by omega) hz hs
      rw [e, ok_bind]
      simp only
      have := ih (n - 128) (by omega) (off + 128) _ _ (by omega) l1 l2
      rw [← List.drop_drop] at this
      exact this
    · rw [if_neg h, if_neg h]
      exact ⟨rfl, hz⟩

theorem hashblocks_ok {x m : List V} {n : Nat} (hx : 64 ≤ x.length) (hm : n ≤ m.length) :
    hashblocks x m n = .ok (Tweet.hashblocks x m n) ∧ (Tweet.hashblocks x m n).length = x.length := by
  unfold hashblocks Tweet.hashblocks
  let f : Nat → List V → List V := fun i z => z.set i (Tweet.dl64 (x.drop (8 * i)))
  obtain ⟨e1, l1⟩ := loop_ok (fun p : List V × List V => p.1.length = 8 ∧ p.2 = p.1) (n := 8) (s := (intArray .u64 8, intArray .u64 8))
    (body := fun i p => do
      let t ← dl64 (x.drop (8 * i))
      let z ← put p.1 i t
      let a ← put p.2 i t
      pure (z, a))
    (body' := fun i p => (f i p.1, f i p.2)) ⟨intArray_length _ _, rfl⟩ fun i p hi hp => by
      obtain ⟨h1, h2⟩ := hp
      rw [dl64_ok (by simp only [List.length_drop]; omega), ok_bind, h2]
      simp only [f]
      chk [h1]
      exact ⟨trivial, trivial, trivial⟩
  have e1' : (forRange 8 (intArray .u64 8, intArray .u64 8) fun i p => (f i p.1, f i p.2)).1 = forRange 8 (intArray .u64 8) f := by
    have : ∀ k, (forRange k (intArray .u64 8, intArray .u64 8) fun i p => (f i p.1, f i p.2)).1 = forRange k (intArray .u64 8) f := by
      intro k
      induction k with
      | zero => rfl
      | succ k ih => rw [forRange_succ, forRange_succ, ← ih]
    exact this 8
  rw [e1, ok_bind]
  generalize (forRange 8 (intArray .u64 8, intArray .u64 8) fun i p => (f i p.1, f i p.2)) = p at l1 e1' ⊢
  obtain ⟨z, a⟩ := p
  obtain ⟨l1, l2⟩ := l1
  simp only at l1 l2 e1' ⊢
  subst l2
  rw [show (fun i (z : List V) => z.set i (Tweet.dl64 (x.drop (8 * i)))) = f from rfl, ← e1']
  obtain ⟨e2, l2⟩ := shaLoop_ok (m := m) n 0 a ⟨a, intArray .u64 8, intArray .u64 16⟩ (by omega) l1 ⟨l1, intArray_length _ _, intArray_length _ _⟩
  rw [List.drop_zero] at e2 l2
  rw [e2, ok_bind]
  generalize Tweet.shaLoop m a _ n = z at l2 ⊢
  refine loop_ok (fun y : List V => y.length = x.length) rfl fun i y hi hy => ?_
  obtain ⟨e3, l3⟩ := ts64_ok (x := y.drop (8 * i)) (at' z i) (by simp only [List.length_drop]; omega)
  rw [get_ok (by omega), ok_bind, e3]
  exact ⟨rfl, by rw [splice_length _ _ _ l3, hy]⟩

theorem shaLast_ok {m : List V} {len : Nat} (hm : len ≤ m.length) :
    shaLast m len = .ok (Tweet.shaLast m len) ∧ (Tweet.shaLast m len).1.length = 256 ∧ (Tweet.shaLast m len).2 ≤ 256 := by
  unfold shaLast Tweet.shaLast
  have hn := Nat.mod_lt len (by omega : 128 > 0)
  have hle := Nat.mod_le len 128
  obtain ⟨e1, l1⟩ := fill_ok (n := len % 128) (off := len - len % 128) (l := 256) (x := intArray .u8 256) (k := m) (intArray_length _ _)
    (by omega) (by omega)
  simp only
  rw [e1, ok_bind]
  generalize forRange (len % 128) _ _ = x at l1 ⊢
  generalize len % 128 = r at hn ⊢
  generalize hk : 256 - 128 * (if r < 112 then 1 else 0) = k
  have hk1 : 128 ≤ k ∧ k ≤ 256 := by split at hk <;> omega
  generalize Tweet.u64 ⟨.plain, (len : Int)⟩ = b
  rw [put_ok _ (by omega), ok_bind, put_ok _ (by rw [List.length_set]; omega), ok_bind]
  generalize hy : (x.set r 128).set (k - 9) (b >>> 61) = y
  have ly : y.length = 256 := by rw [← hy, List.length_set, List.length_set, l1]
  obtain ⟨e3, l3⟩ := ts64_ok (x := y.drop (k - 8)) (b <<< 3) (by simp only [List.length_drop]; omega)
  rw [e3]
  exact ⟨rfl, by rw [splice_length _ _ _ l3, ly], hk1.2⟩

theorem hashSha512_ok {out m : List V} {n : Nat} (ho : 64 ≤ out.length) (hm : n ≤ m.length) :
    hashSha512 out m n = .ok (Tweet.hashSha512 out m n) ∧ (Tweet.hashSha512 out m n).length = out.length := by
  unfold hashSha512 Tweet.hashSha512
  obtain ⟨e1, l1⟩ := fill_ok (n := 64) (off := 0) (l := 64) (x := intArray .u8 64) (k := Tweet.iv512) (intArray_length _ _) (by omega)
    (by decide)
  simp only [Nat.add_zero] at e1 l1
  simp only
  rw [e1, ok_bind]
  generalize forRange 64 (intArray .u8 64) _ = h at l1 ⊢
  obtain ⟨e2, l2⟩ := hashblocks_ok (x := h) (m := m) (n := n) (by omega) hm
  obtain ⟨e3, l3, l3'⟩ := shaLast_ok hm
  rw [e2, ok_bind, e3, ok_bind]
  generalize Tweet.shaLast m n = x at l3 l3' ⊢
  generalize Tweet.hashblocks h m n = h' at l2 ⊢
  obtain ⟨e4, l4⟩ := hashblocks_ok (x := h') (m := x.1) (n := x.2) (by omega) (by omega)
  rw [e4, ok_bind]
  exact fill_ok (n := 64) (off := 0) (l := out.length) rfl ho (by omega)

end Salt.Chk
