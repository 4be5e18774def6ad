import Verif.Lemmas.PureRaw
import Verif.Lemmas.Box

/-! Arguments of pure_pynacl that are too short or too long, and boxes of any length. -/

namespace Salt.Chk

open Salt.Tweet (V intArray sigma IsByte AreBytes)

/-! ### The items of the stream are bytes -/

/-- Every item of the array is a byte. -/
def Bytish (x : List V) : Prop := ∀ a ∈ x, ∃ b, IsByte a b

theorem Bytish.bytes {x : List V} (h : Bytish x) : ∃ b, AreBytes x b := by
  induction x with
  | nil => exact ⟨[], .nil⟩
  | cons a x ih =>
    obtain ⟨b, hb⟩ := h a (by simp)
    obtain ⟨c, hc⟩ := ih fun a ha => h a (by simp [ha])
    exact ⟨b :: c, .cons hb hc⟩

theorem bytish_of {x : List V} {b : Bytes} (h : AreBytes x b) : Bytish x := by
  induction h with
  | nil => simp [Bytish]
  | cons h _ ih =>
    intro a ha
    rcases List.mem_cons.mp ha with rfl | ha
    · exact ⟨_, h⟩
    · exact ih a ha

theorem Bytish.at' {x : List V} (h : Bytish x) (i : Nat) : ∃ b, IsByte (Tweet.at' x i) b := by
  unfold Tweet.at'
  rw [List.getD_eq_getElem?_getD]
  cases e : x[i]? with
  | none => exact ⟨0, .inr rfl, rfl⟩
  | some a => exact h a (List.mem_of_getElem? e)

theorem Bytish.set {x : List V} (h : Bytish x) {a : V} {b : UInt8} (ha : IsByte a b) (i : Nat) : Bytish (x.set i a) := by
  intro c hc
  rcases List.mem_or_eq_of_mem_set hc with hc | rfl
  · exact h c hc
  · exact ⟨b, ha⟩

theorem Bytish.append {x y : List V} (h : Bytish x) (h' : Bytish y) : Bytish (x ++ y) := fun a ha =>
  (List.mem_append.mp ha).elim (h a) (h' a)

theorem Bytish.take {x : List V} (h : Bytish x) (n : Nat) : Bytish (x.take n) := fun a ha => h a (List.mem_of_mem_take ha)

theorem Bytish.drop {x : List V} (h : Bytish x) (n : Nat) : Bytish (x.drop n) := fun a ha => h a (List.mem_of_mem_drop ha)

theorem bytish_zeros (n : Nat) : Bytish (intArray .u8 n) := fun a ha =>
  ⟨0, .inl (by rw [List.eq_of_mem_replicate ha]), by rw [List.eq_of_mem_replicate ha]; rfl⟩

/-- `u8(x)` is a byte, whatever `x` is. -/
theorem u8_byte (x : V) : ∃ b, IsByte (Tweet.u8 x) b := by
  obtain ⟨y, hy, e⟩ : ∃ y : Int, (0 ≤ y ∧ y < 256) ∧ Tweet.u8 x = ⟨.u8, y⟩ := by
    unfold Tweet.u8 Tweet.cast
    simp only [Tweet.Ty.bits, Tweet.Ty.signed, Bool.false_eq_true, if_false]
    split
    · exact ⟨_, ⟨Int.emod_nonneg _ (by decide), Int.emod_lt_of_pos _ (by decide)⟩, rfl⟩
    · exact ⟨_, ⟨Int.emod_nonneg _ (by decide), Int.emod_lt_of_pos _ (by decide)⟩, rfl⟩
  rw [e]
  refine ⟨UInt8.ofNat y.toNat, .inl rfl, ?_⟩
  rw [UInt8.toNat_ofNat', Nat.mod_eq_of_lt (by omega), Int.toNat_of_nonneg hy.1]

theorem st32_bytish {x : List V} (h : Bytish x) (u : V) : Bytish (Tweet.st32 x u) :=
  forRange_inv (fun s : List V × V => Bytish s.1) (s := (x, u)) h fun i s _ hs => by
    obtain ⟨b, hb⟩ := u8_byte s.2
    exact hs.set hb i

theorem core_bytish (w : Nat) {out in_ k c : List V} (h : Bytish out) : Bytish (Tweet.core w out in_ k c false) := by
  unfold Tweet.core
  rw [if_neg (by simp)]
  exact forRange_inv Bytish h fun i s _ hs => (hs.take _).append (st32_bytish (hs.drop _) _)

theorem xorBlock_bytish {c m x : List V} {off n : Nat} {e : Bool} (hc : Bytish c) (hm : Bytish m) (hx : Bytish x) :
    Bytish (Tweet.xorBlock c off m x e n) :=
  forRange_inv Bytish hc fun i s _ hs => by
    obtain ⟨b, hb⟩ := hx.at' i
    obtain ⟨a, ha⟩ := hm.at' i
    by_cases he : e
    · rw [if_pos he]
      exact hs.set (Tweet.xor_byte (show IsByte 0 0 from ⟨.inr rfl, rfl⟩) hb) _
    · rw [if_neg he]
      exact hs.set (Tweet.xor_byte ha hb) _

theorem streamLoop_bytish (w : Nat) {m k : List V} (hm : Bytish m) (b : Nat) : ∀ (c : List V) (off : Nat) (z x : List V), Bytish c → Bytish x →
    Bytish (Tweet.streamLoop w c m b off z k x) := by
  induction b using Nat.strong_induction_on with
  | _ b ih =>
    intro c off z x hc hx
    have hx' := core_bytish w (in_ := z) (k := k) (c := sigma) hx
    rw [Tweet.streamLoop]
    split
    · exact ih _ (by omega) _ _ _ _ (xorBlock_bytish hc (hm.drop _) hx') hx'
    · split
      · exact xorBlock_bytish hc (hm.drop _) hx'
      · exact hc

theorem streamXsalsaXor_bytish (w : Nat) {c m n k : List V} {d : Nat} (hc : Bytish c) (hm : Bytish m) :
    Bytish (Tweet.streamXsalsaXor w c m d n k) := by
  unfold Tweet.streamXsalsaXor Tweet.streamSalsaXor
  simp only
  split
  · exact hc
  · exact streamLoop_bytish w hm _ _ _ _ _ hc (bytish_zeros 64)

/-! ### Arguments that are cut off -/

/-- `r` is the same as `r'`, or IndexError. -/
def Le {α : Type} (r r' : Except Err α) : Prop := r = .error .indexError ∨ r = r'

theorem Le.refl {α : Type} (r : Except Err α) : Le r r := .inr rfl

theorem Le.bind {α β : Type} {r r' : Except Err α} {f f' : α → Except Err β} (h : Le r r') (hf : ∀ a, Le (f a) (f' a)) :
    Le (r >>= f) (r' >>= f') := by
  rcases h with rfl | rfl
  · exact .inl rfl
  · cases r with
    | error e => exact .inr rfl
    | ok a => exact hf a

theorem Le.loop {α : Type} {body body' : Nat → α → Except Err α} {s : α} {n : Nat} (h : ∀ i s, Le (body i s) (body' i s)) :
    Le (loop n s body) (loop n s body') := by
  induction n with
  | zero => exact .refl _
  | succ n ih =>
    rw [loop_succ, loop_succ]
    exact ih.bind fun a => h n a

theorem Le.get {x x' : List V} (h : x <+: x') (i : Nat) : Le (get x i) (Chk.get x' i) := by
  obtain ⟨t, rfl⟩ := h
  by_cases hi : i < x.length
  · refine .inr ?_
    unfold Chk.get
    rw [List.getElem?_append_left hi]
  · refine .inl ?_
    unfold Chk.get
    rw [List.getElem?_eq_none (by omega)]

/-- Unless it is IndexError, the result is the same. -/
theorem Le.eq {α : Type} {r r' : Except Err α} (h : Le r r') (hr : r ≠ .error .indexError) : r' = r := (h.resolve_left hr).symm

/-- Steps through a program that reads a shorter and a longer array. -/
macro "le_steps" "[" ls:term,* "]" : tactic =>
  `(tactic| repeat' first
    | with_reducible exact Le.refl _
    $[| with_reducible exact $ls]*
    | with_reducible refine Le.bind ?_ fun _ => ?_
    | with_reducible refine Le.loop fun _ _ => ?_)

theorem ld32_le (w : Nat) {x x' : List V} (h : x <+: x') : Le (ld32 w x) (ld32 w x') := by
  unfold ld32
  le_steps [Le.get h _]

theorem coreInput_le (w : Nat) {n n' k k' : List V} (c : List V) (hn : n <+: n') (hk : k <+: k') :
    Le (coreInput w n k c) (coreInput w n' k' c) := by
  unfold coreInput
  le_steps [ld32_le w (hn.drop _), ld32_le w (hk.drop _)]

theorem core_le (w : Nat) {n n' k k' : List V} (out c : List V) (h : Bool) (hn : n <+: n') (hk : k <+: k') :
    Le (core w out n k c h) (core w out n' k' c h) := by
  unfold core
  cases h
  · simp only [Bool.false_eq_true, if_false]
    le_steps [coreInput_le w c hn hk]
  · simp only [if_true]
    le_steps [coreInput_le w c hn hk, ld32_le w (hn.drop _)]

theorem streamSalsaXor_le (w : Nat) {n n' : List V} (c m : List V) (b : Nat) (k : List V) (hn : n <+: n') :
    Le (streamSalsaXor w c m b n k) (streamSalsaXor w c m b n' k) := by
  unfold streamSalsaXor
  split
  · exact .refl _
  · le_steps [Le.get hn _]

theorem streamXsalsaXor_le (w : Nat) {n n' k k' : List V} (c m : List V) (d : Nat) (hn : n <+: n') (hk : k <+: k') :
    Le (streamXsalsaXor w c m d n k) (streamXsalsaXor w c m d n' k') := by
  unfold streamXsalsaXor
  le_steps [core_le w _ _ _ hn hk, streamSalsaXor_le w _ _ _ _ (hn.drop _)]

theorem secretbox_le (w : Nat) {n n' k k' : List V} (c m : List V) (d : Nat) (hn : n <+: n') (hk : k <+: k') :
    Le (secretbox w c m d n k) (secretbox w c m d n' k') := by
  unfold secretbox
  split
  · exact .refl _
  · le_steps [streamXsalsaXor_le w _ _ _ hn hk]

theorem secretboxOpen_le (w : Nat) {n n' k k' : List V} (m c : List V) (d : Nat) (hn : n <+: n') (hk : k <+: k') :
    Le (secretboxOpen w m c d n k) (secretboxOpen w m c d n' k') := by
  unfold secretboxOpen
  split
  · exact .refl _
  · refine Le.bind (streamXsalsaXor_le w _ [] _ hn hk) fun _ => Le.bind (Le.refl _) fun a => ?_
    by_cases h : a.v ≠ 0
    · rw [if_pos h, if_pos h]
      exact .refl _
    · rw [if_neg h, if_neg h]
      le_steps [streamXsalsaXor_le w _ _ _ hn hk]

theorem clampScalar_le {n n' : List V} (h : n <+: n') : Le (clampScalar n) (clampScalar n') := by
  unfold clampScalar
  le_steps [Le.get h _]

theorem unpack25519_le {n n' : List V} (o : List V) (h : n <+: n') : Le (unpack25519 o n) (unpack25519 o n') := by
  unfold unpack25519
  le_steps [Le.get h _]

theorem scalarmultCurve_le {n n' p p' : List V} (q : List V) (hn : n <+: n') (hp : p <+: p') :
    Le (scalarmultCurve q n p) (scalarmultCurve q n' p') := by
  unfold scalarmultCurve
  le_steps [clampScalar_le hn, unpack25519_le _ hp]

theorem boxBeforenm_le (w : Nat) {y y' x x' : List V} (k : List V) (hy : y <+: y') (hx : x <+: x') :
    Le (boxBeforenm w k y x) (boxBeforenm w k y' x') := by
  unfold boxBeforenm
  le_steps [scalarmultCurve_le _ hx hy]

theorem dl64_le {x x' : List V} (h : x <+: x') : Le (dl64 x) (dl64 x') := by
  unfold dl64
  le_steps [Le.get h _]

theorem shaBlock_le {m m' : List V} (off : Nat) (z : List V) (s : Tweet.ShaState) (h : m <+: m') :
    Le (shaBlock m off z s) (shaBlock m' off z s) := by
  unfold shaBlock
  le_steps [dl64_le (h.drop _)]

theorem shaLoop_le {m m' : List V} (h : m <+: m') (n : Nat) : ∀ (off : Nat) (z : List V) (s : Tweet.ShaState),
    Le (shaLoop m off z s n) (shaLoop m' off z s n) := by
  induction n using Nat.strong_induction_on with
  | _ n ih =>
    intro off z s
    rw [shaLoop]
    conv => rhs; rw [shaLoop]
    split
    · exact (shaBlock_le _ _ _ h).bind fun a => ih _ (by omega) _ _ _
    · exact .refl _

theorem hashblocks_le {m m' : List V} (x : List V) (n : Nat) (h : m <+: m') : Le (hashblocks x m n) (hashblocks x m' n) := by
  unfold hashblocks
  le_steps [shaLoop_le h _ _ _ _]

theorem shaLast_le {m m' : List V} (len : Nat) (h : m <+: m') : Le (shaLast m len) (shaLast m' len) := by
  unfold shaLast
  le_steps [Le.get h _]

theorem hashSha512_le {m m' : List V} (out : List V) (n : Nat) (h : m <+: m') : Le (hashSha512 out m n) (hashSha512 out m' n) := by
  unfold hashSha512
  le_steps [hashblocks_le _ _ h, shaLast_le _ h]

theorem sign_le {sk sk' : List V} (sm m : List V) (n : Nat) (h : sk <+: sk') : Le (sign sm m n sk) (sign sm m n sk') := by
  unfold sign
  le_steps [hashSha512_le _ _ h, Le.get h _]

theorem unpackneg_le (w : Nat) {p p' : List V} (r : Tweet.Pt) (h : p <+: p') : Le (unpackneg w r p) (unpackneg w r p') := by
  unfold unpackneg
  le_steps [unpack25519_le _ h]
  split
  · exact .refl _
  · le_steps [Le.get h _]

theorem signOpen_le (w : Nat) {pk pk' : List V} (m sm : List V) (n : Nat) (h : pk <+: pk') :
    Le (signOpen w m sm n pk) (signOpen w m sm n pk') := by
  unfold signOpen
  split
  · exact .refl _
  · refine (unpackneg_le w _ h).bind fun a => ?_
    obtain ⟨res, q⟩ := a
    simp only
    split
    · exact .refl _
    · le_steps [Le.get h _]

/-! ### What a result says about the lengths -/

theorem bind_inv {α β : Type} {r : Except Err α} {f : α → Except Err β} {b : β} (h : (r >>= f) = .ok b) : ∃ a, r = .ok a ∧ f a = .ok b := by
  cases r with
  | error e => cases h
  | ok a => exact ⟨a, rfl, h⟩

theorem loop_inv {α : Type} {body : Nat → α → Except Err α} {s r : α} {n : Nat} (h : loop n s body = .ok r) (i : Nat) (hi : i < n) :
    ∃ s r, body i s = .ok r := by
  induction n generalizing r with
  | zero => omega
  | succ n ih =>
    rw [loop_succ] at h
    obtain ⟨a, ha, hb⟩ := bind_inv h
    by_cases hn : i = n
    · exact ⟨a, r, hn ▸ hb⟩
    · exact ih ha (by omega)

theorem get_inv {x : List V} {i : Nat} {a : V} (h : get x i = .ok a) : i < x.length := by
  unfold get at h
  by_contra hi
  rw [List.getElem?_eq_none (by omega)] at h
  cases h

theorem ld32_inv {w : Nat} {x : List V} {a : V} (h : ld32 w x = .ok a) : 4 ≤ x.length := by
  obtain ⟨_, h, _⟩ := bind_inv h
  exact get_inv h

theorem coreInput_inv {w : Nat} {in_ k c r : List V} (h : coreInput w in_ k c = .ok r) : 32 ≤ k.length := by
  obtain ⟨_, _, h⟩ := loop_inv h 3 (by omega)
  obtain ⟨_, _, h⟩ := bind_inv h
  obtain ⟨_, _, h⟩ := bind_inv h
  obtain ⟨_, _, h⟩ := bind_inv h
  obtain ⟨_, _, h⟩ := bind_inv h
  obtain ⟨_, _, h⟩ := bind_inv h
  obtain ⟨_, _, h⟩ := bind_inv h
  obtain ⟨_, h, _⟩ := bind_inv h
  have := ld32_inv h
  rw [List.length_drop] at this
  omega

theorem core_inv {w : Nat} {out in_ k c r : List V} {b : Bool} (h : core w out in_ k c b = .ok r) : 32 ≤ k.length := by
  obtain ⟨_, h, _⟩ := bind_inv h
  exact coreInput_inv h

theorem streamXsalsaXor_inv {w : Nat} {c m n k r : List V} {d : Nat} (hd : 0 < d) (h : streamXsalsaXor w c m d n k = .ok r) :
    24 ≤ n.length ∧ 32 ≤ k.length := by
  obtain ⟨s, h1, h2⟩ := bind_inv h
  refine ⟨?_, core_inv h1⟩
  unfold streamSalsaXor at h2
  rw [if_neg (by omega)] at h2
  obtain ⟨_, h, _⟩ := bind_inv h2
  obtain ⟨_, _, h⟩ := loop_inv h 7 (by omega)
  obtain ⟨_, h, _⟩ := bind_inv h
  have := get_inv h
  rw [List.length_drop] at this
  omega

theorem scalarmultCurve_inv {q n p r : List V} (h : scalarmultCurve q n p = .ok r) : 32 ≤ n.length ∧ 32 ≤ p.length := by
  obtain ⟨z, h1, h2⟩ := bind_inv h
  obtain ⟨x, h2, _⟩ := bind_inv h2
  obtain ⟨_, _, h1⟩ := bind_inv h1
  obtain ⟨_, h1, _⟩ := bind_inv h1
  obtain ⟨_, h2, _⟩ := bind_inv h2
  obtain ⟨_, _, h2⟩ := loop_inv h2 15 (by omega)
  obtain ⟨_, _, h2⟩ := bind_inv h2
  obtain ⟨_, h2, _⟩ := bind_inv h2
  exact ⟨get_inv h1, get_inv h2⟩

theorem sign_inv {sm m sk r : List V} {n : Nat} (h : sign sm m n sk = .ok r) : 64 ≤ sk.length := by
  unfold sign at h
  obtain ⟨_, _, h⟩ := bind_inv h
  obtain ⟨_, _, h⟩ := bind_inv h
  obtain ⟨_, _, h⟩ := bind_inv h
  obtain ⟨_, _, h⟩ := bind_inv h
  obtain ⟨_, _, h⟩ := bind_inv h
  obtain ⟨_, _, h⟩ := bind_inv h
  obtain ⟨_, _, h⟩ := bind_inv h
  obtain ⟨_, _, h⟩ := bind_inv h
  obtain ⟨_, h, _⟩ := bind_inv h
  obtain ⟨_, _, h⟩ := loop_inv h 31 (by omega)
  obtain ⟨_, h, _⟩ := bind_inv h
  exact get_inv h

theorem signOpen_inv {w : Nat} {m sm pk : List V} {r : Int × List V} {n : Nat} (hn : 64 ≤ n) (h : signOpen w m sm n pk = .ok r) : 32 ≤ pk.length := by
  unfold signOpen at h
  rw [if_neg (by omega)] at h
  obtain ⟨_, h, _⟩ := bind_inv h
  unfold unpackneg at h
  obtain ⟨_, _, h⟩ := bind_inv h
  obtain ⟨_, h, _⟩ := bind_inv h
  obtain ⟨_, h, _⟩ := bind_inv h
  obtain ⟨_, _, h⟩ := loop_inv h 15 (by omega)
  obtain ⟨_, _, h⟩ := bind_inv h
  obtain ⟨_, h, _⟩ := bind_inv h
  exact get_inv h

end Salt.Chk
