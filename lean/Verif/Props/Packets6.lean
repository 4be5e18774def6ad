import Verif.Model.Attr
import Verif.Props.Packets5

/-!
# Attributes of packet objects, optional parts, and the protocols of an A2 (C66, C95, C96)
-/

set_option linter.unusedSimpArgs false

namespace Salt.Props

open Salt

/-! ### C66: `Count` of A2 and of a multi app packet -/

/-- C66, `data.Count` of an A2 (3 bytes): a signed byte. -/
theorem C66_a2 (p : Packet) (h : p.data.length = 3) (v : Nat) :
    (A2.setCount p v).opt = p.opt ∧ IntAssigned p.data (A2.setCount p v).data 2 1 v ∧
    (v < 128 → A2.count (A2.setCount p v) = v) ∧
    (128 ≤ v → v < 256 → A2.count (A2.setCount p v) = (v : Int) - 256) := by
  have hg : getLE (A2.setCount p v).data 2 1 = v % 256 := getLE_setLE_same p.data 2 1 v (by omega)
  refine ⟨rfl, intAssigned _ _ _ _ (by omega), fun hv => ?_, fun h1 h2 => ?_⟩
  · simp only [A2.count, hg]
    rw [Nat.mod_eq_of_lt (by omega), if_pos hv]
  · simp only [A2.count, hg]
    rw [Nat.mod_eq_of_lt (by omega), if_neg (by omega)]

/-- C66, a multi app packet (8 bytes). -/
theorem C66_multi (p : MultiApp) (h : p.data.length = 8) (v : Nat) :
    ((p.setTime v).opt = p.opt ∧ IntAssigned p.data (p.setTime v).data 2 4 v ∧
      (p.setTime v).time = v % 256 ^ 4) ∧
    (p.setCount v).opt = p.opt ∧ IntAssigned p.data (p.setCount v).data 6 2 v ∧
      (p.setCount v).count = v % 256 ^ 2 :=
  ⟨⟨rfl, intAssigned _ _ _ _ (by omega), getLE_setLE_same _ _ _ _ (by omega)⟩, rfl,
    intAssigned _ _ _ _ (by omega), getLE_setLE_same _ _ _ _ (by omega)⟩

/-- A count of 200 is stored and reads back as -56. -/
example : (A2.setCount A2.fresh 200).data = [9, 128, 200] ∧ A2.count (A2.setCount A2.fresh 200) = -56 := by
  decide

/-! ### C95: reading attributes -/

/-- The packet object of class `ty` whose structure `data` holds `b`. -/
def attrObj (ty : PacketType) (b : Bytes) : AttrObj := { ty := ty, packet := { data := b, opt := none }, added := [] }

theorem getArr_mid (a b c : Bytes) (off n : Nat) (h1 : off = a.length) (h2 : n = b.length) :
    getArr (a ++ b ++ c) off n = b := by
  subst h1 h2
  exact slice_append_mid _ _ _ rfl rfl

theorem getLE_mid (a b c : Bytes) (off n : Nat) (h1 : off = a.length) (h2 : n = b.length) :
    getLE (a ++ b ++ c) off n = leNat b := by
  show leNat (getArr _ _ _) = _
  rw [getArr_mid a b c off n h1 h2]

theorem leNat_le32 (t : Nat) (h : t < 2 ^ 32) : leNat (Spec.le32 t) = t := by
  simp only [Spec.le32, leNat, UInt8.toNat_ofNat']
  omega

theorem leNat_le16 (t : Nat) (h : t < 2 ^ 16) : leNat (Spec.le16 t) = t := by
  simp only [Spec.le16, leNat, UInt8.toNat_ofNat']
  omega

/-- What the fields of packets are called and what they hold, in terms of the wire formats: the class,
the fixed part of the packet, the name of the field and its value. -/
inductive Holds : PacketType → Bytes → String → AttrVal → Prop
  | m1_ind (t : Nat) (k : Bytes) (s : Option Bytes) (h : k.length = 32) :
    Holds .m1 ((Spec.m1 t k s).take 42) "ProtocolIndicator" (.raw [0x53, 0x43, 0x76, 0x32])
  | m1_head (t : Nat) (k : Bytes) (s : Option Bytes) (h : k.length = 32) :
    Holds .m1 ((Spec.m1 t k s).take 42) "Header" (.raw [1, if s.isSome then 1 else 0])
  | m1_time (t : Nat) (k : Bytes) (s : Option Bytes) (h : k.length = 32) (ht : t < 2 ^ 32) :
    Holds .m1 ((Spec.m1 t k s).take 42) "Time" (.int t)
  | m1_key (t : Nat) (k : Bytes) (s : Option Bytes) (h : k.length = 32) :
    Holds .m1 ((Spec.m1 t k s).take 42) "ClientEncKey" (.raw k)
  | m2_head (n l : Bool) (t : Nat) (k : Bytes) (h : k.length = 32) :
    Holds .m2 (Spec.m2 n l t k) "Header" (.raw [2, (if n then 1 else 0) + (if l then 128 else 0)])
  | m2_time (n l : Bool) (t : Nat) (k : Bytes) (h : k.length = 32) (ht : t < 2 ^ 32) :
    Holds .m2 (Spec.m2 n l t k) "Time" (.int t)
  | m2_key (n l : Bool) (t : Nat) (k : Bytes) (h : k.length = 32) :
    Holds .m2 (Spec.m2 n l t k) "ServerEncKey" (.raw k)
  | m3_head (t : Nat) (k s : Bytes) (h : k.length = 32) (hs : s.length = 64) :
    Holds .m3 (Spec.m3 t k s) "Header" (.raw [3, 0])
  | m3_time (t : Nat) (k s : Bytes) (h : k.length = 32) (hs : s.length = 64) (ht : t < 2 ^ 32) :
    Holds .m3 (Spec.m3 t k s) "Time" (.int t)
  | m3_key (t : Nat) (k s : Bytes) (h : k.length = 32) (hs : s.length = 64) :
    Holds .m3 (Spec.m3 t k s) "ServerSigKey" (.raw k)
  | m3_sig (t : Nat) (k s : Bytes) (h : k.length = 32) (hs : s.length = 64) :
    Holds .m3 (Spec.m3 t k s) "Signature1" (.raw s)
  | m4_head (t : Nat) (k s : Bytes) (h : k.length = 32) (hs : s.length = 64) :
    Holds .m4 (Spec.m4 t k s) "Header" (.raw [4, 0])
  | m4_time (t : Nat) (k s : Bytes) (h : k.length = 32) (hs : s.length = 64) (ht : t < 2 ^ 32) :
    Holds .m4 (Spec.m4 t k s) "Time" (.int t)
  | m4_key (t : Nat) (k s : Bytes) (h : k.length = 32) (hs : s.length = 64) :
    Holds .m4 (Spec.m4 t k s) "ClientSigKey" (.raw k)
  | m4_sig (t : Nat) (k s : Bytes) (h : k.length = 32) (hs : s.length = 64) :
    Holds .m4 (Spec.m4 t k s) "Signature2" (.raw s)
  | enc_head (l : Bool) (b : Bytes) :
    Holds .encrypted ((Spec.encrypted l b).take 2) "Header" (.raw [6, if l then 128 else 0])
  | app_head (t : Nat) (b : Bytes) : Holds .app ((Spec.app t b).take 6) "Header" (.raw [5, 0])
  | app_time (t : Nat) (b : Bytes) (ht : t < 2 ^ 32) :
    Holds .app ((Spec.app t b).take 6) "Time" (.int t)
  | multi_head (t : Nat) (m : List Bytes) :
    Holds .multiApp ((Spec.multiApp t m).take 8) "Header" (.raw [11, 0])
  | multi_time (t : Nat) (m : List Bytes) (ht : t < 2 ^ 32) :
    Holds .multiApp ((Spec.multiApp t m).take 8) "Time" (.int t)
  | multi_count (t : Nat) (m : List Bytes) (hm : m.length < 2 ^ 16) :
    Holds .multiApp ((Spec.multiApp t m).take 8) "Count" (.int m.length)
  | a1_head (ty : UInt8) (a : Bytes) : Holds .a1 ((Spec.a1 ty a).take 5) "Header" (.raw [8, 0])
  | a1_type (ty : UInt8) (a : Bytes) :
    Holds .a1 ((Spec.a1 ty a).take 5) "AddressType" (.int ty.toNat)
  | a1_size (ty : UInt8) (a : Bytes) (ha : a.length < 2 ^ 16) :
    Holds .a1 ((Spec.a1 ty a).take 5) "AddressSize" (.int a.length)
  | a2_head (n l : Bool) (q : List (Bytes × Bytes)) :
    Holds .a2 ((Spec.a2 n l q).take 3) "Header" (.raw [9, (if n then 1 else 0) + (if l then 128 else 0)])
  | a2_count (n l : Bool) (q : List (Bytes × Bytes)) (hq : q.length ≤ 127) :
    Holds .a2 ((Spec.a2 n l q).take 3) "Count" (.int q.length)

/-- The value of a field of the structure, as ctypes gives it. -/
theorem holds_field {ty : PacketType} {b : Bytes} {name : String} {v : AttrVal} (h : Holds ty b name v) :
    ∃ f, (attrFields ty).lookup name = some f ∧ f.get b = v := by
  cases h with
  | m1_ind t k s h =>
    refine ⟨_, rfl, ?_⟩
    cases s <;> rfl
  | m1_head t k s h =>
    refine ⟨_, rfl, ?_⟩
    cases s <;> rfl
  | m1_time t k s h ht =>
    refine ⟨.uint 6 4, rfl, ?_⟩
    cases s <;> exact congrArg (fun n : Nat => AttrVal.int n) (leNat_le32 t ht)
  | m1_key t k s h =>
    refine ⟨.arr 10 32, rfl, ?_⟩
    have e : (Spec.m1 t k s).take 42 = [0x53, 0x43, 0x76, 0x32, 1, if s.isSome then 1 else 0] ++ Spec.le32 t ++ k := by
      cases s <;> simp [Spec.m1, Spec.le32, List.take_append, List.take_of_length_le, h]
    rw [e]
    have := getArr_mid ([0x53, 0x43, 0x76, 0x32, 1, if s.isSome then 1 else 0] ++ Spec.le32 t) k [] 10 32
      (by simp [Spec.le32]) h.symm
    rw [List.append_nil] at this
    exact congrArg AttrVal.raw this
  | m2_head n l t k h => exact ⟨_, rfl, rfl⟩
  | m2_time n l t k h ht =>
    refine ⟨.uint 2 4, rfl, ?_⟩
    exact congrArg (fun n : Nat => AttrVal.int n) (leNat_le32 t ht)
  | m2_key n l t k h =>
    refine ⟨.arr 6 32, rfl, ?_⟩
    have := getArr_mid ([2, (if n then 1 else 0) + (if l then 128 else 0)] ++ Spec.le32 t) k [] 6 32
      (by simp [Spec.le32]) h.symm
    rw [List.append_nil] at this
    exact congrArg AttrVal.raw this
  | m3_head t k s h hs => exact ⟨_, rfl, rfl⟩
  | m3_time t k s h hs ht =>
    refine ⟨.uint 2 4, rfl, ?_⟩
    exact congrArg (fun n : Nat => AttrVal.int n) (leNat_le32 t ht)
  | m3_key t k s h hs =>
    refine ⟨.arr 6 32, rfl, ?_⟩
    exact congrArg AttrVal.raw (getArr_mid ([3, 0] ++ Spec.le32 t) k s 6 32 (by simp [Spec.le32]) h.symm)
  | m3_sig t k s h hs =>
    refine ⟨.arr 38 64, rfl, congrArg AttrVal.raw ?_⟩
    have := getArr_mid ([3, 0] ++ Spec.le32 t ++ k) s [] 38 64 (by simp [Spec.le32, h]) hs.symm
    simpa [Spec.m3] using this
  | m4_head t k s h hs => exact ⟨_, rfl, rfl⟩
  | m4_time t k s h hs ht =>
    refine ⟨.uint 2 4, rfl, ?_⟩
    exact congrArg (fun n : Nat => AttrVal.int n) (leNat_le32 t ht)
  | m4_key t k s h hs =>
    refine ⟨.arr 6 32, rfl, ?_⟩
    exact congrArg AttrVal.raw (getArr_mid ([4, 0] ++ Spec.le32 t) k s 6 32 (by simp [Spec.le32]) h.symm)
  | m4_sig t k s h hs =>
    refine ⟨.arr 38 64, rfl, congrArg AttrVal.raw ?_⟩
    have := getArr_mid ([4, 0] ++ Spec.le32 t ++ k) s [] 38 64 (by simp [Spec.le32, h]) hs.symm
    simpa [Spec.m4] using this
  | enc_head l b => exact ⟨_, rfl, rfl⟩
  | app_head t b => exact ⟨_, rfl, rfl⟩
  | app_time t b ht =>
    refine ⟨.uint 2 4, rfl, ?_⟩
    exact congrArg (fun n : Nat => AttrVal.int n) (leNat_le32 t ht)
  | multi_head t m => exact ⟨_, rfl, rfl⟩
  | multi_time t m ht =>
    refine ⟨.uint 2 4, rfl, ?_⟩
    exact congrArg (fun n : Nat => AttrVal.int n) (leNat_le32 t ht)
  | multi_count t m hm =>
    refine ⟨.uint 6 2, rfl, ?_⟩
    exact congrArg (fun n : Nat => AttrVal.int n) (leNat_le16 m.length hm)
  | a1_head ty a => exact ⟨_, rfl, rfl⟩
  | a1_type ty a =>
    exact ⟨.uint 2 1, rfl, by simp [FieldTy.get, Spec.a1, Spec.le16, getLE, slice, leNat]⟩
  | a1_size ty a ha =>
    refine ⟨.uint 3 2, rfl, ?_⟩
    exact congrArg (fun n : Nat => AttrVal.int n) (leNat_le16 a.length ha)
  | a2_head n l q => exact ⟨_, rfl, rfl⟩
  | a2_count n l q hq =>
    refine ⟨.int8 2, rfl, ?_⟩
    have hg : getLE ((Spec.a2 n l q).take 3) 2 1 = q.length := by
      simp [Spec.a2, getLE, slice, leNat]; omega
    simp only [FieldTy.get, hg]
    rw [if_pos (by omega)]

/-- C95, what is expected of reading attributes: `packet.name` is the value of the field. -/
def C95_claim : Prop :=
  ∀ ty b name v, Holds ty b name v → (attrObj ty b).get name = .ok v

/-- C95, the part that holds: byte arrays and headers are read as they are.  Missing: integers, see
`C95_integers`. -/
theorem C95_arrays_partial {ty : PacketType} {b : Bytes} {name : String} {v : Bytes}
    (h : Holds ty b name (.raw v)) : (attrObj ty b).get name = .ok (.raw v) := by
  obtain ⟨f, h1, h2⟩ := holds_field h
  simp [AttrObj.get, attrObj, h1, h2, AttrVal.toBytes, Except.map]

/-- C95, what happens with integers: an integer field of value `n` is read as `n` zero bytes. -/
theorem C95_integers {ty : PacketType} {b : Bytes} {name : String} {n : Nat}
    (h : Holds ty b name (.int n)) : (attrObj ty b).get name = .ok (.raw (List.replicate n 0)) := by
  obtain ⟨f, h1, h2⟩ := holds_field h
  simp only [AttrObj.get, attrObj, h1, h2, AttrVal.toBytes]
  rw [if_neg (by omega)]
  simp [zeros, Except.map]

/-- C95, violated: no integer field is ever read as its value. -/
theorem C95_never {ty : PacketType} {b : Bytes} {name : String} {n : Nat}
    (h : Holds ty b name (.int n)) : (attrObj ty b).get name ≠ .ok (.int n) := by
  rw [C95_integers h]; simp

/-- C95, violated: the address type of an A1 addressed to a public key does not read as 1, but as one
zero byte.  (This is the comparison in `SaltServerSession.do_a2`, see C42.) -/
theorem C95_violated : ¬ C95_claim := by
  intro h
  exact C95_never (Holds.a1_type 1 (List.replicate 32 7)) (h _ _ _ _ (Holds.a1_type 1 (List.replicate 32 7)))

/-- C95: the attribute read in `do_a2` is what the model of the server uses. -/
theorem C95_addressType (p : Packet) (l : List (String × Bytes)) :
    (AttrObj.mk .a1 p l).get "AddressType" = .ok (.raw (A1.addressTypeAttr p)) := by
  have : (attrFields .a1).lookup "AddressType" = some (.uint 2 1) := rfl
  simp only [AttrObj.get, this, FieldTy.get, AttrVal.toBytes, A1.addressTypeAttr, A1.addressType]
  rw [if_neg (by omega)]
  simp [Except.map]

/-- C95: the other attributes read or written by the session code are those of the packet model. -/
theorem C95_agrees (p : Packet) (l : List (String × Bytes)) :
    (AttrObj.mk .m1 p l).get "ClientEncKey" = .ok (.raw (M1.clientEncKey p)) ∧
    (AttrObj.mk .m2 p l).get "ServerEncKey" = .ok (.raw (M2.serverEncKey p)) ∧
    (AttrObj.mk .m3 p l).get "ServerSigKey" = .ok (.raw (M34.sigKey p)) ∧
    (AttrObj.mk .m3 p l).get "Signature1" = .ok (.raw (M34.signature p)) ∧
    (AttrObj.mk .m4 p l).get "ClientSigKey" = .ok (.raw (M34.sigKey p)) ∧
    (AttrObj.mk .m4 p l).get "Signature2" = .ok (.raw (M34.signature p)) :=
  ⟨rfl, rfl, rfl, rfl, rfl, rfl⟩

example : Holds .m1 ((Spec.m1 3 (List.replicate 32 1) (some (List.replicate 32 2))).take 42) "Time" (.int 3) ∧
    (attrObj .m1 ((Spec.m1 3 (List.replicate 32 1) (some (List.replicate 32 2))).take 42)).get "Time" =
      .ok (.raw [0, 0, 0]) :=
  ⟨.m1_time 3 _ _ rfl (by decide), C95_integers (n := 3) (.m1_time 3 _ _ rfl (by decide))⟩

/-- A name that is neither a field nor was ever assigned. -/
theorem C95_unknown (ty : PacketType) (b : Bytes) (name : String)
    (h : (attrFields ty).lookup name = none) : (attrObj ty b).get name = .error .attributeError := by
  simp [AttrObj.get, attrObj, h]

/-! ### C95: assigning attributes -/

/-- The sizes of the fixed parts. -/
def fixedSize : PacketType → Nat
  | .m1 => 42 | .m2 => 38 | .m3 => 102 | .m4 => 102 | .app => 6 | .encrypted => 2 | .a1 => 5 | .a2 => 3
  | .multiApp => 8

/-- The bytes a field covers: offset and width. -/
def fieldRange : FieldTy → Nat × Nat
  | .uint off w => (off, w)
  | .int8 off => (off, 1)
  | .arr off n => (off, n)
  | .struct off n => (off, n)

/-- The fields of a structure lie one after the other without gaps or overlaps. -/
theorem fields_tile (ty : PacketType) :
    (attrFields ty).Pairwise (fun e e' => e.1 ≠ e'.1 ∧
      (fieldRange e.2).1 + (fieldRange e.2).2 ≤ (fieldRange e'.2).1) ∧
    ((attrFields ty).map fun e => (fieldRange e.2).2).sum = fixedSize ty ∧
    ∀ e ∈ attrFields ty, (fieldRange e.2).1 + (fieldRange e.2).2 ≤ fixedSize ty := by
  cases ty <;> decide

theorem lookup_mem {l : List (String × FieldTy)} {n : String} {f : FieldTy} (h : l.lookup n = some f) :
    (n, f) ∈ l := by
  induction l with
  | nil => simp at h
  | cons e l ih =>
    obtain ⟨n', f'⟩ := e
    rw [List.lookup_cons] at h
    split at h
    · rename_i hn
      cases eq_of_beq hn
      cases h
      simp
    · exact List.mem_cons_of_mem _ (ih h)

/-- Two different fields do not overlap. -/
theorem fields_apart {ty : PacketType} {n n' : String} {f f' : FieldTy}
    (h : (attrFields ty).lookup n = some f) (h' : (attrFields ty).lookup n' = some f') (hn : n' ≠ n) :
    (fieldRange f).1 + (fieldRange f).2 ≤ (fieldRange f').1 ∨
    (fieldRange f').1 + (fieldRange f').2 ≤ (fieldRange f).1 := by
  have hp := (fields_tile ty).1
  have m := lookup_mem h
  have m' := lookup_mem h'
  generalize attrFields ty = l at *
  clear h h'
  induction l with
  | nil => simp at m
  | cons e l ih =>
    rw [List.pairwise_cons] at hp
    rcases List.mem_cons.1 m with rfl | m1 <;> rcases List.mem_cons.1 m' with e' | m2
    · cases e'; exact absurd rfl hn
    · exact .inl (hp.1 _ m2).2
    · subst e'; exact .inr (hp.1 _ m1).2
    · exact ih hp.2 m1 m2

theorem slice_sameOutside {a b : Bytes} {off w o n : Nat} (h : SameOutside a b off w)
    (hd : off + w ≤ o ∨ o + n ≤ off) : slice a o (o + n) = slice b o (o + n) := by
  apply List.ext_getElem?
  intro i
  simp only [slice, List.getElem?_drop, List.getElem?_take]
  by_cases hi : o + i < o + n
  · rw [if_pos hi, if_pos hi]
    exact h.2 _ (by omega)
  · rw [if_neg hi, if_neg hi]

/-- The value of a field outside of the bytes that changed. -/
theorem get_sameOutside {a b : Bytes} {off w : Nat} {f : FieldTy} (h : SameOutside a b off w)
    (hd : off + w ≤ (fieldRange f).1 ∨ (fieldRange f).1 + (fieldRange f).2 ≤ off) : f.get a = f.get b := by
  cases f with
  | uint o n =>
    have e := slice_sameOutside (o := o) (n := n) h hd
    simp only [FieldTy.get, getLE, e]
  | int8 o =>
    have e := slice_sameOutside (o := o) (n := 1) h hd
    exact congrArg (fun n : Nat => AttrVal.int (if n < 128 then (n : Int) else (n : Int) - 256)) (congrArg leNat e)
  | arr o n =>
    have e := slice_sameOutside (o := o) (n := n) h hd
    simp only [FieldTy.get, getArr, e]
  | struct o n =>
    have e := slice_sameOutside (o := o) (n := n) h hd
    simp only [FieldTy.get, getArr, e]

/-- C95: assigning bytes to an array field raises TypeError unless the length is that of the field;
otherwise the field reads as assigned, every other attribute as before, and in the serialised packet
exactly the bytes of the field change. -/
theorem C95_assign_array (o : AttrObj) (ho : o.packet.data.length = fixedSize o.ty) {name : String}
    {off n : Nat} (h : (attrFields o.ty).lookup name = some (.arr off n)) (v : Bytes) :
    (v.length ≠ n → o.set name (.raw v) = .error .typeError) ∧
    (v.length = n → ∃ o', o.set name (.raw v) = .ok o' ∧ o'.get name = .ok (.raw v) ∧
      (∀ name', name' ≠ name → o'.get name' = o.get name') ∧
      o'.packet.opt = o.packet.opt ∧ BytesAssigned o.packet.toBytes o'.packet.toBytes off v) := by
  have hle : off + n ≤ o.packet.data.length := ho ▸ (fields_tile o.ty).2.2 _ (lookup_mem h)
  obtain ⟨h1, h2⟩ := setArr_spec o.packet.data v off n hle
  constructor
  · intro hn
    simp [AttrObj.set, AttrVal.cbytes, h, h1 hn, bind, Except.bind]
  · intro hn
    obtain ⟨d, e1, e2⟩ := h2 hn
    refine ⟨{ o with packet := { o.packet with data := d } },
      by simp [AttrObj.set, AttrVal.cbytes, h, e1, bind, Except.bind, pure, Except.pure], ?_, ?_, rfl, ?_, ?_⟩
    · have := e2.2
      rw [hn] at this
      simp [AttrObj.get, h, FieldTy.get, AttrVal.toBytes, getArr, this, Except.map]
    · intro name' hne
      unfold AttrObj.get
      cases h' : (attrFields o.ty).lookup name' with
      | none => simp [h']
      | some f =>
        have hap := fields_apart h h' hne
        simp only [h', get_sameOutside e2.1 (by rw [hn]; exact hap)]
    · obtain ⟨l1, l2⟩ := e2.1
      refine ⟨by simp [Packet.toBytes, Packet.optBytes, l1], fun i hi => ?_⟩
      simp only [Packet.toBytes, Packet.optBytes, List.getElem?_append, l1]
      split
      · exact l2 i hi
      · rfl
    · have hl := e2.1.1
      have := e2.2
      simp only [Packet.toBytes, slice] at this ⊢
      rw [List.take_append_of_le_length (by omega)]
      exact this

/-- C95: assigning an int raises, whatever the name, and so does assigning bytes to an integer field or
to the header. -/
theorem C95_assign_refused (o : AttrObj) (name : String) :
    (∀ z : Int, o.set name (.int z) = .error (if z < 0 then .valueError else .typeError)) ∧
    ∀ f, (attrFields o.ty).lookup name = some f → (∀ off n, f ≠ .arr off n) → ∀ v,
      o.set name (.raw v) = .error .typeError := by
  constructor
  · intro z
    simp only [AttrObj.set, AttrVal.cbytes]
    split <;> rfl
  · intro f h hf v
    cases f with
    | arr off n => exact absurd rfl (hf off n)
    | _ => simp [AttrObj.set, AttrVal.cbytes, h, bind, Except.bind]

/-- C95, what is expected of assigning to a name that is not a field of the packet: it raises. -/
def C95_assign_claim : Prop :=
  ∀ (o : AttrObj) (name : String) (v : Bytes), (attrFields o.ty).lookup name = none →
    ∃ e, o.set name (.raw v) = .error e

/-- C95: assigning bytes to any other name is accepted, has no effect on the packet, and reads back. -/
theorem C95_assign_unknown (o : AttrObj) (name : String) (v : Bytes)
    (h : (attrFields o.ty).lookup name = none) :
    ∃ o', o.set name (.raw v) = .ok o' ∧ o'.packet = o.packet ∧ o'.get name = .ok (.raw v) := by
  refine ⟨{ o with added := (name, v) :: o.added },
    by simp [AttrObj.set, AttrVal.cbytes, h, bind, Except.bind, pure, Except.pure], rfl, ?_⟩
  simp [AttrObj.get, h, List.lookup_cons]

/-- C95, violated: the name of the key of the other handshake message is accepted on an M1; the key does
not get into the packet. -/
theorem C95_assign_violated : ¬ C95_assign_claim := by
  intro h
  obtain ⟨e, he⟩ := h (attrObj .m1 M1.fresh.data) "ServerEncKey" (List.replicate 32 7) rfl
  obtain ⟨o', h1, -, -⟩ := C95_assign_unknown (attrObj .m1 M1.fresh.data) "ServerEncKey" (List.replicate 32 7) rfl
  rw [he] at h1
  cases h1

/-- The hypotheses for a signature assigned to a fresh M3. -/
example : (attrObj .m3 (M34.fresh .m3).data).packet.data.length = fixedSize .m3 ∧
    (attrFields .m3).lookup "Signature1" = some (.arr 38 64) ∧
    (attrObj .m3 (M34.fresh .m3).data).set "Signature1" (.raw (List.replicate 63 1)) = .error .typeError ∧
    ((attrObj .m3 (M34.fresh .m3).data).set "Signature1" (.raw (List.replicate 64 1))).map
      (fun o => slice o.packet.data 37 102) = .ok (0 :: List.replicate 64 1) := by decide

/-! ### C95: optional parts -/

/-- C95: the optional part of a packet cannot be read before it exists, and afterwards reads as assigned
or parsed. -/
theorem C95_optional (p : Packet) (v : Bytes) :
    (p.opt = none →
      M1.serverSigKey p = .error .attributeError ∧ EncPkt.body p = .error .attributeError ∧
      AppPkt.payload p = .error .attributeError ∧ A1.address p = .error .attributeError) ∧
    EncPkt.body (EncPkt.setBody p v) = .ok v ∧ AppPkt.payload (AppPkt.setPayload p v) = .ok v ∧
    A1.address (A1.setAddress p v) = .ok v ∧
    (EncPkt.setBody p v).toBytes = p.data ++ v ∧ (AppPkt.setPayload p v).toBytes = p.data ++ v ∧
    (A1.setAddress p v).toBytes = p.data ++ v ∧
    (∀ q, M1.setServerSigKey (M1.createOptFields p) v = .ok q →
      M1.serverSigKey q = .ok v ∧ q.toBytes = p.data ++ v) := by
  refine ⟨fun h => by simp [M1.serverSigKey, EncPkt.body, AppPkt.payload, A1.address, h], rfl, rfl, rfl, rfl, rfl,
    rfl, ?_⟩
  intro q hq
  by_cases h1 : M1.serverSigKeyIncluded p = 1
  · obtain ⟨k1, k2⟩ := (C66_m1_key p v).2 h1
    by_cases hv : v.length = 32
    · rw [k2 hv] at hq
      cases hq
      exact ⟨rfl, rfl⟩
    · rw [k1 hv] at hq; cases hq
  · have : M1.serverSigKeyIncluded (M1.createOptFields p) ≠ 1 := h1
    simp [M1.setServerSigKey, this] at hq

/-- A key assigned to an M1 that announces one. -/
example : M1.serverSigKey (M1.setServerSigKeyIncluded M1.fresh 1) = .error .attributeError ∧
    ∃ q, M1.setServerSigKey (M1.createOptFields (M1.setServerSigKeyIncluded M1.fresh 1)) (List.replicate 32 5) =
      .ok q ∧ M1.serverSigKey q = .ok (List.replicate 32 5) :=
  ⟨by decide, _, (((C66_m1_key (M1.setServerSigKeyIncluded M1.fresh 1) (List.replicate 32 5)).2 (by decide)).2
    rfl), rfl⟩

/-! ### C96: the protocols of an A2 -/

/-- C96, what is expected of assigning to `Prot`: there is a value whose assignment makes the A2 offer
some protocol. -/
def C96_claim : Prop :=
  ∃ (uw : Nat → Bool) (p : Packet) (v : ProtVal), p.data.length = 3 ∧ 0 < v.len ∧
    (A2.setProt p v).2 = .ok () ∧ A2.validate uw (A2.setProt p v).1 = .ok ()

/-- C96: which assignments to `Prot` are accepted.  Neither the `Prot` of another packet nor a list is,
and a tuple only if all its items are empty. -/
theorem C96_accepted (p : Packet) (v : ProtVal) :
    (A2.setProt p v).2 = .ok () ↔ ∃ n, v = .tuple (List.replicate n true) := by
  cases v with
  | array n => simp [A2.setProt]
  | seq n => simp [A2.setProt]
  | tuple l =>
    simp only [A2.setProt, ProtVal.tuple.injEq]
    by_cases h : l.all id = true
    · rw [if_pos h]
      refine ⟨fun _ => ⟨l.length, ?_⟩, fun _ => rfl⟩
      rw [List.eq_replicate_iff]
      exact ⟨rfl, fun b hb => List.all_eq_true.1 h b hb⟩
    · rw [if_neg h]
      constructor
      · intro h'; cases h'
      · rintro ⟨n, rfl⟩
        exact absurd (by simp) h

/-- C96: accepted or not, the assignment replaces the protocols by as many entries of zeros. -/
theorem C96_zeroed (p : Packet) (v : ProtVal) :
    (A2.setProt p v).1.toBytes = p.data ++ List.replicate (20 * v.len) 0 := rfl

theorem zero_entry (uw : Nat → Bool) (b : Bytes) : A2.protValid uw ((zeros 20 ++ b).take 20) = .ok false := by
  have : (zeros 20 ++ b).take 20 = zeros 20 := List.take_left' (by simp [zeros])
  rw [this]
  rfl

/-- C96: an A2 whose `Prot` was assigned is not valid unless there are no protocols. -/
theorem C96_invalid (uw : Nat → Bool) (p : Packet) (v : ProtVal) (h : 0 < v.len) :
    A2.validate uw (A2.setProt p v).1 = .error .badPeer := by
  obtain ⟨n, hn⟩ : ∃ n, v.len = n + 1 := ⟨v.len - 1, by omega⟩
  have hc : A2.protCount (A2.setProt p v).1 = n + 1 := by
    simp [A2.protCount, A2.setProt, A2.createOptFields, Packet.optBytes, zeros, hn]
  have hz : (A2.setProt p v).1.optBytes = zeros 20 ++ zeros (20 * n) := by
    simp only [A2.setProt, A2.createOptFields, Packet.optBytes, zeros, hn, Option.getD_some,
      List.replicate_append_replicate]
    congr 1
    omega
  have hv : A2.validateEntries uw (A2.entries (n + 1) (A2.setProt p v).1.optBytes) = .error .badPeer := by
    rw [hz]
    simp only [A2.entries, A2.validateEntries, zero_entry, bind, Except.bind]
    rfl
  simp only [A2.validate, Packet.validateType, hc, hv, bind, Except.bind]
  split
  · rename_i h'
    split at h'
    · cases h'; rfl
    · cases h'
  · repeat' split
    all_goals rfl

/-- C96, violated. -/
theorem C96_violated : ¬ C96_claim := by
  rintro ⟨uw, p, v, -, h, -, hv⟩
  rw [C96_invalid uw p v h] at hv
  cases hv

/-- Assigning the protocols of another A2 raises and leaves an entry of zeros. -/
example : A2.setProt (A2.ofCase .default) (.array 1) =
    ({ data := [9, 128, 1], opt := some (List.replicate 20 0) }, .error .typeError) := by decide

/-- How an A2 with given protocols can be made: `a2.data.Count = n`, `a2.create_opt_fields(prot_count=n)`,
then the two names of each entry. -/
def fillProts : Nat → List (Bytes × Bytes) → Packet → Except Err Packet
  | _, [], p => .ok p
  | i, q :: qs, p => do
    let p ← A2.setProtName p i false q.1
    let p ← A2.setProtName p i true q.2
    fillProts (i + 1) qs p

theorem setProtName_spec (d a x b v : Bytes) (i : Nat) (second : Bool) (hv : v.length = 10)
    (ha : a.length = 20 * i + if second then 10 else 0) (hx : x.length = 10)
    (hb : 20 * (i + 1) ≤ a.length + 10 + b.length) :
    A2.setProtName { data := d, opt := some (a ++ x ++ b) } i second v =
      .ok { data := d, opt := some (a ++ v ++ b) } := by
  have hi : ¬ (a ++ x ++ b).length / 20 ≤ i := by simp; omega
  simp only [A2.setProtName, if_neg hi, setArr, hv, if_true, setBytes, ← ha]
  simp [hx]

theorem fillProts_spec (qs : List (Bytes × Bytes)) : ∀ (i : Nat) (d a : Bytes), a.length = 20 * i →
    (∀ q ∈ qs, q.1.length = 10 ∧ q.2.length = 10) →
    fillProts i qs { data := d, opt := some (a ++ zeros (20 * qs.length)) } =
      .ok { data := d, opt := some (a ++ (qs.map fun q => q.1 ++ q.2).flatten) } := by
  induction qs with
  | nil => intro i d a _ _; simp [fillProts, zeros]
  | cons q qs ih =>
    intro i d a ha h
    obtain ⟨h1, h2⟩ := h q (by simp)
    have hz : zeros (20 * (q :: qs).length) = zeros 10 ++ (zeros 10 ++ zeros (20 * qs.length)) := by
      simp only [zeros, List.replicate_append_replicate, List.length_cons]
      congr 1; omega
    have e1 := setProtName_spec d a (zeros 10) (zeros 10 ++ zeros (20 * qs.length)) q.1 i false h1
      (by simp [ha]) (by simp [zeros]) (by simp [zeros, ha]; omega)
    have e2 := setProtName_spec d (a ++ q.1) (zeros 10) (zeros (20 * qs.length)) q.2 i true h2
      (by simp [ha, h1]) (by simp [zeros]) (by simp [zeros, ha, h1]; omega)
    rw [hz]
    simp only [fillProts, bind, Except.bind]
    rw [← List.append_assoc, e1]
    simp only []
    rw [show a ++ q.1 ++ (zeros 10 ++ zeros (20 * qs.length)) = a ++ q.1 ++ zeros 10 ++ zeros (20 * qs.length) by
      simp, e2]
    simp only []
    rw [ih (i + 1) d (a ++ q.1 ++ q.2) (by simp [ha, h1, h2]; omega) (fun q' hq' => h q' (by simp [hq']))]
    simp

/-- C96: filled in entry by entry, the A2 has the protocols; it serialises to the wire format of an A2
that offers them. -/
theorem C96_fill (qs : List (Bytes × Bytes)) (h : ∀ q ∈ qs, q.1.length = 10 ∧ q.2.length = 10) :
    ∃ p, fillProts 0 qs (A2.createOptFields (A2.setCount A2.fresh qs.length) qs.length) = .ok p ∧
      p.toBytes = Spec.a2 false true qs := by
  have e := fillProts_spec qs 0 (A2.setCount A2.fresh qs.length).data [] rfl h
  refine ⟨_, e, ?_⟩
  have hd : (A2.setCount A2.fresh qs.length).data = [9, 128, UInt8.ofNat qs.length] := by
    simp only [A2.setCount, A2_fresh_data, setLE, setBytes, leBytes]
    have : UInt8.ofNat (qs.length % 256) = UInt8.ofNat qs.length := by
      apply UInt8.toNat_inj.1; simp
    simp [this]
  simp [Packet.toBytes, Packet.optBytes, hd, Spec.a2]

/-- C96: names of the wrong length, entries that do not exist, and packets without entries. -/
theorem C96_fill_errors (p : Packet) (i : Nat) (second : Bool) (v : Bytes) :
    (p.opt = none → A2.setProtName p i second v = .error .attributeError) ∧
    ∀ n, p.opt = some (zeros (20 * n)) →
      (n ≤ i → A2.setProtName p i second v = .error .indexError) ∧
      (i < n → v.length ≠ 10 → A2.setProtName p i second v = .error .typeError) := by
  refine ⟨fun h => by simp [A2.setProtName, h], fun n h => ⟨fun hi => ?_, fun hi hv => ?_⟩⟩
  · simp [A2.setProtName, h, zeros, hi]
  · simp only [A2.setProtName, h]
    rw [if_neg (by simp [zeros]; omega)]
    simp [setArr, hv]

/-- An A2 with two protocols. -/
example : (fillProts 0 [(List.replicate 10 65, List.replicate 10 66), (List.replicate 10 67, List.replicate 10 68)]
    (A2.createOptFields (A2.setCount A2.fresh 2) 2)).map Packet.toBytes =
      .ok ([9, 128, 2] ++ List.replicate 10 65 ++ List.replicate 10 66 ++ List.replicate 10 67
        ++ List.replicate 10 68) := by decide

end Salt.Props
