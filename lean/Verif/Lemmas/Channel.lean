import Verif.Spec.Channel
import Verif.Lemmas.Hoare
import Verif.Props.Packets1
import Verif.Props.Packets2

/-!
# Lemmas about the encrypted channel
-/

set_option linter.unusedSimpArgs false

namespace Salt

open Spec

theorem wrap_eq (c : Bytes) (l : Bool) : Enc.wrap c l = Spec.encrypted l c := by
  have := (Props.C04_encrypted_packet.2 l c).1
  rw [← this]
  cases l <;> rfl

theorem nonceBytes_eq (v : Nat) :
    nonceBytes v (zeros 8) = if v < 2 ^ 64 then .ok (Spec.nonce v) else .error .overflowError := by
  unfold nonceBytes Spec.nonce
  simp only [List.append_assoc]
  rfl

/-- What `read` does with a packet once it has it. -/
def openPkt (raw : Bytes) (s : EncSt) : IT env (Except Err Bytes × EncSt) :=
  if raw = [] then .ret (.error .attributeError, { s with lastFlag := false })
  else if 18 ≤ raw.length ∧ raw.head? = some 6 then
    match nonceBytes s.readNonce s.sessionNonce with
    | .error e => .ret (.error e, { s with lastFlag := 128 ≤ (raw.getD 1 0).toNat })
    | .ok n => .op (S := env) (.boxOpen (raw.drop 2) n s.key) fun
      | .error e => .ret (.error (if e = .badEncryptedData then .badPeer else e),
          { s with lastFlag := 128 ≤ (raw.getD 1 0).toNat })
      | .ok m => .ret (.ok m,
          { s with lastFlag := 128 ≤ (raw.getD 1 0).toNat, readNonce := s.readNonce + 2 })
  else .ret (.error .badPeer, s)

theorem lastFlag_take (raw : Bytes) (o : Option Bytes) (h : 2 ≤ raw.length) :
    (decide (EncPkt.lastFlag { data := raw.take 2, opt := o } ≠ 0)) =
      decide (128 ≤ (raw.getD 1 0).toNat) := by
  match raw, h with
  | a :: b :: t, _ =>
    have hb := b.toNat_lt
    have e : EncPkt.lastFlag { data := (a :: b :: t).take 2, opt := o } = b.toNat / 128 % 2 := by
      simp [EncPkt.lastFlag, getBit, getLE, slice, leNat]
    rw [e]
    simp only [List.getD_cons_succ, List.getD_cons_zero]
    congr 1
    apply propext
    constructor <;> intro h <;> omega

theorem openPkt_run (raw : Bytes) (s : EncSt) :
    (Enc.unwrap raw >>= fun body => Enc.decrypt body >>= fun clear =>
      Py.modifySt Enc.advanceRead >>= fun _ => pure clear) s = openPkt raw s := by
  by_cases hne : raw = []
  · subst hne
    simp [Enc.unwrap, Py.bind_run, openPkt, EncPkt.ctor, EncPkt.body, EncPkt.fresh, EncPkt.lastFlag]
    decide
  · have hspec := Props.EncPkt_ctor_spec raw hne
    unfold openPkt
    rw [if_neg hne]
    by_cases hacc : 18 ≤ raw.length ∧ raw.head? = some 6
    · rw [if_pos hacc] at hspec ⊢
      have hl := lastFlag_take raw (some (raw.drop 2)) (by omega)
      simp only [Enc.unwrap, Py.bind_run, hspec, Py.lift_run, IT.ret_bind, Py.modifySt_run,
        EncPkt.body, Enc.decrypt, Py.onError, Py.getSt_run, hl]
      cases hn : nonceBytes s.readNonce s.sessionNonce with
      | error e =>
        simp only [IT.ret_bind]
        have : e ≠ .badEncryptedData := by
          unfold nonceBytes at hn; split at hn
          · simp at hn
          · simp at hn; subst hn; decide
        simp [this]
      | ok n =>
        simp only [IT.ret_bind, Py.call_run, IT.op_bind]
        congr 1
        funext r
        cases r with
        | error e =>
          simp only [IT.ret_bind]
          by_cases he : e = .badEncryptedData <;> simp [he]
        | ok m => rfl
    · rw [if_neg hacc] at hspec ⊢
      simp [Enc.unwrap, Py.bind_run, hspec]

theorem Enc_read_run (s : EncSt) : Enc.read s =
    if s.pushback ≠ [] then openPkt s.pushback { s with pushback := [] }
    else .op (S := env) .read fun
      | .error e => .ret (.error e, s)
      | .ok raw => openPkt raw s := by
  unfold Enc.read
  rw [Py.bind_run]
  simp only [Enc.fetch, Py.bind_run, Py.getSt_run, IT.ret_bind]
  by_cases hp : s.pushback = []
  · simp only [hp, ne_eq, not_true_eq_false, if_false, Py.call_run, IT.op_bind]
    congr 1
    funext r
    cases r with
    | error e => rfl
    | ok raw => exact openPkt_run raw s
  · simp only [hp, ne_eq, not_false_eq_true, if_true, Py.bind_run, Py.modifySt_run, IT.ret_bind]
    exact openPkt_run _ _

/-- One step of the write loop. -/
theorem encryptAll_cons_run (l : Bool) (m : Bytes) (ms : List Bytes) (s : EncSt) :
    Enc.encryptAll l (m :: ms) s =
      match nonceBytes s.writeNonce s.sessionNonce with
      | .error e => .ret (.error e, s)
      | .ok n => .op (S := env) (.box m n s.key) fun
        | .error e => .ret (.error e, s)
        | .ok c => (Enc.encryptAll l ms { s with writeNonce := s.writeNonce + 2 }).bind fun
          | (.ok rest, s') => .ret (.ok (Spec.encrypted (l && ms.isEmpty) c :: rest), s')
          | (.error e, s') => .ret (.error e, s') := by
  simp only [Enc.encryptAll, Py.bind_run, Enc.encrypt, Py.getSt_run, IT.ret_bind, Py.lift_run]
  cases nonceBytes s.writeNonce s.sessionNonce with
  | error e => rfl
  | ok n =>
    simp only [IT.ret_bind, Py.call_run, IT.op_bind]
    congr 1
    funext r
    cases r with
    | error e => rfl
    | ok c =>
      simp only [IT.ret_bind, Py.modifySt_run, Enc.advanceWrite]
      congr 1
      funext ⟨r, s'⟩
      cases r with
      | error e => rfl
      | ok rest => simp [wrap_eq]

theorem encryptAll_nil_run (l : Bool) (s : EncSt) :
    Enc.encryptAll l [] s = .ret (.ok [], s) := rfl

theorem Enc_write_run (ms : List Bytes) (l : Bool) (s : EncSt) : Enc.write ms l s =
    (Enc.encryptAll l ms s).bind fun
      | (.error e, s') => .ret (.error e, s')
      | (.ok ps, s') => .op (S := env) (.write ps l) fun r => .ret (r, s') := by
  simp only [Enc.write, Py.bind_run]
  congr 1
  funext ⟨r, s'⟩
  cases r <;> rfl

/-! ### Which nonces are used -/

theorem seals_append (a b : List (Ev env)) : seals (a ++ b) = seals a ++ seals b := by
  induction a with
  | nil => rfl
  | cons e a ih =>
    rcases e with ⟨op, res⟩
    cases op <;> cases res <;> simp [seals, ih]

theorem opens_append (a b : List (Ev env)) : opens (a ++ b) = opens a ++ opens b := by
  induction a with
  | nil => rfl
  | cons e a ih =>
    rcases e with ⟨op, res⟩
    cases op <;> cases res <;> simp [opens, ih]

/-- Between `s` and `s'` the channel performed the encryptions and decryptions of `tr`, each with the
nonce of its position. -/
structure Adv (s : EncSt) (tr : List (Ev env)) (s' : EncSt) : Prop where
  key : s'.key = s.key
  sn : s'.sessionNonce = s.sessionNonce
  pb : s'.pushback = s.pushback
  w : s'.writeNonce = s.writeNonce + 2 * (seals tr).length
  r : s'.readNonce = s.readNonce + 2 * (opens tr).length
  sealAt : ∀ i x, (seals tr)[i]? = some x →
    x.key = s.key ∧ s.writeNonce + 2 * i < 2 ^ 64 ∧ x.nonce = Spec.nonce (s.writeNonce + 2 * i)
  openAt : ∀ i x, (opens tr)[i]? = some x →
    x.key = s.key ∧ s.readNonce + 2 * i < 2 ^ 64 ∧ x.nonce = Spec.nonce (s.readNonce + 2 * i)

/-- Events that are neither encryptions nor decryptions. -/
def Inert (tr : List (Ev env)) : Prop := seals tr = [] ∧ opens tr = []

theorem Adv.inert {s s' : EncSt} {tr : List (Ev env)} (h : Inert tr) (hk : s'.key = s.key)
    (hs : s'.sessionNonce = s.sessionNonce) (hp : s'.pushback = s.pushback)
    (hw : s'.writeNonce = s.writeNonce)
    (hr : s'.readNonce = s.readNonce) : Adv s tr s' := by
  obtain ⟨h1, h2⟩ := h
  exact ⟨hk, hs, hp, by simp [h1, hw], by simp [h2, hr], by simp [h1], by simp [h2]⟩

theorem Adv.refl (s : EncSt) : Adv s [] s := .inert ⟨rfl, rfl⟩ rfl rfl rfl rfl rfl

theorem Adv.trans {s s' s'' : EncSt} {tr tr' : List (Ev env)} (h : Adv s tr s')
    (h' : Adv s' tr' s'') : Adv s (tr ++ tr') s'' := by
  refine ⟨h'.key.trans h.key, h'.sn.trans h.sn, h'.pb.trans h.pb, ?_, ?_, ?_, ?_⟩
  · rw [h'.w, h.w, seals_append, List.length_append]; omega
  · rw [h'.r, h.r, opens_append, List.length_append]; omega
  · intro i x hx
    rw [seals_append] at hx
    by_cases hi : i < (seals tr).length
    · rw [List.getElem?_append_left hi] at hx; exact h.sealAt i x hx
    · rw [List.getElem?_append_right (by omega)] at hx
      have := h'.sealAt _ x hx
      rw [h.w, h.key] at this
      have e : s.writeNonce + 2 * (seals tr).length + 2 * (i - (seals tr).length) =
          s.writeNonce + 2 * i := by omega
      rwa [e] at this
  · intro i x hx
    rw [opens_append] at hx
    by_cases hi : i < (opens tr).length
    · rw [List.getElem?_append_left hi] at hx; exact h.openAt i x hx
    · rw [List.getElem?_append_right (by omega)] at hx
      have := h'.openAt _ x hx
      rw [h.r, h.key] at this
      have e : s.readNonce + 2 * (opens tr).length + 2 * (i - (opens tr).length) =
          s.readNonce + 2 * i := by omega
      rwa [e] at this

/-- Exactly what a read with no pushed-back packet does. -/
theorem Enc_read_wp (s : EncSt) (hs : s.sessionNonce = zeros 8) (hp : s.pushback = []) :
    wp (Enc.read s) fun tr b => Adv s tr b.2 ∧ seals tr = [] ∧ b.2.writeNonce = s.writeNonce ∧
      match b.1 with
      | .ok m => opens tr = [⟨m, Spec.nonce s.readNonce, s.key, (opens tr).head?.elim [] (·.cipher)⟩]
      | .error _ => opens tr = [] := by
  rw [Enc_read_run]
  simp only [hp, ne_eq, not_true_eq_false, if_false, wp_op]
  intro r
  cases r with
  | error e => simp [seals, opens]; exact .inert ⟨rfl, rfl⟩ rfl rfl rfl rfl rfl
  | ok raw =>
    show wp (openPkt raw s) _
    unfold openPkt
    split
    · simp [seals, opens]; exact .inert ⟨rfl, rfl⟩ rfl rfl rfl rfl rfl
    · split
      · have hn : nonceBytes s.readNonce s.sessionNonce =
            if s.readNonce < 2 ^ 64 then .ok (Spec.nonce s.readNonce) else .error .overflowError := by
          rw [hs, nonceBytes_eq]
        rw [hn]
        split
        · rename_i h; split at h <;> simp at h
          subst h
          simp [seals, opens]; exact .inert ⟨rfl, rfl⟩ rfl rfl rfl rfl rfl
        · rename_i n h; split at h <;> simp at h
          rename_i hlt
          subst h
          rw [wp_op]
          intro r
          cases r with
          | error e => simp [seals, opens]; exact .inert ⟨rfl, rfl⟩ rfl rfl rfl rfl rfl
          | ok m =>
            simp only [wp_ret, seals, opens, List.nil_append]
            refine ⟨⟨rfl, rfl, rfl, rfl, rfl, by simp [seals], ?_⟩, trivial, trivial, rfl⟩
            intro i x hx
            simp only [opens] at hx
            cases i with
            | zero => simp at hx; subst hx; exact ⟨rfl, by simpa using hlt, rfl⟩
            | succ i => simp at hx
      · simp [seals, opens]; exact .inert ⟨rfl, rfl⟩ rfl rfl rfl rfl rfl

theorem encryptAll_wp (l : Bool) (ms : List Bytes) (s : EncSt) (hs : s.sessionNonce = zeros 8) :
    wp (Enc.encryptAll l ms s) fun tr b => Adv s tr b.2 ∧ opens tr = [] ∧
      b.2.lastFlag = s.lastFlag ∧ writesOf tr = [] ∧
      match b.1 with
      | .ok ps => (seals tr).map (·.msg) = ms ∧
          ps = (seals tr).mapIdx fun i x => Spec.encrypted (l && decide (i + 1 = ms.length)) x.cipher
      | .error _ => ∃ pre, (seals tr).map (·.msg) = pre ∧ pre <+: ms ∧ pre ≠ ms := by
  induction ms generalizing s with
  | nil =>
    simp only [encryptAll_nil_run, wp_ret, seals, opens, writesOf]
    refine ⟨.refl _, ?_⟩; simp
  | cons m ms ih =>
    have hn : nonceBytes s.writeNonce s.sessionNonce =
        if s.writeNonce < 2 ^ 64 then .ok (Spec.nonce s.writeNonce) else .error .overflowError := by
      rw [hs, nonceBytes_eq]
    rw [encryptAll_cons_run, hn]
    split
    · rename_i h; split at h <;> simp at h
      simp [seals, opens, writesOf]; exact .refl _
    · rename_i n h; split at h <;> simp at h
      rename_i hlt
      subst h
      rw [wp_op]
      intro r
      cases r with
      | error e =>
        simp [seals, opens, writesOf]; exact .inert ⟨rfl, rfl⟩ rfl rfl rfl rfl rfl
      | ok c =>
        simp only []
        rw [wp_bind]
        refine wp_mono _ (ih { s with writeNonce := s.writeNonce + 2 } hs) ?_
        rintro tr ⟨r, s'⟩ ⟨ha, ho, hl, hw, hr⟩
        have hone : Adv s [⟨.box m (Spec.nonce s.writeNonce) s.key, .ok c⟩]
            { s with writeNonce := s.writeNonce + 2 } := by
          refine ⟨rfl, rfl, rfl, rfl, rfl, ?_, by simp [opens]⟩
          intro i x hx
          simp only [seals] at hx
          cases i with
          | zero => simp at hx; subst hx; exact ⟨rfl, by simpa using hlt, rfl⟩
          | succ i => simp at hx
        have hadv := hone.trans ha
        cases r with
        | error e =>
          simp only [wp_ret, List.append_nil]
          obtain ⟨pre, h1, h2, h3⟩ := hr
          refine ⟨hadv, by simpa [opens] using ho, hl, by simpa [writesOf] using hw, m :: pre, ?_, ?_, ?_⟩
          · simp [seals, h1]
          · simpa using h2
          · simpa using h3
        | ok rest =>
          simp only [wp_ret, List.append_nil]
          refine ⟨hadv, by simpa [opens] using ho, hl, by simpa [writesOf] using hw, ?_, ?_⟩
          · simp [seals, hr.1]
          · have hlen : (seals tr).length = ms.length := by
              have := congrArg List.length hr.1; simpa using this
            simp only [seals, List.mapIdx_cons, hr.2]
            congr 1
            · cases ms <;> simp
            · apply List.ext_getElem <;> simp

theorem writesOf_append (a b : List (Ev env)) : writesOf (a ++ b) = writesOf a ++ writesOf b := by
  induction a with
  | nil => rfl
  | cons e a ih =>
    rcases e with ⟨op, res⟩
    cases op <;> simp [writesOf, ih]

/-- Exactly what a write does. -/
theorem Enc_write_wp (l : Bool) (ms : List Bytes) (s : EncSt) (hs : s.sessionNonce = zeros 8) :
    wp (Enc.write ms l s) fun tr b => Adv s tr b.2 ∧ opens tr = [] ∧ b.2.lastFlag = s.lastFlag ∧
      (((seals tr).map (·.msg) = ms ∧ writesOf tr = [((seals tr).mapIdx fun i x =>
          Spec.encrypted (l && decide (i + 1 = ms.length)) x.cipher, l)]) ∨
        (b.1 ≠ .ok () ∧ writesOf tr = [] ∧ (seals tr).map (·.msg) <+: ms ∧
          (seals tr).map (·.msg) ≠ ms)) := by
  rw [Enc_write_run, wp_bind]
  refine wp_mono _ (encryptAll_wp l ms s hs) ?_
  rintro tr ⟨r, s'⟩ ⟨ha, ho, hl, hw, hr⟩
  cases r with
  | error e =>
    simp only [wp_ret, List.append_nil]
    obtain ⟨pre, h1, h2, h3⟩ := hr
    exact ⟨ha, ho, hl, .inr ⟨by simp, hw, h1 ▸ h2, h1 ▸ h3⟩⟩
  | ok ps =>
    simp only [wp_op, wp_ret]
    intro r
    have hi : Inert [⟨EnvOp.write ps l, r⟩] := ⟨rfl, rfl⟩
    refine ⟨ha.trans (.inert hi rfl rfl rfl rfl rfl), ?_, hl, .inl ⟨?_, ?_⟩⟩
    · rw [opens_append, ho, hi.2]; rfl
    · rw [seals_append, hi.1, List.append_nil]; exact hr.1
    · rw [seals_append, hi.1, List.append_nil, writesOf_append, hw, hr.2]; rfl

end Salt
