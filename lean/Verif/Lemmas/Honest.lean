import Verif.Spec.CryptoLaws
import Verif.Lemmas.SessionRun
import Verif.Props.EncChannel

/-!
# Honest runs

With a crypto library that does what it should, the scripts of a client and a server fit together.
-/

set_option linter.unusedSimpArgs false

namespace Salt

open Spec Props

theorem field_at {a b c : Bytes} {off n : Nat} (ha : a.length = off) (hb : b.length = n) :
    field (a ++ (b ++ c)) off n = b := by
  unfold field
  rw [List.drop_left' ha, List.append_assoc, List.take_left' hb]

/-- The value of a call that does not raise. -/
def val : Except Err Bytes → Bytes
  | .ok x => x
  | .error _ => []

theorem val_ok {r : Except Err Bytes} {x : Bytes} (h : r = .ok x) : r = .ok (val r) := by rw [h]; rfl

/-- The times used in a handshake: M1, M2 when first made, M2, M3, M4. -/
structure Times where
  t1 : Nat
  t0 : Nat
  t2 : Nat
  t3 : Nat
  t4 : Nat

namespace HS

variable (L : Lib) (kc ks sc ss : KeyPair) (t : Times)

def m1 : Bytes := Spec.m1 t.t1 kc.pub none
def m2 : Bytes := Spec.m2 false false t.t2 ks.pub
def h1 : Bytes := val (L.hash (m1 kc t))
def h2 : Bytes := val (L.hash (m2 ks t))
def k : Bytes := val (L.beforenm ks.pub kc.sec)
def sm3 : Bytes := val (L.sign (scSig01 ++ h1 L kc t ++ h2 L ks t) ss.sec)
def m3 : Bytes := Spec.m3 t.t3 ss.pub ((sm3 L kc ks ss t).take 64)
def c3 : Bytes := val (L.box (m3 L kc ks ss t) (Spec.nonce 2) (k L kc ks))
def sm4 : Bytes := val (L.sign (scSig02 ++ h1 L kc t ++ h2 L ks t) sc.sec)
def m4 : Bytes := Spec.m4 t.t4 sc.pub ((sm4 L kc ks sc t).take 64)
def c4 : Bytes := val (L.box (m4 L kc ks sc t) (Spec.nonce 1) (k L kc ks))

/-- The client's side. -/
def cp : CP :=
  { t1 := t.t1, h1 := h1 L kc t, raw2 := m2 ks t, h2 := h2 L ks t, k := k L kc ks,
    p3 := Spec.encrypted false (c3 L kc ks ss t), m3 := m3 L kc ks ss t,
    x := scSig01 ++ h1 L kc t ++ h2 L ks t, t4 := t.t4, sm := sm4 L kc ks sc t, c4 := c4 L kc ks sc t }

/-- The server's side; `f` is the last flag of the packet with M4. -/
def sp (f : Bool) : SP :=
  { raw1 := m1 kc t, h1 := h1 L kc t, t0 := t.t0, t2 := t.t2, t3 := t.t3, h2 := h2 L ks t, k := k L kc ks,
    sm := sm3 L kc ks ss t, c3 := c3 L kc ks ss t, p4 := Spec.encrypted f (c4 L kc ks sc t),
    m4 := m4 L kc ks sc t, x := scSig02 ++ h1 L kc t ++ h2 L ks t }

variable {L kc ks sc ss} (h : Honest L kc ks sc ss)
include h

theorem hh1 : L.hash (m1 kc t) = .ok (h1 L kc t) := val_ok (h.hash _).choose_spec
theorem hh2 : L.hash (m2 ks t) = .ok (h2 L ks t) := val_ok (h.hash _).choose_spec

theorem hk : (k L kc ks).length = 32 ∧ L.beforenm ks.pub kc.sec = .ok (k L kc ks) ∧
    L.beforenm kc.pub ks.sec = .ok (k L kc ks) := by
  obtain ⟨x, h1, h2, h3⟩ := h.dh.works
  have : k L kc ks = x := by unfold k; rw [h2]; rfl
  rw [this]; exact ⟨h1, h2, h3⟩

theorem hsm3 : 64 ≤ (sm3 L kc ks ss t).length ∧
    L.sign (scSig01 ++ h1 L kc t ++ h2 L ks t) ss.sec = .ok (sm3 L kc ks ss t) ∧
    L.signOpen ((sm3 L kc ks ss t).take 64 ++ scSig01 ++ h1 L kc t ++ h2 L ks t) ss.pub =
      .ok (scSig01 ++ h1 L kc t ++ h2 L ks t) := by
  obtain ⟨sig, h1, h2, h3⟩ := h.sigS.works (scSig01 ++ HS.h1 L kc t ++ HS.h2 L ks t)
  have : sm3 L kc ks ss t = sig ++ (scSig01 ++ HS.h1 L kc t ++ HS.h2 L ks t) := by unfold sm3; rw [h2]; rfl
  rw [this]
  refine ⟨by simp [h1], h2, ?_⟩
  rw [List.take_left' h1]
  simpa only [List.append_assoc] using h3

theorem hsm4 : 64 ≤ (sm4 L kc ks sc t).length ∧
    L.sign (scSig02 ++ h1 L kc t ++ h2 L ks t) sc.sec = .ok (sm4 L kc ks sc t) ∧
    L.signOpen ((sm4 L kc ks sc t).take 64 ++ scSig02 ++ h1 L kc t ++ h2 L ks t) sc.pub =
      .ok (scSig02 ++ h1 L kc t ++ h2 L ks t) := by
  obtain ⟨sig, h1, h2, h3⟩ := h.sigC.works (scSig02 ++ HS.h1 L kc t ++ HS.h2 L ks t)
  have : sm4 L kc ks sc t = sig ++ (scSig02 ++ HS.h1 L kc t ++ HS.h2 L ks t) := by unfold sm4; rw [h2]; rfl
  rw [this]
  refine ⟨by simp [h1], h2, ?_⟩
  rw [List.take_left' h1]
  simpa only [List.append_assoc] using h3

theorem hbox (m : Bytes) (n : Nat) : ∃ c, L.box m (Spec.nonce n) (k L kc ks) = .ok c ∧
    c = val (L.box m (Spec.nonce n) (k L kc ks)) ∧ c.length = m.length + 16 ∧
    L.boxOpen c (Spec.nonce n) (k L kc ks) = .ok m := by
  obtain ⟨c, h1, h2⟩ := h.box.total m (Spec.nonce n) (k L kc ks) (nonce_length n) (hk h).1
  exact ⟨c, h1, by rw [h1]; rfl, h2, (h.box.open_iff _ _ _ _ (nonce_length n) (hk h).1).2 h1⟩

theorem hc3 : L.box (m3 L kc ks ss t) (Spec.nonce 2) (k L kc ks) = .ok (c3 L kc ks ss t) ∧
    16 ≤ (c3 L kc ks ss t).length ∧
    L.boxOpen (c3 L kc ks ss t) (Spec.nonce 2) (k L kc ks) = .ok (m3 L kc ks ss t) := by
  obtain ⟨c, h1, h2, h3, h4⟩ := hbox h (m3 L kc ks ss t) 2
  rw [show c3 L kc ks ss t = c from h2.symm]
  exact ⟨h1, by omega, h4⟩

theorem hc4 : L.box (m4 L kc ks sc t) (Spec.nonce 1) (k L kc ks) = .ok (c4 L kc ks sc t) ∧
    16 ≤ (c4 L kc ks sc t).length ∧
    L.boxOpen (c4 L kc ks sc t) (Spec.nonce 1) (k L kc ks) = .ok (m4 L kc ks sc t) := by
  obtain ⟨c, h1, h2, h3, h4⟩ := hbox h (m4 L kc ks sc t) 1
  rw [show c4 L kc ks sc t = c from h2.symm]
  exact ⟨h1, by omega, h4⟩

theorem m1_field : field (m1 kc t) 10 32 = kc.pub ∧ leNat (field (m1 kc t) 6 4) = t.t1 % 2 ^ 32 := by
  have hl := h.dh.aPub
  constructor
  · have := field_at (a := [0x53, 0x43, 0x76, 0x32, 1, 0] ++ le32 t.t1) (b := kc.pub) (c := []) (off := 10) rfl hl
    simpa [m1, Spec.m1] using this
  · rw [← leNat_le32_mod]
    have := field_at (a := [0x53, 0x43, 0x76, 0x32, 1, 0]) (b := le32 t.t1) (c := kc.pub) (off := 6) (n := 4) rfl rfl
    simp only [m1, Spec.m1, List.append_assoc]
    rw [this]

theorem m2_field : field (m2 ks t) 6 32 = ks.pub ∧ leNat (field (m2 ks t) 2 4) = t.t2 % 2 ^ 32 := by
  have hl := h.dh.bPub
  constructor
  · have := field_at (a := [2, 0] ++ le32 t.t2) (b := ks.pub) (c := []) (off := 6) rfl hl
    simpa [m2, Spec.m2] using this
  · rw [← leNat_le32_mod]
    have := field_at (a := [2, 0]) (b := le32 t.t2) (c := ks.pub) (off := 2) (n := 4) rfl rfl
    simp only [m2, Spec.m2, List.append_assoc]
    exact congrArg leNat this

theorem m3_field : field (m3 L kc ks ss t) 6 32 = ss.pub ∧
    leNat (field (m3 L kc ks ss t) 2 4) = t.t3 % 2 ^ 32 ∧
    field (m3 L kc ks ss t) 38 64 = (sm3 L kc ks ss t).take 64 := by
  have hl := h.sigS.pub
  have hs := (hsm3 t h).1
  have hs' : ((sm3 L kc ks ss t).take 64).length = 64 := by simp; omega
  refine ⟨?_, ?_, ?_⟩
  · have := field_at (a := [3, 0] ++ le32 t.t3) (b := ss.pub) (c := (sm3 L kc ks ss t).take 64) (off := 6) rfl hl
    simpa [m3, Spec.m3] using this
  · rw [← leNat_le32_mod]
    have := field_at (a := [3, 0]) (b := le32 t.t3) (c := ss.pub ++ (sm3 L kc ks ss t).take 64) (off := 2) (n := 4) rfl rfl
    simp only [m3, Spec.m3, List.append_assoc]
    exact congrArg leNat this
  · have := field_at (a := [3, 0] ++ le32 t.t3 ++ ss.pub) (b := (sm3 L kc ks ss t).take 64) (c := []) (off := 38)
      (by simp [hl]) hs'
    simp only [m3, Spec.m3]
    rw [List.append_nil] at this
    exact this

theorem m4_field : field (m4 L kc ks sc t) 6 32 = sc.pub ∧
    leNat (field (m4 L kc ks sc t) 2 4) = t.t4 % 2 ^ 32 ∧
    field (m4 L kc ks sc t) 38 64 = (sm4 L kc ks sc t).take 64 := by
  have hl := h.sigC.pub
  have hs := (hsm4 t h).1
  have hs' : ((sm4 L kc ks sc t).take 64).length = 64 := by simp; omega
  refine ⟨?_, ?_, ?_⟩
  · have := field_at (a := [4, 0] ++ le32 t.t4) (b := sc.pub) (c := (sm4 L kc ks sc t).take 64) (off := 6) rfl hl
    simpa [m4, Spec.m4] using this
  · rw [← leNat_le32_mod]
    have := field_at (a := [4, 0]) (b := le32 t.t4) (c := sc.pub ++ (sm4 L kc ks sc t).take 64) (off := 2) (n := 4) rfl rfl
    simp only [m4, Spec.m4, List.append_assoc]
    exact congrArg leNat this
  · have := field_at (a := [4, 0] ++ le32 t.t4 ++ sc.pub) (b := (sm4 L kc ks sc t).take 64) (c := []) (off := 38)
      (by simp [hl]) hs'
    simp only [m4, Spec.m4]
    rw [List.append_nil] at this
    exact this

/-- The client completes. -/
theorem cgood (cfg : ClientCfg) (he : cfg.encKp = some kc) (hs : cfg.sigKp = sc) :
    CGood cfg kc (cp L kc ks sc ss t) where
  enc := he
  pub := h.dh.aPub
  sec := h.dh.aSec
  sig := hs ▸ h.sigC.pub
  m2 := .inr rfl
  nss := rfl
  k := (hk h).1
  p3 := by have := (hc3 t h).2.1; simp [cp, Spec.encrypted]; omega
  p3h := rfl
  m3 := by
    have := (hsm3 t h).1
    simp only [cp, m3, Spec.m3, List.length_append, h.sigS.pub, le32_length, List.length_take, List.length_cons,
      List.length_nil]
    omega
  m3h := rfl
  sm := (hsm4 t h).1

/-- The server completes. -/
theorem sgood (f : Bool) (cfg : ServerCfg) (he : cfg.encKp = some ks) (hs : cfg.sigKp = ss) :
    SGood cfg ks (sp L kc ks sc ss t f) where
  enc := he
  pub := h.dh.bPub
  sec := h.dh.bSec
  sig := hs ▸ h.sigS.pub
  m1 := by
    have : (m1 kc t).length = 42 := by simp [m1, Spec.m1, h.dh.aPub]
    simp only [sp]
    rw [this]
    rfl
  key := by
    have : leNat (field (m1 kc t) 5 1) % 2 = 0 := rfl
    simp [sp, this]
  k := (hk h).1
  p4 := by have := (hc4 t h).2.1; simp [sp, Spec.encrypted]; omega
  p4h := rfl
  m4 := .inr rfl
  sm := (hsm3 t h).1

/-- What the client's library calls return is what the library returns. -/
theorem c_answered (cfg : ClientCfg) (hs : cfg.sigKp = sc) :
    ∀ ev ∈ clientPre kc (cp L kc ks sc ss t) ++ clientPost cfg (cp L kc ks sc ss t), AnsweredBy L ev := by
  subst hs
  intro ev hev
  simp only [clientPre, clientPost, List.cons_append, List.nil_append, List.mem_cons, List.not_mem_nil,
    or_false] at hev
  rcases hev with rfl | rfl | rfl | rfl | rfl | rfl | rfl | rfl | rfl | rfl | rfl | rfl | rfl | rfl | rfl
  · trivial
  · exact (hh1 t h).symm
  · trivial
  · trivial
  · trivial
  · exact (hh2 t h).symm
  · show _ = L.beforenm (field (m2 ks t) 6 32) kc.sec
    rw [(m2_field t h).1]; exact (hk h).2.1.symm
  · trivial
  · exact (hc3 t h).2.2.symm
  · trivial
  · show _ = L.signOpen (field (m3 L kc ks ss t) 38 64 ++ scSig01 ++ h1 L kc t ++ h2 L ks t) (field (m3 L kc ks ss t) 6 32)
    rw [(m3_field t h).1, (m3_field t h).2.2]; exact (hsm3 t h).2.2.symm
  · trivial
  · exact (hsm4 t h).2.1.symm
  · exact (hc4 t h).1.symm
  · trivial

/-- What the server's library calls return is what the library returns. -/
theorem s_answered (f : Bool) (cfg : ServerCfg) (hs : cfg.sigKp = ss) (hb : cfg.bufferM2 = true → t.t3 = t.t2) :
    ∀ ev ∈ serverFull cfg ks (sp L kc ks sc ss t f), AnsweredBy L ev := by
  subst hs
  intro ev hev
  have hm1 : L.beforenm (field (m1 kc t) 10 32) ks.sec = .ok (k L kc ks) := by
    rw [(m1_field t h).1]; exact (hk h).2.2
  have hso : L.signOpen (field (m4 L kc ks sc t) 38 64 ++ scSig02 ++ h1 L kc t ++ h2 L ks t)
      (field (m4 L kc ks sc t) 6 32) = .ok (scSig02 ++ h1 L kc t ++ h2 L ks t) := by
    rw [(m4_field t h).1, (m4_field t h).2.2]; exact (hsm4 t h).2.2
  cases hbb : cfg.bufferM2 with
  | false =>
    simp only [serverFull, serverHead, serverPlain, serverTail, hbb, Bool.false_eq_true, if_false,
      List.cons_append, List.nil_append, List.mem_cons, List.not_mem_nil, or_false] at hev
    rcases hev with rfl | rfl | rfl | rfl | rfl | rfl | rfl | rfl | rfl | rfl | rfl | rfl | rfl | rfl | rfl
    · trivial
    · trivial
    · exact (hh1 t h).symm
    · trivial
    · trivial
    · exact (hh2 t h).symm
    · exact hm1.symm
    · trivial
    · exact (hsm3 t h).2.1.symm
    · exact (hc3 t h).1.symm
    · trivial
    · trivial
    · exact (hc4 t h).2.2.symm
    · trivial
    · exact hso.symm
  | true =>
    have e := hb hbb
    simp only [serverFull, serverHead, serverBuffered, serverTail, hbb, if_true,
      List.cons_append, List.nil_append, List.mem_cons, List.not_mem_nil, or_false] at hev
    rcases hev with rfl | rfl | rfl | rfl | rfl | rfl | rfl | rfl | rfl | rfl | rfl | rfl | rfl | rfl
    · trivial
    · trivial
    · exact (hh1 t h).symm
    · trivial
    · exact hm1.symm
    · trivial
    · exact (hh2 t h).symm
    · exact (hsm3 t h).2.1.symm
    · have := (hc3 t h).1
      simp only [m3, e] at this
      exact this.symm
    · trivial
    · trivial
    · exact (hc4 t h).2.2.symm
    · trivial
    · exact hso.symm

end HS

end Salt
