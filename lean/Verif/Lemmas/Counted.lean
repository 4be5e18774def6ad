import Verif.Lemmas.NetSession
import Verif.Lemmas.Rounds

/-!
# The sizes of what is written, and the counters of `MitmChannel`
-/

set_option linter.unusedSimpArgs false

namespace Salt

open Spec Props

theorem size_append (a b : List Bytes) : size (a ++ b) = size a + size b := by simp [size]

theorem size_cons (m : Bytes) (b : List Bytes) : size (m :: b) = m.length + size b := by simp [size]

/-! ### Sizes of packets -/

theorem sealed_size {L : Lib} (hb : BoxLaw L) {key : Bytes} (hk : key.length = 32) {n : Nat} {ps : List (Bool × Bytes)}
    {raw : List Bytes} (h : SealedAll L key n ps raw) : size raw = size (ps.map Prod.snd) + 18 * ps.length := by
  induction h with
  | nil => rfl
  | @cons n raw ps l p c hc _ ih =>
    obtain ⟨c', h1, h2⟩ := hb.total p (Spec.nonce n) key (nonce_length _) hk
    rw [hc] at h1
    cases h1
    simp only [List.map_cons, size_cons, ih, Spec.encrypted, List.length_cons, List.length_append, h2, List.length_nil]
    omega

theorem flagged_map (l : Bool) (ps : List Bytes) : (flagged l ps).map Prod.snd = ps := by
  induction ps with
  | nil => rfl
  | cons p ps ih => simp [flagged, ih]

theorem appPackets_wire (t : Nat) (ms : List Bytes) :
    size (appPackets t ms) + 18 * (appPackets t ms).length = callBytes ms := by
  unfold appPackets callBytes
  split
  · have e16 : ∀ n, (le16 n).length = 2 := fun _ => rfl
    have e32 : ∀ n, (le32 n).length = 4 := fun _ => rfl
    have : ∀ l : List Bytes, ((l.map fun m => le16 m.length ++ m).flatten).length = (l.map fun m => m.length + 2).sum := by
      intro l
      induction l with
      | nil => rfl
      | cons m l ih =>
        simp only [List.map_cons, List.flatten_cons, List.length_append, List.sum_cons, ih, e16]
        omega
    simp only [size, multiApp, List.map_cons, List.map_nil, List.sum_cons, List.sum_nil, List.length_append, this, List.length_cons,
      List.length_nil, e32, e16]
    omega
  · rename_i h
    clear h
    induction ms with
    | nil => rfl
    | cons m ms ih =>
      simp only [List.map_cons, size_cons, List.length_cons, List.sum_cons, app, List.length_append, le32, List.length_nil] at ih ⊢
      omega

theorem packets_size (c : Clock) (calls : List AppCall) :
    size ((packetsOf c calls).map Prod.snd) + 18 * (packetsOf c calls).length = wireBytes calls := by
  induction calls with
  | nil => rfl
  | cons x calls ih =>
    have := appPackets_wire (c.now x.tick) x.msgs
    simp only [packetsOf_cons, List.map_append, size_append, List.length_append, flagged_map, flagged_length, wireBytes,
      List.map_cons, List.sum_cons] at ih ⊢
    omega

/-! ### Runs of programs that are followed by others -/

namespace Spec.Net

variable {α β γ : Type} {la lb : List (Bool × List Bytes)}

/-- A run to the end of a program followed by another one is a run of the first and a run of the second. -/
theorem Logged.split {x y : Net γ β} (h : Logged x la lb y) {p : IT appSig α} {g : α → IT appSig γ} (hx : x.a = p.bind g)
    {r : γ} (hy : y.a = .ret r) : ∃ v la1 lb1 la2 lb2 z, la = la1 ++ la2 ∧ lb = lb1 ++ lb2 ∧
      Logged ⟨p, x.b, x.ab, x.ba⟩ la1 lb1 z ∧ z.a = .ret v ∧ Logged ⟨g v, z.b, z.ab, z.ba⟩ la2 lb2 y := by
  induction h generalizing p with
  | refl x =>
    rw [hx] at hy
    cases p with
    | ret v =>
      refine ⟨v, [], [], [], [], ⟨.ret v, x.b, x.ab, x.ba⟩, rfl, rfl, .refl _, rfl, ?_⟩
      rw [← show x.a = g v from hx]
      exact .refl _
    | op e k => cases hy
  | @aWrite b ab ba z la lb ms l k h ih =>
    cases p with
    | ret v =>
      refine ⟨v, [], [], _, _, ⟨.ret v, b, ab, ba⟩, rfl, rfl, .refl _, rfl, ?_⟩
      rw [← show _ = g v from hx]
      exact .aWrite ms l k h
    | op e k' =>
      cases hx
      obtain ⟨v, la1, lb1, la2, lb2, z, rfl, rfl, h1, h2, h3⟩ := ih (p := k' (.ok ())) rfl hy
      exact ⟨v, (l, ms) :: la1, lb1, la2, lb2, z, rfl, rfl, .aWrite ms l k' h1, h2, h3⟩
  | @aRead b ab ba z la lb m k h ih =>
    cases p with
    | ret v =>
      refine ⟨v, [], [], _, _, ⟨.ret v, b, ab, m :: ba⟩, rfl, rfl, .refl _, rfl, ?_⟩
      rw [← show _ = g v from hx]
      exact .aRead m k h
    | op e k' =>
      cases hx
      obtain ⟨v, la1, lb1, la2, lb2, z, rfl, rfl, h1, h2, h3⟩ := ih (p := k' (.ok m)) rfl hy
      exact ⟨v, la1, lb1, la2, lb2, z, rfl, rfl, .aRead m k' h1, h2, h3⟩
  | bWrite ms l k _ ih =>
    obtain ⟨v, la1, lb1, la2, lb2, z, rfl, rfl, h1, h2, h3⟩ := ih hx hy
    exact ⟨v, la1, (l, ms) :: lb1, la2, lb2, z, rfl, rfl, .bWrite ms l k h1, h2, h3⟩
  | bRead m k _ ih =>
    obtain ⟨v, la1, lb1, la2, lb2, z, rfl, rfl, h1, h2, h3⟩ := ih hx hy
    exact ⟨v, la1, lb1, la2, lb2, z, rfl, rfl, .bRead m k h1, h2, h3⟩

/-- What a program does is determined by what it reads. -/
theorem Logged.moves {x y : Net α β} (h : Logged x la lb y) {tr : List (Ev appSig)} {v v' : α} (hp : Perf x.a tr (.ret v))
    {q out rest more : List Bytes} (hm : Moves tr q out []) (hq : q ++ rest = x.ba ++ (messages lb ++ more)) (hy : y.a = .ret v') :
    v = v' ∧ messages la = out ∧ rest = y.ba ++ more := by
  induction h generalizing tr q out with
  | refl x =>
    rw [hy] at hp
    cases hp
    cases hm
    simpa [messages] using hq
  | @aWrite b ab ba z la lb ms l k h ih =>
    cases hp with
    | cons e k r hp =>
      cases hm with
      | write ms l hm =>
        obtain ⟨h1, h2, h3⟩ := ih hp hm hq hy
        exact ⟨h1, by rw [messages_cons, h2], h3⟩
  | @aRead b ab ba z la lb m k h ih =>
    cases hp with
    | cons e k r hp =>
      cases hm with
      | read m' hm =>
        rw [List.cons_append, List.cons_append, List.cons.injEq] at hq
        obtain ⟨rfl, hq⟩ := hq
        exact ih hp hm hq hy
  | bWrite ms l k _ ih => exact ih hp hm (by rw [hq, messages_cons]; simp only [List.append_assoc]) hy
  | bRead m k _ ih => exact ih hp hm hq hy

/-- A run of a program is one with a `MitmChannel` between it and the channel, and the counters count. -/
theorem Logged.mitm {x y : Net α β} (h : Logged x la lb y) (clk : Nat → Nat) (s : MitmSt) (i : Nat)
    (f : α × MitmSt → IT mitmSig γ) :
    ∃ s' j, Logged ⟨quiet clk ((Mitm.run x.a s).bind f) i, x.b, x.ab, x.ba⟩ la lb
        ⟨quiet clk ((Mitm.run y.a s').bind f) j, y.b, y.ab, y.ba⟩ ∧
      s'.counterWrite = s.counterWrite + size (messages la) ∧
      s'.counterRead + size y.ba = s.counterRead + size x.ba + size (messages lb) := by
  induction h generalizing s i with
  | refl x => exact ⟨s, i, .refl _, rfl, rfl⟩
  | @aWrite b ab ba z la lb ms l k h ih =>
    obtain ⟨t0, j, hj⟩ := mute_write ms { s with counterWrite := s.counterWrite + (ms.map List.length).sum } clk i
    obtain ⟨s', j', h1, h2, h3⟩ := ih { s with counterWrite := s.counterWrite + (ms.map List.length).sum, time0 := t0 } j
    refine ⟨s', j', ?_, ?_, h3⟩
    · simp only [Mitm.run]
      rw [IT.bind_assoc, write_eq]
      refine .aWrite ms l _ ?_
      dsimp only at hj ⊢
      erw [hj]
      exact h1
    · rw [h2, messages_cons, size_append]
      simp only [size]
      omega
  | @aRead b ab ba z la lb m k h ih =>
    obtain ⟨t0, j, hj⟩ := mute_read m { s with counterRead := s.counterRead + m.length } clk i
    obtain ⟨s', j', h1, h2, h3⟩ := ih { s with counterRead := s.counterRead + m.length, time0 := t0 } j
    refine ⟨s', j', ?_, h2, ?_⟩
    · simp only [Mitm.run]
      rw [IT.bind_assoc, read_eq]
      refine .aRead m _ ?_
      dsimp only at hj ⊢
      erw [IT.bind_assoc, hj]
      exact h1
    · rw [h3, size_cons]
      simp only
      omega
  | bWrite ms l k h ih =>
    obtain ⟨s', j', h1, h2, h3⟩ := ih s i
    refine ⟨s', j', .bWrite ms l k h1, h2, ?_⟩
    rw [h3, messages_cons, size_append, size_append]
    simp only
    omega
  | bRead m k h ih =>
    obtain ⟨s', j', h1, h2, h3⟩ := ih s i
    exact ⟨s', j', .bRead m k h1, h2, h3⟩

end Spec.Net

end Salt
