import Verif.Spec.StreamEnd
import Verif.Props.Framing

/-!
C128: what `read` of the two byte channels does with any stream of bytes.
-/

set_option linter.unusedSimpArgs false

namespace Salt.Props

open Salt Salt.Spec SocketChannel

theorem leNat_lt4 (b : Bytes) (h : b.length = 4) : leNat b < 2 ^ 32 := by
  have := leNat_lt b
  rw [h] at this
  simpa using this

/-- Every stream starts with one of the parts. -/
theorem starts_total (d : Bytes) : ∃ p rest, Starts d p rest := by
  by_cases h4 : d.length < 4
  · let b := d ++ List.replicate (4 - d.length) (0 : UInt8)
    have hb : b.length = 4 := by simp [b]; omega
    have hlt : leNat b < 2 ^ 31 := by
      have h3 : b = b.take 3 ++ [0] := by
        have hl : b.drop 3 = [0] := by
          simp only [b, List.drop_append, List.drop_of_length_le (show d.length ≤ 3 by omega), List.nil_append,
            List.drop_replicate]
          rw [show 4 - d.length - (3 - d.length) = 1 by omega]
          rfl
        rw [← hl, List.take_append_drop]
      have h5 : leNat b = leNat (b.take 3) := by
        refine (congrArg leNat h3).trans ?_
        rw [leNat_append]
        simp [leNat]
      rw [h5]
      have := leNat_lt (b.take 3)
      rw [List.length_take, hb] at this
      simp at this
      omega
    refine ⟨.cut, [], .cut d (List.replicate (leNat b) 0)
      (List.replicate (4 - d.length) 0 ++ List.replicate (leNat b) 0) (by simpa using hlt) ?_ ?_⟩
    · rw [← List.append_assoc]
      unfold frame
      rw [List.length_replicate]
      have := leBytes_leNat b
      rw [hb] at this
      rw [this]
    · simp
      omega
  · have ht : (d.take 4).length = 4 := by simp; omega
    have hle := leBytes_leNat (d.take 4)
    rw [ht] at hle
    by_cases hn : leNat (d.take 4) < 2 ^ 31
    · by_cases hl : leNat (d.take 4) ≤ (d.drop 4).length
      · refine ⟨.msg ((d.drop 4).take (leNat (d.take 4))), (d.drop 4).drop (leNat (d.take 4)), ?_⟩
        have h := Starts.msg ((d.drop 4).take (leNat (d.take 4))) ((d.drop 4).drop (leNat (d.take 4)))
          (by rw [List.length_take]; omega)
        have e : frame ((d.drop 4).take (leNat (d.take 4))) ++ (d.drop 4).drop (leNat (d.take 4)) = d := by
          unfold frame
          rw [List.length_take, Nat.min_eq_left hl, hle, List.append_assoc, List.take_append_drop,
            List.take_append_drop]
        rwa [e] at h
      · refine ⟨.cut, [], .cut d (d.drop 4 ++ List.replicate (leNat (d.take 4) - (d.drop 4).length) 0)
          (List.replicate (leNat (d.take 4) - (d.drop 4).length) 0) ?_ ?_ ?_⟩
        · rw [List.length_append, List.length_replicate]; omega
        · unfold frame
          rw [List.length_append, List.length_replicate, Nat.add_sub_cancel' (by omega), hle, ← List.append_assoc,
            List.take_append_drop]
        · intro h
          have := congrArg List.length h
          rw [List.length_replicate] at this
          simp only [List.length_nil] at this
          omega
    · refine ⟨.negative, d.drop 4, ?_⟩
      have h := Starts.negative (leNat (d.take 4)) (d.drop 4) (by omega) (leNat_lt4 _ ht)
      rwa [hle, List.take_append_drop] at h

/-- `n` parts can be taken from every stream. -/
theorem parts_total (n : Nat) (d : Bytes) : ∃ ps d', Parts d ps d' ∧ ps.length = n := by
  induction n generalizing d with
  | zero => exact ⟨[], d, .nil d, rfl⟩
  | succ n ih =>
    obtain ⟨p, rest, hp⟩ := starts_total d
    obtain ⟨ps, d', hps, hl⟩ := ih rest
    exact ⟨p :: ps, d', .cons hp hps, by simp [hl]⟩

/-- The start of a stream as its readers see it. -/
theorem starts_cases {d : Bytes} {p : Part} {rest : Bytes} (h : Starts d p rest) :
    (d.length < 4 ∧ p = .cut ∧ rest = []) ∨
    (4 ≤ d.length ∧ unpackI (d.take 4) < 0 ∧ p = .negative ∧ rest = d.drop 4) ∨
    (4 ≤ d.length ∧ 0 ≤ unpackI (d.take 4) ∧
      ((unpackI (d.take 4)).toNat ≤ (d.drop 4).length ∧ p = .msg ((d.drop 4).take (unpackI (d.take 4)).toNat) ∧
        rest = (d.drop 4).drop (unpackI (d.take 4)).toNat ∨
       (d.drop 4).length < (unpackI (d.take 4)).toNat ∧ p = .cut ∧ rest = [])) := by
  cases h with
  | msg m _ hm =>
    right; right
    rw [frame_take4, frame_drop4, unpackI_leBytes hm]
    refine ⟨by simp [frame], by omega, .inl ?_⟩
    simp
  | cut _ m missing hm he hne =>
    by_cases h4 : d.length < 4
    · exact .inl ⟨h4, rfl, rfl⟩
    · right; right
      have hl : missing.length ≠ 0 := fun h => hne (List.length_eq_zero_iff.mp h)
      have ht : d.take 4 = leBytes 4 m.length := by
        have := frame_take4 m []
        rw [List.append_nil, ← he, List.take_append_of_le_length (by omega)] at this
        exact this
      have hlen := congrArg List.length he
      simp only [frame, List.length_append, leBytes_length] at hlen
      rw [ht, unpackI_leBytes hm]
      refine ⟨by omega, by omega, .inr ⟨?_, rfl, rfl⟩⟩
      rw [List.length_drop]
      omega
  | negative n _ h1 h2 =>
    right; left
    have ht : (leBytes 4 n ++ rest).take 4 = leBytes 4 n := by
      rw [List.take_append_of_le_length (by simp)]
      exact List.take_of_length_le (by simp)
    refine ⟨by simp, ?_, rfl, ?_⟩
    · rw [ht]
      unfold unpackI
      rw [leNat_leBytes_of_lt (by omega), if_neg (by omega)]
      omega
    · rw [List.drop_append_of_le_length (by simp)]
      simp [List.drop_of_length_le]

/-- A part as `AsyncioChannel.read` reports it. -/
def streamResult : Part → Except Err Bytes
  | .msg m => .ok m
  | .cut => .error .incompleteReadError
  | .negative => .error .valueError

/-- A part as `SocketChannel.read_sync` reports it. -/
def sockResult : Part → Except Err Bytes
  | .msg m => .ok m
  | .cut => .error .comException
  | .negative => .error .comException

/-- One `read` on any stream. -/
theorem aio_read_any {d : Bytes} {p : Part} {rest : Bytes} (h : Starts d p rest)
    (st st' : AsyncioChannel.ReaderSt) (hst : unread st = d) (tr tr' : List (Ev stream)) (b : Except Err Bytes × Unit)
    (hx : Exec (AsyncioChannel.read ()) tr b) (hr : Reads (tr ++ tr') st st') :
    b = (streamResult p, ()) ∧ ∃ st1, Reads tr' st1 st' ∧ unread st1 = rest := by
  unfold unread at hst ⊢
  have h4 : AsyncioChannel.readexactly 4 st = AsyncioChannel.readexactly.go st.buffer st.segs 4 := by
    simp [AsyncioChannel.readexactly]
  have g4 := readexactly_go 4 st.segs st.buffer
  rw [hst] at g4
  simp only [AsyncioChannel.read, Py.bind_run, Py.call_run, IT.op_bind, IT.ret_bind, Exec_op] at hx
  obtain ⟨r1, tr1, rfl, hx⟩ := hx
  cases hr with
  | read _ _ _ _ hr =>
    rcases starts_cases h with ⟨hl, rfl, rfl⟩ | ⟨hl, hn, rfl, rfl⟩ | ⟨hl, hn, hc⟩
    · rw [if_neg (by omega)] at g4
      rw [h4, g4] at hx hr
      simp at hx
      obtain ⟨rfl, rfl⟩ := hx
      exact ⟨rfl, _, by simpa using hr, rfl⟩
    · rw [if_pos hl] at g4
      obtain ⟨st2, e4, hst2⟩ := g4
      rw [h4, e4] at hx hr
      simp only [Exec_op] at hx
      obtain ⟨r2, tr2, rfl, hx⟩ := hx
      cases hr with
      | read _ _ _ _ hr =>
        have hneg : AsyncioChannel.readexactly (unpackI (d.take 4)) st2 = (.error .valueError, st2) := by
          simp [AsyncioChannel.readexactly, hn]
        rw [hneg] at hx hr
        simp at hx
        obtain ⟨rfl, rfl⟩ := hx
        exact ⟨rfl, st2, by simpa using hr, hst2⟩
    · rw [if_pos hl] at g4
      obtain ⟨st2, e4, hst2⟩ := g4
      rw [h4, e4] at hx hr
      simp only [Exec_op] at hx
      obtain ⟨r2, tr2, rfl, hx⟩ := hx
      cases hr with
      | read _ _ _ _ hr =>
        have hgo : AsyncioChannel.readexactly (unpackI (d.take 4)) st2 =
            AsyncioChannel.readexactly.go st2.buffer st2.segs (unpackI (d.take 4)).toNat := by
          simp [AsyncioChannel.readexactly, show ¬ unpackI (d.take 4) < 0 by omega]
        have gm := readexactly_go (unpackI (d.take 4)).toNat st2.segs st2.buffer
        rw [hst2] at gm
        rcases hc with ⟨hle, rfl, rfl⟩ | ⟨hlt, rfl, rfl⟩
        · rw [if_pos hle] at gm
          obtain ⟨st3, e5, hst3⟩ := gm
          rw [hgo, e5] at hx hr
          simp at hx
          obtain ⟨rfl, rfl⟩ := hx
          exact ⟨rfl, st3, by simpa using hr, hst3⟩
        · rw [if_neg (by omega)] at gm
          rw [hgo, gm] at hx hr
          simp at hx
          obtain ⟨rfl, rfl⟩ := hx
          exact ⟨rfl, _, by simpa using hr, rfl⟩

/-- One `read_sync` on any stream. -/
theorem sock_read_any {d : Bytes} {p : Part} {rest : Bytes} (h : Starts d p rest) (tr : List (Ev sock))
    (b : Except Err Bytes × Unit) (s' : Bytes) (hx : Exec (readSync ()) tr b) (hc : Consumes tr d s') :
    b = (sockResult p, ()) ∧ s' = rest := by
  rw [readSync_run, Exec_bind] at hx
  obtain ⟨tr1, ⟨r1, u1⟩, tr2, rfl, h1, h2⟩ := hx
  obtain ⟨s1, hc1, hc2⟩ := Consumes_append hc
  have k1 := recvall_stream 4 [] _ _ h1 _ _ hc1
  rcases starts_cases h with ⟨hl, rfl, rfl⟩ | ⟨hl, hn, rfl, rfl⟩ | ⟨hl, hn, hcs⟩
  · rw [if_neg (by omega)] at k1
    obtain ⟨k1, rfl⟩ := k1
    simp only [Prod.mk.injEq] at k1
    obtain ⟨rfl, _⟩ := k1
    simp at h2
    obtain ⟨rfl, rfl⟩ := h2
    cases hc2
    exact ⟨rfl, rfl⟩
  · rw [if_pos hl] at k1
    obtain ⟨k1, rfl⟩ := k1
    simp only [Prod.mk.injEq] at k1
    obtain ⟨rfl, _⟩ := k1
    simp [hn] at h2
    obtain ⟨rfl, rfl⟩ := h2
    cases hc2
    exact ⟨rfl, rfl⟩
  · rw [if_pos hl] at k1
    obtain ⟨k1, rfl⟩ := k1
    simp only [Prod.mk.injEq] at k1
    obtain ⟨rfl, _⟩ := k1
    simp only [List.nil_append, Bool.true_eq_false, if_false, if_neg (show ¬ unpackI (d.take 4) < 0 by omega),
      Exec_bind] at h2
    obtain ⟨tr3, ⟨r3, u3⟩, tr4, rfl, h3, h5⟩ := h2
    obtain ⟨s2, hc3, hc4⟩ := Consumes_append hc2
    have k3 := recvall_stream _ [] _ _ h3 _ _ hc3
    rcases hcs with ⟨hle, rfl, rfl⟩ | ⟨hlt, rfl, rfl⟩
    · rw [if_pos hle] at k3
      obtain ⟨k3, rfl⟩ := k3
      simp only [Prod.mk.injEq] at k3
      obtain ⟨rfl, _⟩ := k3
      simp at h5
      obtain ⟨rfl, rfl⟩ := h5
      cases hc4
      exact ⟨rfl, rfl⟩
    · rw [if_neg (by omega)] at k3
      obtain ⟨k3, rfl⟩ := k3
      simp only [Prod.mk.injEq] at k3
      obtain ⟨rfl, _⟩ := k3
      simp at h5
      obtain ⟨rfl, rfl⟩ := h5
      cases hc4
      exact ⟨rfl, rfl⟩

/-- **C128, asyncio.** From any stream of bytes, delivered in any pieces, any number of calls of `AsyncioChannel.read`
returns the messages the stream consists of, one after the other; a call that finds a stream that ends within a message
raises IncompleteReadError, a call that finds a negative length raises ValueError and the next call goes on after the
length. No call returns a part of a message. -/
theorem C128_reads {d : Bytes} {ps : List Part} {rest : Bytes} (h : Parts d ps rest)
    (st st' : AsyncioChannel.ReaderSt) (hst : unread st = d) (tr : List (Ev stream)) (r : Except Err (List (Except Err Bytes)))
    (hx : Call (streamReadMany ps.length) () tr r ()) (hr : Reads tr st st') :
    r = .ok (ps.map streamResult) ∧ unread st' = rest := by
  induction h generalizing st tr r with
  | nil =>
    simp [Call, streamReadMany] at hx
    obtain ⟨rfl, rfl⟩ := hx
    cases hr
    exact ⟨rfl, hst⟩
  | cons hp _ ih =>
    simp only [Call, streamReadMany, List.length_cons, Exec_bind] at hx
    obtain ⟨tr1, ⟨r1, u1⟩, tr2, rfl, h1, tr3, ⟨r3, u3⟩, tr4, rfl, h3, h4⟩ := hx
    obtain ⟨hb, st1, hr2, hst1⟩ := aio_read_any hp st st' hst tr1 _ _ h1 hr
    have htr4 : tr4 = [] := by cases r3 <;> simp at h4 <;> exact h4.1
    subst htr4
    obtain ⟨rfl, hs⟩ := ih st1 hst1 tr3 r3 h3 (by simpa using hr2)
    simp only [Prod.mk.injEq, and_true] at hb
    subst hb
    simp at h4
    exact ⟨by simp [← h4], hs⟩

/-- **C128, sockets.** `SocketChannel.read_sync` returns the same messages in the same places, and raises ComException in
the other cases. -/
theorem C128_socket_reads {d : Bytes} {ps : List Part} {rest : Bytes} (h : Parts d ps rest) (s' : Bytes)
    (tr : List (Ev sock)) (r : Except Err (List (Except Err Bytes)))
    (hx : Call (readMany ps.length) () tr r ()) (hc : Consumes tr d s') :
    r = .ok (ps.map sockResult) ∧ s' = rest := by
  induction h generalizing tr r with
  | nil =>
    simp [Call, readMany] at hx
    obtain ⟨rfl, rfl⟩ := hx
    cases hc
    exact ⟨rfl, rfl⟩
  | cons hp _ ih =>
    simp only [Call, readMany, List.length_cons, Exec_bind] at hx
    obtain ⟨tr1, ⟨r1, u1⟩, tr2, rfl, h1, tr3, ⟨r3, u3⟩, tr4, rfl, h3, h4⟩ := hx
    obtain ⟨s1, hc1, hc2⟩ := Consumes_append hc
    obtain ⟨hb, rfl⟩ := sock_read_any hp tr1 _ _ h1 hc1
    have htr4 : tr4 = [] := by cases r3 <;> simp at h4 <;> exact h4.1
    subst htr4
    obtain ⟨rfl, hs⟩ := ih tr3 r3 h3 (by simpa using hc2)
    simp only [Prod.mk.injEq, and_true] at hb
    subst hb
    simp at h4
    exact ⟨by simp [← h4], hs⟩

/-- What one would like to have: whatever bytes arrive, `AsyncioChannel.read` raises nothing but ComException, as
`SocketChannel` does (C16). -/
def C128_claim : Prop :=
  ∀ (st st' : AsyncioChannel.ReaderSt) tr r, Call AsyncioChannel.read () tr r () → Reads tr st st' →
    ∀ e, r = .error e → e = .comException

/-- **C128, what holds.** A call of `AsyncioChannel.read` and one of `SocketChannel.read_sync`, each on a connection that
delivers the same bytes, in any pieces, and then ends: both return the same message, and the same bytes are left; or the
first raises IncompleteReadError or ValueError and the second ComException. A message that is returned is complete: it is
what follows its length. -/
theorem C128_reads_partial (st st' : AsyncioChannel.ReaderSt) (s' : Bytes) (trA : List (Ev stream)) (trS : List (Ev sock))
    (rA rS : Except Err Bytes) (hA : Call AsyncioChannel.read () trA rA ()) (hrA : Reads trA st st')
    (hS : Call readSync () trS rS ()) (hrS : Consumes trS (unread st) s') :
    unread st' = s' ∧
    ((∃ m, rA = .ok m ∧ rS = .ok m ∧ m.length < 2 ^ 31 ∧ unread st = frame m ++ s') ∨
     ((rA = .error .incompleteReadError ∧ s' = [] ∨ rA = .error .valueError) ∧ rS = .error .comException ∧
       ∀ m rest, m.length < 2 ^ 31 → unread st ≠ frame m ++ rest)) := by
  obtain ⟨p, rest, hp⟩ := starts_total (unread st)
  obtain ⟨hb, st1, hr2, hst1⟩ := aio_read_any hp st st' rfl trA [] _ hA (by simpa using hrA)
  cases hr2
  obtain ⟨hb', rfl⟩ := sock_read_any hp trS _ s' hS hrS
  simp only [Prod.mk.injEq, and_true] at hb hb'
  subst hb hb'
  refine ⟨hst1, ?_⟩
  -- a stream that starts otherwise does not start with a message
  have key : ∀ q r1, Starts (unread st) q r1 → q = p := by
    intro q r1 hq
    have e1 := starts_cases hp
    have e2 := starts_cases hq
    rcases e1 with ⟨a, rfl, _⟩ | ⟨a, b, rfl, _⟩ | ⟨a, b, ⟨c, rfl, _⟩ | ⟨c, rfl, _⟩⟩ <;>
    rcases e2 with ⟨a', rfl, _⟩ | ⟨a', b', rfl, _⟩ | ⟨a', b', ⟨c', rfl, _⟩ | ⟨c', rfl, _⟩⟩ <;>
    first | rfl | omega
  have no : (∀ m, p ≠ .msg m) → ∀ m rest, m.length < 2 ^ 31 → unread st ≠ frame m ++ rest := by
    intro hne m rest hm he
    exact hne m (key _ _ (he ▸ Starts.msg m rest hm)).symm
  cases p with
  | msg m =>
    left
    refine ⟨m, rfl, rfl, ?_⟩
    generalize hd : unread st = d at hp
    cases hp with
    | msg _ _ hm => exact ⟨hm, rfl⟩
  | cut =>
    right
    refine ⟨.inl ⟨rfl, ?_⟩, rfl, no (by simp)⟩
    generalize hd : unread st = d at hp
    cases hp
    rfl
  | negative => exact .inr ⟨.inr rfl, rfl, no (by simp)⟩

/-- A connection that ends within a length. -/
theorem C128_violated : ¬ C128_claim := by
  intro h
  have := h ⟨[], [[1, 0]]⟩ ⟨[], []⟩ [⟨.readexactly 4, .error .incompleteReadError⟩] (.error .incompleteReadError)
    (by simp [Call, AsyncioChannel.read, Py.bind_run]) (.read 4 ⟨[], [[1, 0]]⟩ _ _ (.nil _)) _ rfl
  cases this

/-- A peer that sends a negative length makes `AsyncioChannel.read` raise ValueError. -/
theorem C128_violated_negative : ∃ (st st' : AsyncioChannel.ReaderSt) (tr : List (Ev stream)),
    Call AsyncioChannel.read () tr (.error .valueError) () ∧ Reads tr st st' :=
  ⟨⟨[], [[0, 0, 0, 128, 7]]⟩, ⟨[7], []⟩,
    [⟨.readexactly 4, .ok [0, 0, 0, 128]⟩, ⟨.readexactly (-2 ^ 31), .error .valueError⟩],
    by simp [Call, AsyncioChannel.read, Py.bind_run, unpackI, leNat],
    .read 4 ⟨[], [[0, 0, 0, 128, 7]]⟩ _ _ (.read (-2 ^ 31) ⟨[7], []⟩ _ _ (.nil _))⟩

/-- A message, a negative length, and the beginning of a message. -/
example : Parts ([1, 0, 0, 0, 7] ++ ([0, 0, 0, 128] ++ [2, 0, 0, 0, 5])) [.msg [7], .negative, .cut, .cut] [] := by
  have e : leBytes 4 (2 ^ 31) = [0, 0, 0, 128] := by simp [leBytes]
  rw [← e]
  exact .cons (.msg [7] _ (by simp)) (.cons (.negative (2 ^ 31) [2, 0, 0, 0, 5] (by simp) (by simp))
    (.cons (.cut [2, 0, 0, 0, 5] [5, 6] [6] (by simp) rfl (by simp))
      (.cons (.cut [] [] [0, 0, 0, 0] (by simp) rfl (by simp)) (.nil _))))

/-- What the two channels make of it. -/
example : ([.msg [7], .negative, .cut, .cut] : List Part).map streamResult =
      [.ok [7], .error .valueError, .error .incompleteReadError, .error .incompleteReadError] ∧
    ([.msg [7], .negative, .cut, .cut] : List Part).map sockResult =
      [.ok [7], .error .comException, .error .comException, .error .comException] := ⟨rfl, rfl⟩

end Salt.Props
