import Verif.Spec.Framing
import Verif.Lemmas.Prog
import Verif.Lemmas.Bytes

/-!
# Properties of socket and stream framing (C15-C18)
-/

set_option linter.unusedSimpArgs false

namespace Salt.Props

open Salt Salt.Spec SocketChannel

/-! ### `recvall` -/

theorem Consumes_append {tr1 tr2 : List (Ev sock)} {s s' : Bytes}
    (h : Consumes (tr1 ++ tr2) s s') : ∃ m, Consumes tr1 s m ∧ Consumes tr2 m s' := by
  induction tr1 generalizing s with
  | nil => exact ⟨s, .nil s, h⟩
  | cons e tr1 ih =>
    cases h with
    | recv n chunk rest _ _ h1 h2 h3 =>
      obtain ⟨m, hm1, hm2⟩ := ih h3
      exact ⟨m, .recv n chunk rest m tr1 h1 h2 hm1, hm2⟩
    | eof n _ _ h3 =>
      obtain ⟨m, hm1, hm2⟩ := ih h3
      exact ⟨m, .eof n m tr1 hm1, hm2⟩
    | send b _ _ r _ h3 =>
      obtain ⟨m, hm1, hm2⟩ := ih h3
      exact ⟨m, .send b _ m r tr1 hm1, hm2⟩

theorem recvall_zero (buf : Bytes) : recvall buf 0 = pure (buf, true) := by
  rw [recvall]; simp

theorem recvall_succ_run (buf : Bytes) (count : Nat) (hc : count ≠ 0) :
    recvall buf count () = .op (S := sock) (.recv count) fun
      | .error e => .ret (.error e, ())
      | .ok (newbuf : Bytes) =>
        if newbuf = [] then .ret (.ok (buf, false), ())
        else if newbuf.length ≤ count then recvall (buf ++ newbuf) (count - newbuf.length) ()
        else .ret (.error .valueError, ()) := by
  rw [recvall]
  simp only [hc, if_false, Py.bind_run, Py.call_run, IT.op_bind, IT.ret_bind]
  congr 1
  funext r
  cases r with
  | error e => rfl
  | ok nb =>
    dsimp only
    by_cases h1 : (show Bytes from nb) = []
    · rw [dif_pos h1, if_pos h1]; rfl
    · rw [dif_neg h1, if_neg h1]
      split <;> rfl

theorem recvall_stream (count : Nat) (buf : Bytes) :
    wp (recvall buf count ()) fun tr b => ∀ s s', Consumes tr s s' →
      (if count ≤ s.length then b = (.ok (buf ++ s.take count, true), ()) ∧ s' = s.drop count
       else b = (.ok (buf ++ s, false), ()) ∧ s' = []) := by
  induction count using Nat.strongRecOn generalizing buf with
  | _ count ih =>
    by_cases hc : count = 0
    · subst hc
      rw [recvall_zero]
      simp only [Py.pure_run, wp_ret]
      intro s s' h
      cases h
      simp
    · rw [recvall_succ_run _ _ hc, wp_op]
      intro r
      cases r with
      | error e =>
        simp only [wp_ret]
        intro s s' h; cases h
      | ok nb =>
        dsimp only
        by_cases h1 : (show Bytes from nb) = []
        · rw [if_pos h1]
          simp only [wp_ret]
          intro s s' h
          cases h with
          | recv _ _ _ _ _ hne => exact absurd h1 hne
          | eof _ _ _ h2 =>
            cases h2
            simp [hc]
        · rw [if_neg h1]
          have hpos : (show Bytes from nb).length ≠ 0 := fun hl => h1 (List.length_eq_zero_iff.mp hl)
          split
          · rename_i hle
            refine wp_mono _ (ih (count - (show Bytes from nb).length) (by omega) _) ?_
            intro tr b hb s s' h
            cases h with
            | recv _ _ rest _ _ hne hle' h2 =>
              have := hb rest s' h2
              simp only [List.length_append]
              have e1 : (count ≤ (show Bytes from nb).length + rest.length) ↔
                  (count - (show Bytes from nb).length ≤ rest.length) := by omega
              by_cases hcr : count - (show Bytes from nb).length ≤ rest.length
              · rw [if_pos hcr] at this
                rw [if_pos (e1.mpr hcr), this.1, this.2]
                refine ⟨?_, ?_⟩
                · rw [List.take_append, List.take_of_length_le (l := (show Bytes from nb)) hle,
                    List.append_assoc]
                · rw [List.drop_append, List.drop_of_length_le (l := (show Bytes from nb)) hle,
                    List.nil_append]
              · rw [if_neg hcr] at this
                rw [if_neg (fun hh => hcr (e1.mp hh)), this.1, this.2]
                exact ⟨by rw [List.append_assoc], rfl⟩
            | eof => exact absurd rfl h1
          · rename_i hgt
            simp only [wp_ret]
            intro s s' h
            cases h with
            | recv _ _ _ _ _ _ hle => exact absurd hle hgt
            | eof => exact absurd rfl h1

/-! ### `read_sync` on a reliable stream -/

theorem unpackI_leBytes {n : Nat} (h : n < 2 ^ 31) : unpackI (leBytes 4 n) = n := by
  unfold unpackI
  rw [leNat_leBytes_of_lt (by omega), if_pos h]

theorem frame_take4 (m rest : Bytes) : (frame m ++ rest).take 4 = leBytes 4 m.length := by
  unfold frame
  rw [List.append_assoc, List.take_append]
  simp [List.take_of_length_le]

theorem frame_drop4 (m rest : Bytes) : (frame m ++ rest).drop 4 = m ++ rest := by
  unfold frame
  rw [List.append_assoc, List.drop_append]
  simp [List.drop_of_length_le]

/-- `readSync` in terms of its two `recvall` calls. -/
theorem readSync_run : readSync () =
    (recvall [] 4 ()).bind fun
      | (.error _, _) => .ret (.error .comException, ())
      | (.ok (lenBuf, success), _) =>
        if success = false then .ret (.error .comException, ())
        else if unpackI lenBuf < 0 then .ret (.error .comException, ())
        else (recvall [] (unpackI lenBuf).toNat ()).bind fun
          | (.error _, _) => .ret (.error .comException, ())
          | (.ok (msg, success), _) =>
            if success = false then .ret (.error .comException, ()) else .ret (.ok msg, ()) := by
  unfold readSync Py.onError
  rw [Py.bind_run, IT.bind_assoc]
  congr 1
  funext ⟨r, u⟩
  cases r with
  | error e => rfl
  | ok p =>
    obtain ⟨lenBuf, success⟩ := p
    cases success with
    | false => rfl
    | true =>
      simp only [not_true_eq_false, if_false, Bool.true_eq_false]
      split
      · rfl
      · rw [Py.bind_run, IT.bind_assoc]
        congr 1
        funext ⟨r, u⟩
        cases r with
        | error e => rfl
        | ok p =>
          obtain ⟨msg, success⟩ := p
          cases success <;> rfl

theorem readSync_stream :
    wp (readSync ()) fun tr b => ∀ m rest s', m.length < 2 ^ 31 →
      Consumes tr (frame m ++ rest) s' → b = (.ok m, ()) ∧ s' = rest := by
  rw [readSync_run, wp_bind]
  refine wp_mono _ (recvall_stream 4 []) ?_
  rintro tr1 ⟨r, u⟩ h1
  have key : ∀ m rest s1, m.length < 2 ^ 31 → Consumes tr1 (frame m ++ rest) s1 →
      r = .ok (leBytes 4 m.length, true) ∧ s1 = m ++ rest := by
    intro m rest s1 _ hc
    have := h1 _ _ hc
    rw [if_pos (by simp [frame]), frame_take4, frame_drop4] at this
    exact ⟨by simpa using congrArg Prod.fst this.1, this.2⟩
  cases r with
  | error e =>
    simp only [wp_ret]
    intro m rest s' hm hc
    obtain ⟨s1, hc1, hc2⟩ := Consumes_append hc
    exact absurd (key _ _ _ hm hc1).1 (by simp)
  | ok p =>
    obtain ⟨lenBuf, success⟩ := p
    dsimp only
    split
    · rename_i hs
      simp only [wp_ret]
      intro m rest s' hm hc
      obtain ⟨s1, hc1, hc2⟩ := Consumes_append hc
      have := (key _ _ _ hm hc1).1
      simp [hs] at this
    · split
      · rename_i hneg
        simp only [wp_ret]
        intro m rest s' hm hc
        obtain ⟨s1, hc1, hc2⟩ := Consumes_append hc
        have := (key _ _ _ hm hc1).1
        simp only [Except.ok.injEq, Prod.mk.injEq] at this
        rw [this.1, unpackI_leBytes hm] at hneg
        omega
      · rw [wp_bind]
        refine wp_mono _ (recvall_stream _ []) ?_
        rintro tr2 ⟨r2, u2⟩ h2
        have key2 : ∀ m rest s', m.length < 2 ^ 31 → ∀ tr3,
            Consumes (tr1 ++ (tr2 ++ tr3)) (frame m ++ rest) s' →
            r2 = .ok (m, true) ∧ Consumes tr3 rest s' := by
          intro m rest s' hm tr3 hc
          obtain ⟨s1, hc1, hc2⟩ := Consumes_append hc
          obtain ⟨s2, hc2, hc3⟩ := Consumes_append hc2
          obtain ⟨hk, rfl⟩ := key _ _ _ hm hc1
          simp only [Except.ok.injEq, Prod.mk.injEq] at hk
          have := h2 _ _ hc2
          rw [hk.1, unpackI_leBytes hm, if_pos (by simp)] at this
          simp at this
          rw [this.2] at hc3
          exact ⟨this.1, hc3⟩
        cases r2 with
        | error e =>
          simp only [wp_ret]
          intro m rest s' hm hc
          have := (key2 _ _ _ hm [] hc).1
          simp at this
        | ok p =>
          obtain ⟨msg, success⟩ := p
          dsimp only
          split
          · rename_i hs
            simp only [wp_ret]
            intro m rest s' hm hc
            have := (key2 _ _ _ hm [] hc).1
            simp [hs] at this
          · simp only [wp_ret]
            intro m rest s' hm hc
            obtain ⟨h3, h4⟩ := key2 _ _ _ hm [] hc
            simp only [Except.ok.injEq, Prod.mk.injEq] at h3
            cases h4
            exact ⟨by rw [h3.1], rfl⟩

/-- **C15** (reading side).  From a stream holding the frames of `ms` followed by anything, any number of
`read_sync` calls equal to the number of messages return exactly these messages in order, however the
transport cuts the stream into `recv` results, and nothing beyond them is consumed. -/
theorem C15_reads (ms : List Bytes) (hms : ∀ m ∈ ms, m.length < 2 ^ 31) (rest s' : Bytes)
    (tr : List (Ev sock)) (r : Except Err (List (Except Err Bytes)))
    (hx : Call (readMany ms.length) () tr r ()) (hc : Consumes tr (frames ms ++ rest) s') :
    r = .ok (ms.map .ok) ∧ s' = rest := by
  induction ms generalizing tr r with
  | nil =>
    simp only [Call, readMany, List.length_nil, Py.pure_run, Exec_ret] at hx
    obtain ⟨rfl, hx⟩ := hx
    cases hc
    simp only [Prod.mk.injEq, and_true] at hx
    exact ⟨hx.symm, rfl⟩
  | cons m ms ih =>
    simp only [Call, readMany, List.length_cons, Exec_bind] at hx
    obtain ⟨tr1, ⟨r1, u1⟩, tr2, rfl, h1, tr3, ⟨r3, u3⟩, tr4, rfl, h3, h4⟩ := hx
    obtain ⟨s1, hc1, hc2⟩ := Consumes_append hc
    have hm := hms m (List.mem_cons_self ..)
    have := readSync_stream _ _ h1 m (frames ms ++ rest) s1 hm (by
      simpa [frames, List.append_assoc] using hc1)
    obtain ⟨hr1, rfl⟩ := this
    simp only [Prod.mk.injEq, and_true] at hr1
    have htr4 : tr4 = [] := by cases r3 <;> simp at h4 <;> exact h4.1
    subst htr4
    obtain ⟨hr3, hs⟩ := ih (fun x hx => hms x (List.mem_cons_of_mem _ hx)) tr3 r3 h3 (by
      simpa using hc2)
    subst hr3 hr1
    simp at h4
    exact ⟨by simp [← h4], hs⟩

/-! ### `write_sync` -/

theorem rawOf_eq (ms : List Bytes) (hms : ∀ m ∈ ms, m.length < 2 ^ 31) :
    rawOf ms = .ok (frames ms) := by
  induction ms with
  | nil => rfl
  | cons m ms ih =>
    have hm := hms m (List.mem_cons_self ..)
    simp [rawOf, frameMsg, packI, hm, ih (fun x hx => hms x (List.mem_cons_of_mem _ hx)), frames,
      frame, bind, Except.bind, pure, Except.pure, List.append_assoc]

theorem rawOf_error (ms : List Bytes) (hms : ∃ m ∈ ms, 2 ^ 31 ≤ m.length) :
    ∃ e, rawOf ms = .error e := by
  induction ms with
  | nil => simp at hms
  | cons m ms ih =>
    by_cases hm : m.length < 2 ^ 31
    · have hms' : ∃ m ∈ ms, 2 ^ 31 ≤ m.length := by
        obtain ⟨x, hx, hl⟩ := hms
        rcases List.mem_cons.mp hx with rfl | hx
        · omega
        · exact ⟨x, hx, hl⟩
      obtain ⟨e, he⟩ := ih hms'
      exact ⟨e, by simp [rawOf, frameMsg, packI, hm, he, bind, Except.bind]⟩
    · exact ⟨.structError, by simp [rawOf, frameMsg, packI, hm, bind, Except.bind]⟩

theorem writeSync_run (ms : List Bytes) : writeSync ms () =
    match rawOf ms with
    | .error _ => .ret (.error .comException, ())
    | .ok raw => .op (S := sock) (.sendall raw) fun
      | .error _ => .ret (.error .comException, ())
      | .ok _ => .ret (.ok (), ()) := by
  unfold writeSync Py.onError
  cases h : rawOf ms with
  | error e => simp [h, Py.bind_run]
  | ok raw =>
    simp only [h, Py.bind_run, Py.lift_run, IT.ret_bind, Py.call_run, IT.op_bind]
    congr 1
    funext r
    cases r <;> rfl

theorem writeMany_sent (groups : List (List Bytes))
    (hms : ∀ ms ∈ groups, ∀ m ∈ ms, m.length < 2 ^ 31) (tr : List (Ev sock))
    (hx : Call (writeMany groups) () tr (.ok ()) ()) : sent tr = frames groups.flatten := by
  induction groups generalizing tr with
  | nil =>
    simp [Call, writeMany] at hx
    subst hx; rfl
  | cons ms groups ih =>
    simp only [Call, writeMany, Py.bind_run, Exec_bind] at hx
    obtain ⟨tr1, ⟨r1, u1⟩, tr2, rfl, h1, h2⟩ := hx
    rw [writeSync_run, rawOf_eq ms (hms ms (List.mem_cons_self ..)), Exec_op] at h1
    obtain ⟨r, tr', rfl, h1⟩ := h1
    cases r with
    | error e =>
      simp only [Exec_ret, Prod.mk.injEq] at h1
      obtain ⟨rfl, rfl, _⟩ := h1
      simp at h2
    | ok u =>
      simp only [Exec_ret, Prod.mk.injEq] at h1
      obtain ⟨rfl, rfl, _⟩ := h1
      have := ih (fun x hx => hms x (List.mem_cons_of_mem _ hx)) tr2 h2
      simp [sent, this, frames]

/-- **C15.**  Whatever messages (each below 2^31 bytes) one side writes, in whatever groups per write
call, if the calls succeed and the other side reads the resulting byte stream in whatever pieces the
transport delivers, then as many `read_sync` calls return exactly these messages in order. -/
theorem C15_socket_framing (groups : List (List Bytes))
    (hms : ∀ ms ∈ groups, ∀ m ∈ ms, m.length < 2 ^ 31) (trW trR : List (Ev sock))
    (r : Except Err (List (Except Err Bytes))) (s' : Bytes)
    (hw : Call (writeMany groups) () trW (.ok ()) ())
    (hr : Call (readMany groups.flatten.length) () trR r ())
    (hc : Consumes trR (sent trW) s') :
    r = .ok (groups.flatten.map .ok) ∧ s' = [] := by
  rw [writeMany_sent groups hms trW hw] at hc
  refine C15_reads groups.flatten ?_ [] s' trR r hr (by simpa using hc)
  intro m hm
  obtain ⟨ms, h1, h2⟩ := List.mem_flatten.mp hm
  exact hms ms h1 m h2

/-- Two messages written in one call, read from a stream cut in the middle of a length prefix. -/
example : ∃ trR r, Call (readMany 2) () trR r () ∧ Consumes trR (frames [[7], [8, 9]]) [] ∧
    r = .ok [.ok [7], .ok [8, 9]] := by
  refine ⟨[⟨.recv 4, .ok [1, 0]⟩, ⟨.recv 2, .ok [0, 0]⟩, ⟨.recv 1, .ok [7]⟩,
    ⟨.recv 4, .ok [2, 0, 0, 0]⟩, ⟨.recv 2, .ok [8]⟩, ⟨.recv 1, .ok [9]⟩], _, ?_, ?_, rfl⟩
  · simp only [Call, readMany, readSync_run]
    simp [recvall_succ_run, recvall_zero, unpackI, leNat, readSync_run]
  · refine .recv 4 [1, 0] _ _ _ (by simp) (by simp) ?_
    refine .recv 2 [0, 0] _ _ _ (by simp) (by simp) ?_
    refine .recv 1 [7] _ _ _ (by simp) (by simp) ?_
    refine .recv 4 [2, 0, 0, 0] _ _ _ (by simp) (by simp) ?_
    refine .recv 2 [8] _ _ _ (by simp) (by simp) ?_
    refine .recv 1 [9] _ _ _ (by simp) (by simp) ?_
    exact .nil _

/-! ### C16 -/

theorem received_append (tr1 tr2 : List (Ev sock)) :
    received (tr1 ++ tr2) = received tr1 ++ received tr2 := by
  induction tr1 with
  | nil => rfl
  | cons e tr ih =>
    obtain ⟨op, res⟩ := e
    cases op with
    | recv n =>
      cases res with
      | error e => simpa [received] using ih
      | ok b =>
        show (show Bytes from b) ++ received (tr ++ tr2) = (show Bytes from b) ++ received tr ++ _
        rw [ih, List.append_assoc]
    | sendall b => cases res <;> simpa [received] using ih

/-- `recvall` against an arbitrary socket: success means exactly the requested number of bytes. -/
theorem recvall_any (count : Nat) (buf : Bytes) :
    wp (recvall buf count ()) fun tr b => RecvBounded tr →
      ∀ got, b.1 = .ok (got, true) → got = buf ++ received tr ∧ (received tr).length = count := by
  induction count using Nat.strongRecOn generalizing buf with
  | _ count ih =>
    by_cases hc : count = 0
    · subst hc
      rw [recvall_zero]
      simp [received]
    · rw [recvall_succ_run _ _ hc, wp_op]
      intro r
      cases r with
      | error e => simp
      | ok nb =>
        dsimp only
        by_cases h1 : (show Bytes from nb) = []
        · rw [if_pos h1]; simp
        · rw [if_neg h1]
          have hpos : (show Bytes from nb).length ≠ 0 := fun hl => h1 (List.length_eq_zero_iff.mp hl)
          split
          · rename_i hle
            refine wp_mono _ (ih (count - (show Bytes from nb).length) (by omega) _) ?_
            intro tr b hb hbd got hg
            obtain ⟨h2, h3⟩ := hb (fun n x hx => hbd n x (List.mem_cons_of_mem _ hx)) got hg
            have e : received (⟨.recv count, .ok nb⟩ :: tr) = (show Bytes from nb) ++ received tr := rfl
            rw [e, h2, List.length_append, h3]
            exact ⟨by rw [List.append_assoc], Nat.add_sub_cancel' hle⟩
          · simp

/-- **C16.**  Whatever the socket delivers, `read_sync` raises nothing but ComException, and if it
returns a message then the bytes it took from the socket are a non-negative length prefix followed by
exactly the message, of that length. -/
theorem C16_no_partial (tr : List (Ev sock)) (r : Except Err Bytes)
    (hx : Call readSync () tr r ()) (hb : RecvBounded tr) :
    (∀ e, r = .error e → e = .comException) ∧
    (∀ m, r = .ok m → m.length < 2 ^ 31 ∧ received tr = frame m) := by
  revert hb
  refine (Call_iff_wp readSync () (fun tr r _ => RecvBounded tr →
    (∀ e, r = .error e → e = .comException) ∧
    (∀ m, r = .ok m → m.length < 2 ^ 31 ∧ received tr = frame m))).mpr ?_ tr r () hx
  rw [readSync_run, wp_bind]
  refine wp_mono _ (recvall_any 4 []) ?_
  rintro tr1 ⟨r, u⟩ h1
  cases r with
  | error e => simp
  | ok p =>
    obtain ⟨lenBuf, success⟩ := p
    cases success with
    | false => simp
    | true =>
      simp only [Bool.true_eq_false, if_false]
      by_cases hneg : unpackI lenBuf < 0
      · simp [hneg]
      · rw [if_neg hneg, wp_bind]
        refine wp_mono _ (recvall_any _ []) ?_
        rintro tr2 ⟨r2, u2⟩ h2
        cases r2 with
        | error e => simp
        | ok p =>
          obtain ⟨msg, success⟩ := p
          cases success with
          | false => simp
          | true =>
            simp only [Bool.true_eq_false, if_false, wp_ret]
            intro hb
            refine ⟨by simp, ?_⟩
            intro m hm
            simp only [Except.ok.injEq] at hm
            subst hm
            simp only [List.append_nil] at hb ⊢
            obtain ⟨ha, hb1⟩ := h1 (fun n x hx => hb n x (by simp [hx])) lenBuf rfl
            obtain ⟨hc, hd⟩ := h2 (fun n x hx => hb n x (by simp [hx])) msg rfl
            simp only [List.nil_append] at ha hc
            have hl4 : lenBuf.length = 4 := by rw [ha]; exact hb1
            have hlt : leNat lenBuf < 2 ^ 32 := by
              have := leNat_lt lenBuf; rw [hl4] at this; simpa using this
            have hu : unpackI lenBuf = leNat lenBuf ∧ leNat lenBuf < 2 ^ 31 := by
              unfold unpackI at hneg ⊢
              split
              · exact ⟨rfl, by assumption⟩
              · rename_i h; rw [if_neg h] at hneg; omega
            have hml : msg.length = leNat lenBuf := by
              rw [hc, hd, hu.1]; simp
            refine ⟨by omega, ?_⟩
            rw [received_append, ← ha, ← hc, frame, hml, leBytes_leNat' hl4]

/-- A negative length prefix. -/
example : Call readSync () [⟨.recv 4, .ok [0, 0, 0, 0x80]⟩] (.error .comException) () := by
  simp [Call, readSync_run, recvall_succ_run, recvall_zero, unpackI, leNat]

/-- A connection closed in the middle of a message. -/
example : Call readSync () [⟨.recv 4, .ok [2, 0, 0, 0]⟩, ⟨.recv 2, .ok [5]⟩, ⟨.recv 1, .ok []⟩]
    (.error .comException) () := by
  simp [Call, readSync_run, recvall_succ_run, recvall_zero, unpackI, leNat]

/-! ### C17 -/

theorem frame_append_inj {m m' : Bytes} {r r' : Bytes} (hm : m.length < 2 ^ 31)
    (hm' : m'.length < 2 ^ 31) (h : frame m ++ r = frame m' ++ r') : m = m' ∧ r = r' := by
  have h4 := congrArg (List.take 4) h
  rw [frame_take4, frame_take4] at h4
  have hl := leBytes_inj (by omega) (by omega) h4
  have hd := congrArg (List.drop 4) h
  rw [frame_drop4, frame_drop4] at hd
  exact List.append_inj hd hl

/-- **C17** (unambiguity).  Two message sequences with the same byte stream are equal. -/
theorem C17_frames_injective (ms ms' : List Bytes) (hms : ∀ m ∈ ms, m.length < 2 ^ 31)
    (hms' : ∀ m ∈ ms', m.length < 2 ^ 31) (h : frames ms = frames ms') : ms = ms' := by
  induction ms generalizing ms' with
  | nil =>
    cases ms' with
    | nil => rfl
    | cons m' ms' =>
      have := congrArg List.length h
      simp [frames, frame] at this
      omega
  | cons m ms ih =>
    cases ms' with
    | nil =>
      have := congrArg List.length h
      simp [frames, frame] at this
    | cons m' ms' =>
      have h' : frame m ++ frames ms = frame m' ++ frames ms' := by simpa [frames] using h
      obtain ⟨h1, h2⟩ := frame_append_inj (hms _ (List.mem_cons_self ..))
        (hms' _ (List.mem_cons_self ..)) h'
      rw [h1, ih ms' (fun x hx => hms x (List.mem_cons_of_mem _ hx))
        (fun x hx => hms' x (List.mem_cons_of_mem _ hx)) h2]

/-- **C17** (grouping).  The bytes sent by successful write calls are the concatenated frames: they do
not depend on how the messages were grouped into calls. -/
theorem C17_grouping (groups : List (List Bytes)) (tr tr' : List (Ev sock))
    (hms : ∀ ms ∈ groups, ∀ m ∈ ms, m.length < 2 ^ 31)
    (h1 : Call (writeMany groups) () tr (.ok ()) ())
    (h2 : Call (writeMany [groups.flatten]) () tr' (.ok ()) ()) :
    sent tr = sent tr' ∧ sent tr = frames groups.flatten := by
  have e1 := writeMany_sent groups hms tr h1
  have e2 := writeMany_sent [groups.flatten] (by
    intro ms hm m hmm
    simp only [List.mem_singleton] at hm
    subst hm
    obtain ⟨x, hx, hy⟩ := List.mem_flatten.mp hmm
    exact hms x hx m hy) tr' h2
  simp only [List.flatten_cons, List.flatten_nil, List.append_nil] at e2
  exact ⟨e1.trans e2.symm, e1⟩

/-- **C17** (too long).  A write call with a message of 2^31 bytes or more raises ComException and does
nothing on the socket; otherwise it makes exactly one `sendall` call, and succeeds iff that does. -/
theorem C17_write_calls (ms : List Bytes) (tr : List (Ev sock)) (r : Except Err Unit)
    (hx : Call (writeSync ms) () tr r ()) :
    ((∃ m ∈ ms, 2 ^ 31 ≤ m.length) → tr = [] ∧ r = .error .comException) ∧
    ((∀ m ∈ ms, m.length < 2 ^ 31) → ∃ res, tr = [⟨.sendall (frames ms), res⟩] ∧
      r = (match res with | .ok _ => .ok () | .error _ => .error .comException)) := by
  unfold Call at hx
  rw [writeSync_run] at hx
  constructor
  · intro h
    obtain ⟨e, he⟩ := rawOf_error ms h
    rw [he] at hx
    simp at hx
    exact ⟨hx.1, hx.2.symm⟩
  · intro h
    rw [rawOf_eq ms h, Exec_op] at hx
    obtain ⟨res, tr', rfl, hx⟩ := hx
    refine ⟨res, ?_⟩
    cases res with
    | error e => simp at hx; exact ⟨by rw [hx.1], hx.2.symm⟩
    | ok u => simp at hx; exact ⟨by rw [hx.1], hx.2.symm⟩

/-- The hypotheses of C17 are met: grouping `[[1]], [[2], []]` as one call. -/
example : ∃ tr, Call (writeMany [[[1]], [[2], []]]) () tr (.ok ()) () := by
  refine ⟨[⟨.sendall (frames [[1]]), .ok ()⟩, ⟨.sendall (frames [[2], []]), .ok ()⟩], ?_⟩
  simp [Call, writeMany, Py.bind_run, writeSync_run, rawOf_eq]

/-! ### C18 -/

theorem writeAll_sent (ms : List Bytes) (hms : ∀ m ∈ ms, m.length < 2 ^ 31) :
    wp (AsyncioChannel.writeAll ms ()) fun tr b => b.1 = .ok () → streamSent tr = frames ms := by
  induction ms with
  | nil => simp [AsyncioChannel.writeAll, streamSent, frames]
  | cons m ms ih =>
    have hm := hms m (List.mem_cons_self ..)
    simp only [AsyncioChannel.writeAll, frameMsg, packI, hm, if_true, Py.bind_run, Py.lift_run,
      IT.ret_bind, Py.call_run, IT.op_bind, wp_op]
    intro r
    cases r with
    | error e => simp
    | ok u =>
      refine wp_mono _ (ih (fun x hx => hms x (List.mem_cons_of_mem _ hx))) ?_
      intro tr b hb hr
      simp [streamSent, hb hr, frames, frame]

theorem readexactly_go (n : Nat) (segs : List Bytes) (buf : Bytes) :
    if n ≤ (buf ++ segs.flatten).length then
      ∃ st, AsyncioChannel.readexactly.go buf segs n = (.ok ((buf ++ segs.flatten).take n), st) ∧
        st.buffer ++ st.segs.flatten = (buf ++ segs.flatten).drop n
    else AsyncioChannel.readexactly.go buf segs n = (.error .incompleteReadError, ⟨[], []⟩) := by
  induction segs generalizing buf with
  | nil =>
    simp only [List.flatten_nil, List.append_nil, AsyncioChannel.readexactly.go]
    split
    · exact ⟨_, rfl, by simp⟩
    · rfl
  | cons seg segs ih =>
    simp only [List.flatten_cons, AsyncioChannel.readexactly.go]
    by_cases hn : n ≤ buf.length
    · have : n ≤ (buf ++ (seg ++ segs.flatten)).length := by simp; omega
      rw [if_pos this, if_pos hn]
      refine ⟨_, by rw [List.take_append_of_le_length hn], ?_⟩
      rw [List.drop_append_of_le_length hn]; simp
    · rw [if_neg hn]
      have := ih (buf ++ seg)
      simpa [List.append_assoc] using this

theorem read_stream (m : Bytes) (hm : m.length < 2 ^ 31) (rest : Bytes)
    (st st' : AsyncioChannel.ReaderSt) (hst : st.buffer ++ st.segs.flatten = frame m ++ rest)
    (tr tr' : List (Ev stream)) (b : Except Err Bytes × Unit)
    (hx : Exec (AsyncioChannel.read ()) tr b) (hr : Reads (tr ++ tr') st st') :
    b = (.ok m, ()) ∧ ∃ st1, Reads tr' st1 st' ∧ st1.buffer ++ st1.segs.flatten = rest := by
  have h4 : AsyncioChannel.readexactly 4 st = AsyncioChannel.readexactly.go st.buffer st.segs 4 := by
    simp [AsyncioChannel.readexactly]
  have g4 := readexactly_go 4 st.segs st.buffer
  rw [hst, if_pos (by simp [frame]), frame_take4, frame_drop4] at g4
  obtain ⟨st2, e4, hst2⟩ := g4
  simp only [AsyncioChannel.read, Py.bind_run, Py.call_run, IT.op_bind, IT.ret_bind, Exec_op] at hx
  obtain ⟨r1, tr1, rfl, hx⟩ := hx
  cases hr with
  | read _ _ _ _ hr =>
    rw [h4, e4] at hx hr
    simp only [Exec_op] at hx
    obtain ⟨r2, tr2, rfl, hx⟩ := hx
    rw [unpackI_leBytes hm] at hr
    cases hr with
    | read _ _ _ _ hr =>
      have hgo : AsyncioChannel.readexactly (m.length : Int) st2 =
          AsyncioChannel.readexactly.go st2.buffer st2.segs m.length := by
        have : ¬ ((m.length : Int) < 0) := by omega
        simp [AsyncioChannel.readexactly, this]
      have gm := readexactly_go m.length st2.segs st2.buffer
      rw [hst2, if_pos (by simp)] at gm
      obtain ⟨st3, e5, hst3⟩ := gm
      rw [hgo, e5] at hx hr
      simp at hx hst3
      obtain ⟨rfl, rfl⟩ := hx
      exact ⟨rfl, st3, by simpa using hr, hst3⟩

/-- **C18.**  The asyncio channel sends the same bytes as the socket channel for the same messages, and
from any stream carrying framed messages, delivered in chunks of any sizes, its `read` calls return
exactly these messages in order. -/
theorem C18_asyncio_interop (ms : List Bytes) (hms : ∀ m ∈ ms, m.length < 2 ^ 31) :
    (∀ tr tr', Call (AsyncioChannel.write ms) () tr (.ok ()) () →
      Call (writeSync ms) () tr' (.ok ()) () → streamSent tr = sent tr') ∧
    (∀ segs tr r st', segs.flatten = frames ms → Call (streamReadMany ms.length) () tr r () →
      Reads tr ⟨[], segs⟩ st' → r = .ok (ms.map .ok)) := by
  constructor
  · intro tr tr' h1 h2
    obtain ⟨res, rfl, hres⟩ := (C17_write_calls ms tr' _ h2).2 hms
    simp only [Call, AsyncioChannel.write, Py.bind_run, Exec_bind] at h1
    obtain ⟨t1, ⟨r1, u1⟩, t2, rfl, hw, hd⟩ := h1
    have hs := writeAll_sent ms hms _ _ hw
    cases r1 with
    | error e => simp at hd
    | ok u =>
      dsimp only at hd
      rw [Exec_bind] at hd
      obtain ⟨t3, ⟨r3, u3⟩, t4, rfl, h3, h4⟩ := hd
      simp only [Py.call_run, Exec_op] at h3
      obtain ⟨r, t5, rfl, h3⟩ := h3
      simp at h3
      obtain ⟨rfl, rfl⟩ := h3
      have happ : ∀ a b : List (Ev stream), streamSent (a ++ b) = streamSent a ++ streamSent b := by
        intro a b
        induction a with
        | nil => rfl
        | cons e t ih =>
          obtain ⟨op, re⟩ := e
          cases op <;> cases re <;> simp [streamSent, ih]
      have h4' : streamSent t4 = [] := by
        cases r <;> simp at h4 <;> simp [h4, streamSent]
      rw [happ, hs rfl]
      cases res with
      | error e => simp at hres
      | ok u => simp [streamSent, sent, h4']
  · suffices H : ∀ st tr r st', st.buffer ++ st.segs.flatten = frames ms →
        Call (streamReadMany ms.length) () tr r () → Reads tr st st' → r = .ok (ms.map .ok) by
      intro segs tr r st' hs hx hr
      exact H ⟨[], segs⟩ tr r st' (by simpa using hs) hx hr
    induction ms with
    | nil =>
      intro st tr r st' _ hx _
      simp [Call, streamReadMany] at hx
      simp [hx.2.symm]
    | cons m ms ih =>
      intro st tr r st' hst hx hr
      simp only [Call, streamReadMany, List.length_cons, Exec_bind] at hx
      obtain ⟨tr1, ⟨r1, u1⟩, tr2, rfl, h1, tr3, ⟨r3, u3⟩, tr4, rfl, h3, h4⟩ := hx
      obtain ⟨hb, st1, hr2, hst1⟩ := read_stream m (hms m (List.mem_cons_self ..)) (frames ms) st st'
        (by simpa [frames] using hst) tr1 _ _ h1 hr
      have htr4 : tr4 = [] := by cases r3 <;> simp at h4 <;> exact h4.1
      subst htr4
      have := ih (fun x hx => hms x (List.mem_cons_of_mem _ hx)) st1 tr3 r3 st' hst1 h3
        (by simpa using hr2)
      subst this
      simp only [Prod.mk.injEq, and_true] at hb
      subst hb
      simp at h4
      simp [← h4]

/-- A stream read by the asyncio channel, cut inside a prefix. -/
example : ∃ tr st', Call (streamReadMany 2) () tr (.ok [.ok [7], .ok []]) () ∧
    Reads tr ⟨[], [[1, 0], [0, 0, 7, 0, 0], [0, 0]]⟩ st' := by
  refine ⟨[⟨.readexactly 4, .ok [1, 0, 0, 0]⟩, ⟨.readexactly 1, .ok [7]⟩,
    ⟨.readexactly 4, .ok [0, 0, 0, 0]⟩, ⟨.readexactly 0, .ok []⟩], ⟨[], []⟩, ?_, ?_⟩
  · simp [Call, streamReadMany, AsyncioChannel.read, Py.bind_run, unpackI, leNat]
  · refine .read 4 ⟨[], [[1, 0], [0, 0, 7, 0, 0], [0, 0]]⟩ _ _ ?_
    refine .read 1 ⟨[7, 0, 0], [[0, 0]]⟩ _ _ ?_
    refine .read 4 ⟨[0, 0], [[0, 0]]⟩ _ _ ?_
    refine .read 0 ⟨[], []⟩ _ _ ?_
    exact .nil _

end Salt.Props
