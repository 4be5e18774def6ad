import Verif.Spec.Interrupt
import Verif.Props.Framing
import Verif.Lemmas.App
import Verif.Props.EncChannel

/-!
# Calls that are interrupted (C100)
-/

set_option linter.unusedSimpArgs false

namespace Salt.Props

open Salt Spec SocketChannel

/-! ### Sockets -/

theorem Takes_append {tr1 tr2 : List (Ev sock)} {s s' : Bytes}
    (h : Takes (tr1 ++ tr2) s s') : ∃ m, Takes tr1 s m ∧ Takes tr2 m s' := by
  induction tr1 generalizing s with
  | nil => exact ⟨s, .nil s, h⟩
  | cons e tr1 ih =>
    cases h with
    | recv n chunk rest _ _ h1 h2 h3 =>
      obtain ⟨m, hm1, hm2⟩ := ih h3
      exact ⟨m, .recv n chunk rest m tr1 h1 h2 hm1, hm2⟩
    | eof n _ _ h3 =>
      obtain ⟨m, hm1, hm2⟩ := ih h3
      exact ⟨m, .eof n m tr1 hm1, hm2⟩
    | stop n e _ _ _ h3 =>
      obtain ⟨m, hm1, hm2⟩ := ih h3
      exact ⟨m, .stop n e _ m tr1 hm1, hm2⟩
    | send b _ _ r _ h3 =>
      obtain ⟨m, hm1, hm2⟩ := ih h3
      exact ⟨m, .send b _ m r tr1 hm1, hm2⟩

/-- `recvall` on a stream, when it may be interrupted. -/
theorem recvall_takes (count : Nat) (buf : Bytes) :
    wp (recvall buf count ()) fun tr b => ∀ s s', Takes tr s s' →
      (b = (.ok (buf ++ s.take count, true), ()) ∧ s' = s.drop count ∧ count ≤ s.length ∧
        received tr = s.take count) ∨
      (b = (.ok (buf ++ s, false), ()) ∧ s' = [] ∧ s.length < count) ∨
      (∃ e a n, b = (.error e, ()) ∧ tr = a ++ [⟨.recv n, .error e⟩] ∧ s = received a ++ s' ∧
        (received a).length < count) := by
  induction count using Nat.strongRecOn generalizing buf with
  | _ count ih =>
    by_cases hc : count = 0
    · subst hc
      rw [recvall_zero]
      simp only [Py.pure_run, wp_ret]
      intro s s' h
      cases h
      exact .inl (by simp [received])
    · rw [recvall_succ_run _ _ hc, wp_op]
      intro r
      cases r with
      | error e =>
        simp only [wp_ret]
        intro s s' h
        cases h with
        | stop _ _ _ _ _ h =>
          cases h
          exact .inr (.inr ⟨e, [], count, rfl, rfl, rfl, by simp [received]; omega⟩)
      | ok nb =>
        dsimp only
        by_cases h1 : (show Bytes from nb) = []
        · rw [if_pos h1]
          simp only [wp_ret]
          intro s s' h
          cases h with
          | recv _ _ _ _ _ hne => exact absurd h1 hne
          | eof _ _ _ h2 =>
            cases h2
            exact .inr (.inl ⟨by simp, rfl, by simp; omega⟩)
        · rw [if_neg h1]
          have hpos : (show Bytes from nb).length ≠ 0 := fun hl => h1 (List.length_eq_zero_iff.mp hl)
          split
          · rename_i hle
            refine wp_mono _ (ih (count - (show Bytes from nb).length) (by omega) _) ?_
            intro tr b hb s s' h
            cases h with
            | recv _ _ rest _ _ hne hle' h2 =>
              have hrec : ∀ t, received ((⟨.recv count, .ok nb⟩ : Ev sock) :: t) =
                (show Bytes from nb) ++ received t := fun _ => rfl
              rcases hb rest s' h2 with ⟨rfl, rfl, h3, h4⟩ | ⟨rfl, rfl, h3⟩ | ⟨e, a, n, rfl, rfl, rfl, h3⟩
              · refine .inl ⟨?_, ?_, ?_, ?_⟩
                · rw [List.take_append, List.take_of_length_le (l := (show Bytes from nb)) hle,
                    List.append_assoc]
                · rw [List.drop_append, List.drop_of_length_le (l := (show Bytes from nb)) hle,
                    List.nil_append]
                · dsimp only at h3 hle ⊢
                  simp only [List.length_append]; omega
                · rw [hrec, h4, List.take_append, List.take_of_length_le (l := (show Bytes from nb)) hle]
              · refine .inr (.inl ⟨by rw [List.append_assoc], rfl, ?_⟩)
                dsimp only at h3 hle ⊢
                simp only [List.length_append]; omega
              · refine .inr (.inr ⟨e, _ :: a, n, rfl, rfl, ?_, ?_⟩)
                · rw [hrec, List.append_assoc]
                · rw [hrec, List.length_append]; omega
            | eof => exact absurd rfl h1
          · rename_i hgt
            simp only [wp_ret]
            intro s s' h
            cases h with
            | recv _ _ _ _ _ _ hle => exact absurd hle hgt
            | eof => exact absurd rfl h1

theorem frames_cons (m : Bytes) (ms : List Bytes) : frames (m :: ms) = leBytes 4 m.length ++ (m ++ frames ms) := by
  simp [frames, frame]

/-- Where the next message is, in what has arrived of some frames. -/
theorem prefix_frames {s : Bytes} {ms : List Bytes} (h : s <+: frames ms) (h4 : 4 ≤ s.length) :
    ∃ m ms', ms = m :: ms' ∧ s.take 4 = leBytes 4 m.length ∧ s.drop 4 <+: m ++ frames ms' := by
  cases ms with
  | nil =>
    have : s = [] := by simpa [frames] using h
    subst this; simp at h4
  | cons m ms =>
    refine ⟨m, ms, rfl, ?_, ?_⟩
    · rw [frames_cons] at h
      obtain ⟨t, h⟩ := h
      have := congrArg (List.take 4) h
      rwa [List.take_append_of_le_length h4, List.take_left' (by simp)] at this
    · rw [frames_cons] at h
      obtain ⟨t, h⟩ := h
      have := congrArg (List.drop 4) h
      rw [List.drop_append_of_le_length h4, List.drop_left' (by simp)] at this
      exact ⟨t, this⟩

/-- One `read_sync` on the rest of a stream of frames. -/
theorem readSync_takes : wp (readSync ()) fun tr b => ∀ s s' ms, (∀ m ∈ ms, m.length < 2 ^ 31) →
    Takes tr s s' → s <+: frames ms → (∀ a n e b, tr = a ++ ⟨.recv n, .error e⟩ :: b → received a = []) →
    (∃ m ms', ms = m :: ms' ∧ b = (.ok m, ()) ∧ s' <+: frames ms') ∨
    (b = (.error .comException, ()) ∧ (s' = s ∨ s' = [])) := by
  rw [readSync_run, wp_bind]
  refine wp_mono _ (recvall_takes 4 []) ?_
  rintro tr1 ⟨r, u⟩ h1
  cases r with
  | error e =>
    simp only [wp_ret, List.append_nil]
    intro s s' ms _ ht _ hcl
    rcases h1 s s' ht with ⟨h, -⟩ | ⟨h, -⟩ | ⟨e', a, n, he, rfl, hs, -⟩
    · simp at h
    · simp at h
    · refine .inr ⟨by simp, .inl ?_⟩
      rw [hs, hcl a n e' [] rfl]; rfl
  | ok p =>
    obtain ⟨lenBuf, success⟩ := p
    dsimp only
    split
    · rename_i hsu
      simp only [wp_ret, List.append_nil]
      intro s s' ms _ ht _ _
      rcases h1 s s' ht with ⟨h, -⟩ | ⟨-, h, -⟩ | ⟨e', a, n, he, -⟩
      · simp [hsu] at h
      · exact .inr ⟨by simp, .inr h⟩
      · simp at he
    · rename_i hsu
      have key : ∀ s s1 ms, (∀ m ∈ ms, m.length < 2 ^ 31) → Takes tr1 s s1 → s <+: frames ms →
          ∃ m ms', ms = m :: ms' ∧ unpackI lenBuf = m.length ∧ s1 <+: m ++ frames ms' ∧ received tr1 ≠ [] := by
        intro s s1 ms hms ht hp
        rcases h1 s s1 ht with ⟨h, h2, h3, h4⟩ | ⟨h, -⟩ | ⟨e', a, n, he, -⟩
        · obtain ⟨m, ms', rfl, h5, h6⟩ := prefix_frames hp h3
          refine ⟨m, ms', rfl, ?_, h2 ▸ h6, ?_⟩
          · simp only [List.nil_append, Prod.mk.injEq, Except.ok.injEq, and_true] at h
            rw [h.1, h5, unpackI_leBytes (hms m (List.mem_cons_self ..))]
          · rw [h4, h5]
            intro h; have := congrArg List.length h; simp at this
        · simp at h
          exact absurd h.2 hsu
        · simp at he
      split
      · rename_i hneg
        simp only [wp_ret, List.append_nil]
        intro s s' ms hms ht hp _
        obtain ⟨m, ms', -, h, -⟩ := key s s' ms hms ht hp
        rw [h] at hneg; omega
      · rw [wp_bind]
        refine wp_mono _ (recvall_takes _ []) ?_
        rintro tr2 ⟨r2, u2⟩ h2
        have key2 : ∀ s s' ms, (∀ m ∈ ms, m.length < 2 ^ 31) → Takes (tr1 ++ tr2) s s' → s <+: frames ms →
            (∀ a n e b, tr1 ++ tr2 = a ++ ⟨.recv n, .error e⟩ :: b → received a = []) →
            (∃ m ms', ms = m :: ms' ∧ r2 = .ok (m, true) ∧ s' <+: frames ms') ∨
            (∃ b, r2 = .ok (b, false) ∧ s' = []) := by
          intro s s' ms hms ht hp hcl
          obtain ⟨s1, ht1, ht2⟩ := Takes_append ht
          obtain ⟨m, ms', rfl, hl, hp1, hne⟩ := key s s1 ms hms ht1 hp
          rcases h2 s1 s' ht2 with ⟨h, h4, h5, -⟩ | ⟨h, h4, -⟩ | ⟨e', a, n, he, rfl, hs, -⟩
          · rw [hl] at h h4 h5
            simp only [Int.toNat_natCast] at h h4 h5
            obtain ⟨t, hp1⟩ := hp1
            refine .inl ⟨m, ms', rfl, ?_, ?_⟩
            · simp only [List.nil_append, Prod.mk.injEq, and_true] at h
              rw [h]
              congr 2
              have := congrArg (List.take m.length) hp1
              rwa [List.take_append_of_le_length h5, List.take_left' rfl] at this
            · refine ⟨t, ?_⟩
              have := congrArg (List.drop m.length) hp1
              rw [List.drop_append_of_le_length h5, List.drop_left' rfl] at this
              rw [h4, this]
          · simp only [List.nil_append, Prod.mk.injEq, and_true] at h
            exact .inr ⟨_, h, h4⟩
          · have := hcl (tr1 ++ a) n e' [] (by simp)
            rw [received_append] at this
            exact absurd (List.append_eq_nil_iff.1 this).1 hne
        cases r2 with
        | error e =>
          simp only [wp_ret, List.append_nil]
          intro s s' ms hms ht hp hcl
          rcases key2 s s' ms hms ht hp hcl with ⟨_, _, -, h, -⟩ | ⟨_, h, -⟩ <;> simp at h
        | ok p =>
          obtain ⟨msg, success⟩ := p
          dsimp only
          split
          · rename_i hs
            simp only [wp_ret, List.append_nil]
            intro s s' ms hms ht hp hcl
            rcases key2 s s' ms hms ht hp hcl with ⟨_, _, -, h, -⟩ | ⟨_, -, h⟩
            · simp [hs] at h
            · exact .inr ⟨by simp, .inr h⟩
          · rename_i hs
            simp only [wp_ret, List.append_nil]
            intro s s' ms hms ht hp hcl
            rcases key2 s s' ms hms ht hp hcl with ⟨m, ms', h, h', h''⟩ | ⟨_, h, -⟩
            · simp only [Except.ok.injEq, Prod.mk.injEq] at h'
              exact .inl ⟨m, ms', h, by rw [h'.1], h''⟩
            · simp at h
              exact absurd h.2 hs

/-- C100 for sockets, what holds: however often calls were interrupted, if none of them had received a
part of a message, the reads that returned have returned the messages sent, in order and without a gap,
and what is left starts with the next one. -/
theorem C100_socket_partial {cs : List (List (Ev sock) × Done)} (hcs : Ran readSync writeSync cs)
    {ms : List Bytes} (hms : ∀ m ∈ ms, m.length < 2 ^ 31) {s s' : Bytes} (hs : s <+: frames ms)
    (ht : Takes (eventsOf cs) s s') (hcl : StopsClean cs) :
    ∃ rest, ms = readMsgs (cs.map (·.2)) ++ rest ∧ s' <+: frames rest := by
  induction cs generalizing ms s with
  | nil => cases ht; exact ⟨ms, rfl, hs⟩
  | cons c cs ih =>
    simp only [eventsOf, List.map_cons, List.flatten_cons] at ht
    obtain ⟨s1, ht1, ht2⟩ := Takes_append ht
    have hc := hcs c (List.mem_cons_self ..)
    have hcs' : Ran readSync writeSync cs := fun x hx => hcs x (List.mem_cons_of_mem _ hx)
    have hcl' : StopsClean cs := fun x hx => hcl x (List.mem_cons_of_mem _ hx)
    obtain ⟨tr, d⟩ := c
    cases d with
    | read r =>
      rcases readSync_takes _ _ hc s s1 ms hms ht1 hs (hcl _ (List.mem_cons_self ..)) with
        ⟨m, ms', rfl, h, h'⟩ | ⟨h, h'⟩
      · simp only [Prod.mk.injEq, and_true] at h
        subst h
        obtain ⟨rest, e, h⟩ := ih hcs' (fun x hx => hms x (List.mem_cons_of_mem _ hx)) h' ht2 hcl'
        exact ⟨rest, by simp [readMsgs, e], h⟩
      · simp only [Prod.mk.injEq, and_true] at h
        subst h
        have hs1 : s1 <+: frames ms := by
          rcases h' with rfl | rfl
          · exact hs
          · exact List.nil_prefix
        obtain ⟨rest, e, h⟩ := ih hcs' hms hs1 ht2 hcl'
        exact ⟨rest, by simpa [readMsgs] using e, h⟩
    | write ns l r =>
      have hs1 : s1 = s := by
        simp only [Call, writeSync_run] at hc
        cases hraw : rawOf ns with
        | error e => rw [hraw] at hc; simp only [Exec_ret] at hc; obtain ⟨rfl, -⟩ := hc; cases ht1; rfl
        | ok raw =>
          rw [hraw] at hc
          simp only [Exec_op] at hc
          obtain ⟨x, t, rfl, hc⟩ := hc
          have : t = [] := by cases x <;> simp at hc <;> exact hc.1
          subst this
          cases ht1 with | send _ _ _ _ _ h => cases h; rfl
      subst hs1
      obtain ⟨rest, e, h⟩ := ih hcs' hms hs ht2 hcl'
      exact ⟨rest, by simpa [readMsgs] using e, h⟩

/-- Two messages in pieces, with a timeout before each; the end of the stream is seen last. -/
example : ∃ cs s', Ran readSync writeSync cs ∧ Takes (eventsOf cs) (frames [[7], [8, 9]]) s' ∧ StopsClean cs ∧
    cs.map (·.2) = [.read (.error .comException), .read (.ok [7]), .read (.error .comException),
      .read (.ok [8, 9]), .read (.error .comException)] := by
  refine ⟨[([⟨.recv 4, .error .runtimeError⟩], .read (.error .comException)),
    ([⟨.recv 4, .ok [1, 0]⟩, ⟨.recv 2, .ok [0, 0]⟩, ⟨.recv 1, .ok [7]⟩], .read (.ok [7])),
    ([⟨.recv 4, .error .runtimeError⟩], .read (.error .comException)),
    ([⟨.recv 4, .ok [2, 0, 0, 0]⟩, ⟨.recv 2, .ok [8, 9]⟩], .read (.ok [8, 9])),
    ([⟨.recv 4, .ok []⟩], .read (.error .comException))], [], ?_, ?_, ?_, rfl⟩
  · intro c hc
    simp only [List.mem_cons, List.not_mem_nil, or_false] at hc
    rcases hc with rfl | rfl | rfl | rfl | rfl <;>
    simp [Call, readSync_run, recvall_succ_run, recvall_zero, unpackI, leNat]
  · refine .stop 4 _ _ _ _ (.recv 4 [1, 0] _ _ _ (by simp) (by simp) ?_)
    refine .recv 2 [0, 0] _ _ _ (by simp) (by simp) (.recv 1 [7] _ _ _ (by simp) (by simp) ?_)
    refine .stop 4 _ _ _ _ (.recv 4 [2, 0, 0, 0] _ _ _ (by simp) (by simp) ?_)
    exact .recv 2 [8, 9] _ _ _ (by simp) (by simp) (.eof 4 _ _ (.nil _))
  · intro c hc a n e b h
    simp only [List.mem_cons, List.not_mem_nil, or_false] at hc
    have : a = [] ∨ ∃ x a', a = x :: a' := by cases a <;> simp
    rcases this with rfl | ⟨x, a', rfl⟩
    · rfl
    · rcases hc with rfl | rfl | rfl | rfl | rfl <;>
      simp [List.cons_eq_append_iff] at h

/-! ### Asyncio streams -/

theorem Serves_append {tr1 tr2 : List (Ev stream)} {s s' : Bytes}
    (h : Serves (tr1 ++ tr2) s s') : ∃ m, Serves tr1 s m ∧ Serves tr2 m s' := by
  induction tr1 generalizing s with
  | nil => exact ⟨s, .nil s, h⟩
  | cons e tr1 ih =>
    cases h with
    | read n b rest _ _ h1 h3 =>
      obtain ⟨m, hm1, hm2⟩ := ih h3
      exact ⟨m, .read n b rest m tr1 h1 hm1, hm2⟩
    | eof n _ _ _ h1 h3 =>
      obtain ⟨m, hm1, hm2⟩ := ih h3
      exact ⟨m, .eof n _ m tr1 h1 hm1, hm2⟩
    | stop n e _ _ _ he h3 =>
      obtain ⟨m, hm1, hm2⟩ := ih h3
      exact ⟨m, .stop n e _ m tr1 he hm1, hm2⟩
    | write b _ _ r _ h3 =>
      obtain ⟨m, hm1, hm2⟩ := ih h3
      exact ⟨m, .write b _ m r tr1 hm1, hm2⟩
    | drain _ _ r _ h3 =>
      obtain ⟨m, hm1, hm2⟩ := ih h3
      exact ⟨m, .drain _ m r tr1 hm1, hm2⟩

theorem aread_run : AsyncioChannel.read () = .op (S := stream) (.readexactly 4) fun
    | .error e => .ret (.error e, ())
    | .ok b => .op (S := stream) (.readexactly (unpackI b)) fun r => .ret (r, ()) := by
  simp only [AsyncioChannel.read, Py.bind_run, Py.call_run, IT.op_bind]
  congr 1
  funext r
  cases r <;> rfl

theorem writeAll_serves (ms : List Bytes) : wp (AsyncioChannel.writeAll ms ()) fun tr _ =>
    ∀ s s', Serves tr s s' → s' = s := by
  induction ms with
  | nil => simp [AsyncioChannel.writeAll]; intro s s' h; cases h; rfl
  | cons m ms ih =>
    simp only [AsyncioChannel.writeAll, Py.bind_run, Py.lift_run, IT.ret_bind]
    cases hf : frameMsg m with
    | error e => simp only [wp_ret]; intro s s' h; cases h; rfl
    | ok f =>
      simp only [Py.call_run, IT.op_bind, IT.ret_bind, wp_op]
      rintro (e | u)
      · simp only [wp_ret]; intro s s' h; cases h with | write _ _ _ _ _ h => cases h; rfl
      · refine wp_mono _ ih ?_
        intro tr b hb s s' h
        cases h with | write _ _ _ _ _ h => exact hb _ _ h

theorem awrite_serves (ms : List Bytes) : wp (AsyncioChannel.write ms ()) fun tr _ =>
    ∀ s s', Serves tr s s' → s' = s := by
  simp only [AsyncioChannel.write, Py.bind_run, wp_bind]
  refine wp_mono _ (writeAll_serves ms) ?_
  rintro tr ⟨r, u⟩ h
  cases r with
  | error e => simp only [wp_ret, List.append_nil]; exact h
  | ok u =>
    simp only [Py.call_run, IT.op_bind, IT.ret_bind, wp_op]
    have key : ∀ x, ∀ s s', Serves (tr ++ [⟨.drain, x⟩]) s s' → s' = s := by
      intro x s s' hx
      obtain ⟨s1, h1, h2⟩ := Serves_append hx
      cases h2 with | drain _ _ _ _ h2 =>
      cases h2
      exact h _ _ h1
    rintro (e | u)
    · exact (wp_ret ..).2 (key _)
    · exact (wp_ret ..).2 (key _)

/-- C100 for asyncio streams, what holds: as for sockets. -/
theorem C100_asyncio_partial {cs : List (List (Ev stream) × Done)}
    (hcs : Ran AsyncioChannel.read AsyncioChannel.write cs)
    {ms : List Bytes} (hms : ∀ m ∈ ms, m.length < 2 ^ 31) {s s' : Bytes} (hs : s <+: frames ms)
    (ht : Serves (eventsOf cs) s s') (hcl : CancelsClean cs) :
    ∃ rest, ms = readMsgs (cs.map (·.2)) ++ rest ∧ s' <+: frames rest := by
  induction cs generalizing ms s with
  | nil => cases ht; exact ⟨ms, rfl, hs⟩
  | cons c cs ih =>
    simp only [eventsOf, List.map_cons, List.flatten_cons] at ht
    obtain ⟨s1, ht1, ht2⟩ := Serves_append ht
    have hc := hcs c (List.mem_cons_self ..)
    have hcs' : Ran AsyncioChannel.read AsyncioChannel.write cs := fun x hx => hcs x (List.mem_cons_of_mem _ hx)
    have hcl' : CancelsClean cs := fun x hx => hcl x (List.mem_cons_of_mem _ hx)
    have hcl0 := hcl c (List.mem_cons_self ..)
    obtain ⟨tr, d⟩ := c
    have skip : (s1 = s ∨ s1 = []) → readMsgs ((d :: cs.map (·.2))) = readMsgs (cs.map (·.2)) →
        ∃ rest, ms = readMsgs (((tr, d) :: cs).map (·.2)) ++ rest ∧ s' <+: frames rest := by
      intro h' hd
      have hs1 : s1 <+: frames ms := by
        rcases h' with rfl | rfl
        · exact hs
        · exact List.nil_prefix
      obtain ⟨rest, e, h⟩ := ih hcs' hms hs1 ht2 hcl'
      exact ⟨rest, by rw [List.map_cons, hd]; exact e, h⟩
    cases d with
    | read r =>
      simp only [Call, aread_run, Exec_op] at hc
      obtain ⟨r1, t1, rfl, hc⟩ := hc
      cases r1 with
      | error e =>
        simp only [Exec_ret, Prod.mk.injEq, and_true] at hc
        obtain ⟨rfl, rfl⟩ := hc
        refine skip ?_ rfl
        cases ht1 with
        | eof _ _ _ _ _ h => cases h; exact .inr rfl
        | stop _ _ _ _ _ _ h => cases h; exact .inl rfl
      | ok b =>
        simp only [Exec_op, Exec_ret, Prod.mk.injEq, and_true] at hc
        obtain ⟨r2, t2, rfl, rfl, rfl⟩ := hc
        generalize hn : (4 : Int) = n4 at ht1
        generalize hk : unpackI b = k at ht1 hcl0
        cases ht1 with | read n _ rest _ _ hl h2 =>
        have hn : n = 4 := by omega
        subst hn
        obtain ⟨m, ms', rfl, h5, h6⟩ := prefix_frames hs (by simp only [List.length_append]; omega)
        rw [List.take_left' hl] at h5
        rw [List.drop_left' hl] at h6
        have hm := hms m (List.mem_cons_self ..)
        have hlen : unpackI b = m.length := by rw [h5, unpackI_leBytes hm]
        cases h2 with
        | read n b2 rest2 _ _ hl2 h3 =>
          cases h3
          have hn : n = m.length := by omega
          obtain ⟨t, ht⟩ := h6
          rw [List.append_assoc] at ht
          obtain ⟨rfl, ht2'⟩ := List.append_inj ht (by omega)
          obtain ⟨rest, e, h⟩ := ih hcs' (fun x hx => hms x (List.mem_cons_of_mem _ hx)) ⟨t, ht2'⟩ ht2 hcl'
          exact ⟨rest, by simp [readMsgs, e], h⟩
        | eof _ _ _ _ _ h =>
          cases h
          exact skip (.inr rfl) rfl
        | stop _ e _ _ _ he h =>
          have := hcl0 [⟨.readexactly 4, .ok b⟩] _ e [] rfl he
          simp [streamReceived] at this
          rw [this] at hl
          simp at hl
    | write ns l r =>
      exact skip (.inl (awrite_serves ns _ _ hc _ _ ht1)) rfl

/-- A cancelled read, then a message. -/
example : ∃ cs s', Ran AsyncioChannel.read AsyncioChannel.write cs ∧
    Serves (eventsOf cs) (frames [[7], [8, 9]]) s' ∧ CancelsClean cs ∧
    cs.map (·.2) = [.read (.error .runtimeError), .read (.ok [7])] := by
  refine ⟨[([⟨.readexactly 4, .error .runtimeError⟩], .read (.error .runtimeError)),
    ([⟨.readexactly 4, .ok [1, 0, 0, 0]⟩, ⟨.readexactly 1, .ok [7]⟩], .read (.ok [7]))], frames [[8, 9]], ?_, ?_, ?_, rfl⟩
  · intro c hc
    simp only [List.mem_cons, List.not_mem_nil, or_false] at hc
    rcases hc with rfl | rfl
    · simp [Call, aread_run]
    · simp only [Call, aread_run, Exec_op_cons]
      exact .op _ _ _ _ _ (.ret _)
  · exact .stop 4 _ _ _ _ (by simp) (.read 4 [1, 0, 0, 0] _ _ _ rfl (.read 1 [7] _ _ _ rfl (.nil _)))
  · intro c hc a n e b h _
    simp only [List.mem_cons, List.not_mem_nil, or_false] at hc
    have : a = [] ∨ ∃ x a', a = x :: a' := by cases a <;> simp
    rcases this with rfl | ⟨x, a', rfl⟩
    · rfl
    · rcases hc with rfl | rfl <;> simp [List.cons_eq_append_iff] at h

/-! ### What goes wrong otherwise -/

/-- C100 does not hold for sockets: for every `m'`, if the message `frame m'` is sent and the first read
is interrupted when it has its length, the next read returns `m'`. -/
theorem C100_socket_injected (m' : Bytes) (h0 : m' ≠ []) (hm : m'.length + 4 < 2 ^ 31) (e : Err) :
    ∃ cs, Ran readSync writeSync cs ∧ Takes (eventsOf cs) (frames [frame m']) [] ∧
      readMsgs (cs.map (·.2)) = [m'] := by
  have hpos : m'.length ≠ 0 := fun h => h0 (List.length_eq_zero_iff.1 h)
  have hl : ∀ n, (leBytes 4 n).length = 4 := fun n => by simp
  have hlf : (frame m').length = m'.length + 4 := by simp [frame]; omega
  refine ⟨[([⟨.recv 4, .ok (leBytes 4 (frame m').length)⟩, ⟨.recv (frame m').length, .error e⟩],
      .read (.error .comException)),
    ([⟨.recv 4, .ok (leBytes 4 m'.length)⟩, ⟨.recv m'.length, .ok m'⟩], .read (.ok m'))], ?_, ?_, rfl⟩
  · intro c hc
    simp only [List.mem_cons, List.not_mem_nil, or_false] at hc
    have first : ∀ n (k : (Except Err (Bytes × Bool)) × Unit → IT sock (Except Err Bytes × Unit)) t r,
        Exec ((recvall [] 4 ()).bind k) (⟨.recv 4, .ok (leBytes 4 n)⟩ :: t) r ↔
        Exec (k (.ok (leBytes 4 n, true), ())) t r := by
      intro n k t r
      rw [recvall_succ_run _ _ (by decide)]
      have : (show Bytes from leBytes 4 n) ≠ [] := fun h => by have := congrArg List.length h; simp at this
      simp [this, recvall_zero]
    rcases hc with rfl | rfl
    · simp only [Call, readSync_run]
      rw [first]
      dsimp only
      rw [unpackI_leBytes (by omega)]
      simp only [Bool.true_eq_false, if_false, Int.toNat_natCast]
      rw [if_neg (by omega), recvall_succ_run _ _ (by omega)]
      simp
    · simp only [Call, readSync_run]
      rw [first]
      dsimp only
      rw [unpackI_leBytes (by omega)]
      simp only [Bool.true_eq_false, if_false, Int.toNat_natCast]
      rw [if_neg (by omega), recvall_succ_run _ _ hpos]
      simp [h0, recvall_zero]
  · have : frames [frame m'] = leBytes 4 (frame m').length ++ (leBytes 4 m'.length ++ (m' ++ [])) := by
      simp [frames, frame]
    rw [this]
    refine .recv 4 _ _ _ _ (fun h => ?_) (by simp) (.stop _ e _ _ _ (.recv 4 _ _ _ _ (fun h => ?_) (by simp)
      (.recv _ m' [] _ _ h0 (Nat.le_refl _) (.nil _)))) <;>
    · have := congrArg List.length h; simp at this

/-- The same for asyncio streams. -/
theorem C100_asyncio_injected (m' : Bytes) (hm : m'.length + 4 < 2 ^ 31) (e : Err)
    (he : e ≠ .incompleteReadError) :
    ∃ cs, Ran AsyncioChannel.read AsyncioChannel.write cs ∧ Serves (eventsOf cs) (frames [frame m']) [] ∧
      readMsgs (cs.map (·.2)) = [m'] := by
  have hlf : (frame m').length = m'.length + 4 := by simp [frame]; omega
  refine ⟨[([⟨.readexactly 4, .ok (leBytes 4 (frame m').length)⟩, ⟨.readexactly (frame m').length, .error e⟩],
      .read (.error e)),
    ([⟨.readexactly 4, .ok (leBytes 4 m'.length)⟩, ⟨.readexactly m'.length, .ok m'⟩], .read (.ok m'))],
    ?_, ?_, rfl⟩
  · intro c hc
    simp only [List.mem_cons, List.not_mem_nil, or_false] at hc
    rcases hc with rfl | rfl
    · simp only [Call, aread_run, Exec_op_cons]
      rw [unpackI_leBytes (by omega)]
      simp
    · simp only [Call, aread_run, Exec_op_cons]
      rw [unpackI_leBytes (by omega)]
      simp
  · have : frames [frame m'] = leBytes 4 (frame m').length ++ (leBytes 4 m'.length ++ (m' ++ [])) := by
      simp [frames, frame]
    rw [this]
    exact .read 4 _ _ _ _ (by simp) (.stop _ e _ _ _ he (.read 4 _ _ _ _ (by simp)
      (.read _ m' [] _ _ rfl (.nil _))))

/-- C100 as stated is false for both channels. -/
theorem C100_violated :
    (¬ ∀ (cs : List (List (Ev sock) × Done)) (ms : List Bytes) (s s' : Bytes), Ran readSync writeSync cs →
      (∀ m ∈ ms, m.length < 2 ^ 31) → s <+: frames ms → Takes (eventsOf cs) s s' →
      readMsgs (cs.map (·.2)) <+: ms) ∧
    (¬ ∀ (cs : List (List (Ev stream) × Done)) (ms : List Bytes) (s s' : Bytes),
      Ran AsyncioChannel.read AsyncioChannel.write cs →
      (∀ m ∈ ms, m.length < 2 ^ 31) → s <+: frames ms → Serves (eventsOf cs) s s' →
      readMsgs (cs.map (·.2)) <+: ms) := by
  have hl : ∀ m ∈ [frame [7]], m.length < 2 ^ 31 := by simp [frame]
  refine ⟨fun h => ?_, fun h => ?_⟩
  · obtain ⟨cs, h1, h2, h3⟩ := C100_socket_injected [7] (by simp) (by simp) .runtimeError
    have := h cs [frame [7]] _ _ h1 hl (List.prefix_refl _) h2
    rw [h3] at this
    revert this; decide
  · obtain ⟨cs, h1, h2, h3⟩ := C100_asyncio_injected [7] (by simp) .runtimeError (by simp)
    have := h cs [frame [7]] _ _ h1 hl (List.prefix_refl _) h2
    rw [h3] at this
    revert this; decide

/-! ### Writes, and the channels above -/

theorem streamSent_append (a b : List (Ev stream)) : streamSent (a ++ b) = streamSent a ++ streamSent b := by
  induction a with
  | nil => rfl
  | cons e a ih =>
    obtain ⟨op, r⟩ := e
    cases op <;> cases r <;> simp [streamSent, ih]

/-- A write on an asyncio channel that is interrupted while it drains has written everything: repeating
it sends all the messages twice. -/
theorem C100_asyncio_write (ms : List Bytes) (hms : ∀ m ∈ ms, m.length < 2 ^ 31)
    (a : List (Ev stream)) (e : Err) (r : Except Err Unit)
    (h : Call (AsyncioChannel.write ms) () (a ++ [⟨.drain, .error e⟩]) r ()) :
    r = .error e ∧ streamSent (a ++ [⟨.drain, .error e⟩]) = frames ms := by
  have nodrain : ∀ ms, wp (AsyncioChannel.writeAll ms ()) fun tr _ => ∀ x, (⟨.drain, x⟩ : Ev stream) ∉ tr := by
    intro ms
    induction ms with
    | nil => simp [AsyncioChannel.writeAll]
    | cons m ms ih =>
      simp only [AsyncioChannel.writeAll, Py.bind_run, Py.lift_run, IT.ret_bind]
      cases hf : frameMsg m with
      | error e => simp
      | ok f =>
        simp only [Py.call_run, IT.op_bind, IT.ret_bind, wp_op]
        rintro (e | u)
        · simp only [wp_ret]; intro x hx; simp at hx
        · refine wp_mono _ ih ?_
          intro tr b hb x hx
          simp only [List.mem_cons] at hx
          rcases hx with hx | hx
          · simp at hx
          · exact hb x hx
  simp only [Call, AsyncioChannel.write, Py.bind_run, Exec_bind] at h
  obtain ⟨t1, ⟨r1, u1⟩, t2, ht, hw, hd⟩ := h
  have hs := writeAll_sent ms hms _ _ hw
  have hn := nodrain ms _ _ hw
  cases r1 with
  | error e' =>
    simp only [Exec_ret] at hd
    obtain ⟨rfl, -⟩ := hd
    rw [List.append_nil] at ht
    exact absurd (ht ▸ List.mem_append_right a (List.mem_singleton.2 rfl)) (hn _)
  | ok u =>
    dsimp only at hd
    rw [Exec_bind] at hd
    obtain ⟨t3, ⟨r3, u3⟩, t4, rfl, h3, h4⟩ := hd
    simp only [Py.call_run, Exec_op] at h3
    obtain ⟨x, t5, rfl, h3⟩ := h3
    simp only [Exec_ret, Prod.mk.injEq, and_true] at h3
    obtain ⟨rfl, rfl⟩ := h3
    have hx : t4 = [] ∧ r = x := by
      cases x with
      | error e' => simp at h4; exact ⟨h4.1, h4.2.symm⟩
      | ok u => simp at h4; exact ⟨h4.1, h4.2.symm⟩
    obtain ⟨rfl, rfl⟩ := hx
    obtain ⟨rfl, hx⟩ := List.append_inj' ht rfl
    simp only [List.append_nil, List.cons.injEq, Ev.mk.injEq, heq_eq_eq, true_and, and_true] at hx
    refine ⟨hx.symm, ?_⟩
    rw [streamSent_append, hs rfl]
    simp [streamSent]

/-- Such a write. -/
example : Call (AsyncioChannel.write [[7], [8, 9]]) ()
    ([⟨.write (frame [7]), .ok ()⟩, ⟨.write (frame [8, 9]), .ok ()⟩] ++ [⟨.drain, .error .runtimeError⟩])
    (.error .runtimeError) () := by
  simp [Call, AsyncioChannel.write, AsyncioChannel.writeAll, Py.bind_run, frameMsg, packI, frame]

theorem encryptAll_nowrite (l : Bool) (ms : List Bytes) (s : EncSt) :
    wp (Enc.encryptAll l ms s) fun tr _ => ∀ ps f x, (⟨.write ps f, x⟩ : Ev env) ∉ tr := by
  induction ms generalizing s with
  | nil => rw [encryptAll_nil_run]; simp
  | cons m ms ih =>
    rw [encryptAll_cons_run]
    cases nonceBytes s.writeNonce s.sessionNonce with
    | error e => simp
    | ok n =>
      simp only [wp_op]
      rintro (e | c)
      · simp only [wp_ret]; intro ps f x hx; simp at hx
      · rw [wp_bind]
        refine wp_mono _ (ih _) ?_
        rintro tr ⟨r, s1⟩ h
        cases r <;>
        · simp only [wp_ret, List.append_nil]
          intro ps f x hx
          simp only [List.mem_cons] at hx
          rcases hx with hx | hx
          · simp at hx
          · exact h ps f x hx

theorem Enc_write_interrupted {ms : List Bytes} {l : Bool} {s s' : EncSt} {a : List (Ev env)} {ps : List Bytes}
    {f : Bool} {e : Err} {r : Except Err Unit}
    (h : Call (Enc.write ms l) s (a ++ [⟨.write ps f, .error e⟩]) r s') :
    r = .error e ∧ Call (Enc.write ms l) s (a ++ [⟨.write ps f, .ok ()⟩]) (.ok ()) s' := by
  rw [Call, Enc_write_run, Exec_bind] at h
  rw [Call, Enc_write_run, Exec_bind]
  obtain ⟨t1, ⟨r1, s1⟩, t2, ht, hw, hd⟩ := h
  have hn := encryptAll_nowrite l ms s _ _ hw
  cases r1 with
  | error e' =>
    simp only [Exec_ret] at hd
    obtain ⟨rfl, -⟩ := hd
    rw [List.append_nil] at ht
    exact absurd (ht ▸ List.mem_append_right a (List.mem_singleton.2 rfl)) (hn _ _ _)
  | ok qs =>
    dsimp only at hd
    simp only [Exec_op, Exec_ret, Prod.mk.injEq] at hd
    obtain ⟨x, t5, rfl, rfl, rfl, rfl⟩ := hd
    obtain ⟨rfl, hx⟩ := List.append_inj' ht rfl
    simp only [List.cons.injEq, Ev.mk.injEq, EnvOp.write.injEq, and_true] at hx
    obtain ⟨⟨rfl, rfl⟩, hx⟩ := hx
    rw [heq_eq_eq] at hx
    subst hx
    exact ⟨rfl, _, _, _, rfl, hw, by simp⟩

/-- A write of the application that is interrupted in the write of the channel below leaves the session
as a completed one does: sequence numbers used, a buffered M4 gone. -/
theorem C100_write {ms : List Bytes} {l : Bool} {s s' : AppSt} {a : List (Ev env)} {ps : List Bytes}
    {f : Bool} {e : Err} {r : Except Err Unit}
    (h : Call (App.write ms l) s (a ++ [⟨.write ps f, .error e⟩]) r s') :
    r = .error e ∧ Call (App.write ms l) s (a ++ [⟨.write ps f, .ok ()⟩]) (.ok ()) s' := by
  simp only [Call, App_write_run, Exec_op] at h ⊢
  obtain ⟨r0, t0, ht, h⟩ := h
  cases a with
  | nil => simp at ht
  | cons x a =>
    simp only [List.cons_append, List.cons.injEq] at ht
    obtain ⟨rfl, rfl⟩ := ht
    cases r0 with
    | error e' => simp at h
    | ok t =>
      dsimp only at h
      rw [Exec_bind] at h
      obtain ⟨t1, ⟨r1, s1⟩, t2, ht, hw, hd⟩ := h
      simp only [Exec_ret, Prod.mk.injEq] at hd
      obtain ⟨rfl, rfl, rfl⟩ := hd
      rw [List.append_nil] at ht
      subst ht
      obtain ⟨rfl, h⟩ := Enc_write_interrupted hw
      refine ⟨rfl, .ok t, _, rfl, ?_⟩
      dsimp only
      rw [Exec_bind]
      exact ⟨_, _, [], (List.append_nil _).symm, h, by simp⟩

/-- A read of the application that is interrupted in the read of the channel below changes nothing. -/
theorem C100_read {s s' : AppSt} {tr : List (Ev env)} {e : Err} {r : Except Err Bytes}
    (h : Call App.read s (⟨.read, .error e⟩ :: tr) r s') : tr = [] ∧ r = .error e ∧ s' = s := by
  cases hq : s.readQ with
  | cons m q => rw [Call, App_read_queued s m q hq] at h; simp at h
  | nil =>
    rw [Call, App_read_run s hq, Enc_read_run] at h
    split at h
    · exfalso
      unfold openPkt at h
      split at h
      · simp at h
      · split at h
        · split at h
          · simp at h
          · simp [Exec_op] at h
        · simp at h
    · simp at h
      exact ⟨h.1, h.2.1.symm, h.2.2.symm⟩

/-- A write and a read that are interrupted. -/
example : ∃ c s1, Call (App.write [[7]] false) ⟨exS, none, []⟩
      ([⟨.time, .ok 5⟩, ⟨.box (Spec.app 5 [7]) (Spec.nonce 2) exKey, .ok c⟩] ++
        [⟨.write [Spec.encrypted false c] false, .error .runtimeError⟩]) (.error .runtimeError) s1 ∧
    s1.enc.writeNonce = 4 ∧
    Call App.read s1 [⟨.read, .error .runtimeError⟩] (.error .runtimeError) s1 :=
  ⟨[1, 2], ⟨{ exS with writeNonce := 4 }, none, []⟩,
    .op _ _ _ _ _ (.op _ _ _ _ _ (.op _ _ _ _ _ (.ret _))), rfl, .op _ _ _ _ _ (.ret _)⟩

end Salt.Props
