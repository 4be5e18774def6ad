import Verif.Props.Framing

/-!
C129: `write` of the byte channels with a message that is too long for its four bytes of length.
-/

set_option linter.unusedSimpArgs false

namespace Salt.Props

open Salt Salt.Spec SocketChannel

/-- What one would like to have: a call of `AsyncioChannel.write` that is given a message of 2^31 bytes or more raises
and writes nothing, as `SocketChannel` does. -/
def C129_claim : Prop :=
  ∀ (ms : List Bytes), (∃ m ∈ ms, 2 ^ 31 ≤ m.length) →
    ∀ tr r, Call (AsyncioChannel.write ms) () tr r () → (∃ e, r = .error e) ∧ streamSent tr = []

/-- The operations of a trace return (asyncio's transports do not raise in `write`). -/
def AllReturn (tr : List (Ev stream)) : Prop := ∀ (b : Bytes) e, (⟨.write b, .error e⟩ : Ev stream) ∉ tr

/-- The loop up to a message that is too long. -/
theorem writeAll_long (pre : List Bytes) (m : Bytes) (post : List Bytes) (hpre : ∀ x ∈ pre, x.length < 2 ^ 31)
    (hm : 2 ^ 31 ≤ m.length) :
    wp (AsyncioChannel.writeAll (pre ++ m :: post) ()) fun tr b =>
      (∃ e, b.1 = .error e) ∧ (∃ n, streamSent tr = frames (pre.take n)) ∧
      (AllReturn tr → b.1 = .error .structError ∧ tr = pre.map fun x => ⟨.write (frame x), .ok ()⟩) := by
  induction pre with
  | nil =>
    have : ¬ m.length < 2 ^ 31 := by omega
    simp only [List.nil_append, AsyncioChannel.writeAll, frameMsg, packI, this, if_false, Py.bind_run, Py.lift_run,
      IT.ret_bind, wp_ret]
    exact ⟨⟨_, rfl⟩, ⟨0, rfl⟩, fun _ => by simp⟩
  | cons x pre ih =>
    have hx := hpre x (List.mem_cons_self ..)
    simp only [List.cons_append, AsyncioChannel.writeAll, frameMsg, packI, hx, if_true, Py.bind_run, Py.lift_run,
      IT.ret_bind, Py.call_run, IT.op_bind, wp_op]
    intro r
    cases r with
    | error e =>
      simp only [wp_ret]
      refine ⟨⟨e, rfl⟩, ⟨0, rfl⟩, fun h => absurd (List.mem_cons_self ..) (h _ _)⟩
    | ok u =>
      refine wp_mono _ (ih (fun y hy => hpre y (List.mem_cons_of_mem _ hy))) ?_
      rintro tr b ⟨h1, ⟨n, h2⟩, h3⟩
      refine ⟨h1, ⟨n + 1, ?_⟩, fun h => ?_⟩
      · simp [streamSent, h2, frames, frame]
      · obtain ⟨h4, h5⟩ := h3 fun d e hd => h d e (List.mem_cons_of_mem _ hd)
        exact ⟨h4, by rw [h5]; rfl⟩

/-- **C129, sockets.** Nothing is sent, and ComException is raised. -/
theorem C129_socket (ms : List Bytes) (h : ∃ m ∈ ms, 2 ^ 31 ≤ m.length) (tr : List (Ev sock)) (r : Except Err Unit)
    (hx : Call (writeSync ms) () tr r ()) : r = .error .comException ∧ sent tr = [] := by
  obtain ⟨rfl, rfl⟩ := (C17_write_calls ms tr r hx).1 h
  exact ⟨rfl, rfl⟩

/-- **C129, what holds for asyncio.** The call raises, and of the message that is too long, and of those after it, nothing
is written. (The messages before it are written: if the transport does not raise, the exception is struct.error and all of
them have been handed to the transport.) -/
theorem C129_write_partial (pre : List Bytes) (m : Bytes) (post : List Bytes) (hpre : ∀ x ∈ pre, x.length < 2 ^ 31)
    (hm : 2 ^ 31 ≤ m.length) (tr : List (Ev stream)) (r : Except Err Unit)
    (hx : Call (AsyncioChannel.write (pre ++ m :: post)) () tr r ()) :
    (∃ e, r = .error e) ∧ (∃ n, streamSent tr = frames (pre.take n)) ∧
    (AllReturn tr → r = .error .structError ∧ tr = pre.map fun x => ⟨.write (frame x), .ok ()⟩) := by
  simp only [Call, AsyncioChannel.write, Py.bind_run, Exec_bind] at hx
  obtain ⟨t1, ⟨r1, u1⟩, t2, rfl, hw, hd⟩ := hx
  obtain ⟨⟨e, he⟩, h2, h3⟩ := writeAll_long pre m post hpre hm _ _ hw
  dsimp only at he
  subst he
  simp at hd
  obtain ⟨rfl, rfl⟩ := hd
  rw [List.append_nil]
  exact ⟨⟨e, rfl⟩, h2, h3⟩

/-- **C129, first message.** Nothing is written if the first message is the one that is too long. -/
theorem C129_write_first (m : Bytes) (post : List Bytes) (hm : 2 ^ 31 ≤ m.length) (tr : List (Ev stream))
    (r : Except Err Unit) (hx : Call (AsyncioChannel.write (m :: post)) () tr r ()) :
    r = .error .structError ∧ tr = [] := by
  have h := C129_write_partial [] m post (by simp) hm tr r hx
  have this : ¬ m.length < 2 ^ 31 := by omega
  simp [Call, AsyncioChannel.write, AsyncioChannel.writeAll, frameMsg, packI, this, Py.bind_run] at hx
  exact ⟨hx.2.symm, hx.1⟩

/-- There are messages of any length. -/
theorem exists_long (n : Nat) : ∃ m : Bytes, n ≤ m.length := ⟨List.replicate n 0, by rw [List.length_replicate]; exact n.le_refl⟩

/-- A short message before one that is too long has been written when the call raises. -/
theorem C129_violated : ¬ C129_claim := by
  intro h
  obtain ⟨m, hl⟩ := exists_long (2 ^ 31)
  have this : ¬ m.length < 2 ^ 31 := by omega
  have := (h [[7], m] ⟨m, by simp, hl⟩ [⟨.write (frame [7]), .ok ()⟩] (.error .structError) (by
    simp [Call, AsyncioChannel.write, AsyncioChannel.writeAll, frameMsg, packI, this, Py.bind_run, frame])).2
  simp [streamSent, frame] at this

/-- The hypotheses of `C129_write_partial` are met. -/
example : ∃ m : Bytes, 2 ^ 31 ≤ m.length ∧
    Call (AsyncioChannel.write ([[7]] ++ m :: [[8]])) () [⟨.write (frame [7]), .ok ()⟩] (.error .structError) () ∧
    AllReturn [⟨.write (frame [7]), .ok ()⟩] := by
  obtain ⟨m, hl⟩ := exists_long (2 ^ 31)
  have this : ¬ m.length < 2 ^ 31 := by omega
  refine ⟨m, hl, ?_, ?_⟩
  · simp [Call, AsyncioChannel.write, AsyncioChannel.writeAll, frameMsg, packI, this, Py.bind_run, frame]
  · intro b e h
    simp at h

end Salt.Props
