import Verif.Lemmas.AioPair

/-!
# Coroutines that use `AsyncioChannel`, and those that use the streams themselves
-/

set_option linter.unusedSimpArgs false

namespace Salt

open Spec Props

variable {α β : Type} {L : Lib} {c : Clock}

theorem sends_writeAll (ms : List Bytes) (hms : ∀ m ∈ ms, m.length < 2 ^ 31)
    (f : Except Err Unit × Unit → IT (aio Unit) β) :
    Sends ms ((Aio.embed (AsyncioChannel.writeAll ms ())).bind f) (f (.ok (), ())) := by
  induction ms with
  | nil => exact .nil _
  | cons m ms ih =>
    rw [AsyncioChannel.writeAll, frameMsg_short (hms m (by simp))]
    exact .cons (hms m (by simp)) (ih fun x hx => hms x (by simp [hx]))

theorem impl_handle_write {cl : β → Bool} {ms : List Bytes} {l : Bool}
    {f : Except Err Unit → IT (aio Unit) β} {i : Nat} {kp : Except Err Unit → IT appSig β}
    (h : Impl L c cl (f (.ok ())) i (kp (.ok ()))) :
    Impl L c cl ((Aio.handle (.write ms l)).bind f) i (.op (S := appSig) (.write ms l) kp) := by
  simp only [Aio.handle, AsyncioChannel.write, Py.bind_run, embed_bind, IT.bind_assoc]
  cases ms with
  | nil => exact .skip h
  | cons m ms => exact .write (fun hms => sends_writeAll (m :: ms) hms _) (.drain h)

theorem impl_handle_read {cl : β → Bool} {f : Except Err Bytes → IT (aio Unit) β} {i : Nat}
    {kp : Except Err Bytes → IT appSig β} (h : ∀ m, Impl L c cl (f (.ok m)) i (kp (.ok m))) :
    Impl L c cl ((Aio.handle .read).bind f) i (.op (S := appSig) .read kp) := by
  rw [aio_read]
  exact .read (fun _ => f) (fun m hm => by simp only [unpackI_leBytes hm]; rfl) fun m _ => h m

/-- A coroutine on an `AsyncioChannel` that shares nothing, followed by `K`. -/
theorem impl_alone {cl : β → Bool} (t : IT env β) (i : Nat)
    (K : β → IT (aio Unit) β) (hK : ∀ b j, Impl L c cl (K b) j (.ret b)) :
    Impl L c cl ((Aio.on (Aio.alone t)).bind K) i (party L c t i) := by
  induction t generalizing i with
  | ret b => exact hK b i
  | op e k ih =>
    have e0 : (Aio.on (Aio.alone (.op e k))).bind K = (Aio.handle e).bind fun r => (Aio.on (Aio.alone (k r))).bind K := by
      rw [Aio.alone, Aio.on, IT.bind_assoc]
    rw [e0]
    cases e with
    | read => exact impl_handle_read fun m => ih _ i
    | write ms l => exact impl_handle_write (ih _ i)
    | _ => exact .env (ih _ _)

/-- A coroutine without session on an `AsyncioChannel`, followed by `K`. -/
theorem impl_plain {cl : β → Bool} (t : IT appSig β) (i : Nat)
    (K : β → IT (aio Unit) β) (hK : ∀ b j, Impl L c cl (K b) j (.ret b)) :
    Impl L c cl ((Aio.on (Aio.plain t)).bind K) i t := by
  induction t with
  | ret b => exact hK b i
  | op e k ih =>
    cases e with
    | read =>
      have e0 : (Aio.on (Aio.plain (.op (S := appSig) .read k))).bind K =
          (Aio.handle .read).bind fun r => (Aio.on (Aio.plain (k r))).bind K := by
        rw [Aio.plain, Aio.on, IT.bind_assoc]
      rw [e0]
      exact impl_handle_read fun m => ih _
    | write ms l =>
      have e0 : (Aio.on (Aio.plain (.op (S := appSig) (.write ms l) k))).bind K =
          (Aio.handle (.write ms l)).bind fun r => (Aio.on (Aio.plain (k r))).bind K := by
        rw [Aio.plain, Aio.on, IT.bind_assoc]
      rw [e0]
      exact impl_handle_write (ih _)

theorem impl_end {normal : β → Bool} (b : β) (j : Nat) :
    Impl L c normal (if normal b then .op (S := aio Unit) .close fun _ => .ret b else .ret b) j (.ret b) := by
  split
  · next h => exact .shut b j h rfl
  · next h => exact .ret b j (by simpa using h)

theorem impl_closing_alone (normal : β → Bool) (t : IT env β) (i : Nat) :
    Impl L c normal (Aio.closing normal (Aio.on (Aio.alone t))) i (party L c t i) :=
  impl_alone t i _ impl_end

theorem impl_closing_plain (normal : β → Bool) (t : IT appSig β) (i : Nat) :
    Impl L c normal (Aio.closing normal (Aio.on (Aio.plain t))) i t :=
  impl_plain t i _ impl_end

theorem impl_open_alone (t : IT env β) (i : Nat) :
    Impl L c (fun _ => false) (Aio.on (Aio.alone t)) i (party L c t i) := by
  have := impl_alone (L := L) (c := c) (cl := fun _ => false) t i .ret fun b j => .ret b j rfl
  rwa [IT.bind_ret] at this

/-! ### The simple echo session -/

/-- What the server of the simple echo session does with messages. -/
def echoServerP : Nat → IT appSig (Except Err Unit × Unit)
  | 0 => .ret (.ok (), ())
  | fuel + 1 => .op (S := appSig) .read fun
    | .ok m => if m = [] then .ret (.ok (), ()) else .op (S := appSig) (.write [m] false) fun _ => echoServerP fuel
    | .error e => .ret (.error e, ())

/-- What its client does with messages. -/
def echoClientP (msg : Bytes) : Nat → List Bytes → IT appSig (Except Err (List Bytes) × Unit)
  | 0, rs => .op (S := appSig) (.write [[]] false) fun _ => .ret (.ok rs, ())
  | n + 1, rs => .op (S := appSig) (.write [msg] false) fun _ => .op (S := appSig) .read fun
    | .ok m => echoClientP msg n (rs ++ [m])
    | .error e => .ret (.error e, ())

/-- The results without exception. -/
def okPy {γ : Type} : Except Err γ × Unit → Bool
  | (.ok _, _) => true
  | (.error _, _) => false

theorem sends_writeMsg {m : Bytes} (hm : m.length < 2 ^ 31) (f : Except Err Unit × Unit → IT (aio Unit) β) :
    Sends [m] ((SimpleEchoA.writeMsg m ()).bind f) (f (.ok (), ())) := by
  unfold SimpleEchoA.writeMsg
  rw [frameMsg_short hm]
  exact .cons hm (.nil _)

theorem impl_readMsg {cl : β → Bool} {i : Nat} {f : Except Err Bytes × Unit → IT (aio Unit) β}
    {kp : Except Err Bytes → IT appSig β} (h : ∀ m : Bytes, m.length < 2 ^ 31 → Impl L c cl (f (.ok m, ())) i (kp (.ok m))) :
    Impl L c cl ((SimpleEchoA.readMsg ()).bind f) i (.op (S := appSig) .read kp) := by
  refine .read (fun _ r => f (r, ())) (fun m hm => ?_) fun m hm => h m hm
  show (Aio.embed ((Py.stream (.readexactly (unpackI (leBytes 4 m.length))) : Py stream Unit Bytes) ())).bind _ = _
  rw [unpackI_leBytes hm]
  rfl

theorem impl_serverLoop {cl : Except Err Unit × Unit → Bool} (fuel : Nat) (i : Nat)
    (K : Except Err Unit × Unit → IT (aio Unit) (Except Err Unit × Unit))
    (hK : Impl L c cl (K (.ok (), ())) i (.ret (.ok (), ()))) :
    Impl L c cl ((SimpleEchoA.serverLoop fuel ()).bind K) i (echoServerP fuel) := by
  induction fuel with
  | zero => exact hK
  | succ fuel ih =>
    simp only [SimpleEchoA.serverLoop, Py.bind_run, IT.bind_assoc, echoServerP]
    refine .eof ?_
    show Impl L c cl ((((SimpleEchoA.readMsg >>= fun data => if data = [] then return () else do
        SimpleEchoA.writeMsg data
        SimpleEchoA.serverLoop fuel) : Py (aio Unit) Unit Unit) ()).bind K) i _
    simp only [Py.bind_run, IT.bind_assoc]
    refine impl_readMsg fun m hm => ?_
    by_cases h : m = []
    · simp only [h, if_true]
      exact hK
    · simp only [h, if_false, Py.bind_run, IT.bind_assoc]
      exact .write (fun _ => sends_writeMsg hm _) ih

theorem impl_server (fuel : Nat) (i : Nat) : Impl L c okPy (SimpleEchoA.server fuel ()) i (echoServerP fuel) := by
  unfold SimpleEchoA.server
  rw [Py.bind_run]
  exact impl_serverLoop fuel i _ (.drain (.shut _ i rfl rfl))

theorem impl_clientLoop {cl : Except Err (List Bytes) × Unit → Bool} {msg : Bytes} (n : Nat)
    (rs : List Bytes) (i : Nat) (K : Except Err (List Bytes) × Unit → IT (aio Unit) (Except Err (List Bytes) × Unit))
    (hK : ∀ rs', Impl L c cl (K (.ok rs', ())) i (echoClientP msg 0 (rs ++ rs'))) :
    Impl L c cl ((SimpleEchoA.clientLoop msg n ()).bind K) i (echoClientP msg n rs) := by
  induction n generalizing rs K with
  | zero =>
    have := hK []
    rw [List.append_nil] at this
    exact this
  | succ n ih =>
    simp only [SimpleEchoA.clientLoop, Py.bind_run, IT.bind_assoc, echoClientP]
    refine .write (fun h => sends_writeMsg (h msg (by simp)) _) ?_
    simp only [Py.bind_run, IT.bind_assoc]
    refine impl_readMsg fun m _ => ?_
    simp only [Py.bind_run, IT.bind_assoc]
    refine ih (rs ++ [m]) _ fun rs' => ?_
    have := hK (m :: rs')
    rw [List.append_cons] at this
    exact this

theorem impl_client {msg : Bytes} (n : Nat) (i : Nat) :
    Impl L c okPy (SimpleEchoA.client msg n ()) i (echoClientP msg n []) := by
  unfold SimpleEchoA.client
  rw [Py.bind_run]
  refine impl_clientLoop n [] i _ fun rs' => ?_
  rw [List.nil_append]
  simp only [Py.bind_run]
  exact .write (fun _ => sends_writeMsg (by simp) _) (.drain (.shut _ i rfl rfl))

theorem echo_pair_run (msg : Bytes) (hm : msg ≠ []) {P : List Bytes → Prop} (hP : P [msg]) (hP' : P [[]]) (n fuel : Nat)
    (rs : List Bytes) :
    ∃ m, Net.RunC P m (⟨echoClientP msg n rs, echoServerP (n + fuel + 1), [], []⟩ : Net _ _)
      ⟨.ret (.ok (rs ++ List.replicate n msg), ()), .ret (.ok (), ()), [], []⟩ := by
  induction n generalizing rs with
  | zero =>
    refine ⟨2, .step (.aWrite [[]] false _ hP') ?_⟩
    rw [show 0 + fuel + 1 = fuel + 1 by omega]
    refine .step (.bRead [] _) ?_
    simp only [if_true, List.replicate_zero, List.append_nil]
    exact .refl _
  | succ n ih =>
    obtain ⟨m, h⟩ := ih (rs ++ [msg])
    refine ⟨m + 4, .step (.aWrite [msg] false _ hP) ?_⟩
    rw [show n + 1 + fuel + 1 = (n + fuel + 1) + 1 by omega]
    refine .step (.bRead msg _) ?_
    simp only [hm, if_false]
    refine .step (.bWrite [msg] false _ hP) (.step (.aRead msg _) ?_)
    rw [List.replicate_succ, List.append_cons]
    exact h

end Salt
