import Verif.Spec.SockNet
import Verif.Lemmas.NetCalls
import Verif.Props.Framing

/-!
# Message networks over byte streams
-/

set_option linter.unusedSimpArgs false

namespace Salt

open Spec Props SocketChannel

namespace Spec.SockNet

variable {α β : Type}

theorem terminates (x : SockNet α β) : Terminates x := by
  obtain ⟨a, b, ab, ba⟩ := x
  induction a generalizing b ab ba with
  | ret r =>
    induction b generalizing ab ba with
    | ret r' => exact .intro _ fun y h => by cases h
    | op e k ih =>
      refine .intro _ fun y h => ?_
      cases h with
      | bSend => exact ih _ _ _
      | bRecv => exact ih _ _ _
  | op e k iha =>
    induction b generalizing ab ba with
    | ret r' =>
      refine .intro _ fun y h => ?_
      cases h with
      | aSend => exact iha _ _ _ _
      | aRecv => exact iha _ _ _ _
    | op e' k' ih =>
      refine .intro _ fun y h => ?_
      cases h with
      | aSend => exact iha _ _ _ _
      | aRecv => exact iha _ _ _ _
      | bSend => exact ih _ _ _
      | bRecv => exact ih _ _ _

theorem Reach.head {x y z : SockNet α β} (h : Step x y) (h' : Reach y z) : Reach x z := by
  induction h' with
  | refl => exact .step (.refl _) h
  | step _ hs ih => exact .step ih hs

theorem exists_final (x : SockNet α β) : ∃ y, Reach x y ∧ Stuck y := by
  have := terminates x
  unfold Terminates at this
  induction this with
  | intro x _ ih =>
    by_cases hs : Stuck x
    · exact ⟨x, .refl _, hs⟩
    · obtain ⟨y, hy⟩ := Classical.not_forall_not.1 hs
      obtain ⟨z, h1, h2⟩ := ih y hy
      exact ⟨z, .head hy h1, h2⟩

end Spec.SockNet

/-! ### A read in progress -/

/-- `read_sync` after the length has been received. -/
def readBody (r : Except Err (Bytes × Bool) × Unit) : IT sock (Except Err Bytes × Unit) :=
  match r with
  | (.error _, _) => .ret (.error .comException, ())
  | (.ok (msg, success), _) =>
    if success = false then .ret (.error .comException, ()) else .ret (.ok msg, ())

/-- `read_sync` after the call receiving the length has returned. -/
def readHead (r : Except Err (Bytes × Bool) × Unit) : IT sock (Except Err Bytes × Unit) :=
  match r with
  | (.error _, _) => .ret (.error .comException, ())
  | (.ok (lenBuf, success), _) =>
    if success = false then .ret (.error .comException, ())
    else if unpackI lenBuf < 0 then .ret (.error .comException, ())
    else (recvall [] (unpackI lenBuf).toNat ()).bind readBody

theorem readSync_head : readSync () = (recvall [] 4 ()).bind readHead := readSync_run

/-- `read_sync` after having received `c`. -/
inductive ReadSt : Bytes → IT sock (Except Err Bytes × Unit) → Prop
  | head (c : Bytes) : c.length < 4 → ReadSt c ((recvall c (4 - c.length) ()).bind readHead)
  | body (n : Nat) (c : Bytes) : c.length < n → n < 2 ^ 31 →
      ReadSt (leBytes 4 n ++ c) ((recvall c (n - c.length) ()).bind readBody)

theorem ReadSt.init : ReadSt [] (readSync ()) := readSync_head ▸ .head [] (by decide)

theorem frame_cut {m rest : Bytes} {c d : Bytes} (h : c ++ d = frame m ++ rest) :
    c.take 4 = (leBytes 4 m.length).take c.length := by
  have h1 := congrArg (List.take 4) h
  rw [frame_take4] at h1
  rw [← h1, List.take_take]
  rcases Nat.le_total c.length 4 with h4 | h4
  · rw [Nat.min_eq_left h4, List.take_append_of_le_length (Nat.le_refl _), List.take_of_length_le h4,
      List.take_of_length_le (Nat.le_refl _)]
  · rw [Nat.min_eq_right h4, List.take_append_of_le_length h4]

/-- What comes next in a read that has begun. -/
theorem ReadSt.next {c : Bytes} {u : IT sock (Except Err Bytes × Unit)} (h : ReadSt c u) :
    ∃ n k, u = .op (S := sock) (.recv n) k ∧ 0 < n ∧
    (∀ m rest d, m.length < 2 ^ 31 → c ++ d = frame m ++ rest → c.length < (frame m).length) ∧
    ∀ m rest chunk rest', m.length < 2 ^ 31 → c ++ (chunk ++ rest') = frame m ++ rest → chunk ≠ [] → chunk.length ≤ n →
      (∃ d, rest' = d ++ rest ∧ ReadSt (c ++ chunk) (k (.ok chunk))) ∨
      (k (.ok chunk) = .ret (.ok m, ()) ∧ rest' = rest) := by
  have hfl : ∀ m, (frame m).length = 4 + m.length := fun m => by simp [frame]
  cases h with
  | head c hc =>
    rw [recvall_succ_run _ _ (by omega), IT.op_bind]
    refine ⟨_, _, rfl, by omega, fun m rest d hm _ => by rw [hfl]; omega, ?_⟩
    intro m rest chunk rest' hm he hne hle
    simp only []
    rw [if_neg hne, if_pos hle]
    have hpos : chunk.length ≠ 0 := fun hl => hne (List.length_eq_zero_iff.mp hl)
    by_cases hd : c.length + chunk.length < 4
    · refine .inl ?_
      have e : 4 - c.length - chunk.length = 4 - (c ++ chunk).length := by rw [List.length_append]; omega
      rw [e]
      refine ⟨(frame m).drop (c ++ chunk).length, ?_, .head _ (by rw [List.length_append]; exact hd)⟩
      rw [← List.append_assoc] at he
      have := congrArg (List.drop (c ++ chunk).length) he
      rw [List.drop_left, List.drop_append_of_le_length (by rw [hfl, List.length_append]; omega)] at this
      exact this
    · have h4 : (c ++ chunk).length = 4 := by rw [List.length_append]; omega
      have e : 4 - c.length - chunk.length = 0 := by omega
      rw [← List.append_assoc] at he
      have h1 : c ++ chunk = leBytes 4 m.length := by
        have := congrArg (List.take 4) he
        rwa [frame_take4, List.take_left' h4] at this
      have h2 : rest' = m ++ rest := by
        have := congrArg (List.drop 4) he
        rwa [frame_drop4, List.drop_left' h4] at this
      rw [e, recvall_zero]
      simp only [Py.pure_run, IT.ret_bind, readHead, Bool.true_eq_false, if_false]
      rw [h1, unpackI_leBytes hm, if_neg (by omega), Int.toNat_natCast]
      by_cases hm0 : m.length = 0
      · refine .inr ?_
        have : m = [] := List.length_eq_zero_iff.mp hm0
        subst this
        refine ⟨?_, by simpa using h2⟩
        simp only [List.length_nil]
        rw [recvall_zero]
        simp [readBody]
      · refine .inl ⟨m, h2, ?_⟩
        have := ReadSt.body m.length [] (by simp; omega) hm
        simpa using this
  | body n c hc hn =>
    rw [recvall_succ_run _ _ (by omega), IT.op_bind]
    have hmn : ∀ m rest d, m.length < 2 ^ 31 → leBytes 4 n ++ c ++ d = frame m ++ rest → m.length = n ∧ c ++ d = m ++ rest := by
      intro m rest d hm h
      rw [List.append_assoc] at h
      have h1 := congrArg (List.take 4) h
      have h2 := congrArg (List.drop 4) h
      rw [frame_take4, List.take_left' (by simp)] at h1
      rw [frame_drop4, List.drop_left' (by simp)] at h2
      have h3 := congrArg leNat h1
      rw [leNat_leBytes_of_lt (by omega), leNat_leBytes_of_lt (by omega)] at h3
      exact ⟨h3.symm, h2⟩
    refine ⟨_, _, rfl, by omega, fun m rest d hm h => ?_, ?_⟩
    · obtain ⟨h1, -⟩ := hmn m rest d hm h
      rw [hfl, List.length_append, leBytes_length]; omega
    intro m rest chunk rest' hm he hne hle
    obtain ⟨h1, h2⟩ := hmn m rest _ hm he
    simp only []
    rw [if_neg hne, if_pos hle]
    rw [← List.append_assoc] at h2
    by_cases hd : c.length + chunk.length < n
    · refine .inl ?_
      have e : n - c.length - chunk.length = n - (c ++ chunk).length := by rw [List.length_append]; omega
      rw [e, List.append_assoc]
      refine ⟨m.drop (c ++ chunk).length, ?_, .body n _ (by rw [List.length_append]; exact hd) hn⟩
      have := congrArg (List.drop (c ++ chunk).length) h2
      rw [List.drop_left, List.drop_append_of_le_length (by rw [List.length_append]; omega)] at this
      exact this
    · refine .inr ?_
      have h4 : (c ++ chunk).length = m.length := by rw [List.length_append]; omega
      obtain ⟨h5, h6⟩ := List.append_inj h2 h4
      have e : n - c.length - chunk.length = 0 := by omega
      rw [e, recvall_zero]
      simp only [Py.pure_run, IT.ret_bind, readBody, Bool.true_eq_false, if_false, h5]
      exact ⟨trivial, h6⟩

/-! ### The invariant -/

/-- A side of the byte-stream network: its message program is `p` and it has received `c` of the message it is
reading. -/
inductive SideSt {α : Type} : IT appSig α → IT sock α → Bytes → Prop
  | idle (p) : (∀ k, p ≠ .op (S := appSig) .read k) → SideSt p (onSocket p) []
  | reading {c u} (k : Except Err Bytes → IT appSig α) : ReadSt c u →
      SideSt (.op (S := appSig) .read k) (u.bind fun (r, _) => onSocket (k r)) c

theorem SideSt.init {α : Type} (p : IT appSig α) : SideSt p (onSocket p) [] := by
  by_cases h : ∃ k, p = .op (S := appSig) .read k
  · obtain ⟨k, rfl⟩ := h
    exact .reading k .init
  · exact .idle p fun k hk => h ⟨k, hk⟩

/-- The byte-stream network `X` is where the message network is in `x`. -/
structure SockInv {α β : Type} (x : Net α β) (X : SockNet α β) : Prop where
  ex : ∃ ca cb, SideSt x.a X.a ca ∧ SideSt x.b X.b cb ∧ ca ++ X.ba = frames x.ba ∧ cb ++ X.ab = frames x.ab
  calls : Net.Calls Fits x
  short : (∀ m ∈ x.ab, m.length < 2 ^ 31) ∧ ∀ m ∈ x.ba, m.length < 2 ^ 31

theorem SockInv.swap {α β : Type} {x : Net α β} {X : SockNet α β} (h : SockInv x X) : SockInv x.swap X.swap := by
  obtain ⟨ca, cb, h1, h2, h3, h4⟩ := h.ex
  exact ⟨⟨cb, ca, h2, h1, h4, h3⟩, h.calls.swap, h.short.2, h.short.1⟩

theorem frames_append (a b : List Bytes) : frames (a ++ b) = frames a ++ frames b := by simp [frames]

theorem onSocket_write {α : Type} (ms : List Bytes) (l : Bool) (k : Except Err Unit → IT appSig α)
    (h : ∀ m ∈ ms, m.length < 2 ^ 31) : ∃ k', onSocket (.op (S := appSig) (.write ms l) k) =
      .op (S := sock) (.sendall (frames ms)) k' ∧ k' (.ok ()) = onSocket (k (.ok ())) := by
  simp only [onSocket, writeSync_run, rawOf_eq ms h, IT.op_bind]
  exact ⟨_, rfl, rfl⟩

theorem SockInv.aSend {α β : Type} {x : Net α β} {b : IT sock β} {ab ba d : Bytes} {k : Except Err Unit → IT sock α}
    (h : SockInv x ⟨.op (S := sock) (.sendall d) k, b, ab, ba⟩) :
    ∃ y, Net.Step x y ∧ SockInv y ⟨k (.ok ()), b, ab ++ d, ba⟩ := by
  obtain ⟨ca, cb, h1, h2, h3, h4⟩ := h.ex
  obtain ⟨p, q, xab, xba⟩ := x
  simp only at h1 h2 h3 h4
  have hs := h.short
  have hsa := (h.calls 0 _ (.refl _)).1
  generalize hP : (.op (S := sock) (.sendall d) k : IT sock α) = P at h1
  cases h1 with
  | idle _ hnr =>
    cases p with
    | ret r => cases hP
    | op e k0 =>
      cases e with
      | read => exact absurd rfl (hnr k0)
      | write ms l =>
        obtain ⟨k', e1, e2⟩ := onSocket_write ms l k0 (hsa ms l k0 rfl)
        rw [e1] at hP
        cases hP
        refine ⟨_, .aWrite ms l k0, ⟨[], cb, e2 ▸ .init _, h2, h3, ?_⟩, h.calls.after (.one (.aWrite ms l k0)), ?_, hs.2⟩
        · simp only [frames_append, ← h4, List.append_assoc]
        · intro m hm
          rcases List.mem_append.1 hm with hm | hm
          · exact hs.1 m hm
          · exact hsa ms l k0 rfl m hm
  | reading k0 hr =>
    obtain ⟨n, k', rfl, -⟩ := hr.next
    rw [IT.op_bind] at hP
    cases hP

theorem frames_cons_cases {c d : Bytes} {ms : List Bytes} (h : c ++ d = frames ms) (hne : d ≠ []) :
    ∃ m rest, ms = m :: rest ∧ c ++ d = frame m ++ frames rest := by
  cases ms with
  | nil => simp [frames] at h; exact absurd h.2 hne
  | cons m rest => exact ⟨m, rest, rfl, by simpa [frames] using h⟩

theorem SockInv.aRecv {α β : Type} {x : Net α β} {b : IT sock β} {ab rest chunk : Bytes} {n : Nat}
    {k : Except Err Bytes → IT sock α} (hne : chunk ≠ []) (hle : chunk.length ≤ n)
    (h : SockInv x ⟨.op (S := sock) (.recv n) k, b, ab, chunk ++ rest⟩) :
    SockInv x ⟨k (.ok chunk), b, ab, rest⟩ ∨ ∃ y, Net.Step x y ∧ SockInv y ⟨k (.ok chunk), b, ab, rest⟩ := by
  obtain ⟨ca, cb, h1, h2, h3, h4⟩ := h.ex
  obtain ⟨p, q, xab, xba⟩ := x
  simp only at h1 h2 h3 h4
  have hs := h.short
  have hsa := (h.calls 0 _ (.refl _)).1
  generalize hP : (.op (S := sock) (.recv n) k : IT sock α) = P at h1
  cases h1 with
  | idle _ hnr =>
    cases p with
    | ret r => cases hP
    | op e k0 =>
      cases e with
      | read => exact absurd rfl (hnr k0)
      | write ms l =>
        obtain ⟨k', e1, e2⟩ := onSocket_write ms l k0 (hsa ms l k0 rfl)
        rw [e1] at hP
        cases hP
  | reading k0 hr =>
    obtain ⟨n', k', rfl, -, -, hnext⟩ := hr.next
    rw [IT.op_bind] at hP
    cases hP
    obtain ⟨m, ms, rfl, he⟩ := frames_cons_cases h3 (by simp [hne])
    rcases hnext m _ chunk rest (hs.2 m (List.mem_cons_self ..)) he hne hle with ⟨d, hd, hst⟩ | ⟨hret, hrest⟩
    · refine .inl ⟨⟨_, cb, .reading k0 hst, h2, ?_, h4⟩, h.calls, hs⟩
      simpa using h3
    · refine .inr ⟨_, .aRead m k0, ⟨[], cb, ?_, h2, ?_, h4⟩, h.calls.after (.one (.aRead m k0)), hs.1, fun x hx => hs.2 x (List.mem_cons_of_mem _ hx)⟩
      · show SideSt _ ((k' (.ok chunk)).bind _) _
        rw [hret, IT.ret_bind]
        exact .init _
      · simpa using hrest

theorem SockInv.step {α β : Type} {x : Net α β} {X Y : SockNet α β} (h : SockInv x X) (hs : SockNet.Step X Y) :
    SockInv x Y ∨ ∃ y, Net.Step x y ∧ SockInv y Y := by
  cases hs with
  | aSend d k => exact .inr h.aSend
  | aRecv n chunk k h1 h2 => exact h.aRecv h1 h2
  | bSend d k =>
    obtain ⟨y, h1, h2⟩ := h.swap.aSend
    exact .inr ⟨y.swap, h1.swap, h2.swap⟩
  | bRecv n chunk k h1 h2 =>
    rcases h.swap.aRecv h1 h2 with h | ⟨y, h1, h2⟩
    · exact .inl h.swap
    · exact .inr ⟨y.swap, h1.swap, h2.swap⟩

theorem Spec.Net.Run.snoc {α β : Type} {x y z : Net α β} {n : Nat} (h : Net.Run n x y) (hs : Net.Step y z) :
    Net.Run (n + 1) x z := h.trans (.one hs)

theorem SockInv.reach {α β : Type} {x : Net α β} {X Y : SockNet α β} (h : SockInv x X) (hr : SockNet.Reach X Y) :
    ∃ n y, Net.Run n x y ∧ SockInv y Y := by
  induction hr with
  | refl => exact ⟨0, x, .refl _, h⟩
  | step _ hs ih =>
    obtain ⟨n, y, h1, h2⟩ := ih
    rcases h2.step hs with h3 | ⟨z, h3, h4⟩
    · exact ⟨n, y, h1, h3⟩
    · exact ⟨n + 1, z, h1.snoc h3, h4⟩

theorem SockInv.final_a {α β : Type} {x : Net α β} {X : SockNet α β} (h : SockInv x X) (hs : SockNet.Stuck X) :
    SockEnd x.a X.a ∧ ((∃ r, x.a = .ret r) ∨ ((∃ k, x.a = .op (S := appSig) .read k) ∧ x.ba = [])) := by
  obtain ⟨ca, cb, h1, h2, h3, h4⟩ := h.ex
  obtain ⟨p, q, xab, xba⟩ := x
  obtain ⟨A, B, AB, BA⟩ := X
  simp only at h1 h2 h3 h4
  have hsh := h.short
  have hsa := (h.calls 0 _ (.refl _)).1
  cases h1 with
  | idle _ hnr =>
    cases p with
    | ret r => exact ⟨.ret r, .inl ⟨r, rfl⟩⟩
    | op e k0 =>
      cases e with
      | read => exact absurd rfl (hnr k0)
      | write ms l =>
        obtain ⟨k', e1, e2⟩ := onSocket_write ms l k0 (hsa ms l k0 rfl)
        rw [e1] at hs
        exact absurd (.aSend _ _) (hs _)
  | reading k0 hr =>
    obtain ⟨n', k', rfl, hn, hlt, hnext⟩ := hr.next
    rw [IT.op_bind] at hs ⊢
    have hBA : BA = [] := by
      cases BA with
      | nil => rfl
      | cons x BA => exact absurd (.aRecv n' [x] _ (by simp) (by simp; omega)) (hs _)
    subst hBA
    refine ⟨.wait _ _ _, .inr ⟨⟨k0, rfl⟩, ?_⟩⟩
    cases xba with
    | nil => rfl
    | cons m ms =>
      have he : ca ++ [] = frame m ++ frames ms := by simpa [frames] using h3
      have := hlt m _ [] (hsh.2 m (List.mem_cons_self ..)) he
      have hl := congrArg List.length he
      simp at hl
      omega

theorem SockInv.final {α β : Type} {x : Net α β} {X : SockNet α β} (h : SockInv x X) (hs : SockNet.Stuck X) :
    Net.Stuck x ∧ SockEnd x.a X.a ∧ SockEnd x.b X.b := by
  obtain ⟨h1, h2⟩ := h.final_a hs
  have hs' : SockNet.Stuck X.swap := by
    intro Y hY
    obtain ⟨A, B, AB, BA⟩ := X
    cases hY with
    | aSend d k => exact hs _ (.bSend d k)
    | aRecv n chunk k h5 h6 => exact hs _ (.bRecv n chunk k h5 h6)
    | bSend d k => exact hs _ (.aSend d k)
    | bRecv n chunk k h5 h6 => exact hs _ (.aRecv n chunk k h5 h6)
  obtain ⟨h3, h4⟩ := h.swap.final_a hs'
  exact ⟨(Net.stuck_iff x).2 ⟨h2, h4⟩, h1, h3⟩

theorem sock_ends {α β : Type} (pA : IT appSig α) (pB : IT appSig β) (hc : Net.Calls Fits (Net.start pA pB))
    {y : Net α β} (hy : EndsIn (Net.start pA pB) y) : EndsLike y (SockNet.start (onSocket pA) (onSocket pB)) := by
  refine ⟨SockNet.terminates _, SockNet.exists_final _, fun Y hr hs => ?_⟩
  have inv : SockInv (Net.start pA pB) (SockNet.start (onSocket pA) (onSocket pB)) :=
    ⟨⟨[], [], .init _, .init _, rfl, rfl⟩, hc, by simp [Net.start]⟩
  obtain ⟨n, y', h1, h2⟩ := inv.reach hr
  obtain ⟨h3, h4, h5⟩ := h2.final hs
  obtain ⟨h6, m, h7, h8⟩ := hy
  have := (h8 _ _ h1).2 h3
  subst this
  exact ⟨h4, h5⟩

end Salt
