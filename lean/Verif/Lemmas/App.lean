import Verif.Props.EncChannel
import Verif.Spec.App

/-!
# Lemmas about the application channel
-/

set_option linter.unusedSimpArgs false

namespace Salt

open Spec Props

/-! ### Plaintext packets -/

theorem le32_mod (t : Nat) : Spec.le32 (t % 2 ^ 32) = Spec.le32 t := by
  rw [← leBytes_four, ← leBytes_four]
  simp only [leBytes]
  have h1 : t % 2 ^ 32 % 256 = t % 256 := by omega
  have h2 : t % 2 ^ 32 / 256 % 256 = t / 256 % 256 := by omega
  have h3 : t % 2 ^ 32 / 256 / 256 % 256 = t / 256 / 256 % 256 := by omega
  have h4 : t % 2 ^ 32 / 256 / 256 / 256 % 256 = t / 256 / 256 / 256 % 256 := by omega
  rw [h1, h2, h3, h4]

theorem app_mod (t : Nat) (m : Bytes) : Spec.app (t % 2 ^ 32) m = Spec.app t m := by
  simp only [Spec.app, le32_mod]

theorem multiApp_mod (t : Nat) (ms : List Bytes) :
    Spec.multiApp (t % 2 ^ 32) ms = Spec.multiApp t ms := by
  simp only [Spec.multiApp, le32_mod]

theorem appRaw_eq (t : Nat) (m : Bytes) : App.appRaw t m = Spec.app t m := AppPkt_build_bytes t m

theorem multiRaw_eq (t : Nat) (ms : List Bytes) : App.multiRaw t ms = Spec.multiApp t ms := by
  rw [← buildMulti_bytes, buildMulti_eq]
  unfold App.multiRaw
  congr 1
  have h1 : ∀ t, setLE ([11, 0] ++ zeros 4 ++ zeros 2) 2 4 t = [11, 0] ++ Spec.le32 t ++ zeros 2 := by
    intro t
    unfold setLE
    rw [setBytes_append_mid _ _ _ _ (by simp) (by simp), leBytes_four]
  have h2 : ∀ t c, setLE ([11, 0] ++ Spec.le32 t ++ zeros 2) 6 2 c
      = [11, 0] ++ Spec.le32 t ++ Spec.le16 c := by
    intro t c
    unfold setLE
    have := setBytes_append_mid ([11, 0] ++ Spec.le32 t) (zeros 2) [] (leBytes 2 c) (i := 6) (by simp)
      (by simp)
    simpa [leBytes_two] using this
  simp only [MultiApp.setCount, MultiApp.setTime, MultiApp.createOptFields, Multi_fresh_data, h1, h2]

theorem shouldUse_iff (ms : List Bytes) :
    MultiApp.shouldUse ms = true ↔ 2 ≤ ms.length ∧ ∀ m ∈ ms, m.length ≤ 65535 := by
  unfold MultiApp.shouldUse
  simp only [Bool.or_eq_true, decide_eq_true_eq, List.any_eq_true, MultiApp.maxSize, gt_iff_lt]
  constructor
  · intro h
    split at h
    · simp at h
    · rename_i hn
      refine ⟨by omega, fun m hm => ?_⟩
      rcases Nat.lt_or_ge 65535 m.length with h' | h'
      · exact absurd (.inr ⟨m, hm, h'⟩) hn
      · exact h'
  · rintro ⟨h1, h2⟩
    rw [if_neg]
    rintro (h | ⟨m, hm, h⟩)
    · omega
    · have := h2 m hm; omega

theorem rawMsgs_eq (t : Nat) (ms : List Bytes) : App.rawMsgs t ms = appPackets t ms := by
  unfold App.rawMsgs appPackets
  by_cases h : MultiApp.shouldUse ms = true
  · rw [if_pos h, if_pos ((shouldUse_iff ms).1 h), multiRaw_eq]
  · rw [if_neg h, if_neg (fun h' => h ((shouldUse_iff ms).2 h'))]
    congr 1
    funext m
    exact appRaw_eq t m

/-- What `read` makes of a plaintext packet: the time to be checked, then the first message and the
ones to be queued. -/
def appParse (raw : Bytes) : Except Err (Nat × Except Err (Bytes × List Bytes)) :=
  match AppPkt.ctor raw false with
  | .error e => .error e
  | .ok ap =>
    if AppPkt.packetType ap = PacketType.app.value then
      .ok (AppPkt.time ap, match AppPkt.payload ap with | .ok m => .ok (m, []) | .error e => .error e)
    else match MultiApp.ctor raw with
      | .error e => .error e
      | .ok mp => .ok (mp.time, match mp.opt.getD [] with
        | m :: q => .ok (m, q)
        | [] => .error .indexError)

theorem appParse_app (t : Nat) (m : Bytes) :
    appParse (Spec.app t m) = .ok (t % 2 ^ 32, .ok (m, [])) := by
  obtain ⟨-, h⟩ := C05_app_packet_roundtrip (t % 2 ^ 32) (Nat.mod_lt _ (by decide)) m
  obtain ⟨q, h1, h2, h3, h4⟩ := h false
  rw [app_mod] at h1 h4
  unfold appParse
  have hs := AppPkt_ctor_spec (Spec.app t m) (by simp [Spec.app]) false
  rw [h1] at hs
  split at hs
  · simp only [Except.ok.injEq] at hs
    have ht : AppPkt.packetType q = PacketType.app.value := by
      rw [hs]; simp only [AppPkt.packetType, Spec.app]; exact getLE_one (x := 5) (by simp)
    simp [h1, ht, h2, h3]
  · simp at hs

theorem appParse_multi (t : Nat) (m : Bytes) (q : List Bytes)
    (hn' : (m :: q).length ≤ 65535) (hm : ∀ x ∈ m :: q, x.length ≤ 65535) :
    appParse (Spec.multiApp t (m :: q)) = .ok (t % 2 ^ 32, .ok (m, q)) := by
  obtain ⟨-, p, h1, h2, -, h3, -⟩ :=
    C06_multi_roundtrip (t % 2 ^ 32) (Nat.mod_lt _ (by decide)) (m :: q) (by simp) hn' hm
  rw [multiApp_mod] at h1
  have hs := AppPkt_ctor_spec (Spec.multiApp t (m :: q)) (by simp [Spec.multiApp]) false
  rw [if_pos (by simp [Spec.multiApp])] at hs
  unfold appParse
  have ht : AppPkt.packetType
      { data := (Spec.multiApp t (m :: q)).take 6, opt := some ((Spec.multiApp t (m :: q)).drop 6) }
      = 11 := by
    simp only [AppPkt.packetType, Spec.multiApp]; exact getLE_one (x := 11) (by simp)
  simp [hs, ht, PacketType.value, h1, h2, h3]

/-! ### read and write, step by step -/

theorem App_read_queued (s : AppSt) (m : Bytes) (q : List Bytes) (h : s.readQ = m :: q) :
    App.read s = .ret (.ok m, { s with readQ := q }) := by
  simp [App.read, Py.bind_run, h]

theorem App_read_run (s : AppSt) (h : s.readQ = []) :
    App.read s = (Enc.read s.enc).bind fun (r, e) =>
      match r with
      | .error x => .ret (.error x, { s with enc := e })
      | .ok raw => match appParse raw with
        | .error x => .ret (.error x, { s with enc := e })
        | .ok (t, res) => .op (S := env) (.check t) fun
          | .error x => .ret (.error x, { s with enc := e })
          | .ok _ => match res with
            | .error x => .ret (.error x, { s with enc := e })
            | .ok (m, q) => .ret (.ok m, { s with enc := e, readQ := q }) := by
  simp only [App.read, Py.bind_run, Py.getSt_run, IT.ret_bind, h, App.onEnc, IT.bind_assoc]
  congr 1
  funext ⟨r, e⟩
  simp only [IT.ret_bind]
  cases r with
  | error x => rfl
  | ok raw =>
    simp only [Py.lift_run, IT.ret_bind, appParse]
    cases hc : AppPkt.ctor raw false with
    | error x => rfl
    | ok ap =>
      simp only []
      by_cases ht : AppPkt.packetType ap = PacketType.app.value
      · have hv : AppPkt.validate ap = .ok () := by
          simp only [AppPkt.validate, Packet.validateType]
          rw [if_neg (by simpa [AppPkt.packetType] using ht)]
        simp only [ht, if_true, Py.bind_run, hv, Py.lift_run, IT.ret_bind, Py.call_run, IT.op_bind]
        congr 1
        funext r
        cases r with
        | error x => rfl
        | ok _ =>
          cases hp : AppPkt.payload ap with
          | error x => simp [hp]
          | ok m => simp [hp, ← h]
      · simp only [ht, if_false, Py.bind_run, Py.lift_run, IT.ret_bind]
        cases hm : MultiApp.ctor raw with
        | error x => rfl
        | ok mp =>
          simp only [Py.call_run, IT.op_bind]
          congr 1
          funext r
          cases r with
          | error x => rfl
          | ok _ =>
            simp only [IT.ret_bind, Py.modifySt_run, h, List.nil_append]
            cases hq : mp.opt.getD [] with
            | nil => simp [← h]; simp [h]
            | cons m q => simp

/-- The packets sent before the application data: the buffered M4 with the time of this write. -/
def pending (s : AppSt) (t : Nat) : List Bytes :=
  match s.bufferedM4 with
  | some m4 => [(M34.setTime m4 t).toBytes]
  | none => []

theorem App_write_run (s : AppSt) (ms : List Bytes) (l : Bool) :
    App.write ms l s = .op (S := env) .time fun
      | .error x => .ret (.error x, s)
      | .ok t => (Enc.write (pending s t ++ appPackets t ms) l s.enc).bind fun (r, e) =>
          .ret (r, { s with enc := e, bufferedM4 := none }) := by
  simp only [App.write, Py.bind_run, Py.call_run, IT.op_bind]
  congr 1
  funext r
  cases r with
  | error x => rfl
  | ok t =>
    simp only [IT.ret_bind, Py.getSt_run, rawMsgs_eq, pending]
    cases hb : s.bufferedM4 with
    | none =>
      simp only [App.onEnc, List.nil_append]
      congr 1
      funext ⟨r, e⟩
      simp [← hb]
    | some m4 =>
      simp only [Py.bind_run, Py.modifySt_run, IT.ret_bind, App.onEnc]
      rfl

end Salt
