import Verif.Model.Meta

set_option linter.unusedSimpArgs false
set_option linter.unusedSectionVars false

/-!
# Singletons and synchronous variants (C53, C54)
-/

namespace Salt.Props

open Salt

/-! ### C53: singletons -/

section
variable {C A O : Type} [BEq C] [LawfulBEq C] (make : C → A → Nat → Except Err O)

theorem call_lookup_mono (c c' : C) (a : A) (o : O) (s : Instances C O)
    (h : s.map.lookup c = some o) : (Singleton.call make c' a s).2.map.lookup c = some o := by
  unfold Singleton.call
  split
  · exact h
  · rename_i hn
    split
    · have : c ≠ c' := by intro e; subst e; rw [h] at hn; simp at hn
      simp only [List.lookup_cons]
      have hb : (c == c') = false := by simp [this]
      rw [hb]; exact h
    · exact h

theorem callAll_lookup_mono (c : C) (o : O) (hist : List (C × A)) (s : Instances C O)
    (h : s.map.lookup c = some o) :
    (Singleton.callAll make hist s).2.map.lookup c = some o := by
  induction hist generalizing s with
  | nil => exact h
  | cons x hist ih =>
    obtain ⟨c', a⟩ := x
    simp only [Singleton.callAll]
    exact ih _ (call_lookup_mono make c c' a o s h)

theorem callAll_append (h1 h2 : List (C × A)) (s : Instances C O) :
    Singleton.callAll make (h1 ++ h2) s =
      ((Singleton.callAll make h1 s).1 ++ (Singleton.callAll make h2 (Singleton.callAll make h1 s).2).1,
       (Singleton.callAll make h2 (Singleton.callAll make h1 s).2).2) := by
  induction h1 generalizing s with
  | nil => simp [Singleton.callAll]
  | cons x h1 ih => obtain ⟨c, a⟩ := x; simp [Singleton.callAll, ih]

theorem callAll_length (h1 : List (C × A)) (s : Instances C O) :
    (Singleton.callAll make h1 s).1.length = h1.length := by
  induction h1 generalizing s with
  | nil => simp [Singleton.callAll]
  | cons x h1 ih => obtain ⟨c, a⟩ := x; simp [Singleton.callAll, ih]

theorem call_ok_lookup (c : C) (a : A) (o : O) (s : Instances C O)
    (h : (Singleton.call make c a s).1 = .ok o) :
    (Singleton.call make c a s).2.map.lookup c = some o := by
  unfold Singleton.call at h ⊢
  split at h
  · rename_i o' hl; simp only [Except.ok.injEq] at h; subst h; simp [hl]
  · rename_i hl
    split at h
    · rename_i o' hm
      simp only [Except.ok.injEq] at h; subst h
      simp
    · simp at h

/-- C53: in every history of constructions, once `c(a)` has returned an object, every later `c(b)`,
whatever `b` and whatever is constructed in between, returns the same object. -/
theorem C53_same_instance (pre mid : List (C × A)) (c : C) (a b : A) (o : O) (s : Instances C O)
    (rs : List (Except Err O)) (s' : Instances C O)
    (h : Singleton.callAll make (pre ++ (c, a) :: mid ++ [(c, b)]) s = (rs, s'))
    (ha : rs[pre.length]? = some (.ok o)) :
    rs[pre.length + 1 + mid.length]? = some (.ok o) := by
  rw [callAll_append, callAll_append] at h
  simp only [Singleton.callAll, Prod.mk.injEq] at h
  obtain ⟨h1, -⟩ := h
  subst h1
  have l1 := callAll_length make pre s
  generalize hp : Singleton.callAll make pre s = P at *
  generalize hc : Singleton.call make c a P.2 = Q at *
  have l2 := callAll_length make mid Q.2
  generalize hm : Singleton.callAll make mid Q.2 = R at *
  have hQ : Q.1 = .ok o := by
    rw [List.append_assoc, List.getElem?_append_right (by omega), l1] at ha
    simpa using ha
  have hl : Q.2.map.lookup c = some o := by
    rw [← hc] at hQ ⊢; exact call_ok_lookup make c a o _ hQ
  have hl2 : R.2.map.lookup c = some o := by
    rw [← hm]; exact callAll_lookup_mono make c o mid _ hl
  have hr : (Singleton.call make c b R.2).1 = .ok o := by
    simp [Singleton.call, hl2]
  rw [List.getElem?_append_right (by simp [l1, l2]; omega)]
  simp [l1, l2, hr]
  rw [show pre.length + 1 + mid.length - (pre.length + (mid.length + 1)) = 0 by omega]
  simp [hr]

theorem call_lookup_none (c c' : C) (a : A) (s : Instances C O) (hn : s.map.lookup c = none)
    (h : c' ≠ c ∨ ∃ e, (Singleton.call make c' a s).1 = .error e) :
    (Singleton.call make c' a s).2.map.lookup c = none := by
  unfold Singleton.call at h ⊢
  split
  · exact hn
  · rename_i hn'
    split
    · rename_i o hm
      rcases h with h | ⟨e, h⟩
      · have hb : (c == c') = false := by simp; exact fun e => h e.symm
        simp only [List.lookup_cons, hb]; exact hn
      · simp [hn', hm] at h
    · exact hn

/-- C53: if no earlier construction of class `c` succeeded, `c(a)` runs the constructor (with these
arguments) and returns or raises what that does; a failed constructor leaves no instance behind. -/
theorem C53_first_instance (pre : List (C × A)) (c : C) (a : A)
    (rs : List (Except Err O)) (s' : Instances C O)
    (h : Singleton.callAll make (pre ++ [(c, a)]) {} = (rs, s'))
    (hno : ∀ (i : Nat) (x : C × A), pre[i]? = some x → x.1 = c → ∃ e : Err, rs[i]? = some (Except.error e)) :
    ∃ n, rs[pre.length]? = some (make c a n) := by
  have key : ∀ (pre : List (C × A)) (s : Instances C O), s.map.lookup c = none →
      (∀ (i : Nat) (x : C × A), pre[i]? = some x → x.1 = c →
        ∃ e : Err, (Singleton.callAll make pre s).1[i]? = some (Except.error e)) →
      (Singleton.callAll make pre s).2.map.lookup c = none := by
    intro pre
    induction pre with
    | nil => intro s hs _; exact hs
    | cons x pre ih =>
      intro s hs hx
      obtain ⟨c', a'⟩ := x
      simp only [Singleton.callAll]
      refine ih _ (call_lookup_none make c c' a' s hs ?_) ?_
      · by_cases e : c' = c
        · right
          obtain ⟨er, her⟩ := hx 0 (c', a') rfl e
          exact ⟨er, by simpa [Singleton.callAll] using her⟩
        · exact .inl e
      · intro i x hi hc
        have := hx (i + 1) x (by simpa using hi) hc
        simpa [Singleton.callAll] using this
  rw [callAll_append] at h
  simp only [Singleton.callAll, Prod.mk.injEq] at h
  obtain ⟨h1, -⟩ := h
  have l1 := callAll_length make pre ({} : Instances C O)
  have hn : (Singleton.callAll make pre ({} : Instances C O)).2.map.lookup c = none := by
    refine key pre {} rfl ?_
    intro i x hi hc
    obtain ⟨e, he⟩ := hno i x hi hc
    refine ⟨e, ?_⟩
    have hlt : i < pre.length := by
      rcases Nat.lt_or_ge i pre.length with h | h
      · exact h
      · rw [List.getElem?_eq_none h] at hi; simp at hi
    rw [← h1, List.getElem?_append_left (by omega)] at he
    exact he
  refine ⟨(Singleton.callAll make pre ({} : Instances C O)).2.runs, ?_⟩
  rw [← h1, List.getElem?_append_right (by omega), l1]
  simp only [Nat.sub_self, List.getElem?_cons_zero, Option.some.injEq]
  unfold Singleton.call
  rw [hn]
  simp only
  split <;> simp_all

end

/-- Two sessions asking for a time keeper get the same object, whatever they ask for. -/
example : (Singleton.callAll (fun (_ : String) (a : Nat) n => .ok (a, n))
    [("Keeper", 5), ("Checker", 1), ("Keeper", 9)] {}).1 =
    [.ok (5, 0), .ok (1, 1), .ok (5, 0)] := by decide

/-- A constructor that raised is run again. -/
example : (Singleton.callAll
    (fun (_ : String) (a : Nat) n => if a = 0 then .error .noSuchLib else .ok (a, n))
    [("SaltLib", 0), ("SaltLib", 3), ("SaltLib", 4)] {}).1 =
    [.error .noSuchLib, .ok (3, 1), .ok (3, 1)] := by decide

/-! ### C54: synchronous variants -/

section
variable {V : Type}

theorem lookup_dictSet (k k' : String) (v : V) (d : List (String × V)) :
    (dictSet k v d).lookup k' = if k' = k then some v else d.lookup k' := by
  induction d with
  | nil =>
    simp only [dictSet, List.lookup_cons, List.lookup_nil]
    by_cases h : k' = k
    · simp [h]
    · have hb : (k' == k) = false := by simp [h]
      simp [h, hb]
  | cons x d ih =>
    obtain ⟨k1, v1⟩ := x
    simp only [dictSet]
    by_cases h1 : k1 = k
    · subst h1
      simp only [if_true, List.lookup_cons]
      by_cases h : k' = k1
      · simp [h]
      · have hb : (k' == k1) = false := by simp [h]
        simp [h, hb]
    · simp only [h1, if_false, List.lookup_cons, ih]
      by_cases h : k' = k1
      · subst h; simp [h1]
      · have hb : (k' == k1) = false := by simp [h]
        simp [h, hb]

/-- A key of a dictionary with its value. -/
theorem lookup_update (e d : List (String × V)) (k : String)
    (hnd : (e.map (·.1)).Nodup) :
    (dictUpdate d e).lookup k = match e.lookup k with | some v => some v | none => d.lookup k := by
  unfold dictUpdate
  induction e generalizing d with
  | nil => simp
  | cons x e ih =>
    obtain ⟨k1, v1⟩ := x
    simp only [List.map_cons, List.nodup_cons] at hnd
    simp only [List.foldl_cons]
    rw [ih _ hnd.2, lookup_dictSet, List.lookup_cons]
    by_cases h : k = k1
    · subst h
      have : e.lookup k = none := by
        rw [List.lookup_eq_none_iff]
        intro p hp
        have : k ≠ p.1 := fun hk => hnd.1 (List.mem_map.mpr ⟨p, hp, hk.symm⟩)
        simpa using this
      simp [this]
    · have hb : (k == k1) = false := by simp [h]
      rw [hb]
      simp only [h, if_false]

theorem suffix_inj (a b : String) (h : a ++ "_sync" = b ++ "_sync") : a = b := by
  have := congrArg String.toList h
  simp only [String.toList_append] at this
  exact String.toList_inj.mp (List.append_cancel_right this)

theorem dictSet_keys (k : String) (v : V) (d : List (String × V)) :
    (dictSet k v d).map (·.1) = if k ∈ d.map (·.1) then d.map (·.1) else d.map (·.1) ++ [k] := by
  induction d with
  | nil => simp [dictSet]
  | cons x d ih =>
    obtain ⟨k1, v1⟩ := x
    simp only [dictSet]
    by_cases h : k1 = k
    · subst h; simp
    · simp only [h, if_false, List.map_cons, ih, List.mem_cons]
      have : ¬ k = k1 := fun e => h e.symm
      simp only [this, false_or]
      split <;> simp

theorem dictSet_nodup (k : String) (v : V) (d : List (String × V)) (h : (d.map (·.1)).Nodup) :
    ((dictSet k v d).map (·.1)).Nodup := by
  rw [dictSet_keys]
  split
  · exact h
  · rename_i hn
    rw [List.nodup_append]
    refine ⟨h, by simp, ?_⟩
    intro a ha b hb e
    simp only [List.mem_singleton] at hb
    subst hb; subst e; exact hn ha

theorem collect_nodup (d acc : ClassDict V) (h : (acc.map (·.1)).Nodup) :
    ((Syncizer.collect d acc).map (·.1)).Nodup := by
  induction d generalizing acc with
  | nil => exact h
  | cons x d ih =>
    obtain ⟨n, a⟩ := x
    cases a with
    | coroutine f => exact ih _ (dictSet_nodup _ _ _ h)
    | plain v => exact ih _ h
    | syncOf m => exact ih _ h

theorem collect_lookup (d acc : ClassDict V) (k : String) :
    (Syncizer.collect d acc).lookup k = none ∧ acc.lookup k = none ∧
        (∀ n f, (n, Attr.coroutine f) ∈ d → k ≠ n ++ "_sync") ∨
    (∃ n f, (n, Attr.coroutine f) ∈ d ∧ k = n ++ "_sync" ∧
        (Syncizer.collect d acc).lookup k = some (.syncOf n)) ∨
    ((∀ n f, (n, Attr.coroutine f) ∈ d → k ≠ n ++ "_sync") ∧
        (Syncizer.collect d acc).lookup k = acc.lookup k) := by
  induction d generalizing acc with
  | nil => right; right; exact ⟨by simp, rfl⟩
  | cons x d ih =>
    obtain ⟨n, a⟩ := x
    cases a with
    | coroutine f =>
      simp only [Syncizer.collect]
      have hset := lookup_dictSet (n ++ "_sync") k (Attr.syncOf n) acc
      by_cases hk : k = n ++ "_sync"
      · rw [if_pos hk] at hset
        rcases ih (dictSet (n ++ "_sync") (.syncOf n) acc) with h | ⟨n', f', hm, hk', hl⟩ | ⟨h, hl⟩
        · rw [h.2.1] at hset; simp at hset
        · have : n' = n := suffix_inj _ _ (hk'.symm.trans hk)
          exact .inr (.inl ⟨n', f', List.mem_cons_of_mem _ hm, hk', hl⟩)
        · exact .inr (.inl ⟨n, f, List.mem_cons_self .., hk, by rw [hl, hset]⟩)
      · rw [if_neg hk] at hset
        rcases ih (dictSet (n ++ "_sync") (.syncOf n) acc) with h | ⟨n', f', hm, hk', hl⟩ | ⟨h, hl⟩
        · refine .inl ⟨h.1, by rw [← hset]; exact h.2.1, ?_⟩
          intro n' f' hm
          rcases List.mem_cons.mp hm with h' | h'
          · simp only [Prod.mk.injEq] at h'; rw [h'.1]; exact hk
          · exact h.2.2 _ _ h'
        · exact .inr (.inl ⟨n', f', List.mem_cons_of_mem _ hm, hk', hl⟩)
        · refine .inr (.inr ⟨?_, by rw [hl, hset]⟩)
          intro n' f' hm
          rcases List.mem_cons.mp hm with h' | h'
          · simp only [Prod.mk.injEq] at h'; rw [h'.1]; exact hk
          · exact h _ _ h'
    | plain v =>
      rcases ih acc with h | ⟨n', f', hm, hk', hl⟩ | ⟨h, hl⟩
      · exact .inl ⟨h.1, h.2.1, fun n' f' hm => h.2.2 n' f' (by simpa using hm)⟩
      · exact .inr (.inl ⟨n', f', List.mem_cons_of_mem _ hm, hk', hl⟩)
      · exact .inr (.inr ⟨fun n' f' hm => h n' f' (by simpa using hm), hl⟩)
    | syncOf v =>
      rcases ih acc with h | ⟨n', f', hm, hk', hl⟩ | ⟨h, hl⟩
      · exact .inl ⟨h.1, h.2.1, fun n' f' hm => h.2.2 n' f' (by simpa using hm)⟩
      · exact .inr (.inl ⟨n', f', List.mem_cons_of_mem _ hm, hk', hl⟩)
      · exact .inr (.inr ⟨fun n' f' hm => h n' f' (by simpa using hm), hl⟩)

theorem lookup_of_mem (d : List (String × V)) (k : String) (v : V) (hnd : (d.map (·.1)).Nodup)
    (h : (k, v) ∈ d) : d.lookup k = some v := by
  induction d with
  | nil => simp at h
  | cons x d ih =>
    obtain ⟨k1, v1⟩ := x
    simp only [List.map_cons, List.nodup_cons] at hnd
    rw [List.lookup_cons]
    rcases List.mem_cons.mp h with h' | h'
    · simp only [Prod.mk.injEq] at h'
      simp [h'.1, h'.2]
    · have : k ≠ k1 := fun e => hnd.1 (List.mem_map.mpr ⟨_, h', e⟩)
      have hb : (k == k1) = false := by simp [this]
      rw [hb]
      exact ih hnd.2 h'

theorem mem_of_lookup (d : List (String × V)) (k : String) (v : V)
    (h : d.lookup k = some v) : (k, v) ∈ d := by
  induction d with
  | nil => simp at h
  | cons x d ih =>
    obtain ⟨k1, v1⟩ := x
    rw [List.lookup_cons] at h
    by_cases e : k = k1
    · subst e; simp at h; subst h; exact List.mem_cons_self ..
    · have hb : (k == k1) = false := by simp [e]
      rw [hb] at h
      exact List.mem_cons_of_mem _ (ih h)

/-- C54: the class made by `Syncizer` from a class body has, for every coroutine function `n` of the
body, an attribute `n_sync` which is its synchronous variant. -/
theorem C54_variant (d : ClassDict V) (n : String) (f : V)
    (h : d.lookup n = some (.coroutine f)) :
    (Syncizer.new d).lookup (n ++ "_sync") = some (.syncOf n) := by
  unfold Syncizer.new
  rw [lookup_update _ _ _ (collect_nodup d [] (by simp))]
  rcases collect_lookup d [] (n ++ "_sync") with h' | ⟨n', f', -, hk, hl⟩ | ⟨h', -⟩
  · exact absurd rfl (h'.2.2 n f (mem_of_lookup d n _ h))
  · rw [hl, ← suffix_inj _ _ hk]
  · exact absurd rfl (h' n f (mem_of_lookup d n _ h))

/-- C54: every other attribute is what it was in the class body (present or absent). -/
theorem C54_others (d : ClassDict V) (hnd : (d.map (·.1)).Nodup) (k : String)
    (h : ∀ n f, d.lookup n = some (.coroutine f) → k ≠ n ++ "_sync") :
    (Syncizer.new d).lookup k = d.lookup k := by
  unfold Syncizer.new
  rw [lookup_update _ _ _ (collect_nodup d [] (by simp))]
  rcases collect_lookup d [] k with h' | ⟨n', f', hm, hk, -⟩ | ⟨-, hl⟩
  · rw [h'.1]
  · exact absurd hk (h n' f' (lookup_of_mem d n' _ hnd hm))
  · rw [hl]; simp

/-- C54: in a hierarchy of classes made by `Syncizer`, calling the synchronous variant of a coroutine
method runs the coroutine that the method resolves to, i.e. the one of the first class defining it;
provided no class before that one defines an attribute of the variant's name itself. -/
theorem C54_dispatch {R : Type} (run : V → Except Err R) (pre post : List (ClassDict V))
    (d : ClassDict V) (m : String) (f : V)
    (hnd : ∀ c ∈ pre ++ d :: post, (c.map (·.1)).Nodup)
    (hpre : ∀ c ∈ pre, c.lookup m = none ∧ c.lookup (m ++ "_sync") = none)
    (hd : d.lookup m = some (.coroutine f))
    (hm : ∀ n, m ≠ n ++ "_sync") :
    Syncizer.getattr ((pre ++ d :: post).map Syncizer.new) (m ++ "_sync") = .ok (.syncOf m) ∧
    Syncizer.syncCall run ((pre ++ d :: post).map Syncizer.new) m = run f := by
  have h1 : Syncizer.getattr ((pre ++ d :: post).map Syncizer.new) (m ++ "_sync") =
      .ok (.syncOf m) := by
    induction pre with
    | nil =>
      simp only [List.nil_append, List.map_cons, Syncizer.getattr]
      rw [C54_variant d m f hd]
    | cons c pre ih =>
      simp only [List.cons_append, List.map_cons, Syncizer.getattr]
      have hc := hpre c (by simp)
      rw [C54_others c (hnd c (by simp)), hc.2]
      · exact ih (fun c' h' => hnd c' (by simp at h' ⊢; exact .inr h'))
          (fun c' h' => hpre c' (by simp [h']))
      · intro n f' hn e
        have := suffix_inj _ _ e
        subst this
        rw [hc.1] at hn; simp at hn
  have h2 : Syncizer.getattr ((pre ++ d :: post).map Syncizer.new) m = .ok (.coroutine f) := by
    clear h1
    induction pre with
    | nil =>
      simp only [List.nil_append, List.map_cons, Syncizer.getattr]
      rw [C54_others d (hnd d (by simp)) m (fun n _ _ => hm n), hd]
    | cons c pre ih =>
      simp only [List.cons_append, List.map_cons, Syncizer.getattr]
      have hc := hpre c (by simp)
      rw [C54_others c (hnd c (by simp)) m (fun n _ _ => hm n), hc.1]
      exact ih (fun c' h' => hnd c' (by simp at h' ⊢; exact .inr h'))
        (fun c' h' => hpre c' (by simp [h']))
  exact ⟨h1, by simp only [Syncizer.syncCall, h2]⟩

end

/-- `AppChannelV2` (coroutines `read` and `write`) over `ByteChannel`: `read_sync` is the variant. -/
example : Syncizer.getattr ([[("read", Attr.coroutine 1), ("write", Attr.coroutine 2)],
    [("read", Attr.coroutine 3), ("read_sync", Attr.plain 4)]].map Syncizer.new) "read_sync" =
    .ok (.syncOf "read") := by decide

/-- A `read_sync` written by hand is replaced. -/
example : (Syncizer.new [("read", Attr.coroutine 1), ("read_sync", Attr.plain 4)]).lookup "read_sync" =
    some (.syncOf "read") := by decide

end Salt.Props
