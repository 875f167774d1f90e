import Verif.Lemmas.Scenario

/-!
# C10–C12, C14: scenarios and optimizer flags

The caller's heap is `h`; `seen h d k` is what one reads under name `k` (`Verif.Spec.Scenario`).
-/

namespace Verif

variable {α : Type _}

/-! ## Examples used below: arrays are lists of integers -/

def exAdd (a b : List Int) : List Int := List.zipWith (· + ·) a b
def exMul (a b : List Int) : List Int := List.zipWith (· * ·) a b
/-- Two arrays in the heap, and the change `[10, 10]`. -/
def exHeap : Heap (List Int) := [[1, 2], [3, 4], [10, 10]]
def exInit : Dict Str (PyVal (List Int)) := [("a", .ref 0), ("b", .ref 1), ("c", .num [7])]
def exDelta : Dict Str (PyVal (List Int)) := [("b", .ref 2)]
def exVals : Dict Str (PyVal (List Int)) := [("c", .num [8])]
def exPct : Dict Str (PyVal (List Int)) := [("a", .ref 2)]

/-- Common setting of the scenario theorems after `deepcopy` and `update`. -/
theorem scenario_setup (h : Heap α) (initial fv : Dict Str (PyVal α)) (hfv : (dkeys fv).Nodup)
    (vi : ValidRefs h initial) (vv : ValidRefs h fv) :
    let c := deepcopyDict h initial
    let S := dupdate c.2 fv
    (∃ t, c.1 = h ++ t) ∧ FreshAt h.length (fun k => k ∉ dkeys fv) c.1 S ∧
    (∀ k, seen c.1 S k = (seen h fv k).or (seen h initial k)) ∧
    (∀ k, k ∈ dkeys S ↔ k ∈ dkeys initial ∨ k ∈ dkeys fv) ∧
    ((refsOf initial).Nodup → UniqAt (fun k => k ∉ dkeys fv) S) := by
  intro c S
  obtain ⟨⟨t, h1⟩, h2, h3, h4⟩ := deepcopyLoop_spec h.length initial h [] (Nat.le_refl _) vi
    (by intro r r' hr; cases hr)
  have hget : ∀ k, dget S k = (dget fv k).or (dget c.2 k) := fun k => dget_dupdate _ _ hfv k
  have hnew : ∀ k r, dget c.2 k = some (.ref r) → h.length ≤ r ∧ r < c.1.length := by
    intro k r hr
    exact h4 r (mem_refsOf.2 ⟨k, mem_of_dget _ hr⟩)
  have hold : ∀ k r, dget fv k = some (.ref r) → r < h.length := by
    intro k r hr
    exact vv r (mem_refsOf.2 ⟨k, mem_of_dget _ hr⟩)
  have hlen : h.length ≤ c.1.length := by
    have : c.1 = h ++ t := h1
    rw [this]; simp
  refine ⟨⟨t, h1⟩, ?_, ?_, ?_, ?_⟩
  · constructor
    · intro k r hr
      rw [hget] at hr
      cases hk : dget fv k with
      | none => rw [hk] at hr; exact (hnew k r (by simpa using hr)).2
      | some v =>
        rw [hk] at hr
        have := hold k r (by rw [hk]; simpa using hr)
        omega
    · intro k r hk hr
      rw [hget, (dget_eq_none_iff fv k).2 hk] at hr
      exact (hnew k r (by simpa using hr)).1
  · intro k
    have h3k : seen c.1 c.2 k = seen h initial k := h3 k
    unfold seen at h3k ⊢
    rw [hget]
    cases hk : dget fv k with
    | none => simpa using h3k
    | some v =>
      cases v with
      | num a => simp [readVal]
      | ref r =>
        have hr := hold k r hk
        have hc : c.1 = h ++ t := h1
        simp only [Option.some_or, Option.bind_some, readVal, hc]
        rw [List.getElem?_append_left hr, List.getElem?_eq_getElem hr]
        rfl
  · intro k
    have := mem_dkeys_dupdate c.2 fv k
    have h2' : dkeys c.2 = dkeys initial := h2
    rw [h2'] at this
    exact this
  · intro hnd
    obtain ⟨u1, _⟩ := deepcopyLoop_nodup initial h [] (fun r hr => ⟨vi r hr, rfl⟩) hnd
    have hu := uniq_of_nodup c.2 u1 (fun k => k ∉ dkeys fv)
    intro k k' r hk g1 g2
    rw [hget, (dget_eq_none_iff fv k).2 hk] at g1
    have g1' : dget c.2 k = some (.ref r) := by simpa using g1
    rw [hget] at g2
    cases hk' : dget fv k' with
    | none => rw [hk'] at g2; exact hu k k' r hk g1' (by simpa using g2)
    | some v =>
      rw [hk'] at g2
      have := hold k' r (by rw [hk']; simpa using g2)
      have := (hnew k r g1').1
      omega

/-- **C10.**  If no name is given twice, at least one is given, every offset or factor names an
initial value and no two initial values are the same array object, the scenario is exactly the
wanted one, name by name.  (`values`, `delta`, `pct` are the three optional arguments;
`None` counts as empty.) -/
theorem C10_scenario_exact_partial (add mul : α → α → α) (h : Heap α)
    (initial : Dict Str (PyVal α)) (values delta pct : Option (Dict Str (PyVal α)))
    (hdist : (dkeys (values.getD []) ++ dkeys (delta.getD []) ++ dkeys (pct.getD [])).Nodup)
    (hne : dkeys (values.getD []) ++ dkeys (delta.getD []) ++ dkeys (pct.getD []) ≠ [])
    (hknown : ∀ k ∈ dkeys (delta.getD []) ++ dkeys (pct.getD []), k ∈ dkeys initial)
    (vi : ValidRefs h initial) (vv : ValidRefs h (values.getD []))
    (vd : ValidRefs h (delta.getD [])) (vp : ValidRefs h (pct.getD []))
    (hshare : (refsOf initial).Nodup) :
    ∃ h' d', createFinalParamDict add mul h initial values delta pct = (h', .ok d') ∧
      ∀ k, seen h' d' k = wantedScenario add mul (seen h initial) (seen h (values.getD []))
        (seen h (delta.getD [])) (seen h (pct.getD [])) k := by
  obtain ⟨fv, hfv⟩ : ∃ fv, values.getD [] = fv := ⟨_, rfl⟩
  obtain ⟨fd, hfd⟩ : ∃ fd, delta.getD [] = fd := ⟨_, rfl⟩
  obtain ⟨fp, hfp⟩ : ∃ fp, pct.getD [] = fp := ⟨_, rfl⟩
  rw [hfv, hfd, hfp] at hdist hne
  rw [hfd, hfp] at hknown
  rw [hfv] at vv
  rw [hfd] at vd
  rw [hfp] at vp
  rw [hfv, hfd, hfp]
  have hd1 := List.nodup_append.1 hdist
  have hd2 := List.nodup_append.1 hd1.1
  obtain ⟨⟨t, ht⟩, hF, hS, hK, hU⟩ := scenario_setup h initial fv hd2.1 vi vv
  have hlen : h.length ≤ (deepcopyDict h initial).1.length := by rw [ht]; simp
  have hpre : ∀ r, r < h.length → (deepcopyDict h initial).1[r]? = h[r]? := by
    intro r hr; rw [ht, List.getElem?_append_left hr]
  have hPd : ∀ c ∈ fd, c.1 ∉ dkeys fv := by
    intro c hc hm
    exact hd2.2.2 _ hm c.1 (List.mem_map_of_mem (f := Prod.fst) hc) rfl
  have hPp : ∀ c ∈ fp, c.1 ∉ dkeys fv := by
    intro c hc hm
    exact hd1.2.2 _ (List.mem_append_left _ hm) c.1 (List.mem_map_of_mem (f := Prod.fst) hc) rfl
  have seenInit : ∀ k ∈ dkeys initial, ∃ x, seen h initial k = some x := by
    intro k hk
    obtain ⟨v, hv⟩ := (mem_dkeys_iff _ _).1 hk
    obtain ⟨x, hx⟩ := readVal_some_of_bound (h := h) (d := initial) (k := k) (v := v)
      (fun k r hr => vi r (mem_refsOf.2 ⟨k, mem_of_dget _ hr⟩)) hv
    exact ⟨x, by simp [seen, hv, hx]⟩
  have seenNone : ∀ k, k ∉ dkeys fv → seen h fv k = none := by
    intro k hk; simp [seen, (dget_eq_none_iff fv k).2 hk]
  obtain ⟨h1, d1, e1, u1, k1, s1⟩ := inplaceLoop_effect add h.length _ h rfl fd _ _ hlen hpre hF
    (hU hshare) hPd hd2.2.1 vd (by
      intro c hc
      obtain ⟨x, hx⟩ := seenInit c.1 (hknown _ (List.mem_append_left _
        (List.mem_map_of_mem (f := Prod.fst) hc)))
      exact ⟨x, by rw [hS, seenNone _ (hPd c hc), hx]; rfl⟩)
  obtain ⟨f1, f2, f3⟩ := inplaceLoop_fresh add h.length _ fd _ _ hlen hF hPd
  rw [e1] at f1 f2 f3
  have seenD : ∀ k, k ∉ dkeys fd → seen h fd k = none := by
    intro k hk; simp [seen, (dget_eq_none_iff fd k).2 hk]
  have seenP : ∀ k, k ∉ dkeys fp → seen h fp k = none := by
    intro k hk; simp [seen, (dget_eq_none_iff fp k).2 hk]
  have hdp : ∀ k ∈ dkeys fp, k ∉ dkeys fd := fun k hk hm =>
    hd1.2.2 _ (List.mem_append_right _ hm) k hk rfl
  obtain ⟨h2, d2, e2, _, k2, s2⟩ := inplaceLoop_effect mul h.length _ h rfl fp h1 d1 f1
    (fun r hr => (f2 r hr).trans (hpre r hr)) (f3 d1 rfl) u1 hPp hd1.2.1 vp (by
      intro c hc
      have hm : c.1 ∈ dkeys fp := List.mem_map_of_mem (f := Prod.fst) hc
      obtain ⟨x, hx⟩ := seenInit c.1 (hknown _ (List.mem_append_right _ hm))
      exact ⟨x, by rw [s1, seenD _ (hdp _ hm), hS, seenNone _ (hPp c hc), hx]; rfl⟩)
  refine ⟨h2, d2, ?_, ?_⟩
  · unfold createFinalParamDict
    simp only [hfv, hfd, hfp]
    rw [if_neg (by simpa using hne), if_neg (by rw [counter_repeated_iff]; simpa using hdist), e1]
    exact e2
  · intro k
    rw [s2, s1, hS]
    by_cases hkv : k ∈ dkeys fv
    · have a1 : seen h fd k = none := seenD k (fun hm => hd2.2.2 _ hkv k hm rfl)
      have a2 : seen h fp k = none := seenP k (fun hm => hd1.2.2 _ (List.mem_append_left _ hkv) k hm rfl)
      obtain ⟨v, hv⟩ := (mem_dkeys_iff _ _).1 hkv
      obtain ⟨x, hx⟩ := readVal_some_of_bound (h := h) (d := fv) (k := k) (v := v)
        (fun k r hr => vv r (mem_refsOf.2 ⟨k, mem_of_dget _ hr⟩)) hv
      have a3 : seen h fv k = some x := by simp [seen, hv, hx]
      simp [wantedScenario, a1, a2, a3]
    · unfold wantedScenario
      rw [seenNone k hkv]
      by_cases hkp : k ∈ dkeys fp
      · rw [seenD k (hdp k hkp)]
        cases seen h fp k <;> cases seen h initial k <;> rfl
      · rw [seenP k hkp]
        cases seen h fd k <;> cases seen h initial k <;> rfl

/-- The hypotheses are met by a scenario using all three kinds of change, with arrays. -/
example :
    (dkeys exVals ++ dkeys exDelta ++ dkeys exPct).Nodup ∧
    (∀ k ∈ dkeys exDelta ++ dkeys exPct, k ∈ dkeys exInit) ∧
    ValidRefs exHeap exInit ∧ ValidRefs exHeap exDelta ∧ (refsOf exInit).Nodup := by
  refine ⟨by decide, by decide, ?_, ?_, by decide⟩ <;> unfold ValidRefs <;> decide

example : (createFinalParamDict exAdd exMul exHeap exInit (some exVals) (some exDelta) (some exPct)).2
    = .ok [("a", .ref 3), ("b", .ref 4), ("c", .num [8])] ∧
    (createFinalParamDict exAdd exMul exHeap exInit (some exVals) (some exDelta) (some exPct)).1
    = exHeap ++ [[10, 20], [13, 14]] := by decide

/-- **C10 (order).**  The order in which the names are listed, in the initial state or in the change
dictionaries, does not matter: if the lookups agree, the scenarios agree name by name. -/
theorem C10_order_irrelevant_partial (add mul : α → α → α) (h : Heap α)
    (i i' fv fv' fd fd' fp fp' : Dict Str (PyVal α))
    (pi : List.Perm i i') (pv : List.Perm fv fv') (pd : List.Perm fd fd') (pp : List.Perm fp fp')
    (hi : (dkeys i).Nodup) (hdist : (dkeys fv ++ dkeys fd ++ dkeys fp).Nodup)
    (hne : dkeys fv ++ dkeys fd ++ dkeys fp ≠ [])
    (hknown : ∀ k ∈ dkeys fd ++ dkeys fp, k ∈ dkeys i)
    (vi : ValidRefs h i) (vv : ValidRefs h fv) (vd : ValidRefs h fd) (vp : ValidRefs h fp)
    (hshare : (refsOf i).Nodup) :
    ∃ h1 d1 h2 d2,
      createFinalParamDict add mul h i (some fv) (some fd) (some fp) = (h1, .ok d1) ∧
      createFinalParamDict add mul h i' (some fv') (some fd') (some fp') = (h2, .ok d2) ∧
      ∀ k, seen h1 d1 k = seen h2 d2 k := by
  have kp : ∀ {a b : Dict Str (PyVal α)}, List.Perm a b → List.Perm (dkeys a) (dkeys b) :=
    fun hp => hp.map _
  have rp : ∀ {a b : Dict Str (PyVal α)}, List.Perm a b → List.Perm (refsOf a) (refsOf b) := by
    intro a b hp
    induction hp with
    | nil => exact List.Perm.refl _
    | cons x _ ih => obtain ⟨k, v⟩ := x; cases v <;> simp [refsOf, ih]
    | swap x y l =>
      obtain ⟨k, v⟩ := x; obtain ⟨k', v'⟩ := y
      cases v <;> cases v' <;> simp [refsOf]
      exact List.Perm.swap _ _ _
    | trans _ _ ih1 ih2 => exact ih1.trans ih2
  have vr : ∀ {a b : Dict Str (PyVal α)}, List.Perm a b → ValidRefs h a → ValidRefs h b :=
    fun hp ha r hr => ha r ((rp hp).mem_iff.2 hr)
  have sn : ∀ {a b : Dict Str (PyVal α)}, (dkeys a).Nodup → List.Perm a b →
      seen h a = seen h b := by
    intro a b ha hp
    funext k
    have hb : (dkeys b).Nodup := (kp hp).nodup_iff.1 ha
    have : dget a k = dget b k := by
      cases hg : dget a k with
      | none =>
        rw [dget_eq_none_iff] at hg
        exact ((dget_eq_none_iff b k).2 (fun hm => hg ((kp hp).mem_iff.2 hm))).symm
      | some v => exact (dget_of_mem_nodup b hb (hp.mem_iff.1 (mem_of_dget a hg))).symm
    simp [seen, this]
  have pall : List.Perm (dkeys fv ++ dkeys fd ++ dkeys fp) (dkeys fv' ++ dkeys fd' ++ dkeys fp') :=
    ((kp pv).append (kp pd)).append (kp pp)
  obtain ⟨h1, d1, e1, s1⟩ := C10_scenario_exact_partial add mul h i (some fv) (some fd) (some fp)
    hdist hne hknown vi vv vd vp hshare
  obtain ⟨h2, d2, e2, s2⟩ := C10_scenario_exact_partial add mul h i' (some fv') (some fd') (some fp')
    (pall.nodup_iff.1 hdist) (by intro he; apply hne; exact List.Perm.eq_nil (he ▸ pall))
    (by
      intro k hk
      exact (kp pi).mem_iff.1 (hknown k (((kp pd).append (kp pp)).mem_iff.2 hk)))
    (vr pi vi) (vr pv vv) (vr pd vd) (vr pp vp) ((rp pi).nodup_iff.1 hshare)
  refine ⟨h1, d1, h2, d2, e1, e2, ?_⟩
  have hd1 := List.nodup_append.1 hdist
  have hd2 := List.nodup_append.1 hd1.1
  intro k
  rw [s1, s2]
  simp only [Option.getD_some]
  rw [sn hi pi, sn hd2.1 pv, sn hd2.2.1 pd, sn hd1.2.1 pp]

example : List.Perm exInit [("c", .num [7]), ("a", .ref 0), ("b", .ref 1)] := by decide

/-- **C10 (negation of the unrestricted property).**  When two initial values are the same array
object, an offset to one of them silently changes the other: `deepcopy` keeps the sharing and `+=`
works in place. -/
theorem C10_shared_array_changes_both :
    ∃ (h : Heap (List Int)) (initial delta : Dict Str (PyVal (List Int))) (h' : Heap (List Int))
      (d' : Dict Str (PyVal (List Int))),
      (dkeys initial).Nodup ∧ ValidRefs h initial ∧ ValidRefs h delta ∧
      createFinalParamDict exAdd exMul h initial none (some delta) none = (h', .ok d') ∧
      ("b" : Str) ∉ dkeys delta ∧ seen h initial "b" = some [1, 2] ∧ seen h' d' "b" = some [11, 12] := by
  refine ⟨[[1, 2], [10, 10]], [("a", .ref 0), ("b", .ref 0)], [("a", .ref 1)], _, _, by decide, ?_, ?_,
    rfl, by decide, by decide, by decide⟩ <;> unfold ValidRefs <;> decide

/-- **C10 (the caller's data).**  Whatever the arguments (aliased, ambiguous, unknown names, …) and
whether or not the call raises, every array the caller can reach keeps its content. -/
theorem C10_caller_data_unmodified (add mul : α → α → α) (h : Heap α)
    (initial : Dict Str (PyVal α)) (values delta pct : Option (Dict Str (PyVal α)))
    (hv : (dkeys (values.getD [])).Nodup)
    (vi : ValidRefs h initial) (vv : ValidRefs h (values.getD [])) :
    ∀ r, r < h.length →
      (createFinalParamDict add mul h initial values delta pct).1[r]? = h[r]? := by
  obtain ⟨fv, hfv⟩ : ∃ fv, values.getD [] = fv := ⟨_, rfl⟩
  obtain ⟨fd, hfd⟩ : ∃ fd, delta.getD [] = fd := ⟨_, rfl⟩
  obtain ⟨fp, hfp⟩ : ∃ fp, pct.getD [] = fp := ⟨_, rfl⟩
  rw [hfv] at hv vv
  intro r hr
  obtain ⟨⟨t, ht⟩, hF, hS, hK, hU⟩ := scenario_setup h initial fv hv vi vv
  have hlen : h.length ≤ (deepcopyDict h initial).1.length := by rw [ht]; simp
  have hpre : ∀ r, r < h.length → (deepcopyDict h initial).1[r]? = h[r]? := by
    intro r hr; rw [ht, List.getElem?_append_left hr]
  unfold createFinalParamDict
  simp only [hfv, hfd, hfp]
  split
  · exact hpre r hr
  · split
    · exact hpre r hr
    · next hrep =>
      rw [counter_repeated_iff, Classical.not_not] at hrep
      have hd1 := List.nodup_append.1 hrep
      have hd2 := List.nodup_append.1 hd1.1
      have hPd : ∀ c ∈ fd, c.1 ∉ dkeys fv := by
        intro c hc hm
        exact hd2.2.2 _ hm c.1 (List.mem_map_of_mem (f := Prod.fst) hc) rfl
      have hPp : ∀ c ∈ fp, c.1 ∉ dkeys fv := by
        intro c hc hm
        exact hd1.2.2 _ (List.mem_append_left _ hm) c.1
          (List.mem_map_of_mem (f := Prod.fst) hc) rfl
      obtain ⟨f1, f2, f3⟩ := inplaceLoop_fresh add h.length _ fd _ _ hlen hF hPd
      split
      · next e1 => rw [e1] at f2; exact (f2 r hr).trans (hpre r hr)
      · next h1 d1 e1 =>
        rw [e1] at f1 f2 f3
        obtain ⟨_, g2, _⟩ := inplaceLoop_fresh mul h.length _ fp h1 d1 f1 (f3 d1 rfl) hPp
        exact (g2 r hr).trans ((f2 r hr).trans (hpre r hr))

/-- Non-vacuity: the aliased call of the previous theorem meets the hypotheses, and the caller's
shared array `[1, 2]` is still `[1, 2]`. -/
example : (createFinalParamDict exAdd exMul [[1, 2], [10, 10]] [("a", .ref 0), ("b", .ref 0)] none
    (some [("a", .ref 1)]) none).1 = [[1, 2], [10, 10], [11, 12]] := by decide

/-! ## C11 -/

/-- **C11 (rejection).**  A scenario that gives a name twice, or gives no name at all, raises
`ValueError`. -/
theorem C11_ambiguous_or_empty_rejected (add mul : α → α → α) (h : Heap α)
    (initial : Dict Str (PyVal α)) (values delta pct : Option (Dict Str (PyVal α)))
    (hbad : ¬ (dkeys (values.getD []) ++ dkeys (delta.getD []) ++ dkeys (pct.getD [])).Nodup ∨
      (dkeys (values.getD []) = [] ∧ dkeys (delta.getD []) = [] ∧ dkeys (pct.getD []) = [])) :
    (createFinalParamDict add mul h initial values delta pct).2 = .error .valueError := by
  unfold createFinalParamDict
  rcases hbad with hb | ⟨h1, h2, h3⟩
  · simp only []
    split
    · rfl
    · rw [if_pos (by rw [counter_repeated_iff]; exact hb)]
  · simp [h1, h2, h3]

example : ¬ (dkeys exVals ++ dkeys ([("c", .num [1])] : Dict Str (PyVal (List Int))) ++
    dkeys exPct).Nodup := by decide

/-- **C11 (acceptance).**  A scenario without repetitions, with at least one name and whose offsets
and factors are for known names, never raises – also when initial arrays are shared. -/
theorem C11_clear_scenario_accepted (add mul : α → α → α) (h : Heap α)
    (initial : Dict Str (PyVal α)) (values delta pct : Option (Dict Str (PyVal α)))
    (hdist : (dkeys (values.getD []) ++ dkeys (delta.getD []) ++ dkeys (pct.getD [])).Nodup)
    (hne : dkeys (values.getD []) ++ dkeys (delta.getD []) ++ dkeys (pct.getD []) ≠ [])
    (hknown : ∀ k ∈ dkeys (delta.getD []) ++ dkeys (pct.getD []), k ∈ dkeys initial)
    (vi : ValidRefs h initial) (vv : ValidRefs h (values.getD []))
    (vd : ValidRefs h (delta.getD [])) (vp : ValidRefs h (pct.getD [])) :
    ∃ d', (createFinalParamDict add mul h initial values delta pct).2 = .ok d' := by
  obtain ⟨fv, hfv⟩ : ∃ fv, values.getD [] = fv := ⟨_, rfl⟩
  obtain ⟨fd, hfd⟩ : ∃ fd, delta.getD [] = fd := ⟨_, rfl⟩
  obtain ⟨fp, hfp⟩ : ∃ fp, pct.getD [] = fp := ⟨_, rfl⟩
  rw [hfv, hfd, hfp] at hdist hne
  rw [hfd, hfp] at hknown
  rw [hfv] at vv
  rw [hfd] at vd
  rw [hfp] at vp
  have hd1 := List.nodup_append.1 hdist
  have hd2 := List.nodup_append.1 hd1.1
  obtain ⟨⟨t, ht⟩, hF, hS, hK, hU⟩ := scenario_setup h initial fv hd2.1 vi vv
  have hlen : h.length ≤ (deepcopyDict h initial).1.length := by rw [ht]; simp
  have hPd : ∀ c ∈ fd, c.1 ∉ dkeys fv := by
    intro c hc hm
    exact hd2.2.2 _ hm c.1 (List.mem_map_of_mem (f := Prod.fst) hc) rfl
  have hPp : ∀ c ∈ fp, c.1 ∉ dkeys fv := by
    intro c hc hm
    exact hd1.2.2 _ (List.mem_append_left _ hm) c.1 (List.mem_map_of_mem (f := Prod.fst) hc) rfl
  obtain ⟨h1, d1, e1, k1⟩ := inplaceLoop_ok add h.length _ fd _ _ hlen hF hPd vd (by
    intro c hc
    rw [hK]
    exact Or.inl (hknown _ (List.mem_append_left _ (List.mem_map_of_mem (f := Prod.fst) hc))))
  obtain ⟨f1, f2, f3⟩ := inplaceLoop_fresh add h.length _ fd _ _ hlen hF hPd
  rw [e1] at f1 f2 f3
  obtain ⟨h2, d2, e2, k2⟩ := inplaceLoop_ok mul h.length _ fp h1 d1 f1 (f3 d1 rfl) hPp vp (by
    intro c hc
    rw [k1, hK]
    exact Or.inl (hknown _ (List.mem_append_right _ (List.mem_map_of_mem (f := Prod.fst) hc))))
  refine ⟨d2, ?_⟩
  unfold createFinalParamDict
  simp only [hfv, hfd, hfp]
  rw [if_neg (by simpa using hne), if_neg (by rw [counter_repeated_iff]; simpa using hdist), e1]
  exact congrArg Prod.snd e2

example : ∃ d', (createFinalParamDict exAdd exMul [[1, 2], [10, 10]]
    [("a", .ref 0), ("b", .ref 0)] none (some [("a", .ref 1)]) (some [("b", .num [2, 2])])).2
    = .ok d' := ⟨_, rfl⟩

/-- **C11 (exact condition).**  With at least one name given, the call succeeds if and only if no
name is given twice and every offset or factor names an initial value (nothing is required of the
names in `final_values`). -/
theorem C11_accepted_iff (add mul : α → α → α) (h : Heap α)
    (initial : Dict Str (PyVal α)) (values delta pct : Option (Dict Str (PyVal α)))
    (hne : dkeys (values.getD []) ++ dkeys (delta.getD []) ++ dkeys (pct.getD []) ≠ [])
    (vi : ValidRefs h initial) (vv : ValidRefs h (values.getD []))
    (vd : ValidRefs h (delta.getD [])) (vp : ValidRefs h (pct.getD [])) :
    (∃ d', (createFinalParamDict add mul h initial values delta pct).2 = .ok d') ↔
      (dkeys (values.getD []) ++ dkeys (delta.getD []) ++ dkeys (pct.getD [])).Nodup ∧
      ∀ k ∈ dkeys (delta.getD []) ++ dkeys (pct.getD []), k ∈ dkeys initial := by
  constructor
  · rintro ⟨d', hok⟩
    have hdist : (dkeys (values.getD []) ++ dkeys (delta.getD []) ++ dkeys (pct.getD [])).Nodup := by
      apply Classical.byContradiction
      intro hn
      rw [C11_ambiguous_or_empty_rejected add mul h initial values delta pct (Or.inl hn)] at hok
      cases hok
    refine ⟨hdist, ?_⟩
    have hd1 := List.nodup_append.1 hdist
    have hd2 := List.nodup_append.1 hd1.1
    have hK := (scenario_setup h initial (values.getD []) hd2.1 vi vv).2.2.2.1
    unfold createFinalParamDict at hok
    simp only [] at hok
    rw [if_neg (by simpa using hne), if_neg (by rw [counter_repeated_iff]; simpa using hdist)] at hok
    split at hok
    · cases hok
    · next h1 d1 e1 =>
      obtain ⟨a1, a2⟩ := inplaceLoop_keys add (delta.getD []) _ _ h1 d1 e1
      obtain ⟨b1, b2⟩ := inplaceLoop_keys mul (pct.getD []) h1 d1 _ d' (Prod.ext rfl hok)
      intro k hk
      rcases List.mem_append.1 hk with hk | hk
      · rcases (hK k).1 (a2 k hk) with h3 | h3
        · exact h3
        · exact absurd rfl (hd2.2.2 _ h3 k hk)
      · have := b2 k hk
        rw [a1] at this
        rcases (hK k).1 this with h3 | h3
        · exact h3
        · exact absurd rfl (hd1.2.2 _ (List.mem_append_left _ h3) k hk)
  · rintro ⟨h1, h2⟩
    exact C11_clear_scenario_accepted add mul h initial values delta pct h1 hne h2 vi vv vd vp

/-! ## C12 -/

/-- **C12 (the part that holds).**  An unknown name in `final_delta` or `final_delta_pct` always
makes the call raise.  Missing: unknown names in `final_values`, see the next theorem. -/
theorem C12_unknown_delta_rejected_partial (add mul : α → α → α) (h : Heap α)
    (initial : Dict Str (PyVal α)) (values delta pct : Option (Dict Str (PyVal α)))
    (vi : ValidRefs h initial) (vv : ValidRefs h (values.getD []))
    (vd : ValidRefs h (delta.getD [])) (vp : ValidRefs h (pct.getD []))
    (k : Str) (hk : k ∈ dkeys (delta.getD []) ++ dkeys (pct.getD [])) (hu : k ∉ dkeys initial) :
    ∃ e, (createFinalParamDict add mul h initial values delta pct).2 = .error e := by
  cases hc : (createFinalParamDict add mul h initial values delta pct).2 with
  | error e => exact ⟨e, rfl⟩
  | ok d' =>
    have hne : dkeys (values.getD []) ++ dkeys (delta.getD []) ++ dkeys (pct.getD []) ≠ [] := by
      intro he
      simp only [List.append_eq_nil_iff] at he
      simp [he.1.2, he.2] at hk
    exact absurd (((C11_accepted_iff add mul h initial values delta pct hne vi vv vd vp).1
      ⟨d', hc⟩).2 k hk) hu

example : ("zz" : Str) ∉ dkeys exInit ∧
    (createFinalParamDict exAdd exMul exHeap exInit none (some [("zz", .num [1])]) none).2
      = .error .keyError := by decide

/-- **C12 (negation for `final_values`).**  A scenario whose only change is an unknown name in
`final_values` is always accepted, and every name of the initial state keeps its initial value: the
misspelt change is silently ignored. -/
theorem C12_unknown_final_value_ignored (add mul : α → α → α) (h : Heap α)
    (initial : Dict Str (PyVal α)) (vi : ValidRefs h initial) (k : Str) (a : α)
    (hu : k ∉ dkeys initial) :
    ∃ h' d', createFinalParamDict add mul h initial (some [(k, .num a)]) none none = (h', .ok d') ∧
      ∀ k' ∈ dkeys initial, seen h' d' k' = seen h initial k' := by
  obtain ⟨⟨t, ht⟩, hF, hS, hK, hU⟩ := scenario_setup h initial [(k, PyVal.num a)]
    (by simp [dkeys]) vi (by intro r hr; cases hr)
  refine ⟨_, _, rfl, ?_⟩
  intro k' hk'
  have hne : k ≠ k' := by rintro rfl; exact hu hk'
  have hfin := hS k'
  simp only [seen, dget_cons, if_neg hne, dget_nil, Option.bind_none, Option.none_or] at hfin
  exact hfin

example : ("zz" : Str) ∉ dkeys exInit := by decide

/-! ## C14 -/

/-- **C14 (resolution rule of the helper).**  `get_method_defaults` keeps every explicit flag and
takes the table's entry for every `None`, except that the Hessian is dropped when the
Hessian-vector product is also selected; it raises exactly when a flag is `None` and the method is
not in the table. -/
theorem C14_helper_resolution_partial (table : Dict Str MethodFlags) (ug uh uhp : Option Bool)
    (method : Str) :
    (∀ f, dget table method = some f →
      getMethodDefaults table ug uh uhp method =
        .ok (ug.getD f.grad,
          (uh.getD f.hess) && !(uhp.getD f.hessp), uhp.getD f.hessp)) ∧
    (dget table method = none →
      getMethodDefaults table ug uh uhp method =
        match ug, uh, uhp with
        | some g, some he, some hp => .ok (g, he && !hp, hp)
        | _, _, _ => .error .keyError) := by
  have hb : ∀ a b : Bool, (if (a && b) = true then false else a) = (a && !b) := by decide
  constructor
  · intro f hf
    cases ug <;> cases uh <;> cases uhp <;>
      simp only [getMethodDefaults, dgetE, hf, bind, Except.bind, pure, Except.pure, Except.map, hb,
        Option.getD_some, Option.getD_none]
  · intro hf
    cases ug <;> cases uh <;> cases uhp <;>
      simp only [getMethodDefaults, dgetE, hf, bind, Except.bind, pure, Except.pure, Except.map, hb]

/-- **C14 (never both).**  Whatever the method table, the method and the flags, the settings used
by the minimizer never ask for both the Hessian and the Hessian-vector product, nor for the Hessian
without the gradient. -/
theorem C14_never_both (table : Dict Str MethodFlags) (kw : MinimizeKwargs) (g he hp : Bool)
    (h : simulateMinimizeFlags table kw = .ok (g, he, hp)) :
    ¬ (he = true ∧ hp = true) ∧ ¬ (he = true ∧ g = false) := by
  unfold simulateMinimizeFlags at h
  simp only [bind, Except.bind, pure, Except.pure] at h
  split at h
  · cases h
  · next v hv =>
    obtain ⟨g', he', hp'⟩ := v
    simp only [Except.ok.injEq, Prod.mk.injEq] at h
    obtain ⟨rfl, rfl, rfl⟩ := h
    have hx : ¬ (he' = true ∧ hp' = true) := by
      obtain ⟨r1, r2⟩ := C14_helper_resolution_partial table (kw.useJac.getD (some true))
        (kw.useHess.getD (some true)) (kw.useHessp.getD (some true))
        (kw.method.getD "trust-ncg".toList)
      cases hf : dget table (kw.method.getD "trust-ncg".toList) with
      | some f =>
        rw [r1 f hf] at hv
        cases hv
        rintro ⟨h1, h2⟩
        rw [h2] at h1
        simp at h1
      | none =>
        rw [r2 hf] at hv
        split at hv
        · cases hv
          rintro ⟨h1, h2⟩
          rw [h2] at h1
          simp at h1
        · cases hv
    revert hx
    cases g' <;> cases he' <;> cases hp' <;> decide

example : simulateMinimizeFlags [] { useHess := some (some true), useHessp := some (some false) }
    = .ok (true, true, false) := by decide

/-- Example table: BFGS uses no second derivatives. -/
def exTable : Dict Str MethodFlags :=
  [("BFGS", ⟨true, false, false⟩), ("trust-ncg", ⟨true, true, true⟩)]

example : dget exTable "BFGS" = some ⟨true, false, false⟩ ∧
    getMethodDefaults exTable none (some true) none "BFGS" = .ok (true, true, false) := by decide

/-- **C14 (negation, explicit choice).**  `simulate(..., use_hess=True)` never uses the Hessian: the
omitted `use_hessp` defaults to `True` and wins, for every method table and every method. -/
theorem C14_explicit_hess_ignored (table : Dict Str MethodFlags) (method : Option Str) :
    simulateMinimizeFlags table { method := method, useHess := some (some true) }
      = .ok (true, false, true) := rfl

/-- **C14 (negation, omitted flags).**  Omitted flags do not take the method's default: for every
method the minimizer is given the gradient and the Hessian-vector product, e.g. for BFGS which uses
no Hessian-vector product. -/
theorem C14_method_default_ignored :
    (∀ (table : Dict Str MethodFlags) (method : Option Str),
      simulateMinimizeFlags table { method := method } = .ok (true, false, true)) ∧
    dget exTable "BFGS" = some ⟨true, false, false⟩ :=
  ⟨fun _ _ => rfl, by decide⟩

end Verif
