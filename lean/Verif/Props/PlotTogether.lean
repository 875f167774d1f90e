import Verif.Props.Plots

/-!
# C61: bar plots of several variables in one panel
-/

namespace Verif

variable {K : Type} [Field K] [LinearOrder K] {E : Type}

omit [Field K] [LinearOrder K] in
theorem fromkeys_nodup (names : List Str) (h : names.Nodup) :
    dkeys (dofPairs (names.map fun n => (n, ()))) = names := by
  rw [dofPairs_of_nodup _ (by simpa [List.map_map, Function.comp_def] using h), dkeys, List.map_map]
  simp [Function.comp_def]

/-- **C61 (together), for initial values above the threshold.**  When all variables have the same dims,
`plot_bar(plot_together=True)` draws one series of bars for each variable, in the order of the names, and
each series is what the variable's own panel would show: one bar for each element, under the element's own
labels, with the chosen comparison of the last step with step 0.

What is missing from the full statement: percentage bars of elements whose initial value is not above the
threshold (`C61_pct_not_above_threshold`). -/
theorem C61_together_partial (r : Reg E) (coords : Coords) (res : SimResult K) (ds : XDataset K)
    (varNames : List Str) (metric : Str) (thr : K) (dims : List Str) (hg : ShownGroup res ds)
    (hne : varNames ≠ []) (hnd : varNames.Nodup) (hm : metric ∈ documentedMetrics) (hd : dims ≠ [])
    (hr : ∀ name ∈ varNames, dimsOfName r name = .ok dims)
    (ht : ∀ name ∈ varNames, ∃ n v, Trajectory coords ds name dims n v) :
    ∃ columns, plotBarTogether r coords res varNames none metric thr = .ok columns ∧
      List.Forall₂ (fun name p => p.1 = name ∧ ∀ n v, Trajectory coords ds name dims n v →
        PanelShows coords metric thr dims n v p.2) varNames columns := by
  obtain ⟨inputs, hin, hF⟩ := mapM_exists (barInputs ds)
    (fun name y => ∃ n v f i rows, y = (name, dims, f, i) ∧
      Trajectory coords ds name dims n v ∧ oneBar coords dims f i none metric thr = .ok rows ∧
        PanelShows coords metric thr dims n v rows) varNames (by
    intro name hn
    obtain ⟨n, v, htr⟩ := ht name hn
    obtain ⟨f, i, hb, rows, hr, hp⟩ := oneBar_ok coords ds name dims n v metric thr hm hd htr
    exact ⟨_, hb, n, v, f, i, rows, rfl, htr, hr, hp⟩)
  obtain ⟨columns, hcol, hQ⟩ := mapM_exists₂
    (fun p : Str × List Str × List K × List K =>
      (oneBar coords p.2.1 p.2.2.1 p.2.2.2 none metric thr).map fun b => (p.1, b)) _
    (fun name p => p.1 = name ∧ ∀ n v, Trajectory coords ds name dims n v →
        PanelShows coords metric thr dims n v p.2) varNames inputs hF (by
    rintro name y ⟨n, v, f, i, rows, rfl, htr, hr, hp⟩
    refine ⟨(name, rows), by simp only [hr, Except.map], rfl, ?_⟩
    intro n' v' htr'
    have h := htr.stored.symm.trans htr'.stored
    simp only [Option.some.injEq, Prod.mk.injEq, true_and] at h
    obtain rfl := h
    have hn := htr.shape.symm.trans htr'.shape
    simp only [List.cons.injEq, Nat.add_right_cancel_iff, and_true] at hn
    subst hn
    exact hp)
  refine ⟨columns, ?_, hQ⟩
  have hdims : varNames.mapM (dimsOfName r) = .ok (varNames.map fun _ => dims) :=
    mapM_ok_of_forall _ _ _ hr
  simp only [plotBarTogether, plottedGroup_eq res ds hg, bind, Except.bind, fromkeys_nodup _ hnd, hin,
    hdims]
  cases varNames with
  | nil => exact absurd rfl hne
  | cons a l =>
    simp only [List.map_cons]
    rw [if_neg (by simp), if_neg hd]
    exact hcol

omit [Field K] [LinearOrder K] in
/-- What a stored variable without dims holds at its last step and at step 0. -/
theorem scalarInputs (coords : Coords) (ds : XDataset K) (name : Str) (n : Nat) (v : NDArray K)
    (ht : Trajectory coords ds name [] n v) :
    ∃ f i, barInputs ds name = .ok (name, [], [f], [i]) ∧ v.at? [n] = some f ∧ v.at? [0] = some i := by
  obtain ⟨f, hf, hfl, hfa⟩ := lastStepData_spec v n _ ht.shape ht.wf
  obtain ⟨i, hi, hil, hia⟩ := firstStepData_spec v n _ ht.shape ht.wf
  have h1 := hfa [] trivial
  have h2 := hia [] trivial
  simp only [List.map_nil, List.prod_nil] at hfl hil
  obtain ⟨a, rfl⟩ := List.length_eq_one_iff.1 hfl
  obtain ⟨b, rfl⟩ := List.length_eq_one_iff.1 hil
  refine ⟨a, b, ?_, h1.symm, h2.symm⟩
  simp only [barInputs, dgetE, ht.stored, bind, Except.bind, hf, hi, pure, Except.pure, List.tail_cons]

omit [Field K] [LinearOrder K] in
/-- The inputs of the plot for variables without dims. -/
theorem scalar_inputs_all (coords : Coords) (ds : XDataset K) (varNames : List Str)
    (ht : ∀ name ∈ varNames, ∃ n v, Trajectory coords ds name [] n v) :
    ∃ fi : List (K × K), varNames.mapM (barInputs ds) =
        .ok (List.zipWith (fun (name : Str) (p : K × K) => (name, ([] : List Str), [p.1], [p.2]))
          varNames fi) ∧
      List.Forall₂ (fun name p => ∀ n v, Trajectory coords ds name [] n v →
        v.at? [n] = some p.1 ∧ v.at? [0] = some p.2) varNames fi := by
  induction varNames with
  | nil => exact ⟨[], rfl, .nil⟩
  | cons a l ih =>
    obtain ⟨fi, h1, h2⟩ := ih fun x hx => ht x (by simp [hx])
    obtain ⟨n, v, htr⟩ := ht a (by simp)
    obtain ⟨f, i, hb, hf, hi⟩ := scalarInputs coords ds a n v htr
    refine ⟨(f, i) :: fi, by rw [List.mapM_cons, hb, h1]; rfl, .cons ?_ h2⟩
    intro n' v' htr'
    have h := htr.stored.symm.trans htr'.stored
    simp only [Option.some.injEq, Prod.mk.injEq, true_and] at h
    subst h
    have hn := htr.shape.symm.trans htr'.shape
    simp only [List.cons.injEq, Nat.add_right_cancel_iff, and_true] at hn
    subst hn
    exact ⟨hf, hi⟩

omit [Field K] [LinearOrder K] in
theorem scalarFrame_zipWith (names : List Str) (xs : List (K × K)) (g : K × K → K) :
    scalarFrame (List.zipWith (fun (name : Str) (p : K × K) => (name, [g p])) names xs) =
      (names.map fun l => [l]).zip (xs.map g) := by
  induction names generalizing xs with
  | nil => rfl
  | cons a l ih =>
    cases xs with
    | nil => rfl
    | cons x xs =>
      have := ih xs
      rw [scalarFrame] at this ⊢
      rw [List.zipWith_cons_cons, List.flatMap_cons, this]
      rfl

/-- `plot_bar(plot_together=True)` on variables without dims, reduced to the comparison of two frames. -/
theorem plotBarTogether_scalars (r : Reg E) (coords : Coords) (res : SimResult K) (ds : XDataset K)
    (varNames : List Str) (gd : Option (Dict Str (Dict Str Str))) (metric : Str) (thr : K)
    (hg : ShownGroup res ds) (hne : varNames ≠ []) (hnd : varNames.Nodup)
    (hr : ∀ name ∈ varNames, dimsOfName r name = .ok [])
    (ht : ∀ name ∈ varNames, ∃ n v, Trajectory coords ds name [] n v) :
    ∃ fi : List (K × K), List.Forall₂ (fun name p => ∀ n v, Trajectory coords ds name [] n v →
        v.at? [n] = some p.1 ∧ v.at? [0] = some p.2) varNames fi ∧
      plotBarTogether r coords res varNames gd metric thr = (do
        let d ← applyGroups gd ["name".toList] ((varNames.map fun l => [l]).zip (fi.map Prod.fst))
        let i ← applyGroups gd ["name".toList] ((varNames.map fun l => [l]).zip (fi.map Prod.snd))
        let b ← computeBarData d i metric thr
        pure [("data".toList, b)]) := by
  obtain ⟨fi, hin, hF⟩ := scalar_inputs_all coords ds varNames ht
  refine ⟨fi, hF, ?_⟩
  have hdims : varNames.mapM (dimsOfName r) = .ok (varNames.map fun _ => []) :=
    mapM_ok_of_forall _ _ _ hr
  have e1 := scalarFrame_zipWith varNames fi Prod.fst
  have e2 := scalarFrame_zipWith varNames fi Prod.snd
  rw [← e1, ← e2]
  simp only [plotBarTogether, plottedGroup_eq res ds hg, bind, Except.bind, fromkeys_nodup _ hnd, hin,
    hdims]
  cases varNames with
  | nil => exact absurd rfl hne
  | cons a l =>
    simp only [List.map_cons]
    rw [if_neg (by simp), if_pos trivial]
    simp only [scalarBars, List.map_zipWith, bind, Except.bind]
    cases applyGroups gd ["name".toList]
        (scalarFrame (List.zipWith (fun name p => (name, [p.1])) (a :: l) fi)) with
    | error e => rfl
    | ok d =>
      dsimp only
      cases applyGroups gd ["name".toList]
          (scalarFrame (List.zipWith (fun name p => (name, [p.2])) (a :: l) fi)) with
      | error e => rfl
      | ok i => rfl

/-- **C61 (together, variables without dims), for initial values above the threshold.**  Variables without
dims, which have no panel of their own (`C61_scalar_raises`), can be drawn together: there is one bar for
each variable, under the variable's name, in the order of the names, and it is the chosen comparison of
the variable's last step with its step 0. -/
theorem C61_together_scalars_partial (r : Reg E) (coords : Coords) (res : SimResult K) (ds : XDataset K)
    (varNames : List Str) (metric : Str) (thr : K) (hg : ShownGroup res ds) (hne : varNames ≠ [])
    (hnd : varNames.Nodup) (hm : metric ∈ documentedMetrics)
    (hr : ∀ name ∈ varNames, dimsOfName r name = .ok [])
    (ht : ∀ name ∈ varNames, ∃ n v, Trajectory coords ds name [] n v) :
    ∃ rows, plotBarTogether r coords res varNames none metric thr = .ok [("data".toList, rows)] ∧
      List.Forall₂ (fun name row => row.1 = [name] ∧ ∀ n v, Trajectory coords ds name [] n v →
        ∃ f i, v.at? [n] = some f ∧ v.at? [0] = some i ∧ CellShows metric thr f i row.2)
        varNames rows := by
  obtain ⟨fi, hF, he⟩ := plotBarTogether_scalars r coords res ds varNames none metric thr hg hne hnd hr ht
  obtain ⟨g, hgm, hs⟩ := metricCell_spec metric thr hm
  refine ⟨List.zipWith (fun (d i : List Str × K) => (d.1, g d.2 i.2))
    ((varNames.map fun l => [l]).zip (fi.map Prod.fst))
    ((varNames.map fun l => [l]).zip (fi.map Prod.snd)), ?_, ?_⟩
  · rw [he]
    simp only [applyGroups, bind, Except.bind, computeBarData, hgm, pure, Except.pure]
  · clear he hr ht hne hnd
    induction hF with
    | nil => exact .nil
    | cons hp _ ih =>
      refine .cons ⟨rfl, ?_⟩ ih
      intro n v htr
      obtain ⟨h1, h2⟩ := hp n v htr
      exact ⟨_, _, h1, h2, hs _ _⟩

/-- **C61 (together, groups of variables).**  Variables without dims can be grouped by their names, with
the entry `name` of the groups: there is exactly one bar for each group in use, in alphabetical order, and
it compares the group's total at the end with the group's total at the start. -/
theorem C61_together_scalar_groups (r : Reg E) (coords : Coords) (res : SimResult K) (ds : XDataset K)
    (varNames : List Str) (gd : Dict Str (Dict Str Str)) (cd : Dict Str Str) (metric : Str) (thr : K)
    (hg : ShownGroup res ds) (hne : varNames ≠ []) (hnd : varNames.Nodup)
    (hm : metric ∈ documentedMetrics) (hr : ∀ name ∈ varNames, dimsOfName r name = .ok [])
    (ht : ∀ name ∈ varNames, ∃ n v, Trajectory coords ds name [] n v)
    (hgd : dget gd "name".toList = some cd) (hcd : ∀ l ∈ varNames, ∃ g, dget cd l = some g) :
    ∃ (f i : List K) (groups : List Str) (rows : List (List Str × List K)),
      List.Forall₂ (fun name x => ∀ n v, Trajectory coords ds name [] n v → v.at? [n] = some x)
        varNames f ∧
      List.Forall₂ (fun name x => ∀ n v, Trajectory coords ds name [] n v → v.at? [0] = some x)
        varNames i ∧
      plotBarTogether r coords res varNames (some gd) metric thr = .ok [("data".toList, rows)] ∧
      groups.Nodup ∧ groups.Pairwise (· ≤ ·) ∧
      (∀ g, g ∈ groups ↔ ∃ l ∈ varNames, dget cd l = some g) ∧
      List.Forall₂ (fun g row => row.1 = [g] ∧
        CellShows metric thr (membersOf cd varNames g f).sum (membersOf cd varNames g i).sum row.2)
        groups rows := by
  obtain ⟨fi, hF, he⟩ :=
    plotBarTogether_scalars r coords res ds varNames (some gd) metric thr hg hne hnd hr ht
  have hl := hF.length_eq
  obtain ⟨groups, rows, hrows, h1, h2, h3, h4⟩ := C61_groups [("name".toList, varNames)] "name".toList
    varNames gd cd (fi.map Prod.fst) (fi.map Prod.snd) metric thr hm (by rfl) hgd hcd (by simp [hl])
    (by simp [hl])
  refine ⟨fi.map Prod.fst, fi.map Prod.snd, groups, rows, ?_, ?_, ?_, h1, h2, h3, h4⟩
  · rw [List.forall₂_map_right_iff]
    exact hF.imp fun _ _ h n v ht => (h n v ht).1
  · rw [List.forall₂_map_right_iff]
    exact hF.imp fun _ _ h n v ht => (h n v ht).2
  · rw [he]
    have hfr : ∀ x : List K, toFrame [("name".toList, varNames)] ["name".toList] x =
        .ok ((varNames.map fun l => [l]).zip x) := by
      intro x
      simp [toFrame, dgetE, dget, product, bind, Except.bind, pure, Except.pure, List.map_eq_flatMap]
    simp only [oneBar, hfr, bind, Except.bind] at hrows
    simp only [bind, Except.bind, pure, Except.pure]
    generalize hA : applyGroups (some gd) ["name".toList]
      ((varNames.map fun l => [l]).zip (fi.map Prod.fst)) = A at hrows ⊢
    generalize hB : applyGroups (some gd) ["name".toList]
      ((varNames.map fun l => [l]).zip (fi.map Prod.snd)) = B at hrows ⊢
    cases A with
    | error e => exact absurd hrows (by simp)
    | ok d =>
      cases B with
      | error e => exact absurd hrows (by simp)
      | ok i =>
        dsimp only at hrows ⊢
        rw [hrows]

/-- **C61 (together, when it is refused).**  For stored variables of the model, `plot_together=True` draws
exactly when there is a variable and all variables have the same dims; otherwise it raises `ValueError`. -/
theorem C61_together_iff (r : Reg E) (coords : Coords) (res : SimResult K) (ds : XDataset K)
    (varNames : List Str) (metric : Str) (thr : K) (dimsOf : Str → List Str) (hg : ShownGroup res ds)
    (hnd : varNames.Nodup) (hm : metric ∈ documentedMetrics)
    (hr : ∀ name ∈ varNames, dimsOfName r name = .ok (dimsOf name))
    (ht : ∀ name ∈ varNames, ∃ n v, Trajectory coords ds name (dimsOf name) n v) :
    ((∃ out, plotBarTogether r coords res varNames none metric thr = .ok out) ↔
      varNames ≠ [] ∧ ∀ a ∈ varNames, ∀ b ∈ varNames, dimsOf a = dimsOf b) ∧
    ((varNames = [] ∨ ∃ a ∈ varNames, ∃ b ∈ varNames, dimsOf a ≠ dimsOf b) →
      plotBarTogether r coords res varNames none metric thr = .error .valueError) := by
  have hbad : (varNames = [] ∨ ∃ a ∈ varNames, ∃ b ∈ varNames, dimsOf a ≠ dimsOf b) →
      plotBarTogether r coords res varNames none metric thr = .error .valueError := by
    rintro (rfl | ⟨a, ha, b, hb, hab⟩)
    · simp only [plotBarTogether, plottedGroup_eq res ds hg, bind, Except.bind]
      rfl
    obtain ⟨inputs, hin, -⟩ := mapM_exists (barInputs ds) (fun _ _ => True) varNames (by
      intro name hn
      obtain ⟨n, v, htr⟩ := ht name hn
      obtain ⟨f, hf, _⟩ := lastStepData_spec v n _ htr.shape htr.wf
      obtain ⟨i, hi, _⟩ := firstStepData_spec v n _ htr.shape htr.wf
      exact ⟨(name, dimsOf name, f, i), by
        simp only [barInputs, dgetE, htr.stored, bind, Except.bind, hf, hi, pure, Except.pure,
          List.tail_cons], trivial⟩)
    have hdims : varNames.mapM (dimsOfName r) = .ok (varNames.map dimsOf) :=
      mapM_ok_of_forall _ _ _ hr
    simp only [plotBarTogether, plottedGroup_eq res ds hg, bind, Except.bind, fromkeys_nodup _ hnd,
      hin, hdims]
    cases varNames with
    | nil => cases ha
    | cons c l =>
      simp only [List.map_cons]
      rw [if_pos]
      simp only [Bool.not_eq_true', ← Bool.not_eq_true, List.all_eq_true, decide_eq_true_eq]
      intro h
      have key : ∀ x ∈ c :: l, dimsOf x = dimsOf c := fun x hx =>
        h _ (by rw [← List.map_cons]; exact List.mem_map_of_mem hx)
      exact hab ((key a ha).trans (key b hb).symm)
  refine ⟨⟨?_, ?_⟩, hbad⟩
  · rintro ⟨out, ho⟩
    refine ⟨fun he => ?_, fun a ha b hb => ?_⟩
    · rw [hbad (.inl he)] at ho
      cases ho
    · by_contra hab
      rw [hbad (.inr ⟨a, ha, b, hb, hab⟩)] at ho
      cases ho
  · rintro ⟨hne, h⟩
    obtain ⟨a, ha⟩ := List.exists_mem_of_ne_nil _ hne
    have hr' : ∀ name ∈ varNames, dimsOfName r name = .ok (dimsOf a) := fun name hn => by
      rw [hr name hn, h name hn a ha]
    have ht' : ∀ name ∈ varNames, ∃ n v, Trajectory coords ds name (dimsOf a) n v := fun name hn => by
      rw [← h name hn a ha]; exact ht name hn
    by_cases hd : dimsOf a = []
    · rw [hd] at hr' ht'
      obtain ⟨rows, hrows, -⟩ :=
        C61_together_scalars_partial r coords res ds varNames metric thr hg hne hnd hm hr' ht'
      exact ⟨_, hrows⟩
    · obtain ⟨cols, hcols, -⟩ :=
        C61_together_partial r coords res ds varNames metric thr _ hg hne hnd hm hd hr' ht'
      exact ⟨_, hcols⟩

/-! ### Examples -/

/-- Two variables with the dim `i` and two without dims. -/
def exTogetherReg : Reg Unit :=
  ⟨[("Y".toList, { name := "Y".toList, dims := ["i".toList] }),
    ("Z".toList, { name := "Z".toList, dims := ["i".toList] }),
    ("e".toList, { name := "e".toList, dims := [] }),
    ("w".toList, { name := "w".toList, dims := [] })], [], []⟩

def exTogetherSet : XDataset ℚ :=
  [("Y".toList, (["step".toList, "i".toList], ⟨[2, 2], [10, 20, 30, 10]⟩)),
   ("Z".toList, (["step".toList, "i".toList], ⟨[2, 2], [1, 2, 3, 4]⟩)),
   ("e".toList, (["step".toList], ⟨[2], [1, 3]⟩)),
   ("w".toList, (["step".toList], ⟨[2], [4, 2]⟩))]

def exTogetherRes : SimResult ℚ := [("euler".toList, (exTogetherSet, []))]

/-- The hypotheses of `C61_together_partial`. -/
example : ShownGroup exTogetherRes exTogetherSet ∧ ["Y".toList, "Z".toList].Nodup ∧
    (∀ name ∈ ["Y".toList, "Z".toList], dimsOfName exTogetherReg name = .ok ["i".toList]) ∧
    ∀ name ∈ ["Y".toList, "Z".toList], ∃ n v,
      Trajectory exPlotCoords exTogetherSet name ["i".toList] n v := by
  refine ⟨Or.inr ⟨by rfl, _, by rfl, rfl⟩, by decide, ?_, ?_⟩
  · intro name hn
    simp only [List.mem_cons, List.not_mem_nil, or_false] at hn
    rcases hn with rfl | rfl <;> rfl
  · intro name hn
    simp only [List.mem_cons, List.not_mem_nil, or_false] at hn
    rcases hn with rfl | rfl
    · exact ⟨1, ⟨[2, 2], [10, 20, 30, 10]⟩, by rfl, by decide, by rfl, by rfl⟩
    · exact ⟨1, ⟨[2, 2], [1, 2, 3, 4]⟩, by rfl, by decide, by rfl, by rfl⟩

/-- The hypotheses of `C61_together_scalars_partial` and `C61_together_scalar_groups`. -/
example : (∀ name ∈ ["e".toList, "w".toList], dimsOfName exTogetherReg name = .ok []) ∧
    (∀ name ∈ ["e".toList, "w".toList], ∃ n v, Trajectory exPlotCoords exTogetherSet name [] n v) ∧
    ∀ l ∈ ["e".toList, "w".toList], ∃ g,
      dget [("e".toList, "prices".toList), ("w".toList, "prices".toList)] l = some g := by
  refine ⟨?_, ?_, ?_⟩
  · intro name hn
    simp only [List.mem_cons, List.not_mem_nil, or_false] at hn
    rcases hn with rfl | rfl <;> rfl
  · intro name hn
    simp only [List.mem_cons, List.not_mem_nil, or_false] at hn
    rcases hn with rfl | rfl
    · exact ⟨1, ⟨[2], [1, 3]⟩, by rfl, by decide, by rfl, by rfl⟩
    · exact ⟨1, ⟨[2], [4, 2]⟩, by rfl, by decide, by rfl, by rfl⟩
  · intro name hn
    simp only [List.mem_cons, List.not_mem_nil, or_false] at hn
    rcases hn with rfl | rfl <;> exact ⟨"prices".toList, by rfl⟩

set_option synthInstance.maxSize 2000 in
/-- What is drawn there, without and with groups, and a call that is refused. -/
example :
    plotBarTogether exTogetherReg exPlotCoords exTogetherRes ["Y".toList, "Z".toList] none
      "change".toList (1 / 10 ^ 6) =
      .ok [("Y".toList, [(["a".toList], [20]), (["b".toList], [-10])]),
        ("Z".toList, [(["a".toList], [2]), (["b".toList], [2])])] ∧
    plotBarTogether exTogetherReg exPlotCoords exTogetherRes ["e".toList, "w".toList] none
      "both".toList (1 / 10 ^ 6) =
      .ok [("data".toList, [(["e".toList], [3, 1]), (["w".toList], [2, 4])])] ∧
    plotBarTogether exTogetherReg exPlotCoords exTogetherRes ["e".toList, "w".toList]
      (some [("name".toList, [("e".toList, "prices".toList), ("w".toList, "prices".toList)])])
      "change".toList (1 / 10 ^ 6) = .ok [("data".toList, [(["prices".toList], [0])])] ∧
    plotBarTogether exTogetherReg exPlotCoords exTogetherRes ["Y".toList, "e".toList] none
      "change".toList (1 / 10 ^ 6) = .error .valueError := by decide +kernel

end Verif
