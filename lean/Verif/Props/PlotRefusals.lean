import Verif.Props.Plots
import Verif.Props.Summary
import Verif.Props.Calibrate

/-!
# C61, C62, C63, C65: what is refused, and with which error
-/

namespace Verif

section Bars

variable {K : Type} [Field K] [LinearOrder K]

/-- **C61**, refusals.  An undocumented metric, a result without a group, a name the group does not
have, a variable without steps. -/
theorem C61_refusals (coords : Coords) (res : SimResult K) (varNames : List Str) (nCols : Nat)
    (gd : Option (Dict Str (Dict Str Str))) (metric : Str) (thr : K) :
    (dget res "optimizer".toList = none → dget res "euler".toList = none →
      plotBar coords res varNames nCols gd metric thr = .error .valueError) ∧
    (∀ ds name rest, ShownGroup res ds → varNames = name :: rest → name ∉ dkeys ds →
      plotBar coords res varNames nCols gd metric thr = .error .keyError) ∧
    (∀ ds name rest dims s data, ShownGroup res ds → varNames = name :: rest →
      dget ds name = some (dims, ⟨0 :: s, data⟩) →
      plotBar coords res varNames nCols gd metric thr = .error .indexError) ∧
    (∀ ds name rest dims data, ShownGroup res ds → varNames = name :: rest →
      dget ds name = some (dims, ⟨[], data⟩) →
      plotBar coords res varNames nCols gd metric thr = .error .valueError) ∧
    (∀ data initial : BarRows K, metric ∉ documentedMetrics →
      computeBarData data initial metric thr = .error .valueError) := by
  refine ⟨?_, ?_, ?_, ?_, ?_⟩
  · intro h1 h2
    simp only [plotBar, plottedGroup, h1, h2, bind, Except.bind]
  · intro ds name rest hg hv hn
    subst hv
    simp only [plotBar, plottedGroup_eq res ds hg, bind, Except.bind, List.mapM_cons, barInputs, dgetE,
      (dget_eq_none_iff ds name).2 hn]
  · intro ds name rest dims s data hg hv hd
    subst hv
    simp only [plotBar, plottedGroup_eq res ds hg, bind, Except.bind, List.mapM_cons, barInputs, dgetE,
      hd, lastStepData]
  · intro ds name rest dims data hg hv hd
    subst hv
    simp only [plotBar, plottedGroup_eq res ds hg, bind, Except.bind, List.mapM_cons, barInputs, dgetE,
      hd, lastStepData]
  · intro data initial hm
    simp only [documentedMetrics, List.mem_cons, List.not_mem_nil, or_false, not_or] at hm
    obtain ⟨h1, h2, h3, h4, h5, h6⟩ := hm
    simp only [computeBarData, metricCell, if_neg h1, if_neg h2, if_neg h3, if_neg h4, if_neg h5,
      if_neg h6]

example : plotBar (K := ℚ) exPlotCoords [] ["X".toList] 1 none "change".toList 0 = .error .valueError :=
  (C61_refusals exPlotCoords [] _ _ _ _ _).1 rfl rfl

end Bars

section Areas

variable {K : Type} [Field K] [LinearOrder K] {E : Type}

/-- **C62**, refusals.  No names; names whose dims differ; labels of no length. -/
theorem C62_refusals (r : Reg E) (coords : Coords) (res : SimResult K) (initial : Dict Str (NDArray K))
    (shock : Option Str) (rename : Dict Str Str) :
    plotAreas r coords res initial (.list []) shock rename = .error .indexError ∧
    (∀ a b rest da db, dimsOfName r a = .ok da → dimsOfName r b = .ok db → da ≠ db →
      (∀ c ∈ rest, ∃ dc, dimsOfName r c = .ok dc) →
      plotAreas r coords res initial (.list (a :: b :: rest)) shock rename = .error .valueError) ∧
    (∀ a, dimsOfName r a = .ok [] →
      plotAreas r coords res initial (.list [a]) shock rename = .error .valueError) := by
  refine ⟨rfl, ?_, ?_⟩
  · intro a b rest da db ha hb hne hr
    obtain ⟨ds, hds, -⟩ := mapM_exists (dimsOfName r) (fun _ _ => True) rest
      fun c hc => (hr c hc).imp fun d hd => ⟨hd, trivial⟩
    have hall : (da :: db :: ds).all (fun e => decide (e = da)) = false := by
      simp [Ne.symm hne]
    simp only [plotAreas, NamesArg.iter, List.mapM_cons, ha, hb, hds, bind, Except.bind, pure,
      Except.pure, hall, Bool.not_false, if_true]
  · intro a ha
    simp [plotAreas, NamesArg.iter, List.mapM_cons, ha, bind, Except.bind, pure, Except.pure]

/-- **C62**, initial and final values of different numbers: an `IndexError` when there is only one of
either, a `ValueError` otherwise. -/
theorem C62_lengths_refused (r : Reg E) (coords : Coords) (res : SimResult K)
    (initial : Dict Str (NDArray K)) (shock : Option Str) (rename : Dict Str Str) (name dim : Str)
    (labels : List Str) (hd : dimsOfName r name = .ok [dim]) (hl : dget coords dim = some labels)
    (hne : labels ≠ []) (a : NDArray K) (ha : dget initial name = some a) (z : List K)
    (hz : postData res name = .ok z) (hlen : a.data.length ≠ z.length) :
    plotAreas r coords res initial (.list [name]) shock rename =
      .error (if a.data.length = 1 ∨ z.length = 1 then .indexError else .valueError) := by
  have hp : ([labels].flatten.map fun l => (dget rename l).getD l).length ≠ 0 := by
    simpa using hne
  have e : plotAreas r coords res initial (.list [name]) shock rename =
      (zeroMask ([a.data].flatten) [z].flatten).bind fun mask =>
        pure [⟨"Pre-".toList ++ shock.getD "Shock".toList, keepUnmasked [a.data].flatten mask,
            keepUnmasked ([labels].flatten.map fun l => (dget rename l).getD l) mask⟩,
          ⟨"Post-".toList ++ shock.getD "Shock".toList, keepUnmasked [z].flatten mask,
            keepUnmasked ([labels].flatten.map fun l => (dget rename l).getD l) mask⟩] := by
    simp only [plotAreas, NamesArg.iter, List.mapM_cons, List.mapM_nil, hd, bind, Except.bind, pure,
      Except.pure, List.all_cons, List.all_nil, dgetE, hl, ha, hz, Except.map, decide_true, Bool.and_self,
      Bool.not_true, Bool.false_eq_true, if_false, if_neg hp]
  rw [e]
  simp only [zeroMask, List.flatten_cons, List.flatten_nil, List.append_nil, if_neg hlen]
  split <;> rfl

example : plotAreas exAreaReg exPlotCoords exAreaRes exAreaInit (.list ["X".toList, "Y".toList]) none [] =
    .error .valueError :=
  (C62_refusals exAreaReg exPlotCoords exAreaRes exAreaInit none []).2.1 "X".toList "Y".toList [] _ _
    rfl rfl (by decide) (fun c hc => (nomatch hc))

/-- Two initial values, one final value. -/
example : plotAreas exAreaReg exPlotCoords
    [("euler".toList, ([("Y".toList, (["step".toList, "i".toList], ⟨[1, 1], [3]⟩))], []))] exAreaInit
    (.list ["Y".toList]) none [] = .error .indexError :=
  C62_lengths_refused exAreaReg exPlotCoords _ exAreaInit none [] "Y".toList "i".toList
    ["a".toList, "b".toList] rfl rfl (by simp) ⟨[2], [1, 1]⟩ rfl [3] rfl (by decide)

end Areas

/-! ### The keywords of `summary` -/

/-- **C65**, keywords: `all` lists the variables and then the parameters, `variables` and `parameters`
only those. -/
theorem C65_keywords {α : Type} (m : SummaryModel) (hd : ∀ n ∈ dkeys m.varDescr, n ∉ dkeys m.parDescr) :
    (∃ info, summary (α := α) m (.text "all".toList) [] = .ok info ∧ dget info "Symbol".toList =
      some (.symbols ((dkeys m.varDescr).map .variableObj ++ (dkeys m.parDescr).map .parameterObj))) ∧
    (∃ info, summary (α := α) m (.text "variables".toList) [] = .ok info ∧ dget info "Symbol".toList =
      some (.symbols ((dkeys m.varDescr).map .variableObj))) ∧
    (∃ info, summary (α := α) m (.text "parameters".toList) [] = .ok info ∧ dget info "Symbol".toList =
      some (.symbols ((dkeys m.parDescr).map .parameterObj))) := by
  have hv : ∀ n ∈ dkeys m.varDescr, itemOf m n = .variableObj n := by
    intro n hn
    simp [itemOf, (dget_eq_none_iff _ _).2 (hd n hn)]
  have hp : ∀ n ∈ dkeys m.parDescr, itemOf m n = .parameterObj n := by
    intro n hn
    obtain ⟨v, hv⟩ := (mem_dkeys_iff _ _).1 hn
    simp [itemOf, hv]
  have key : ∀ arg : SummaryArg,
      (∀ n ∈ summaryNames m arg, n ∈ dkeys m.varDescr ∨ n ∈ dkeys m.parDescr) →
      ∃ info, summary (α := α) m arg [] = .ok info ∧
        dget info "Symbol".toList = some (.symbols ((summaryNames m arg).map (itemOf m))) := by
    intro arg ha
    obtain ⟨info, -, h1, -, h2, -⟩ := C65_table_partial (α := α) m arg [] ha (by simp) (by simp) (by simp)
    exact ⟨info, h1, h2⟩
  have s1 : summaryNames m (.text "all".toList) = dkeys m.varDescr ++ dkeys m.parDescr := rfl
  have s2 : summaryNames m (.text "variables".toList) = dkeys m.varDescr := rfl
  have s3 : summaryNames m (.text "parameters".toList) = dkeys m.parDescr := rfl
  refine ⟨?_, ?_, ?_⟩
  · obtain ⟨info, h1, h2⟩ := key (.text "all".toList) (by rw [s1]; simp)
    refine ⟨info, h1, ?_⟩
    rw [h2, s1, List.map_append, List.map_congr_left hv, List.map_congr_left hp]
  · obtain ⟨info, h1, h2⟩ := key (.text "variables".toList) (by rw [s2]; exact fun n hn => Or.inl hn)
    refine ⟨info, h1, ?_⟩
    rw [h2, s2, List.map_congr_left hv]
  · obtain ⟨info, h1, h2⟩ := key (.text "parameters".toList) (by rw [s3]; exact fun n hn => Or.inr hn)
    refine ⟨info, h1, ?_⟩
    rw [h2, s3, List.map_congr_left hp]

example : ∀ n ∈ dkeys exSummaryModel.varDescr, n ∉ dkeys exSummaryModel.parDescr := by decide +kernel

/-- **C65**, other text: a marker that is not closed, or that is interrupted by a line break, is left as
it is. -/
theorem C65_incomplete_marker (d s : Str) (h1 : '>' ∉ d) (h2 : '<' ∉ d) :
    stripFlags ("<dim:".toList ++ d) = "<dim:".toList ++ d ∧
    stripFlags ("<dim:".toList ++ d ++ '\n' :: s) = "<dim:".toList ++ d ++ '\n' :: stripFlags s := by
  have hlt : ∀ r, matchDimFlag ("<dim:".toList ++ r) = none →
      stripFlagsGo 0 ("<dim:".toList ++ r) = "<dim:".toList ++ stripFlagsGo 0 r := by
    intro r hr
    have e : "<dim:".toList ++ r = '<' :: ("dim:".toList ++ r) := rfl
    rw [e] at hr ⊢
    rw [stripFlagsGo, hr]
    dsimp only
    rw [stripFlagsGo_plain "dim:".toList r (by decide)]
    rfl
  have hnone1 : matchDimFlag ("<dim:".toList ++ d) = none := by
    unfold matchDimFlag
    have e2 : "<dim:".toList.isPrefixOf ("<dim:".toList ++ d) = true :=
      List.isPrefixOf_iff_prefix.2 (List.prefix_append _ _)
    rw [if_pos e2]
    have e3 : ("<dim:".toList ++ d).drop 5 = d := rfl
    rw [e3]
    cases d with
    | nil => rfl
    | cons c d =>
      dsimp only
      split
      · rfl
      · split
        next r heq =>
          have : '>' ∈ d.dropWhile (fun d => d != '>' && d != '\n') := by rw [heq]; simp
          exact absurd (List.mem_cons_of_mem _ ((List.dropWhile_sublist _).mem this)) h1
        next => rfl
  have hnone2 : matchDimFlag ("<dim:".toList ++ (d ++ '\n' :: s)) = none := by
    unfold matchDimFlag
    have e2 : "<dim:".toList.isPrefixOf ("<dim:".toList ++ (d ++ '\n' :: s)) = true :=
      List.isPrefixOf_iff_prefix.2 (List.prefix_append _ _)
    rw [if_pos e2]
    have e3 : ("<dim:".toList ++ (d ++ '\n' :: s)).drop 5 = d ++ '\n' :: s := rfl
    rw [e3]
    cases d with
    | nil => rfl
    | cons c d =>
      dsimp only [List.cons_append]
      split
      · rfl
      · have : ∀ d : Str, '>' ∉ d → ∃ r,
            (d ++ '\n' :: s).dropWhile (fun d => d != '>' && d != '\n') = '\n' :: r := by
          intro d
          induction d with
          | nil => intro _; exact ⟨s, rfl⟩
          | cons c d ih =>
            intro hd
            by_cases hc : c = '\n'
            · subst hc; exact ⟨d ++ '\n' :: s, rfl⟩
            · have hc' : c ≠ '>' := fun e => hd (by simp [e])
              rw [List.cons_append, List.dropWhile_cons_of_pos (by simp [hc, hc'])]
              exact ih fun h => hd (List.mem_cons_of_mem _ h)
        obtain ⟨r, hr⟩ := this d fun h => h1 (List.mem_cons_of_mem _ h)
        rw [hr]
        rfl
  unfold stripFlags
  constructor
  · rw [hlt d hnone1]
    have := stripFlagsGo_plain d [] h2
    rw [List.append_nil] at this
    rw [this]
    simp [stripFlagsGo]
  · rw [List.append_assoc, hlt _ hnone2, stripFlagsGo_plain d _ h2]
    rw [stripFlagsGo, matchDimFlag_plain _ _ (by decide), List.append_assoc]

example : stripFlags "<dim:i".toList = "<dim:i".toList :=
  (C65_incomplete_marker "i".toList [] (by decide) (by decide)).1

/-! ### Calibration -/

/-- **C63**, the kinds of error: no data, a name the model does not have, equations that were not parsed,
and a model whose residual function was not compiled. -/
theorem C63_refusal_kinds (S : SymSolver Str) (m : CalibModel) (maxIter : Nat)
    (hc : m.compiled = true) (hp : m.parsed = true) :
    calibrate S m none maxIter = .error .attributeError ∧
    (∀ data k v, dget data k = some v → k ∉ m.varNames → k ∉ m.parNames →
      calibrate S m (some data) maxIter = .error .valueError) ∧
    (∀ data, calibrate S { m with parsed := false } data maxIter = .error .notImplemented) ∧
    ∀ data r, calibrate S { m with hasResid := true } data maxIter = .ok r →
      calibrate S { m with hasResid := false } data maxIter = .error .typeError := by
  refine ⟨by simp [calibrate, hc, hp], ?_, fun data => by simp [calibrate, hc], ?_⟩
  · intro data k v hk h1 h2
    unfold calibrate
    rw [hc, hp, if_neg (by decide), if_neg (by decide)]
    exact if_pos ⟨k, (mem_dkeys_iff _ _).2 ⟨v, hk⟩, h2, h1⟩
  · intro data r h
    cases data with
    | none => simp [calibrate, hc, hp] at h
    | some data =>
      unfold calibrate at h ⊢
      simp only [hc, hp, Bool.true_eq_false, if_false] at h ⊢
      split at h
      · cases h
      next hk =>
        rw [if_neg hk]
        split at h
        · cases h
        next solved hs =>
          rw [if_pos trivial]

/-- A calibration that succeeds with a residual function, and fails without. -/
example (S : SymSolver Str) (hsimp : S.simplify (noRoot 1) = noRoot 1)
    (hsolve : S.solve (noRoot 1) "x".toList = []) :
    calibrate S ⟨true, true, ["x".toList], [], [noRoot 1], false⟩ (some []) 1 = .error .typeError := by
  obtain ⟨r, h1, -⟩ := noRoot_calibrate S 1 0 hsimp hsolve
  exact (C63_refusal_kinds S ⟨true, true, ["x".toList], [], [noRoot 1], true⟩ 1 rfl rfl).2.2.2 _ r h1

end Verif
