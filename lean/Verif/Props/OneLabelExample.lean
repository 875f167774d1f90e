import Verif.Props.OneLabel
import Verif.Props.RelabelExample

/-!
# C108 applied: the model of the shares with one sector
-/

namespace Verif

open SymExpr

def aCoords : Coords := [("i".toList, ["a".toList])]

/-- `X[i] = w[i]` and `T = Sum(X[i], (i, 0, 0))`. -/
def oneEqs : List IndexedEq :=
  [⟨[.lit "share ".toList, .dim "i".toList], .indexed "X".toList [.idx "i".toList],
      .indexed "w".toList [.idx "i".toList]⟩,
   ⟨[.lit "total".toList], .sym "T".toList,
      .red .sum (.indexed "X".toList [.idx "i".toList]) [⟨"i".toList, 0, 1⟩]⟩]

/-- `X = w` and `T = X`. -/
def bareEqs : List IndexedEq :=
  [⟨[.lit "share".toList], .sym "X".toList, .sym "w".toList⟩, ⟨[.lit "total".toList], .sym "T".toList, .sym "X".toList⟩]

def bareVars : List ModelObject := [{ name := "T" }, { name := "X" }]
def bareParams : List ModelObject := [{ name := "w" }]

example : shareVars.map ModelObject.withoutDims = bareVars ∧ shareParams.map ModelObject.withoutDims = bareParams :=
  ⟨rfl, rfl⟩

theorem one_bare : SameWithoutDims oneEqs bareEqs := .cons ⟨rfl, rfl⟩ (.cons ⟨rfl, rfl⟩ .nil)

def oneEs : List (SymExpr Str) :=
  [.add (.sym "X_a".toList) (.mul (.num (-1)) (.sym "w_a".toList)),
   .add (.sym "T".toList) (.mul (.num (-1)) (.add (.num 0) (.sym "X_a".toList)))]

def bareEs : List (SymExpr Str) :=
  [.add (.sym "X".toList) (.mul (.num (-1)) (.sym "w".toList)),
   .add (.sym "T".toList) (.mul (.num (-1)) (.sym "X".toList))]

theorem aCoords_one : OneLabel aCoords := by
  intro d hd
  have : d = "i".toList := by simpa [aCoords, dkeys] using hd
  subst this
  exact ⟨_, rfl⟩

theorem one_over : ∀ q ∈ oneEqs, OverOne q.lhs ∧ OverOne q.rhs := by
  intro q hq
  simp only [oneEqs, List.mem_cons, List.not_mem_nil, or_false] at hq
  rcases hq with rfl | rfl
  · exact ⟨trivial, trivial⟩
  · refine ⟨trivial, trivial, fun l hl => ?_⟩
    rw [List.mem_singleton] at hl
    subst hl
    exact ⟨rfl, rfl⟩

theorem oneModel : IndexedModel aCoords shareVars shareParams none oneEqs where
  scalar :=
    { known := by decide +kernel
      dims := by decide +kernel
      fresh := by decide +kernel
      labels := by decide +kernel
      names := by decide +kernel
      scalars := by decide +kernel }
  coords_nodup := by decide +kernel
  dim_names := by decide +kernel
  label_names := by
    intro i ls h k l hl
    have hmem := mem_of_dget _ h
    have hl := List.mem_of_getElem? hl
    simp only [aCoords, List.mem_singleton, Prod.mk.injEq] at hmem
    obtain ⟨-, rfl⟩ := hmem
    simp only [List.mem_cons, List.not_mem_nil, or_false] at hl
    subst hl
    simp [FitLabel, NotNumeral, Char.isDigit]
  numeraire_mem := by rintro o ⟨⟩
  sides := by
    intro q hq
    simp only [oneEqs, List.mem_cons, List.not_mem_nil, or_false] at hq
    rcases hq with rfl | rfl
    · exact ⟨share_side _ (by decide +kernel) _ trivial (by decide +kernel) (by decide +kernel),
        share_side _ (by decide +kernel) _ trivial (by decide +kernel) (by decide +kernel)⟩
    · exact ⟨share_side _ (by decide +kernel) _ trivial (by decide +kernel) (by decide +kernel),
        share_side _ (by decide +kernel) _ (share_plain _ ["a".toList] rfl (by simp) 1 (by simp))
          (by decide +kernel) (by decide +kernel)⟩
  clean := by
    intro q hq
    simp only [oneEqs, List.mem_cons, List.not_mem_nil, or_false] at hq
    rcases hq with rfl | rfl <;> decide +kernel
  markers := by decide +kernel
  names := by decide +kernel

theorem bareModel : IndexedModel [] bareVars bareParams none bareEqs where
  scalar :=
    { known := by decide +kernel
      dims := by decide +kernel
      fresh := by decide +kernel
      labels := by decide +kernel
      names := by decide +kernel
      scalars := by decide +kernel }
  coords_nodup := by decide +kernel
  dim_names := by decide +kernel
  label_names := by intro i ls h; cases h
  numeraire_mem := by rintro o ⟨⟩
  sides := by
    have side : ∀ x : Str, x ∈ ["T".toList, "X".toList, "w".toList] →
        SideOK [] (solvedVars none bareVars ++ bareParams) none (.sym x) := by
      intro x hx
      refine ⟨trivial, ⟨fun y hy => ?_, fun v hv => (by cases hv)⟩, fun o ho => (nomatch ho), fun o ho => (nomatch ho)⟩
      have : y = x := by simpa [RExpr.syms] using hy
      subst this
      refine ⟨{ name := y }, ?_, rfl, rfl⟩
      simp only [List.mem_cons, List.not_mem_nil, or_false] at hx
      rcases hx with rfl | rfl | rfl <;> decide +kernel
    intro q hq
    simp only [bareEqs, List.mem_cons, List.not_mem_nil, or_false] at hq
    rcases hq with rfl | rfl
    · exact ⟨side _ (by simp), side _ (by simp)⟩
    · exact ⟨side _ (by simp), side _ (by simp)⟩
  clean := by
    intro q hq
    simp only [bareEqs, List.mem_cons, List.not_mem_nil, or_false] at hq
    rcases hq with rfl | rfl <;> decide +kernel
  markers := by decide +kernel
  names := by decide +kernel

theorem oneNumba : ∃ uv up K, BuiltNumba aCoords shareVars shareParams oneEqs oneEs uv up K ∧
    dkeys uv = ["T".toList, "X_a".toList] ∧ dkeys up = ["w_a".toList] :=
  ⟨_, _, _, ⟨id, id, id, id, _, fun _ _ => Iff.rfl, fun _ _ => Iff.rfl, fun _ _ => Iff.rfl, rfl, rfl,
    rfl, rfl, rfl⟩, rfl, rfl⟩

theorem bareNumba : ∃ uv up K, BuiltNumba [] bareVars bareParams bareEqs bareEs uv up K :=
  ⟨_, _, _, ⟨id, id, id, id, _, fun _ _ => Iff.rfl, fun _ _ => Iff.rfl, fun _ _ => Iff.rfl, rfl, rfl,
    rfl, rfl, rfl⟩⟩

theorem oneNames : EulerNames (scalarNames aCoords (shareVars ++ shareParams)) where
  nodup := by decide +kernel
  word := by decide +kernel
  noZero := by
    intro a ha b hb
    revert a b
    decide +kernel
  noExog := by decide +kernel
  noEndog := by decide +kernel
  noNumpy := by decide +kernel

theorem bareNames : EulerNames (scalarNames [] (bareVars ++ bareParams)) where
  nodup := by decide +kernel
  word := by decide +kernel
  noZero := by
    intro a ha b hb
    revert a b
    decide +kernel
  noExog := by decide +kernel
  noEndog := by decide +kernel
  noNumpy := by decide +kernel

theorem oneEuler : EulerModel aCoords shareVars shareParams where
  labelled := ⟨by decide +kernel, by decide +kernel, by decide +kernel, by decide +kernel⟩
  nonempty := by decide +kernel
  someVar := by decide +kernel
  someParam := by decide +kernel
  keywords := by decide +kernel

theorem bareEuler : EulerModel [] bareVars bareParams where
  labelled := ⟨by decide +kernel, by decide +kernel, by decide +kernel, by decide +kernel⟩
  nonempty := by decide +kernel
  someVar := by decide +kernel
  someParam := by decide +kernel
  keywords := by decide +kernel

/-- The scalar model on the numba back-end without an optimizer. -/
noncomputable def bareEnv (uv up : Dict Str ModelObject) (K : NumbaFns) : SamEnv ℝ (List (NDArray ℝ)) :=
  ⟨bareVars, bareParams, [], ["euler".toList],
    .flat (callNumba (dkeys uv) (dkeys up) K.system),
    .flat fun x theta => (callNumba (dkeys uv) (dkeys up) [K.loss] x theta).map fun l => l.headD 0,
    [], fun _ _ _ _ => .error .valueError, fun _ _ _ _ => .error .valueError, fun x0 theta n => runEuler .numba
      (numbaDX (scalarNames [] (bareVars ++ bareParams)) (dkeys uv) (dkeys up) bareEs) bareVars bareParams [] theta n x0⟩

/-- `T = u`, `X = w = (u,)`; `w` becomes `(p,)`. -/
def oneCall (u p : ℝ) : SimCall ℝ where
  initial := [("T".toList, .num ⟨[], [u]⟩), ("X".toList, .num ⟨[1], [u]⟩), ("w".toList, .num ⟨[1], [u]⟩)]
  finalValues := some [("w".toList, .num ⟨[1], [p]⟩)]
  useOptimizer := false

/-- The same with scalars. -/
def bareCall (u p : ℝ) : SimCall ℝ where
  initial := [("T".toList, .num ⟨[], [u]⟩), ("X".toList, .num ⟨[], [u]⟩), ("w".toList, .num ⟨[], [u]⟩)]
  finalValues := some [("w".toList, .num ⟨[], [p]⟩)]
  useOptimizer := false

theorem oneRequest (u p : ℝ) (add mul : NDArray ℝ → NDArray ℝ → NDArray ℝ) :
    RequestOK aCoords (solvedVars none shareVars) shareParams add mul [] (oneCall u p) where
  nodup := by simp [oneCall, dkeys]
  exact := by intro n; simp [oneCall, dkeys, shareVars, shareParams, solvedVars]
  distinct := by simp [oneCall, dkeys]
  some_change := by simp [oneCall, dkeys]
  known := by simp [oneCall, dkeys]
  valid := by simp [oneCall, ValidRefs, refsOf]
  unshared := by simp [oneCall, refsOf]
  shaped := by
    intro o ho
    have : o = { name := "T" } ∨ o = { name := "X", dims := ["i".toList] } ∨ o = { name := "w", dims := ["i".toList] } := by
      simpa [shareVars, shareParams, solvedVars] using ho
    rcases this with rfl | rfl | rfl
    · exact ⟨⟨[], [u]⟩, rfl, rfl, rfl⟩
    · exact ⟨⟨[1], [u]⟩, rfl, rfl, rfl⟩
    · exact ⟨⟨[1], [u]⟩, rfl, rfl, rfl⟩
  sized := by
    intro o ho
    have : o = { name := "w", dims := ["i".toList] } := by simpa [shareParams] using ho
    subst this
    exact ⟨⟨[1], [p]⟩, rfl, rfl⟩

theorem bareRequest (u p : ℝ) (add mul : NDArray ℝ → NDArray ℝ → NDArray ℝ) :
    RequestOK [] bareVars bareParams add mul [] (bareCall u p) where
  nodup := by simp [bareCall, dkeys]
  exact := by intro n; simp [bareCall, dkeys, bareVars, bareParams]
  distinct := by simp [bareCall, dkeys]
  some_change := by simp [bareCall, dkeys]
  known := by simp [bareCall, dkeys]
  valid := by simp [bareCall, ValidRefs, refsOf]
  unshared := by simp [bareCall, refsOf]
  shaped := by
    intro o ho
    have : o = { name := "T" } ∨ o = { name := "X" } ∨ o = { name := "w" } := by
      simpa [bareVars, bareParams] using ho
    rcases this with rfl | rfl | rfl
    · exact ⟨⟨[], [u]⟩, rfl, rfl, rfl⟩
    · exact ⟨⟨[], [u]⟩, rfl, rfl, rfl⟩
    · exact ⟨⟨[], [u]⟩, rfl, rfl, rfl⟩
  sized := by
    intro o ho
    have : o = { name := "w" } := by simpa [bareParams] using ho
    subst this
    exact ⟨⟨[], [p]⟩, rfl, rfl⟩

theorem oneRegular (v : Str → ℝ) : (∀ e ∈ oneEs, Regular v e) ∧ ∀ e ∈ bareEs, Regular v e := by
  refine ⟨fun e he => ?_, fun e he => ?_⟩
  · simp only [oneEs, List.mem_cons, List.not_mem_nil, or_false] at he
    rcases he with rfl | rfl <;> simp [Regular]
  · simp only [bareEs, List.mem_cons, List.not_mem_nil, or_false] at he
    rcases he with rfl | rfl <;> simp [Regular]

theorem one_matrix (x : Fin 2 → ℝ) (t : Fin 1 → ℝ) :
    IsUnit (symA 2 1 ["T".toList, "X_a".toList] ["w_a".toList] oneEs x t).det := by
  rw [Matrix.det_fin_two]
  simp [symA, oneEs, diff, SymExpr.eval]

theorem oneBuilt {uv up : Dict Str ModelObject} {K : NumbaFns}
    (hK : BuiltNumba aCoords shareVars shareParams oneEqs oneEs uv up K) :
    BuiltOn aCoords shareVars shareParams none oneEqs oneEs .numba (fun _ _ _ => .ok [])
      (shareEnv aCoords oneEs uv up K) :=
  Or.inr ⟨rfl, rfl, scalarNames aCoords (shareVars ++ shareParams), oneModel, oneNames, oneEuler,
    fun a => Iff.rfl, rfl, rfl, rfl, List.cons_ne_nil _ _, uv, up, K, hK, rfl⟩

/-- The Euler function of the model returns. -/
theorem one_runs {uv up : Dict Str ModelObject} {K : NumbaFns}
    (hK : BuiltNumba aCoords shareVars shareParams oneEqs oneEs uv up K) (k1 : dkeys uv = ["T".toList, "X_a".toList])
    (k2 : dkeys up = ["w_a".toList]) (u p : ℝ) (fl : SimFlags) (add mul : NDArray ℝ → NDArray ℝ → NDArray ℝ) :
    ∃ outs, (shareEnv aCoords oneEs uv up K).euler (derefDict [] (oneCall u p).initial)
      (wantedFlat add mul [] (oneCall u p) shareParams) (oneCall u p).nIterEuler = .ok outs := by
  have hm := oneBuilt hK
  have hN : scalarNames aCoords (shareVars ++ shareParams) = ["T".toList, "X_a".toList] ++ ["w_a".toList] := by
    decide +kernel
  have hcall : EulerCall aCoords shareVars shareParams (derefDict [] (oneCall u p).initial)
      (wantedFlat add mul [] (oneCall u p) shareParams) := by
    obtain ⟨-, dx, A, B, -, hs⟩ := hm.stepsFrom rfl
    have hl := hs.lenOK
    exact (euler_setup .numba dx _ hs.steps hs.euler hl hs.coords_eq hs.variables_eq hs.parameters_eq
      hs.compiled fl add mul [] (oneCall u p) (oneRequest _ _ add mul) rfl rfl).1
  show ∃ outs, runEuler .numba (numbaDX _ (dkeys uv) (dkeys up) _) shareVars shareParams aCoords _ _ _ = _
  rw [k1, k2, runEuler_numbaDX aCoords shareVars shareParams _ _ hcall _ _ _ _ (hN ▸ oneNames)
    (by intro a; rw [hN])
    (by
      intro e he a ha
      have := (hK.values oneModel).1 e he a ((mem_atoms_iff a e).2 ha)
      rwa [hN] at this) rfl rfl rfl]
  cases hc : runEuler .numba (vecJac (nx := totalSize aCoords shareVars) (np := totalSize aCoords shareParams)
      (symA _ _ ["T".toList, "X_a".toList] ["w_a".toList] oneEs)
      (symB _ _ ["T".toList, "X_a".toList] ["w_a".toList] oneEs)).solve shareVars shareParams aCoords
      (wantedFlat add mul [] (oneCall u p) shareParams) (oneCall u p).nIterEuler
      (derefDict [] (oneCall u p).initial) with
  | ok outs => exact ⟨outs, rfl⟩
  | error e =>
    obtain ⟨-, x, t, -, -, hs⟩ := C20_fails_only_if_singular _ _ _ _ _ _ _ _ hcall e hc
    exact absurd (one_matrix _ _) hs

/-- The share of the one sector grows from 1 to 5, in both models. -/
example (fl : SimFlags) (add mul : NDArray ℝ → NDArray ℝ → NDArray ℝ) :
    ∃ env env₂ e e₂ v,
      simulateCompute (simEnvOf env (fun _ => false) fl add mul) [] (oneCall 1 5) =
        .ok ⟨some e, none, none, false⟩ ∧
      simulateCompute (simEnvOf env₂ (fun _ => false) fl add mul) [] (bareCall 1 5) =
        .ok ⟨some e₂, none, none, false⟩ ∧
      env.coords = aCoords ∧ env₂.coords = [] ∧
      dget e.start "X".toList = some ⟨[1], [v]⟩ ∧ dget e₂.start "X".toList = some ⟨[], [v]⟩ := by
  obtain ⟨uv, up, K, hK, k1, k2⟩ := oneNumba
  obtain ⟨uv₂, up₂, K₂, hK₂⟩ := bareNumba
  have hm₂ : BuiltOn [] (shareVars.map ModelObject.withoutDims) (shareParams.map ModelObject.withoutDims) none bareEqs
      bareEs .numba (fun _ _ _ => .ok []) (bareEnv uv₂ up₂ K₂) :=
    Or.inr ⟨rfl, rfl, scalarNames [] (bareVars ++ bareParams), bareModel, bareNames, bareEuler, fun a => Iff.rfl, rfl,
      rfl, rfl, List.cons_ne_nil _ _, uv₂, up₂, K₂, hK₂, rfl⟩
  obtain ⟨outs, hrun⟩ := one_runs hK k1 k2 1 5 fl add mul
  obtain ⟨e, e₂, outs₂, g1, g2, -, -, g5⟩ := C108_simulate (oneBuilt hK) hm₂ rfl aCoords_one one_over one_bare rfl fl add
    mul [] [] (oneCall 1 5) (bareCall 1 5) (oneRequest _ _ add mul) (bareRequest _ _ add mul)
    (by
      intro o ho
      have : o = { name := "T" } ∨ o = { name := "X", dims := ["i".toList] } ∨
          o = { name := "w", dims := ["i".toList] } := by
        simpa [shareVars, shareParams, solvedVars] using ho
      rcases this with rfl | rfl | rfl <;> rfl)
    (by
      intro o ho
      have : o = { name := "w", dims := ["i".toList] } := by simpa [shareParams] using ho
      subst this
      rfl) rfl rfl (by decide) rfl rfl rfl outs hrun
    (fun _ _ _ _ => ⟨(oneRegular _).1, (oneRegular _).2⟩)
  obtain ⟨v, h1, h2⟩ := g5 { name := "X", dims := ["i".toList] } (by decide)
  exact ⟨_, _, e, e₂, v, g1, g2, rfl, rfl, h1, h2⟩

/-- The hypotheses of `C108_equations`. -/
example (s : List ℝ) : imbalances [] bareVars bareParams none bareEqs s =
    imbalances aCoords shareVars shareParams none oneEqs s :=
  C108_equations aCoords_one oneModel bareModel one_over one_bare s

/-- The hypotheses of `C108_objective`. -/
example (vn : List Str) (T u v : ℝ) : ∃ F F₂, BuiltFns aCoords shareVars shareParams none oneEqs F ∧
    BuiltFns [] bareVars bareParams none bareEqs F₂ ∧
    wrapForScipy (callGraphs ["T".toList, "X".toList, "w".toList] vn [F₂.loss]) bareVars bareParams [] [T, u] [v] =
      wrapForScipy (callGraphs ["T".toList, "X".toList, "w".toList] vn [F.loss]) shareVars shareParams aCoords
        [T, u] [v] := by
  have b1 : ∃ F, BuiltFns aCoords shareVars shareParams none oneEqs F :=
    ⟨_, id, id, id, id, _, _, _, oneEs, fun _ _ => Iff.rfl, fun _ _ => Iff.rfl,
      fun _ _ => Iff.rfl, rfl, rfl, rfl, rfl, rfl⟩
  have b2 : ∃ F, BuiltFns [] bareVars bareParams none bareEqs F :=
    ⟨_, id, id, id, id, _, _, _, bareEs, fun _ _ => Iff.rfl, fun _ _ => Iff.rfl,
      fun _ _ => Iff.rfl, rfl, rfl, rfl, rfl, rfl⟩
  obtain ⟨F, hF⟩ := b1
  obtain ⟨F₂, hF₂⟩ := b2
  exact ⟨F, F₂, hF, hF₂, C108_objective aCoords_one hF hF₂ oneModel bareModel one_over one_bare vn vn _ _ rfl rfl⟩

/-- The hypotheses of `C108_check`. -/
example (T u v : ℝ) (tol : ℝ) :
    checkForEquilibrium (fun x t => imbalances aCoords shareVars shareParams none oneEqs (x ++ t)) true
      (solvedVars none shareVars) shareParams aCoords (oneEqs.flatMap (filledNames aCoords none))
      (.dict [("T".toList, ⟨[], [T]⟩), ("X".toList, ⟨[1], [u]⟩), ("w".toList, ⟨[1], [v]⟩)]) tol = .ok .found ↔
    checkForEquilibrium (fun x t => imbalances [] bareVars bareParams none bareEqs (x ++ t)) true
      bareVars bareParams [] (bareEqs.flatMap (filledNames [] none))
      (.dict [("T".toList, ⟨[], [T]⟩), ("X".toList, ⟨[], [u]⟩), ("w".toList, ⟨[], [v]⟩)]) tol = .ok .found := by
  rcases C108_check aCoords_one oneModel bareModel one_over one_bare true true (by decide +kernel) (by decide +kernel) _ _
    (by
      refine ⟨fun o ho => ?_, fun n hn => ?_⟩
      · have : o = { name := "T" } ∨ o = { name := "X", dims := ["i".toList] } ∨
            o = { name := "w", dims := ["i".toList] } := by
          simpa [shareVars, shareParams, solvedVars] using ho
        rcases this with rfl | rfl | rfl
        · exact ⟨⟨[], [T]⟩, rfl, rfl, rfl⟩
        · exact ⟨⟨[1], [u]⟩, rfl, rfl, rfl⟩
        · exact ⟨⟨[1], [v]⟩, rfl, rfl, rfl⟩
      · simpa [dkeys, shareVars, shareParams, solvedVars] using hn)
    (by
      refine ⟨fun o ho => ?_, fun n hn => ?_⟩
      · have : o = { name := "T" } ∨ o = { name := "X" } ∨ o = { name := "w" } := by
          simpa [shareVars, shareParams, solvedVars, ModelObject.withoutDims] using ho
        rcases this with rfl | rfl | rfl
        · exact ⟨⟨[], [T]⟩, rfl, rfl, rfl⟩
        · exact ⟨⟨[], [u]⟩, rfl, rfl, rfl⟩
        · exact ⟨⟨[], [v]⟩, rfl, rfl, rfl⟩
      · simpa [dkeys, shareVars, shareParams, solvedVars, ModelObject.withoutDims] using hn)
    (by
      intro o ho
      have : o = { name := "T" } ∨ o = { name := "X", dims := ["i".toList] } ∨
          o = { name := "w", dims := ["i".toList] } := by
        simpa [shareVars, shareParams, solvedVars] using ho
      rcases this with rfl | rfl | rfl <;> rfl)
    (.dict [("T".toList, ⟨[], [T]⟩), ("X".toList, ⟨[1], [u]⟩), ("w".toList, ⟨[1], [v]⟩)])
    (.dict [("T".toList, ⟨[], [T]⟩), ("X".toList, ⟨[], [u]⟩), ("w".toList, ⟨[], [v]⟩)]) rfl rfl tol
    with ⟨h1, h2⟩ | ⟨l, l₂, h1, h2, -⟩ | ⟨h1, h2⟩
  · exact iff_of_true h1 h2
  · exact iff_of_false (fun e => by cases h1.symm.trans e) (fun e => by cases h2.symm.trans e)
  · exact iff_of_false (fun e => by cases h1.symm.trans e) (fun e => by cases h2.symm.trans e)

end Verif
