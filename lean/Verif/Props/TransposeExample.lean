import Verif.Props.Transpose
import Verif.Props.RelabelExample

/-!
# C110 applied: a matrix `X` declared with the dims `(i, j)` and with the dims `(j, i)`
-/

namespace Verif

open SymExpr

def gridCoords : Coords := [("i".toList, ["a".toList, "b".toList]), ("j".toList, ["c".toList, "d".toList])]
def gridVars : List ModelObject := [{ name := "X", dims := ["i".toList, "j".toList] }]
def gridParams : List ModelObject := [{ name := "w", dims := ["i".toList, "j".toList] }]
/-- Only `X` is declared in the other order. -/
def gridVars₂ : List ModelObject := [{ name := "X", dims := ["j".toList, "i".toList] }]

/-- `X[i, j] = w[i, j]`. -/
def gridEqs : List IndexedEq :=
  [⟨[.lit "share ".toList, .dim "i".toList, .lit " ".toList, .dim "j".toList],
    .indexed "X".toList [.idx "i".toList, .idx "j".toList], .indexed "w".toList [.idx "i".toList, .idx "j".toList]⟩]

/-- `X[j, i] = w[i, j]`. -/
def gridEqs₂ : List IndexedEq :=
  [⟨[.lit "share ".toList, .dim "i".toList, .lit " ".toList, .dim "j".toList],
    .indexed "X".toList [.idx "j".toList, .idx "i".toList], .indexed "w".toList [.idx "i".toList, .idx "j".toList]⟩]

def gridOld (_ : Str) : List Str := ["i".toList, "j".toList]
def gridNew (n : Str) : List Str := if n = "X".toList then ["j".toList, "i".toList] else ["i".toList, "j".toList]

theorem grid_transposes : Transposes gridOld gridNew (gridVars ++ gridParams) := by
  intro o ho
  have : o = { name := "X", dims := ["i".toList, "j".toList] } ∨ o = { name := "w", dims := ["i".toList, "j".toList] } := by
    simpa [gridVars, gridParams] using ho
  rcases this with rfl | rfl
  · exact ⟨rfl, List.Perm.swap _ _ _⟩
  · exact ⟨rfl, List.Perm.refl _⟩

theorem grid_vars : gridVars.map (ModelObject.transposed gridNew) = gridVars₂ := rfl
theorem grid_params : gridParams.map (ModelObject.transposed gridNew) = gridParams := rfl
theorem grid_eqs : gridEqs.map (IndexedEq.transposed gridOld gridNew) = gridEqs₂ := rfl

def gridEq (x w : Str) : SymExpr Str := .add (.sym x) (.mul (.num (-1)) (.sym w))

def gridEs : List (SymExpr Str) :=
  [gridEq "X_a_c".toList "w_a_c".toList, gridEq "X_a_d".toList "w_a_d".toList,
   gridEq "X_b_c".toList "w_b_c".toList, gridEq "X_b_d".toList "w_b_d".toList]

def gridEs₂ : List (SymExpr Str) :=
  [gridEq "X_c_a".toList "w_a_c".toList, gridEq "X_d_a".toList "w_a_d".toList,
   gridEq "X_c_b".toList "w_b_c".toList, gridEq "X_d_b".toList "w_b_d".toList]

theorem grid_labels : ∀ d ls, dget gridCoords d = some ls →
    ∀ (k : Nat) (l : Str), ls[k]? = some l → FitLabel ls.length k l ∧ '<' ∉ l := by
  intro i ls h k l hl
  have hmem := mem_of_dget _ h
  have hl := List.mem_of_getElem? hl
  simp only [gridCoords, List.mem_cons, List.not_mem_nil, or_false, Prod.mk.injEq] at hmem
  rcases hmem with ⟨-, rfl⟩ | ⟨-, rfl⟩
  all_goals
    simp only [List.mem_cons, List.not_mem_nil, or_false] at hl
    rcases hl with rfl | rfl <;> simp [FitLabel, NotNumeral, Char.isDigit]

theorem grid_side (objs : List ModelObject) (b i j : Str) (hi : i ∈ dkeys gridCoords) (hj : j ∈ dkeys gridCoords)
    (ho : ∃ o ∈ objs, o.name = b ∧ o.dims = [i, j]) :
    SideOK gridCoords objs none (.indexed b [.idx i, .idx j]) := by
  refine ⟨trivial, ⟨fun x hx => (nomatch hx), fun v hv => ?_⟩, fun o ho => (nomatch ho), fun o ho => (nomatch ho)⟩
  simp only [RExpr.indexeds, List.mem_singleton] at hv
  subst hv
  obtain ⟨o, ho, hn, hd⟩ := ho
  refine ⟨o, by simpa using ho, hn, by rw [hd]; simp, ?_⟩
  rw [hd]
  exact .cons (.inl ⟨i, rfl, hi, fun l hl => hl⟩) (.cons (.inl ⟨j, rfl, hj, fun l hl => hl⟩) .nil)

theorem gridModel : IndexedModel gridCoords gridVars gridParams none gridEqs where
  scalar :=
    { known := by decide +kernel
      dims := by decide +kernel
      fresh := by decide +kernel
      labels := by decide +kernel
      names := by decide +kernel
      scalars := by decide +kernel }
  coords_nodup := by decide +kernel
  dim_names := by decide +kernel
  label_names := grid_labels
  numeraire_mem := by rintro o ⟨⟩
  sides := by
    intro q hq
    simp only [gridEqs, List.mem_singleton] at hq
    subst hq
    rw [solvedVars_none]
    exact ⟨grid_side _ _ _ _ (by decide +kernel) (by decide +kernel) (by decide +kernel),
      grid_side _ _ _ _ (by decide +kernel) (by decide +kernel) (by decide +kernel)⟩
  clean := by
    intro q hq
    simp only [gridEqs, List.mem_singleton] at hq
    subst hq
    decide +kernel
  markers := by decide +kernel
  names := by decide +kernel

theorem gridModel₂ : IndexedModel gridCoords gridVars₂ gridParams none gridEqs₂ where
  scalar :=
    { known := by decide +kernel
      dims := by decide +kernel
      fresh := by decide +kernel
      labels := by decide +kernel
      names := by decide +kernel
      scalars := by decide +kernel }
  coords_nodup := by decide +kernel
  dim_names := by decide +kernel
  label_names := grid_labels
  numeraire_mem := by rintro o ⟨⟩
  sides := by
    intro q hq
    simp only [gridEqs₂, List.mem_singleton] at hq
    subst hq
    rw [solvedVars_none]
    exact ⟨grid_side _ _ _ _ (by decide +kernel) (by decide +kernel) (by decide +kernel),
      grid_side _ _ _ _ (by decide +kernel) (by decide +kernel) (by decide +kernel)⟩
  clean := by
    intro q hq
    simp only [gridEqs₂, List.mem_singleton] at hq
    subst hq
    decide +kernel
  markers := by decide +kernel
  names := by decide +kernel

def gridX : List Str := ["X_a_c".toList, "X_a_d".toList, "X_b_c".toList, "X_b_d".toList]
def gridW : List Str := ["w_a_c".toList, "w_a_d".toList, "w_b_c".toList, "w_b_d".toList]

theorem gridNumba : ∃ uv up K, BuiltNumba gridCoords gridVars gridParams gridEqs gridEs uv up K ∧ dkeys uv = gridX ∧
    dkeys up = gridW :=
  ⟨_, _, _, ⟨id, id, id, id, _, fun _ _ => Iff.rfl, fun _ _ => Iff.rfl, fun _ _ => Iff.rfl, rfl, rfl,
    rfl, rfl, rfl⟩, rfl, rfl⟩

theorem gridNumba₂ : ∃ uv up K, BuiltNumba gridCoords gridVars₂ gridParams gridEqs₂ gridEs₂ uv up K :=
  ⟨_, _, _, ⟨id, id, id, id, _, fun _ _ => Iff.rfl, fun _ _ => Iff.rfl, fun _ _ => Iff.rfl, rfl, rfl,
    rfl, rfl, rfl⟩⟩

/-- The model on the numba back-end without an optimizer. -/
noncomputable def gridEnv (vs : List ModelObject) (es : List (SymExpr Str)) (uv up : Dict Str ModelObject)
    (K : NumbaFns) : SamEnv ℝ (List (NDArray ℝ)) :=
  ⟨vs, gridParams, gridCoords, ["euler".toList],
    .flat (callNumba (dkeys uv) (dkeys up) K.system),
    .flat fun x theta => (callNumba (dkeys uv) (dkeys up) [K.loss] x theta).map fun l => l.headD 0,
    [], fun _ _ _ _ => .error .valueError, fun _ _ _ _ => .error .valueError, fun x0 theta n => runEuler .numba
      (numbaDX (scalarNames gridCoords (vs ++ gridParams)) (dkeys uv) (dkeys up) es) vs gridParams gridCoords
      theta n x0⟩

theorem gridNames : EulerNames (scalarNames gridCoords (gridVars ++ gridParams)) where
  nodup := by decide +kernel
  word := by decide +kernel
  noZero := by
    intro a ha b hb
    revert a b
    decide +kernel
  noExog := by decide +kernel
  noEndog := by decide +kernel
  noNumpy := by decide +kernel

theorem gridNames₂ : EulerNames (scalarNames gridCoords (gridVars₂ ++ gridParams)) where
  nodup := by decide +kernel
  word := by decide +kernel
  noZero := by
    intro a ha b hb
    revert a b
    decide +kernel
  noExog := by decide +kernel
  noEndog := by decide +kernel
  noNumpy := by decide +kernel

theorem gridEuler : EulerModel gridCoords gridVars gridParams where
  labelled := ⟨by decide +kernel, by decide +kernel, by decide +kernel, by decide +kernel⟩
  nonempty := by decide +kernel
  someVar := by decide +kernel
  someParam := by decide +kernel
  keywords := by decide +kernel

theorem gridEuler₂ : EulerModel gridCoords gridVars₂ gridParams where
  labelled := ⟨by decide +kernel, by decide +kernel, by decide +kernel, by decide +kernel⟩
  nonempty := by decide +kernel
  someVar := by decide +kernel
  someParam := by decide +kernel
  keywords := by decide +kernel

/-- `X` starts at `xs`, `w` at `ws`; `w` becomes `ps`. -/
def gridCall (xs ws ps : List ℝ) : SimCall ℝ where
  initial := [("X".toList, .num ⟨[2, 2], xs⟩), ("w".toList, .num ⟨[2, 2], ws⟩)]
  finalValues := some [("w".toList, .num ⟨[2, 2], ps⟩)]
  useOptimizer := false

theorem gridRequest (vs : List ModelObject) (hv : vs = gridVars ∨ vs = gridVars₂) (xs ws ps : List ℝ)
    (h1 : xs.length = 4) (h2 : ws.length = 4) (h3 : ps.length = 4) (add mul : NDArray ℝ → NDArray ℝ → NDArray ℝ) :
    RequestOK gridCoords vs gridParams add mul [] (gridCall xs ws ps) where
  nodup := by simp [gridCall, dkeys]
  exact := by intro n; rcases hv with rfl | rfl <;> simp [gridCall, dkeys, gridVars, gridVars₂, gridParams]
  distinct := by simp [gridCall, dkeys]
  some_change := by simp [gridCall, dkeys]
  known := by simp [gridCall, dkeys]
  valid := by simp [gridCall, ValidRefs, refsOf]
  unshared := by simp [gridCall, refsOf]
  shaped := by
    intro o ho
    have : (o = { name := "X", dims := ["i".toList, "j".toList] } ∨ o = { name := "X", dims := ["j".toList, "i".toList] }) ∨
        o = { name := "w", dims := ["i".toList, "j".toList] } := by
      rcases hv with rfl | rfl
      · have : o = { name := "X", dims := ["i".toList, "j".toList] } ∨
          o = { name := "w", dims := ["i".toList, "j".toList] } := by simpa [gridVars, gridParams] using ho
        tauto
      · have : o = { name := "X", dims := ["j".toList, "i".toList] } ∨
          o = { name := "w", dims := ["i".toList, "j".toList] } := by simpa [gridVars₂, gridParams] using ho
        tauto
    rcases this with (rfl | rfl) | rfl
    · exact ⟨⟨[2, 2], xs⟩, rfl, rfl, h1⟩
    · exact ⟨⟨[2, 2], xs⟩, rfl, rfl, h1⟩
    · exact ⟨⟨[2, 2], ws⟩, rfl, rfl, h2⟩
  sized := by
    intro o ho
    have : o = { name := "w", dims := ["i".toList, "j".toList] } := by simpa [gridParams] using ho
    subst this
    exact ⟨⟨[2, 2], ps⟩, rfl, h3⟩

theorem gridRegular (es : List (SymExpr Str)) (hes : es = gridEs ∨ es = gridEs₂) (v : Str → ℝ) :
    ∀ e ∈ es, Regular v e := by
  intro e he
  rcases hes with rfl | rfl
  all_goals
    simp only [gridEs, gridEs₂, List.mem_cons, List.not_mem_nil, or_false] at he
    rcases he with rfl | rfl | rfl | rfl <;> simp [gridEq, Regular]

theorem grid_matrix (x : Fin 4 → ℝ) (t : Fin 4 → ℝ) : IsUnit (symA 4 4 gridX gridW gridEs x t).det := by
  have : symA 4 4 gridX gridW gridEs x t = 1 := by
    ext i j
    fin_cases i <;> fin_cases j <;> simp [symA, gridX, gridW, gridEs, gridEq, diff, SymExpr.eval]
  rw [this, Matrix.det_one]
  exact isUnit_one

theorem grid_same (p q r s p' q' r' s' : ℝ) : SameTransposed gridCoords gridNew (gridVars ++ gridParams)
    [p, q, r, s, p', q', r', s'] [p, r, q, s, p', q', r', s'] := by
  refine ⟨rfl, rfl, fun o ho ls hls => ?_⟩
  have : o = { name := "X", dims := ["i".toList, "j".toList] } ∨ o = { name := "w", dims := ["i".toList, "j".toList] } := by
    simpa [gridVars, gridParams] using ho
  have hls' : ls = ["a".toList, "c".toList] ∨ ls = ["a".toList, "d".toList] ∨ ls = ["b".toList, "c".toList] ∨
      ls = ["b".toList, "d".toList] := by
    rcases this with rfl | rfl <;> simpa [product, labelsOf, gridCoords, dget] using hls
  rcases this with rfl | rfl <;> rcases hls' with rfl | rfl | rfl | rfl <;> rfl

theorem grid_final (p q r s : ℝ) : SameTransposed gridCoords gridNew gridParams [p, q, r, s] [p, q, r, s] := by
  refine ⟨rfl, rfl, fun o ho ls hls => ?_⟩
  have : o = { name := "w", dims := ["i".toList, "j".toList] } := by simpa [gridParams] using ho
  subst this
  have hls' : ls = ["a".toList, "c".toList] ∨ ls = ["a".toList, "d".toList] ∨ ls = ["b".toList, "c".toList] ∨
      ls = ["b".toList, "d".toList] := by simpa [product, labelsOf, gridCoords, dget] using hls
  rcases hls' with rfl | rfl | rfl | rfl <;> rfl

theorem gridBuilt {uv up : Dict Str ModelObject} {K : NumbaFns}
    (hK : BuiltNumba gridCoords gridVars gridParams gridEqs gridEs uv up K) :
    BuiltOn gridCoords gridVars gridParams none gridEqs gridEs .numba (fun _ _ _ => .ok [])
      (gridEnv gridVars gridEs uv up K) :=
  Or.inr ⟨rfl, rfl, scalarNames gridCoords (gridVars ++ gridParams), gridModel, gridNames, gridEuler,
    fun a => Iff.rfl, rfl, rfl, rfl, List.cons_ne_nil _ _, uv, up, K, hK, rfl⟩

/-- The Euler function of the model returns. -/
theorem grid_runs {uv up : Dict Str ModelObject} {K : NumbaFns}
    (hK : BuiltNumba gridCoords gridVars gridParams gridEqs gridEs uv up K) (k1 : dkeys uv = gridX)
    (k2 : dkeys up = gridW) (xs ws ps : List ℝ) (h1 : xs.length = 4) (h2 : ws.length = 4) (h3 : ps.length = 4)
    (fl : SimFlags) (add mul : NDArray ℝ → NDArray ℝ → NDArray ℝ) :
    ∃ outs, (gridEnv gridVars gridEs uv up K).euler (derefDict [] (gridCall xs ws ps).initial)
      (wantedFlat add mul [] (gridCall xs ws ps) gridParams) (gridCall xs ws ps).nIterEuler = .ok outs := by
  have hm := gridBuilt hK
  have hN : scalarNames gridCoords (gridVars ++ gridParams) = gridX ++ gridW := by decide +kernel
  have hcall : EulerCall gridCoords gridVars gridParams (derefDict [] (gridCall xs ws ps).initial)
      (wantedFlat add mul [] (gridCall xs ws ps) gridParams) := by
    obtain ⟨-, dx, A, B, -, hs⟩ := hm.stepsFrom rfl
    have hl := hs.lenOK
    exact (euler_setup .numba dx _ hs.steps hs.euler hl hs.coords_eq hs.variables_eq hs.parameters_eq
      hs.compiled fl add mul [] (gridCall xs ws ps) (gridRequest _ (.inl rfl) _ _ _ h1 h2 h3 add mul) rfl rfl).1
  show ∃ outs, runEuler .numba (numbaDX _ (dkeys uv) (dkeys up) _) gridVars gridParams gridCoords _ _ _ = _
  rw [k1, k2, runEuler_numbaDX gridCoords gridVars gridParams _ _ hcall _ _ _ _ (hN ▸ gridNames)
    (by intro a; rw [hN])
    (by
      intro e he a ha
      have := (hK.values gridModel).1 e he a ((mem_atoms_iff a e).2 ha)
      rwa [hN] at this) rfl rfl rfl]
  cases hc : runEuler .numba (vecJac (nx := totalSize gridCoords gridVars) (np := totalSize gridCoords gridParams)
      (symA _ _ gridX gridW gridEs) (symB _ _ gridX gridW gridEs)).solve gridVars gridParams gridCoords
      (wantedFlat add mul [] (gridCall xs ws ps) gridParams) (gridCall xs ws ps).nIterEuler
      (derefDict [] (gridCall xs ws ps).initial) with
  | ok outs => exact ⟨outs, rfl⟩
  | error e =>
    obtain ⟨-, x, t, -, -, hs⟩ := C20_fails_only_if_singular _ _ _ _ _ _ _ _ hcall e hc
    exact absurd (grid_matrix _ _) hs

/-- `w` moves from `((1, 2), (3, 4))` to `((5, 6), (8, 7))`; `X` is an array with the dims `(i, j)` in the first model
and its transpose in the second. -/
example (fl : SimFlags) (add mul : NDArray ℝ → NDArray ℝ → NDArray ℝ) :
    ∃ env env₂ e e₂,
      simulateCompute (simEnvOf env (fun _ => false) fl add mul) [] (gridCall [1, 2, 3, 4] [1, 2, 3, 4] [5, 6, 8, 7]) =
        .ok ⟨some e, none, none, false⟩ ∧
      simulateCompute (simEnvOf env₂ (fun _ => false) fl add mul) []
        (gridCall [1, 3, 2, 4] [1, 2, 3, 4] [5, 6, 8, 7]) = .ok ⟨some e₂, none, none, false⟩ ∧
      env.variables = gridVars ∧ env₂.variables = gridVars₂ ∧
      SameTransposed gridCoords gridNew (gridVars ++ gridParams) (flatOf e.start (gridVars ++ gridParams))
        (flatOf e₂.start (gridVars₂ ++ gridParams)) := by
  obtain ⟨uv, up, K, hK, k1, k2⟩ := gridNumba
  obtain ⟨uv₂, up₂, K₂, hK₂⟩ := gridNumba₂
  have hm₂ : BuiltOn gridCoords gridVars₂ gridParams none gridEqs₂ gridEs₂ .numba (fun _ _ _ => .ok [])
      (gridEnv gridVars₂ gridEs₂ uv₂ up₂ K₂) :=
    Or.inr ⟨rfl, rfl, scalarNames gridCoords (gridVars₂ ++ gridParams), gridModel₂, gridNames₂, gridEuler₂,
      fun a => Iff.rfl, rfl, rfl, rfl, List.cons_ne_nil _ _, uv₂, up₂, K₂, hK₂, rfl⟩
  obtain ⟨outs, hrun⟩ := grid_runs hK k1 k2 [1, 2, 3, 4] [1, 2, 3, 4] [5, 6, 8, 7] rfl rfl rfl fl add mul
  obtain ⟨e, e₂, outs₂, g1, g2, -, -, g5⟩ := C110_simulate (old := gridOld) (new := gridNew) (numeraire := none)
    (gridBuilt hK) hm₂ rfl grid_transposes rfl fl
    add mul [] [] (gridCall [1, 2, 3, 4] [1, 2, 3, 4] [5, 6, 8, 7]) (gridCall [1, 3, 2, 4] [1, 2, 3, 4] [5, 6, 8, 7])
    (by rw [solvedVars_none]; exact gridRequest _ (.inl rfl) _ _ _ rfl rfl rfl add mul)
    (by rw [solvedVars_none]; exact gridRequest _ (.inr rfl) _ _ _ rfl rfl rfl add mul)
    (by rw [solvedVars_none]; exact grid_same 1 2 3 4 1 2 3 4) (grid_final 5 6 8 7) rfl rfl (by decide) rfl rfl rfl
    outs hrun (fun _ _ _ _ => ⟨gridRegular _ (.inl rfl) _, fun _ _ => gridRegular _ (.inr rfl) _⟩)
  rw [solvedVars_none] at g5
  exact ⟨_, _, e, e₂, g1, g2, rfl, rfl, g5⟩

/-- The hypotheses of `C110_equations`. -/
example (p q r s p' q' r' s' : ℝ) :
    imbalances gridCoords gridVars₂ gridParams none gridEqs₂ [p, r, q, s, p', q', r', s'] =
      imbalances gridCoords gridVars gridParams none gridEqs [p, q, r, s, p', q', r', s'] :=
  C110_equations (numeraire := none) gridModel grid_transposes _ _
    (by rw [solvedVars_none]; exact grid_same p q r s p' q' r' s')

/-- The hypotheses of `C110_objective`. -/
example (vn : List Str) (p q r s p' q' r' s' : ℝ) : ∃ F F₂, BuiltFns gridCoords gridVars gridParams none gridEqs F ∧
    BuiltFns gridCoords gridVars₂ gridParams none gridEqs₂ F₂ ∧
    wrapForScipy (callGraphs ((gridVars ++ gridParams).map ModelObject.name) vn [F₂.loss]) gridVars₂ gridParams
        gridCoords [p, r, q, s] [p', q', r', s'] =
      wrapForScipy (callGraphs ((gridVars ++ gridParams).map ModelObject.name) vn [F.loss]) gridVars gridParams
        gridCoords [p, q, r, s] [p', q', r', s'] := by
  have b1 : ∃ F, BuiltFns gridCoords gridVars gridParams none gridEqs F :=
    ⟨_, id, id, id, id, _, _, _, gridEs, fun _ _ => Iff.rfl, fun _ _ => Iff.rfl,
      fun _ _ => Iff.rfl, rfl, rfl, rfl, rfl, rfl⟩
  have b2 : ∃ F, BuiltFns gridCoords gridVars₂ gridParams none gridEqs₂ F :=
    ⟨_, id, id, id, id, _, _, _, gridEs₂, fun _ _ => Iff.rfl, fun _ _ => Iff.rfl,
      fun _ _ => Iff.rfl, rfl, rfl, rfl, rfl, rfl⟩
  obtain ⟨F, hF⟩ := b1
  obtain ⟨F₂, hF₂⟩ := b2
  have := C110_objective (numeraire := none) hF (F₂ := F₂) (old := gridOld) (new := gridNew) hF₂ gridModel gridModel₂
    grid_transposes vn vn [p, q, r, s] [p', q', r', s'] [p, r, q, s] [p', q', r', s'] rfl rfl rfl rfl
    (by rw [solvedVars_none]; exact grid_same p q r s p' q' r' s')
  rw [solvedVars_none] at this
  exact ⟨F, F₂, hF, hF₂, this⟩

/-- The hypotheses of `C110_check`. -/
example (p q r s p' q' r' s' : ℝ) (tol : ℝ) :
    checkForEquilibrium (fun x t => imbalances gridCoords gridVars₂ gridParams none gridEqs₂ (x ++ t)) true
      gridVars₂ gridParams gridCoords (gridEqs₂.flatMap (filledNames gridCoords none))
      (.dict [("X".toList, ⟨[2, 2], [p, r, q, s]⟩), ("w".toList, ⟨[2, 2], [p', q', r', s']⟩)]) tol =
    checkForEquilibrium (fun x t => imbalances gridCoords gridVars gridParams none gridEqs (x ++ t)) true
      gridVars gridParams gridCoords (gridEqs.flatMap (filledNames gridCoords none))
      (.dict [("X".toList, ⟨[2, 2], [p, q, r, s]⟩), ("w".toList, ⟨[2, 2], [p', q', r', s']⟩)]) tol := by
  have hs : ∀ vs, vs = gridVars ∨ vs = gridVars₂ → ∀ p q r s : ℝ, ModelState gridCoords vs gridParams
      [("X".toList, ⟨[2, 2], [p, q, r, s]⟩), ("w".toList, ⟨[2, 2], [p', q', r', s']⟩)] := by
    rintro vs hv p q r s
    refine ⟨fun o ho => ?_, fun n hn => ?_⟩
    · rcases hv with rfl | rfl
      · have : o = { name := "X", dims := ["i".toList, "j".toList] } ∨
          o = { name := "w", dims := ["i".toList, "j".toList] } := by simpa [gridVars, gridParams] using ho
        rcases this with rfl | rfl
        · exact ⟨⟨[2, 2], [p, q, r, s]⟩, rfl, rfl, rfl⟩
        · exact ⟨⟨[2, 2], [p', q', r', s']⟩, rfl, rfl, rfl⟩
      · have : o = { name := "X", dims := ["j".toList, "i".toList] } ∨
          o = { name := "w", dims := ["i".toList, "j".toList] } := by simpa [gridVars₂, gridParams] using ho
        rcases this with rfl | rfl
        · exact ⟨⟨[2, 2], [p, q, r, s]⟩, rfl, rfl, rfl⟩
        · exact ⟨⟨[2, 2], [p', q', r', s']⟩, rfl, rfl, rfl⟩
    · rcases hv with rfl | rfl <;> simpa [dkeys, gridVars, gridVars₂, gridParams] using hn
  have key := C110_check (numeraire := none) (old := gridOld) (new := gridNew) gridModel gridModel₂ grid_transposes
    true true (by decide +kernel) (by decide +kernel) _ _
    (by rw [solvedVars_none]; exact hs _ (.inl rfl) p q r s)
    (by rw [solvedVars_none]; exact hs _ (.inr rfl) p r q s)
    (by rw [solvedVars_none]; exact grid_same p q r s p' q' r' s')
    (.dict [("X".toList, ⟨[2, 2], [p, q, r, s]⟩), ("w".toList, ⟨[2, 2], [p', q', r', s']⟩)])
    (.dict [("X".toList, ⟨[2, 2], [p, r, q, s]⟩), ("w".toList, ⟨[2, 2], [p', q', r', s']⟩)]) rfl rfl tol
  rw [solvedVars_none] at key
  exact key

/-- **C110: the values have to be handed over in the new order.**  With as many labels in `i` as in `j`, an array that is
still in the old order has the shape that the transposed model asks for.  The state is accepted, an equilibrium is taken
for a state that is off, and nothing tells that the array was meant the other way round. -/
theorem C110_untransposed_counterexample (vn : List Str) (add mul : NDArray ℝ → NDArray ℝ → NDArray ℝ) :
    RequestOK gridCoords (gridVars.map (ModelObject.transposed gridNew))
      (gridParams.map (ModelObject.transposed gridNew)) add mul []
      (gridCall [1, 2, 3, 4] [1, 2, 3, 4] [5, 6, 8, 7]) ∧
    ∃ F F₂, BuiltFns gridCoords gridVars gridParams none gridEqs F ∧
      BuiltFns gridCoords (gridVars.map (ModelObject.transposed gridNew))
        (gridParams.map (ModelObject.transposed gridNew)) none (gridEqs.map (IndexedEq.transposed gridOld gridNew)) F₂ ∧
      wrapForScipy (callGraphs ((gridVars ++ gridParams).map ModelObject.name) vn F.system) gridVars gridParams
        gridCoords [1, 2, 3, 4] [1, 2, 3, 4] = .ok [(0 : ℝ), 0, 0, 0] ∧
      wrapForScipy (callGraphs ((gridVars ++ gridParams).map ModelObject.name) vn F₂.system)
        (gridVars.map (ModelObject.transposed gridNew)) (gridParams.map (ModelObject.transposed gridNew))
        gridCoords [1, 2, 3, 4] [1, 2, 3, 4] = .ok [(0 : ℝ), 1, -1, 0] ∧
      wrapForScipy (callGraphs ((gridVars ++ gridParams).map ModelObject.name) vn F₂.system)
        (gridVars.map (ModelObject.transposed gridNew)) (gridParams.map (ModelObject.transposed gridNew))
        gridCoords [1, 3, 2, 4] [1, 2, 3, 4] = .ok [(0 : ℝ), 0, 0, 0] := by
  have b1 : ∃ F, BuiltFns gridCoords gridVars gridParams none gridEqs F :=
    ⟨_, id, id, id, id, _, _, _, gridEs, fun _ _ => Iff.rfl, fun _ _ => Iff.rfl,
      fun _ _ => Iff.rfl, rfl, rfl, rfl, rfl, rfl⟩
  have b2 : ∃ F, BuiltFns gridCoords gridVars₂ gridParams none gridEqs₂ F :=
    ⟨_, id, id, id, id, _, _, _, gridEs₂, fun _ _ => Iff.rfl, fun _ _ => Iff.rfl,
      fun _ _ => Iff.rfl, rfl, rfl, rfl, rfl, rfl⟩
  obtain ⟨F, hF⟩ := b1
  obtain ⟨F₂, hF₂⟩ := b2
  have h1 := hF.system gridModel vn [1, 2, 3, 4] [1, 2, 3, 4] rfl rfl
  have h2 := hF₂.system gridModel₂ vn [1, 2, 3, 4] [1, 2, 3, 4] rfl rfl
  have h3 := hF₂.system gridModel₂ vn [1, 3, 2, 4] [1, 2, 3, 4] rfl rfl
  rw [solvedVars_none] at h1 h2 h3
  have e1 : imbalances gridCoords gridVars gridParams none gridEqs ([1, 2, 3, 4] ++ [1, 2, 3, 4]) =
    [1 - 1, 2 - 2, 3 - 3, 4 - 4] := rfl
  have e2 : imbalances gridCoords gridVars₂ gridParams none gridEqs₂ ([1, 2, 3, 4] ++ [1, 2, 3, 4]) =
    [1 - 1, 3 - 2, 2 - 3, 4 - 4] := rfl
  have e3 : imbalances gridCoords gridVars₂ gridParams none gridEqs₂ ([1, 3, 2, 4] ++ [1, 2, 3, 4]) =
    [1 - 1, 2 - 2, 3 - 3, 4 - 4] := rfl
  refine ⟨gridRequest _ (.inr rfl) _ _ _ rfl rfl rfl add mul, F, F₂, hF, hF₂, ?_, ?_, ?_⟩
  · rw [h1, e1]; norm_num
  · refine h2.trans ?_
    rw [e2]; norm_num
  · refine h3.trans ?_
    rw [e3]; norm_num

end Verif
