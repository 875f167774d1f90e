import Verif.Model.Euler
import Verif.Model.Equilibrium
import Mathlib.Data.Real.Basic

/-!
# The figures shown while and after solving

Models `get_step_statistics` (`cge_modeling/compile/euler.py:227-239`), its use in
`pytensor_euler_function_with_python_loop` (`cge_modeling/compile/euler.py:42-75`) and `print_residuals`
(`cge_modeling/base/cge.py:1083-1088`).  The residual function is a function of flat vectors as in
`Verif.Model.Equilibrium`; the formatting of the numbers is not modelled.
-/

namespace Verif

/-- The field `RMSE` of the progress bar (compile/euler.py:232-234); `none` is NaN, for a system without
equations. -/
noncomputable def shownRmse (errors : List ℝ) : Option ℝ :=
  if min 1 errors.length = 0 then none
  else some ((errors.map fun e => e ^ 2).sum / (min 1 errors.length : Nat))

/-- `get_step_statistics` (compile/euler.py:227-239) with `f_system` given and `f_grad=None`. -/
noncomputable def stepStatistics (sys : List ℝ → List ℝ → List ℝ) (vars params : List ModelObject)
    (curVars curParams : Dict Str (NDArray ℝ)) : Res (Option ℝ) := do
  let kw ← mergeKwPlain [curVars, curParams]
  let errors ← callSystem sys vars params kw
  return shownRmse errors
where
  /-- `f(**a, **b)`: a keyword given twice is a `TypeError`. -/
  mergeKwPlain (ds : List (Dict Str (NDArray ℝ))) : Res (Dict Str (NDArray ℝ)) :=
    if (ds.flatten.map Prod.fst).Nodup then .ok ds.flatten else .error .typeError

/-- The loop of compile/euler.py:53-72 with the statistics that are shown after each step, and the state at
its end. -/
def pyEulerShown {σ : Type} (stat : Dict Str (NDArray ℝ) → Dict Str (NDArray ℝ) → Res σ)
    (fStep : Dict Str (NDArray ℝ) → Res (List (NDArray ℝ))) (varNames paramNames dataKeys : List Str)
    (thetaFinal thetaInitial : Dict Str (NDArray ℝ)) :
    Nat → Dict Str (NDArray ℝ) → Dict Str (NDArray ℝ) →
      Res (List (Dict Str (NDArray ℝ)) × List σ × Dict Str (NDArray ℝ) × Dict Str (NDArray ℝ))
  | 0, curVars, curParams => .ok ([], [], curVars, curParams)
  | k + 1, curVars, curParams => do
      let kw ← mergeKw [curParams, curVars, thetaFinal, thetaInitial]
      let cur ← fStep kw
      let curVars' := dofPairs (varNames.zip (cur.take varNames.length))
      let curParams' := dofPairs (paramNames.zip (cur.drop varNames.length))
      let row ← dataKeys.mapM fun key => do
        let v ← if key ∈ varNames then dgetE curVars' key else dgetE curParams' key
        return (key, v)
      let s ← stat curVars' curParams'
      let rest ← pyEulerShown stat fStep varNames paramNames dataKeys thetaFinal thetaInitial k curVars'
        curParams'
      return (row :: rest.1, s :: rest.2.1, rest.2.2)

/-- Everything the progress bar shows (compile/euler.py:49-50, 71-75), and the recorded rows. -/
def pyEulerProgress {σ : Type} (stat : Dict Str (NDArray ℝ) → Dict Str (NDArray ℝ) → Res σ)
    (fStep : Dict Str (NDArray ℝ) → Res (List (NDArray ℝ))) (varNames paramNames dataKeys : List Str)
    (thetaFinal thetaInitial : Dict Str (NDArray ℝ)) (n : Nat)
    (curVars curParams : Dict Str (NDArray ℝ)) : Res (List (Dict Str (NDArray ℝ)) × List σ) := do
  let s0 ← stat curVars curParams
  let r ← pyEulerShown stat fStep varNames paramNames dataKeys thetaFinal thetaInitial n curVars curParams
  let s1 ← stat r.2.2.1 r.2.2.2
  return (r.1, s0 :: r.2.1 ++ [s1])

/-- Calling a compiled function with two vectors.  The functions of the numba back-end take them; a
pytensor function takes one argument for every object, of the object's shape. -/
def callTwoVectors (sys : List ℝ → List ℝ → List ℝ) (byName : Bool) (vars params : List ModelObject)
    (coords : Coords) (x theta : List ℝ) : Res (List ℝ) :=
  if byName then
    match vars ++ params with
    | [a, b] => do
      let sa ← inferShape a coords
      let sb ← inferShape b coords
      if sa = [x.length] ∧ sb = [theta.length] then .ok (sys x theta) else .error .typeError
    | _ => .error .typeError
  else .ok (sys x theta)

/-- `print_residuals` (base/cge.py:1083-1088): the lines, each a name and a residual.  `fitted` is the
attribute `fitted_values`, which an optimizer result does not have. -/
def printResiduals (sys : List ℝ → List ℝ → List ℝ) (byName : Bool) (vars params : List ModelObject)
    (coords : Coords) (nVars : Nat) (eqNames : List Str) (fitted : Option (List ℝ)) :
    Res (List (Str × ℝ)) :=
  match fitted with
  | none => .error .attributeError
  | some v => do
    let errors ← callTwoVectors sys byName vars params coords (v.take nVars) (v.drop nVars)
    return eqNames.zip errors

end Verif
