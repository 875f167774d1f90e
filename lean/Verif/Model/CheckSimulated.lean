import Verif.Model.Equilibrium
import Verif.Model.SimulateSolve

/-!
# `check_for_equilibrium` on the result of `simulate`

Models `cge_modeling/base/cge.py:1112-1121` on the `InferenceData` that `simulate` left after
`dropna(dim="step")` (`base/cge.py:1026-1028`).
-/

namespace Verif

variable {K : Type _} [Ring K] [LinearOrder K]

/-- `group.isel(step=-1)` on a group whose steps have been filtered; `IndexError` when none is left. -/
def lastKept (rows : List (Nat × Dict Str (NDArray K))) : Res (Dict Str (NDArray K)) :=
  match rows.getLast? with
  | some r => .ok r.2
  | none => .error .indexError

/-- `check_for_equilibrium(result["euler"])` (base/cge.py:1112-1121, 1134-1157): each group gives its own
last step, then the two are joined. -/
def checkEulerGroup (sys : List K → List K → List K) (byName : Bool) (vars params : List ModelObject)
    (coords : Coords) (names : List Str) (e : EulerPass K) (tol : K) : Res (EqReport K) := do
  let v ← lastKept e.keptVars
  let p ← lastKept e.keptParams
  checkForEquilibrium sys byName vars params coords names (.dict (dupdate v p)) tol

end Verif
