import Verif.Model.Expand

/-!
# Calling-convention wrappers

Models `cge_modeling/base/function_wrappers.py:18-197`.
-/

namespace Verif

variable {α β : Type _}

/-- A function called with keyword arguments, `f(**data)`; it may raise. -/
abbrev KwFun (α β : Type _) := Dict Str (NDArray α) → Res β

/-- The keyword of the direction vector of a variable, `f"{name}_point"`
(base/function_wrappers.py:69,91). -/
def pointName (n : Str) : Str := n ++ "_point".toList

/-- `wrap_pytensor_func_for_scipy`, `include_p=False` (base/function_wrappers.py:50-57);
`np.r_[x0, theta]` of two vectors is their concatenation. -/
def wrapForScipy (f : KwFun α β) (variables parameters : List ModelObject) (coords : Coords)
    (x0 theta : List α) : Res β := do
  let data ← flatArrayToVariableDict (x0 ++ theta) (variables ++ parameters) coords
  f data

/-- `wrap_pytensor_func_for_scipy`, `include_p=True` (base/function_wrappers.py:59-72). -/
def wrapForScipyP (f : KwFun α β) (variables parameters : List ModelObject) (coords : Coords)
    (x0 p theta : List α) : Res β := do
  let data ← flatArrayToVariableDict (x0 ++ theta) (variables ++ parameters) coords
  let pointDict ← flatArrayToVariableDict p variables coords
  let pointDict := dofPairs (pointDict.map fun kv => (pointName kv.1, kv.2))
  f (dupdate data pointDict)

/-- `wrap_scipy_func_for_pytensor`, `wrapping_hessp=False` (base/function_wrappers.py:97-102). -/
def wrapForPytensor (f : List α → List α → Res β) (variables parameters : List ModelObject) :
    KwFun α β := fun kwargs => do
  let xt ← variableDictToFlatArray kwargs variables parameters
  f xt.1 xt.2

/-- `[np.atleast_1d(kwargs.pop(name)).ravel() for name in points]`: the popped data and the remaining
keyword arguments. -/
def popAll : Dict Str (NDArray α) → List Str → Res (List (List α) × Dict Str (NDArray α))
  | kw, [] => .ok ([], kw)
  | kw, n :: ns => do
      let a ← dgetE kw n
      let r ← popAll (ddel kw n) ns
      return (a.data :: r.1, r.2)

/-- `wrap_scipy_func_for_pytensor`, `wrapping_hessp=True` (base/function_wrappers.py:83-95). -/
def wrapForPytensorP (f : List α → List α → List α → Res β)
    (variables parameters : List ModelObject) : KwFun α β := fun kwargs => do
  let r ← popAll kwargs (variables.map fun x => pointName x.name)
  let p ← npConcatenate r.1
  let xt ← variableDictToFlatArray r.2 variables parameters
  f xt.1 p xt.2

/-- What `f` may return in `wrap_fixed_values` (base/function_wrappers.py:160-165). -/
inductive FuncResult (α : Type _) where
  | scalar (v : α)
  | vector (v : List α)
  | matrix (rows : List (List α))
  deriving DecidableEq, Repr

/-- `res[mask]`, `res[mask, :][:, mask]` or the scalar itself (base/function_wrappers.py:160-165). -/
def FuncResult.select (mask : List Bool) : FuncResult α → FuncResult α
  | .scalar v => .scalar v
  | .vector v => .vector (maskSelect v mask)
  | .matrix rows => .matrix ((maskSelect rows mask).map fun r => maskSelect r mask)

/-- `return_mask` (base/function_wrappers.py:146). -/
def returnMask (fixed : Dict Str (NDArray α)) (unpackedNames : List Str) : List Bool :=
  unpackedNames.map fun n => decide (n ∈ dkeys fixed)

/-- `inner` of `wrap_fixed_values` (base/function_wrappers.py:148-165). -/
def fixedInner (f : List α → List α → Res (FuncResult α)) (fixed : Dict Str (NDArray α))
    (variables parameters : List ModelObject) (coords : Coords) (unpackedNames : List Str)
    (x theta : List α) : Res (FuncResult α) := do
  let data ← flatArrayToVariableDict (x ++ theta) variables coords
  if (dkeys data).any fun var => decide (var ∈ dkeys fixed) then .error .valueError
  else do
    let xt ← variableDictToFlatArray (dupdate data fixed) variables parameters
    let res ← f xt.1 xt.2
    return res.select (returnMask fixed unpackedNames)

/-- `wrap_fixed_values` (base/function_wrappers.py:107-167); the model is given by its variables,
parameters, coords and unpacked variable names. -/
def wrapFixedValues (f : List α → List α → Res (FuncResult α)) (fixed : Dict Str (NDArray α))
    (variables parameters : List ModelObject) (coords : Coords) (unpackedNames : List Str) :
    Res (List α → List α → Res (FuncResult α)) :=
  if (dkeys fixed).any fun var => decide (var ∉ unpackedNames) then .error .valueError
  else .ok (fixedInner f fixed variables parameters coords unpackedNames)

/-- `a.reshape(-1, *shape)` of an array with the elements `l`: numpy cannot infer the first axis when
the other axes have no elements. -/
def reshapeRows (l : List α) (shape : List Nat) : Res (NDArray α) :=
  if shape.prod = 0 then .error .valueError
  else if l.length % shape.prod = 0 then .ok ⟨l.length / shape.prod :: shape, l⟩
  else .error .valueError

/-- The decomposition loop of `wrap_numba_euler_function` (base/function_wrappers.py:189-193); the
result matrix is given by its rows. -/
def splitTrajectoryLoop (result : List (List α)) : List (List Nat) → Nat → Res (List (NDArray α))
  | [], _ => .ok []
  | shape :: shapes, cursor => do
      let s := shape.prod
      let a ← reshapeRows (result.map fun row => slice row cursor (cursor + s)).flatten shape
      let rest ← splitTrajectoryLoop result shapes (cursor + s)
      return a :: rest

/-- `wrap_numba_euler_function` after the trajectory has been computed
(base/function_wrappers.py:187-195). -/
def splitTrajectory (result : List (List α)) (objs : List ModelObject) (coords : Coords) :
    Res (List (NDArray α)) := do
  let shapes ← objs.mapM fun o => inferShape o coords
  splitTrajectoryLoop result shapes 0

/-- `wrap_numba_euler_function` (base/function_wrappers.py:170-197); the progress bar is not
modelled. -/
def wrapNumbaEuler (eulerApprox : List α → List α → List α → Nat → Res (List (List α)))
    (variables parameters : List ModelObject) (coords : Coords) (thetaFinal : List α) (nSteps : Nat)
    (data : Dict Str (NDArray α)) : Res (List (NDArray α)) := do
  let xt ← variableDictToFlatArray data variables parameters
  let result ← eulerApprox xt.1 xt.2 thetaFinal nSteps
  splitTrajectory result (variables ++ parameters) coords

end Verif
