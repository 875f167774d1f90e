import Verif.Model.Idata
import Mathlib.Algebra.Order.Ring.Defs
import Mathlib.Algebra.Order.Group.Unbundled.Abs

/-!
# `CGEModel.check_for_equilibrium`

Models `cge_modeling/base/cge.py:1090-1157`.  Numbers are exact; the log messages are a value of type
`EqReport`.
-/

namespace Verif

variable {K : Type _}

/-- The forms in which the state may be given (base/cge.py:1092). -/
inductive EqData (K : Type _) where
  | dict (d : Dict Str (NDArray K))
  /-- an `InferenceData` with both groups -/
  | idata (V P : XDataset K)
  /-- an `InferenceData` without the group `variables` or without the group `parameters` -/
  | idataOther
  | dataset (ds : XDataset K)
  /-- an `OptimizeResult` with its fields `x` and `args` -/
  | optRes (x args : List K)

/-- `array.isel(step=-1)` where `step` is the first axis, as in every dataset made by the package;
`IndexError` when there is no step. -/
def lastStep (v : List Str × NDArray K) : Res (List Str × NDArray K) :=
  match v.1, v.2.shape with
  | a :: axes, n :: s =>
    if a = stepName then
      if n = 0 then .error .indexError
      else .ok (axes, ⟨s, (v.2.data.drop ((n - 1) * s.prod)).take s.prod⟩)
    else .ok v
  | _, _ => .ok v

/-- `data.isel(step=-1)` on one group. -/
def iselLast (ds : XDataset K) : Res (XDataset K) :=
  ds.mapM fun p => (lastStep p.2).map fun v => (p.1, v)

/-- `to_dict()[group]`: the plain arrays. -/
def groupValues (ds : XDataset K) : Dict Str (NDArray K) := ds.map fun p => (p.1, p.2.2)

/-- Conversion of the state to a dictionary (base/cge.py:1112-1132). -/
def eqDataToDict (vars params : List ModelObject) (coords : Coords) :
    EqData K → Res (Dict Str (NDArray K))
  | .dict d => .ok d
  | .idataOther => .error .valueError
  | .idata V P =>
    if V.any fun p => decide (stepName ∈ p.2.1) then do
      let V' ← iselLast V
      let P' ← iselLast P
      pure (dupdate (groupValues V') (groupValues P'))
    else .ok (dupdate (groupValues V) (groupValues P))
  | .dataset ds => do
    let l ← (vars ++ params).mapM fun o => (dgetE ds o.name).map fun v => (o.name, v.2)
    pure (dofPairs l)
  | .optRes x args => do
    let v ← flatArrayToVariableDict x vars coords
    let p ← flatArrayToVariableDict args params coords
    pure (dupdate v p)

/-- `f_system(**data)` for a function with the model's names as arguments: `TypeError` when a name is
missing or unknown. -/
def callSystem (sys : List K → List K → List K) (vars params : List ModelObject)
    (d : Dict Str (NDArray K)) : Res (List K) :=
  if (dkeys d).all (fun n => decide (n ∈ (vars ++ params).map ModelObject.name)) &&
      ((vars ++ params).map ModelObject.name).all (fun n => decide (n ∈ dkeys d)) then do
    let p ← variableDictToFlatArray d vars params
    pure (sys p.1 p.2)
  else .error .typeError

/-- What is logged. -/
inductive EqReport (K : Type _) where
  | found
  | notFound (listed : List (Str × K))

variable [Ring K] [LinearOrder K]

/-- `sse = (errors**2).sum()` (base/cge.py:1141). -/
def sumSq (errors : List K) : K := (errors.map fun r => r ^ 2).sum

/-- The message (base/cge.py:1143-1157); `max` of no names is a `ValueError`. -/
def eqReport (names : List Str) (errors : List K) (tol : K) : Res (EqReport K) :=
  if sumSq errors < tol then .ok .found
  else if names = [] then .error .valueError
  else .ok (.notFound ((names.zip errors).filter fun p => decide (tol < |p.2|)))

/-- `check_for_equilibrium` (base/cge.py:1090-1157).  `sys` is the residual function of flat vectors;
`byName` says whether the compiled function takes the data by name (`pytensor`, `sympytensor`) or as two
vectors (`numba`). -/
def checkForEquilibrium (sys : List K → List K → List K) (byName : Bool)
    (vars params : List ModelObject) (coords : Coords) (names : List Str) (data : EqData K) (tol : K) :
    Res (EqReport K) := do
  let d ← eqDataToDict vars params coords data
  let errors ← if byName then callSystem sys vars params d
    else (variableDictToFlatArray d vars params).map fun p => sys p.1 p.2
  eqReport names errors tol

end Verif
