import Verif.Model.SimulateSolve
import Verif.Model.Calibrate

/-!
# The forms of `initial_state`

Models `cge_modeling/base/cge.py:971-996` and the use of `initial_state` at `base/cge.py:1069` (through
`tools/output_tools.py:459-487`): `simulate` takes a dict, a `Result` or an `xr.Dataset`.
-/

namespace Verif

variable {α : Type _}

/-- `Result` (base/primitives.py:283-310), as far as `simulate` looks at it: `names` is
`variables + parameters`. -/
structure ResultObj (α : Type _) where
  names : List Str
  initialValues : List α
  fittedValues : List α

/-- `Result.to_dict()["fitted"]` (base/primitives.py:303-308).  Iterating over a numpy vector gives numpy
scalars, which are immutable. -/
def ResultObj.fitted (r : ResultObj α) : Dict Str (PyVal (NDArray α)) :=
  dofPairs (r.names.zip (r.fittedValues.map fun v => .num ⟨[], [v]⟩))

/-- The `Result` that `calibrate` returns; `cast` turns the exact numbers of the symbolic solution into
floating point numbers and a missing one into NaN (base/cge.py:627-634). -/
def CalibResult.toObj (cast : Option ℚ → α) (r : CalibResult) : ResultObj α :=
  ⟨r.names, r.initial.map cast, r.fitted.map cast⟩

/-- An `xr.Dataset`.  `arrays` is its attribute `variables` (a mapping of data variables and coordinates,
also what `dataset[name]` looks at); `parametersAttr` is what the attribute `parameters` gives, which exists
only if something in the dataset is called `parameters`. -/
structure DatasetObj (α : Type _) where
  arrays : Dict Str (NDArray α)
  parametersAttr : Option (Dict Str (NDArray α)) := none

/-- What may be passed as `initial_state`; an `InferenceData` is among the `other`s. -/
inductive InitialState (α : Type _) where
  | dict (d : Dict Str (PyVal (NDArray α)))
  | result (r : ResultObj α)
  | dataset (ds : DatasetObj α)
  | other

/-- `initial_state.parameters`. -/
def DatasetObj.parameters (ds : DatasetObj α) : Res (Dict Str (NDArray α)) :=
  match ds.parametersAttr with
  | none => .error .attributeError
  | some d => .ok d

/-- The two dict comprehensions of base/cge.py:988-991; `initial_state.parameters` is evaluated once for
each parameter.  Simplification: the values are copied. -/
def DatasetObj.values (vars params : List ModelObject) (ds : DatasetObj α) :
    Res (Dict Str (PyVal (NDArray α))) := do
  let v ← vars.mapM fun o => (dgetE ds.arrays o.name).map fun a => (o.name, PyVal.num a)
  let p ← params.mapM fun o => do
    let d ← ds.parameters
    let a ← dgetE d o.name
    pure (o.name, PyVal.num a)
  pure (dupdate (dofPairs v) (dofPairs p))

/-- `x0_var_param` (base/cge.py:983-996). -/
def InitialState.values (vars params : List ModelObject) :
    InitialState α → Res (Dict Str (PyVal (NDArray α)))
  | .dict d => .ok d
  | .result r => .ok r.fitted
  | .dataset ds => ds.values vars params
  | .other => .error .valueError

/-- `initial_state[name]`; `Result` has no `__getitem__`. -/
def InitialState.item (h : Heap (NDArray α)) : InitialState α → Str → Res (NDArray α)
  | .dict d, n => dgetE (derefDict h d) n
  | .result _, _ => .error .typeError
  | .dataset ds, n => dgetE ds.arrays n
  | .other, _ => .error .typeError

/-- The dict comprehensions of tools/output_tools.py:466-480, with `initial_values[obj.name]` as `item`. -/
def stackPairsBy (item : Str → Res (NDArray α)) (result : Dict Str (NDArray α))
    (objs : List ModelObject) : Res (List (Str × (List Str × NDArray α))) :=
  objs.mapM fun o => do
    let a ← item o.name
    let b ← dgetE result o.name
    let s ← npStack2 a b
    pure (o.name, (stepName :: o.dims, s))

/-- `optimizer_result_to_idata` (tools/output_tools.py:459-487) for any form of `initial_values`. -/
def optimizerResultToIdataBy (item : Str → Res (NDArray α)) (x theta : List α)
    (vars params : List ModelObject) (coords : Coords) : Res (XDataset α × XDataset α) := do
  let coords' := dset coords stepName (rangeLabels 2)
  let result ← flatArrayToVariableDict (x ++ theta) (vars ++ params) coords'
  let v ← stackPairsBy item result vars
  let p ← stackPairsBy item result params
  let dsVars ← xrDataset (dofPairs v) coords'
  let dsParams ← xrDataset (dofPairs p) coords'
  pure (dsVars, dsParams)

/-- The numerical part of `simulate` (base/cge.py:1020-1071); `item` is `initial_state[...]`. -/
def simulateSolveBy (item : Str → Res (NDArray α)) (env : SamEnv α (List (NDArray α)))
    (isNan : α → Bool) (fl : SimFlags) (x0 : Dict Str (NDArray α)) (theta : List α) (c : SimCall α) :
    Res (SimOut α) := do
  let e ← eulerPart env isNan x0 theta c
  if c.useOptimizer then do
    let res ← simOptimize env fl c.optimizerMode ((e.map EulerPass.start).getD x0) theta
    let idata ← optimizerResultToIdataBy item res.x theta env.variables env.parameters env.coords
    pure ⟨e, some idata, some res, !res.success⟩
  else pure ⟨e, none, none, false⟩

/-- The computing part of `simulate` (base/cge.py:971-1071) for any form of `initial_state`
(`c.initial` is not used). -/
def simulateFrom (env : SamEnv α (List (NDArray α))) (isNan : α → Bool) (fl : SimFlags)
    (add mul : NDArray α → NDArray α → NDArray α) (h : Heap (NDArray α)) (s : InitialState α)
    (c : SimCall α) : Except SimErr (SimOut α) := do
  -- `self._compile` does not exist
  if env.compiled.isEmpty then throw (.py .attributeError)
  let d ← liftPy (s.values env.variables env.parameters)
  simulateCompute { simEnvOf env isNan fl add mul with
    solve := simulateSolveBy (s.item h) env isNan fl } h { c with initial := d }

end Verif
