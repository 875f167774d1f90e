import Verif.Model.Flat
import Verif.Model.Scenario
import Verif.Model.Results
import Verif.Py.Str

/-!
# `CGEModel.simulate`

Models `cge_modeling/base/cge.py:863-1081`: result cache, validation of the initial state, scenario,
hand-over from the Euler pass to the optimizer, saving.
-/

namespace Verif

variable {α ρ : Type _}

/-- Why `simulate` raised: the two validation errors carry the names they report
(base/cge.py:998-1011), any other exception is `py`. -/
inductive SimErr where
  | missing (names : List Str)
  | unknown (names : List Str)
  | py (e : PyErr)
  deriving DecidableEq, Repr

/-- The arguments of one `simulate` call that matter here.  `initial` and the change dictionaries
refer to arrays in a heap (see `Verif.Model.Scenario`).  Simplification: `initial_state` is a dict
(the `Result` and `xr.Dataset` forms are converted to one at base/cge.py:983-991). -/
structure SimCall (α : Type _) where
  initial : Dict Str (PyVal (NDArray α))
  finalValues : Option (Dict Str (PyVal (NDArray α))) := none
  finalDelta : Option (Dict Str (PyVal (NDArray α))) := none
  finalPct : Option (Dict Str (PyVal (NDArray α))) := none
  useEuler : Bool := true
  useOptimizer : Bool := true
  optimizerMode : Str := "root".toList
  nIterEuler : Nat := 10000
  saveResults : Bool := false
  overwrite : Bool := false
  simulationName : Option Str := none
  /-- keyword arguments of the optimizer, already turned to text -/
  optimizerKwargs : List (Str × Str) := []

/-- The default simulation name (base/cge.py:960-966); `today` is the formatted date. -/
def defaultSimName (today : Str) (c : SimCall α) : Str :=
  let name := "Simulation_".toList ++ today
  let name := if c.useEuler then
      name ++ "_Euler[steps=".toList ++ natStr c.nIterEuler ++ "]".toList else name
  if c.useOptimizer then
      name ++ "_".toList ++ c.optimizerMode ++ "[".toList ++
        joinStr ",".toList (c.optimizerKwargs.map fun p => p.1 ++ "=".toList ++ p.2) ++ "]".toList
    else name

/-- The name used for the call. -/
def simName (today : Str) (c : SimCall α) : Str := c.simulationName.getD (defaultSimName today c)

/-- Validation of the initial state (base/cge.py:998-1011). -/
def validateInitial (modelNames : List Str) (initialNames : List Str) : Except SimErr Unit :=
  if !(modelNames.all fun x => decide (x ∈ initialNames)) then
    .error (.missing (modelNames.filter fun x => decide (x ∉ initialNames)))
  else if initialNames.any fun x => decide (x ∉ modelNames) then
    .error (.unknown (initialNames.filter fun x => decide (x ∉ modelNames)))
  else .ok ()

/-- Dereference a dictionary. -/
def derefDict (h : Heap (NDArray α)) (d : Dict Str (PyVal (NDArray α))) : Dict Str (NDArray α) :=
  d.filterMap fun p => (readVal h p.2).map fun a => (p.1, a)

/-- The parts of `simulate` that are outside the model: whether the functions were compiled, and the
numerical work (Euler pass and optimizer) as a function of the initial data and `theta`. -/
structure SimEnv (α ρ : Type _) where
  variables : List ModelObject
  parameters : List ModelObject
  compiled : Bool
  add : NDArray α → NDArray α → NDArray α
  mul : NDArray α → NDArray α → NDArray α
  solve : Dict Str (NDArray α) → List α → SimCall α → Res ρ

def liftPy {β : Type _} : Res β → Except SimErr β
  | .ok b => .ok b
  | .error e => .error (.py e)

/-- The computing part of `simulate` (base/cge.py:971-1069).  `self._compile` does not exist, so a
model that was not compiled raises `AttributeError`. -/
def simulateCompute (env : SimEnv α ρ) (h : Heap (NDArray α)) (c : SimCall α) : Except SimErr ρ := do
  if !env.compiled then throw (.py .attributeError)
  let x0 := derefDict h c.initial
  validateInitial (env.variables.map ModelObject.name ++ env.parameters.map ModelObject.name)
    (dkeys c.initial)
  let (h', final) := createFinalParamDict env.add env.mul h c.initial c.finalValues c.finalDelta
    c.finalPct
  let final ← liftPy final
  let (_, theta) ← liftPy (variableDictToFlatArray (derefDict h' final) env.variables env.parameters)
  liftPy (env.solve x0 theta c)

/-- `simulate` (base/cge.py:863-1081): returns the new directory and the result. -/
def simulate (env : SimEnv α ρ) (today : Str) (h : Heap (NDArray α)) (c : SimCall α) (dir : Dir ρ) :
    Dir ρ × Except SimErr ρ :=
  let name := simName today c
  if !c.overwrite && fileExists dir (name ++ ".pkl".toList) then
    (dir, liftPy (readResults dir name))
  else
    match simulateCompute env h c with
    | .error e => (dir, .error e)
    | .ok r =>
      if c.saveResults then
        match writeResults dir today (some name) c.overwrite r with
        | some dir' => (dir', .ok r)
        | none => (dir, .error (.py .valueError))   -- unreachable: theorem `C15_save_preserves`
      else (dir, .ok r)

/-! ## From the Euler trajectory to the optimizer -/

/-- One row of the trajectory: `none` when some variable (parameter) of that row is NaN. -/
structure EulerRow (β : Type _) where
  vars : Option β
  params : Option β
  deriving DecidableEq, Repr

/-- The labels (row numbers) that survive `dropna(dim="step")` with their data. -/
def survivors {β : Type _} (l : List (Option β)) : List (Nat × β) :=
  (l.zipIdx).filterMap fun p => p.1.map fun b => (p.2, b)

/-- `coords["step"].max().item()`, raising `ValueError` on an empty axis. -/
def maxLabel {β : Type _} (l : List (Nat × β)) : Res Nat :=
  match l with
  | [] => .error .valueError
  | p :: ps => .ok (ps.foldl (fun m q => max m q.1) p.1)

/-- Hand-over (base/cge.py:1023-1035): drop NaN rows per group, take the smaller of the two largest
labels, warn when it is not `n_iter_euler - 1`, select that *position* in each group. -/
def eulerHandoff {β : Type _} (rows : List (EulerRow β)) (nIter : Nat) : Res ((β × β) × Bool) := do
  let vs := survivors (rows.map EulerRow.vars)
  let ps := survivors (rows.map EulerRow.params)
  let mv ← maxLabel vs
  let mp ← maxLabel ps
  let last := min mv mp
  let warn := decide ((last : Int) ≠ (nIter : Int) - 1)
  match vs[last]?, ps[last]? with
  | some v, some p => return ((v.2, p.2), warn)
  | _, _ => throw .indexError

end Verif
