import Verif.Model.Simulate
import Verif.Model.GenerateSam
import Verif.Model.Idata

/-!
# The numerical part of `simulate`

Models `cge_modeling/base/cge.py:1020-1071` with `_solve_with_euler_approximation`
(`base/cge.py:654-656`): Euler pass, hand-over, optimizer, labelled result.  The Euler function and the
optimizers are arbitrary functions (`SamEnv`; here `euler` is `self.f_euler` and returns its list of
arrays).
-/

namespace Verif

variable {α : Type _}

/-- `a[k]` along the first axis. -/
def stepSlice (k : Nat) (a : NDArray α) : NDArray α :=
  ⟨a.shape.tail, slice a.data (k * a.shape.tail.prod) (k * a.shape.tail.prod + a.shape.tail.prod)⟩

/-- Step `k` of a dataset, `none` if `dropna(dim="step")` drops it, that is, if it contains a NaN
(base/cge.py:1027-1028, 1039-1042). -/
def stepRow (isNan : α → Bool) (ds : XDataset α) (k : Nat) : Option (Dict Str (NDArray α)) :=
  if ds.any fun p => (stepSlice k p.2.2).data.any isNan then none
  else some (ds.map fun p => (p.1, stepSlice k p.2.2))

/-- The rows of the trajectory. -/
def trajectoryRows (isNan : α → Bool) (idata : XDataset α × XDataset α) (n : Nat) :
    List (EulerRow (Dict Str (NDArray α))) :=
  (List.range n).map fun k => ⟨stepRow isNan idata.1 k, stepRow isNan idata.2 k⟩

/-- What the Euler pass leaves behind: the steps that were kept, where the optimizer starts, and whether
there was a warning. -/
structure EulerPass (α : Type _) where
  keptVars : List (Nat × Dict Str (NDArray α))
  keptParams : List (Nat × Dict Str (NDArray α))
  start : Dict Str (NDArray α)
  warned : Bool

/-- The Euler pass of `simulate` (base/cge.py:1022-1042); `dict | dict` is an update. -/
def eulerPass (env : SamEnv α (List (NDArray α))) (isNan : α → Bool) (x0 : Dict Str (NDArray α))
    (theta : List α) (nIter : Nat) : Res (EulerPass α) := do
  let arrays ← env.euler x0 theta nIter
  let idata ← listOfArrayToIdata arrays env.variables env.parameters env.coords
  let first ← listGetE arrays 0
  let n ← ndLen first
  let rows := trajectoryRows isNan idata n
  let r ← eulerHandoff rows nIter
  pure ⟨survivors (rows.map EulerRow.vars), survivors (rows.map EulerRow.params),
    dupdate r.1.1 r.1.2, r.2⟩

/-- The keyword arguments for the optimizer that `simulate` and the solvers look at
(base/cge.py:1046, 1051-1052, 667, 719). -/
structure SimFlags where
  useJac : Bool := true
  useHess : Bool := true
  useHessp : Option Bool := some true
  method : Str := "trust-ncg".toList

/-- `return_values` of `simulate`, with the warnings. -/
structure SimOut (α : Type _) where
  euler : Option (EulerPass α)
  optimizer : Option (XDataset α × XDataset α)
  optimRes : Option (OptResult α)
  warnedOptimizer : Bool

/-- The optimizer of `simulate` (base/cge.py:1044-1061). -/
def simOptimize (env : SamEnv α (List (NDArray α))) (fl : SimFlags) (mode : Str)
    (start : Dict Str (NDArray α)) (theta : List α) : Res (OptResult α) :=
  if mode = "root".toList then solveWithRoot env start theta fl.useJac
  else if mode = "minimize".toList then
    solveWithMinimize env start theta (some fl.useJac) (some fl.useHess) fl.useHessp fl.method
  else .error .valueError

/-- The Euler pass, if there is one (base/cge.py:1022, 1031-1042). -/
def eulerPart (env : SamEnv α (List (NDArray α))) (isNan : α → Bool) (x0 : Dict Str (NDArray α))
    (theta : List α) (c : SimCall α) : Res (Option (EulerPass α)) :=
  if c.useEuler then (eulerPass env isNan x0 theta c.nIterEuler).map some else .ok none

/-- The numerical part of `simulate` (base/cge.py:1020-1071); `x0` is `initial_state`, a dict. -/
def simulateSolve (env : SamEnv α (List (NDArray α))) (isNan : α → Bool) (fl : SimFlags)
    (x0 : Dict Str (NDArray α)) (theta : List α) (c : SimCall α) : Res (SimOut α) := do
  let e ← eulerPart env isNan x0 theta c
  if c.useOptimizer then do
    let res ← simOptimize env fl c.optimizerMode ((e.map EulerPass.start).getD x0) theta
    let idata ← optimizerResultToIdata res.x theta x0 env.variables env.parameters env.coords
    pure ⟨e, some idata, some res, !res.success⟩
  else pure ⟨e, none, none, false⟩

/-- The environment of `simulate` for a compiled model. -/
def simEnvOf (env : SamEnv α (List (NDArray α))) (isNan : α → Bool) (fl : SimFlags)
    (add mul : NDArray α → NDArray α → NDArray α) : SimEnv α (SimOut α) where
  variables := env.variables
  parameters := env.parameters
  compiled := !env.compiled.isEmpty
  add := add
  mul := mul
  solve := simulateSolve env isNan fl

end Verif
