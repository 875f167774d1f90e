import Verif.Model.Wrappers
import Verif.Model.Scenario

/-!
# `generate_SAM`

Models `_solve_with_root` (`cge_modeling/base/cge.py:658-703`), the wiring of `_solve_with_minimize`
(`base/cge.py:705-759`) and `generate_SAM` (`base/cge.py:761-861`).  The numerical optimizers and the
Euler pass are arbitrary functions.
-/

namespace Verif

variable {α β ρ : Type _}

/-- A compiled function: keyword convention (pytensor back-ends) or flat convention (numba, and the
minimizer's functions in JAX mode). -/
inductive CompiledFn (α β : Type _) where
  | kw (f : KwFun α β)
  | flat (f : List α → List α → Res β)

/-- What scipy gets: keyword functions are wrapped (base/cge.py:681-686, 734-746). -/
def CompiledFn.forScipy (f : CompiledFn α β) (variables parameters : List ModelObject)
    (coords : Coords) : List α → List α → Res β :=
  match f with
  | .kw f => wrapForScipy f variables parameters coords
  | .flat f => f

/-- The fields of `OptimizeResult` that are read. -/
structure OptResult (α : Type _) where
  x : List α
  success : Bool
  deriving DecidableEq

/-- The model and the numerical libraries.  `root f x0 theta useJac` and
`minimize f x0 theta flags` stand for `better_optimize`'s functions, `euler` for `self.f_euler`
followed by `list_of_array_to_idata`. -/
structure SamEnv (α ρ : Type _) where
  variables : List ModelObject
  parameters : List ModelObject
  coords : Coords
  compiled : List Str
  fSystem : CompiledFn α (List α)
  fResid : CompiledFn α α
  methodTable : Dict Str MethodFlags
  root : (List α → List α → Res (List α)) → List α → List α → Bool → Res (OptResult α)
  minimize : (List α → List α → Res α) → List α → List α → Bool × Bool × Bool → Res (OptResult α)
  euler : Dict Str (NDArray α) → List α → Nat → Res ρ

/-- `_solve_with_root` (base/cge.py:658-703).  Note that all variables of the model are free here. -/
def solveWithRoot (env : SamEnv α ρ) (data : Dict Str (NDArray α)) (thetaFinal : List α)
    (useJac : Bool) : Res (OptResult α) :=
  if useJac && !env.compiled.contains "root".toList then .error .valueError
  else do
    let xt ← variableDictToFlatArray data env.variables env.parameters
    env.root (env.fSystem.forScipy env.variables env.parameters env.coords) xt.1 thetaFinal useJac

/-- `_solve_with_minimize` (base/cge.py:705-759); the flags are resolved by `get_method_defaults` and
`use_hess` is dropped without `use_jac` (lines 720, 728-730). -/
def solveWithMinimize (env : SamEnv α ρ) (data : Dict Str (NDArray α)) (thetaFinal : List α)
    (useJac useHess useHessp : Option Bool) (method : Str) : Res (OptResult α) :=
  if !env.compiled.contains "minimize".toList then .error .valueError
  else do
    let fl ← getMethodDefaults env.methodTable useJac useHess useHessp method
    let he := if !fl.1 && fl.2.1 then false else fl.2.1
    let xt ← variableDictToFlatArray data env.variables env.parameters
    env.minimize (env.fResid.forScipy env.variables env.parameters env.coords) xt.1 thetaFinal
      (fl.1, he, fl.2.2)

/-- What `generate_SAM` returns: a dictionary (and whether it warned), or the Euler trajectory. -/
inductive SamOut (α ρ : Type _) where
  | state (values : Dict Str (NDArray α)) (warned : Bool)
  | trajectory (t : ρ)

/-- The keyword arguments of `generate_SAM` other than the data. -/
structure SamCall where
  solveMethod : Str := "root".toList
  useJac : Bool := true
  useHess : Bool := true
  useHessp : Option Bool := some true      -- from **solver_kwargs, default of _solve_with_minimize
  minimizeMethod : Str := "trust-ncg".toList
  nSteps : Nat := 100

/-- What happens to a scipy result (base/cge.py:851-858). -/
def samOfResult (free : List ModelObject) (coords : Coords) (res : OptResult α) :
    Res (SamOut α ρ) := do
  let d ← flatArrayToVariableDict res.x free coords
  return .state d (!res.success)

/-- `generate_SAM` (base/cge.py:761-861).  `fixed_values` is only used for the membership test
`var.name not in fixed_values`. -/
def generateSam (env : SamEnv α ρ) (paramDict guess : Dict Str (NDArray α))
    (fixed : Option (Dict Str (NDArray α))) (c : SamCall) : Res (SamOut α ρ) :=
  if c.solveMethod ∉ ["root".toList, "minimize".toList, "euler".toList] then .error .valueError
  else do
    let joint := dupdate paramDict guess
    let free := env.variables.filter fun v => decide (v.name ∉ dkeys (fixed.getD []))
    let xt ← variableDictToFlatArray joint free env.parameters
    if c.solveMethod = "root".toList then
      let res ← solveWithRoot env joint xt.2 c.useJac
      samOfResult free env.coords res
    else if c.solveMethod = "minimize".toList then
      let res ← solveWithMinimize env joint xt.2 (some c.useJac) (some c.useHess) c.useHessp
        c.minimizeMethod
      samOfResult free env.coords res
    else
      let t ← env.euler joint xt.2 c.nSteps
      return .trajectory t

end Verif
