import Verif.Model.Flat

/-!
# The Newton root finder

Models `cge_modeling/optimize.py:11-194`.

The arithmetic is a parameter (`NewtonArith`): nothing is assumed of it in the definitions, so floating
point numbers (with NaN) are covered.  The residual function, its Jacobian and the linear solve are
parameters that may raise.
-/

namespace Verif

/-- The operations on numbers that the root finder uses. -/
structure NewtonArith (α : Type _) where
  zero : α
  add : α → α → α
  sub : α → α → α
  mul : α → α → α
  abs : α → α
  lt : α → α → Bool
  half : α

variable {α : Type _}

/-- `pt.linalg.norm(v, ord=1)` of a vector. -/
def NewtonArith.norm1 (N : NewtonArith α) (v : List α) : α :=
  (v.map N.abs).foldl N.add N.zero

/-- What is being solved: residual vector and Jacobian as functions of the variables and the exogenous
values, and `pt.linalg.solve`. -/
structure NewtonProblem (α : Type _) where
  F : List (NDArray α) → List (NDArray α) → Res (List α)
  J : List (NDArray α) → List (NDArray α) → Res (List (List α))
  solve : List (List α) → List α → Res (List α)

/-- `eval_func_maybe_exog` (optimize.py:10-16). -/
def evalMaybeExog {β : Type _} (X exog : List (NDArray α))
    (f : List (NDArray α) → List (NDArray α) → Res β) (hasExog : Bool) : Res β :=
  if hasExog then f X exog else f X []

/-- `_newton_step` (optimize.py:19-30).  A solution of the wrong length cannot be subtracted (no
broadcasting, simplification). -/
def newtonStep (N : NewtonArith α) (P : NewtonProblem α) (flatX : List α) (exog : List (NDArray α))
    (stepSize : α) (hasExog : Bool) (shapes : List (List Nat)) :
    Res (List α × List α × List α × List α) := do
  let X ← flatTensorToRaggedList flatX shapes
  let flatFX ← evalMaybeExog X exog P.F hasExog
  let JX ← evalMaybeExog X exog P.J hasExog
  let d ← P.solve JX flatFX
  if d.length = flatX.length then do
    let flatNewX := List.zipWith N.sub flatX (d.map (N.mul stepSize))
    let newX ← flatTensorToRaggedList flatNewX shapes
    let flatFNewX ← evalMaybeExog newX exog P.F hasExog
    return (flatX, flatNewX, flatFX, flatFNewX)
  else .error .valueError

/-- `no_op` (optimize.py:33-34). -/
def noOp (X : List α) : List α × List α × List α × List α := (X, X, X, X)

/-- `_check_convergence` and `check_convergence` (optimize.py:47-54). -/
def checkConvergence (N : NewtonArith α) (normRoot : α) (converged : Bool) (tol : α) : Bool :=
  if converged then true else N.lt normRoot tol

/-- `check_stepsize` (optimize.py:57-64). -/
def checkStepsize (N : NewtonArith α) (normRoot normRootNew stepSize initialStepSize : α) : Bool × α :=
  let isDecreasing := N.lt normRootNew normRoot
  if isDecreasing then (isDecreasing, initialStepSize) else (isDecreasing, N.mul stepSize N.half)

/-- The values carried by the scan (optimize.py:184-190). -/
structure NewtonState (α : Type _) where
  X : List (NDArray α)
  converged : Bool
  stepSize : α
  nSteps : Nat

/-- `scan_body` (optimize.py:71-99).  The norms of the points and of the step are computed there but
not used. -/
def scanBody (N : NewtonArith α) (P : NewtonProblem α) (initialStepSize tol : α) (hasExog : Bool)
    (exog : List (NDArray α)) (s : NewtonState α) : Res (NewtonState α) := do
  let shapes := s.X.map NDArray.shape
  let flatX ← flattenEquations s.X
  let out ← if s.converged then .ok (noOp flatX)
    else newtonStep N P flatX exog s.stepSize hasExog shapes
  let normRoot := N.norm1 out.2.2.1
  let normRootNew := N.norm1 out.2.2.2
  let isConverged := checkConvergence N normRoot s.converged tol
  let ds := checkStepsize N normRoot normRootNew s.stepSize initialStepSize
  let flatReturn := if ds.1 then out.2.1 else out.1
  let X ← flatTensorToRaggedList flatReturn shapes
  return { X := X, converged := isConverged, stepSize := ds.2,
           nSteps := s.nSteps + (1 - if isConverged then 1 else 0) }

/-- The scan (optimize.py:184-190): the states after each of the iterations. -/
def newtonScan (body : NewtonState α → Res (NewtonState α)) :
    Nat → NewtonState α → Res (List (NewtonState α))
  | 0, _ => .ok []
  | k + 1, s => do
      let s' ← body s
      let rest ← newtonScan body k s'
      return s' :: rest

/-- The state before the first iteration (optimize.py:162-168). -/
def newtonStart (x0 : List (NDArray α)) (stepSize : α) : NewtonState α :=
  { X := x0, converged := false, stepSize := stepSize, nSteps := 0 }

/-- `root` (optimize.py:113-194); `parameters=None` is `none`.  Simplification: `parameters={}` makes
`args[-n_exog:]` the whole argument list; that case is not modelled. -/
def newtonRoot (N : NewtonArith α) (P : NewtonProblem α) (x0 : List (NDArray α))
    (parameters : Option (List (NDArray α))) (stepSize : α) (maxIter : Nat) (tol : α) :
    Res (List (NewtonState α)) :=
  newtonScan (scanBody N P stepSize tol parameters.isSome (parameters.getD [])) maxIter
    (newtonStart x0 stepSize)

end Verif
