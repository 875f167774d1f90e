import Verif.Model.Wrappers
import Mathlib.Algebra.Field.Defs

/-!
# The Euler routines

Models `cge_modeling/compile/numba.py:61-129`, `cge_modeling/compile/euler.py:20-224`,
`cge_modeling/compile/pytensor.py:228-269`, `cge_modeling/compile/jax.py:67-115`.

The linear solve at the heart of a step is a parameter `dx x theta h` (the solution `dx` of
`A(x, theta) dx + B(x, theta) h = 0`, or the exception the solver raises); `Verif.Spec.Euler` gives it
in terms of Jacobians.  Numbers are elements of a field; the progress bars and the statistics shown
in them are not modelled.
-/

namespace Verif

variable {K : Type _} [Field K]

/-- Elementwise operation on two vectors.  Simplification: numpy's broadcasting of length-1 vectors is
an error here. -/
def vzip (f : K → K → K) (a b : List K) : Res (List K) :=
  if a.length = b.length then .ok (List.zipWith f a b) else .error .valueError

/-- Elementwise operation on two arrays (same simplification). -/
def azip (f : K → K → K) (a b : NDArray K) : Res (NDArray K) :=
  if a.shape = b.shape then .ok ⟨a.shape, List.zipWith f a.data b.data⟩ else .error .valueError

/-- The solve of one step: variables, parameters and parameter step, all flat. -/
abbrev StepSolve (K : Type _) := List K → List K → List K → Res (List K)

/-! ## numba -/

/-- `f_dX(endog, exog)` (compile/numba.py:155-160): the compiled functions read the variables from the
first `nVars` entries of the state vector and the parameters from the rest. -/
def numbaStep (dx : StepSolve K) (nVars : Nat) (stepSize x : List K) : Res (List K) :=
  dx (x.take nVars) (x.drop nVars) stepSize

/-- The loop of `euler_approx` (compile/numba.py:123-127). -/
def numbaLoop (fStep : List K → List K → Res (List K)) (stepSize : List K) :
    Nat → List K → Res (List (List K))
  | 0, _ => .ok []
  | k + 1, x => do
      let d ← fStep stepSize x
      let x' ← vzip (· + ·) x (d ++ stepSize)
      let rest ← numbaLoop fStep stepSize k x'
      return x' :: rest

/-- `euler_approx` (compile/numba.py:61-129): the rows of the output matrix. -/
def numbaEuler (fStep : List K → List K → Res (List K)) (x0 theta0 thetaFinal : List K) (n : Nat) :
    Res (List (List K)) := do
  let dtheta ← vzip (· - ·) thetaFinal theta0
  let stepSize := dtheta.map (· / (n : K))
  let rest ← numbaLoop fStep stepSize n (x0 ++ theta0)
  return (x0 ++ theta0) :: rest

/-! ## pytensor and jax: one step -/

/-- Concatenation of flattened arrays. -/
def flatData (as : List (NDArray K)) : List K := (as.map NDArray.data).flatten

/-- `pytensor_euler_step` (compile/pytensor.py:228-269); `use_rk4=True` raises before. -/
def pytensorEulerStep (dx : StepSolve K) (xShapes : List (List Nat)) (n : Nat)
    (xs thetas theta0 thetaFinal : List (NDArray K)) : Res (List (NDArray K)) := do
  let stepSize ← (thetaFinal.zip theta0).mapM fun p => azip (fun a b => (a - b) / (n : K)) p.1 p.2
  let step ← dx (flatData xs) (flatData thetas) (flatData stepSize)
  let deltaX ← flatTensorToRaggedList step xShapes
  let xNext ← (xs.zip deltaX).mapM fun p => azip (· + ·) p.1 p.2
  let thetaNext ← (thetas.zip stepSize).mapM fun p => azip (· + ·) p.1 p.2
  return xNext ++ thetaNext

/-- The combination of the four slopes, `(dx1 + 2 * dx2 + 2 * dx3 + dx4) / 6`
(compile/jax.py:102, compile/euler.py:193), on vectors. -/
def vrk4 (d1 d2 d3 d4 : List K) : Res (List K) := do
  let a ← vzip (fun a b => a + 2 * b) d1 d2
  let b ← vzip (fun a b => a + 2 * b) a d3
  let c ← vzip (fun a b => (a + b) / 6) b d4
  return c

/-- The increment of `jax_euler_step` (compile/jax.py:97-105). -/
def jaxIncrement (dx : StepSolve K) (useRk4 : Bool) (x theta h : List K) : Res (List K) :=
  if useRk4 then do
    let d1 ← dx x theta h
    let x2 ← vzip (fun a b => a + 2⁻¹ * b) x d1
    let t2 ← vzip (fun a b => a + 2⁻¹ * b) theta h
    let d2 ← dx x2 t2 h
    let x3 ← vzip (fun a b => a + 2⁻¹ * b) x d2
    let d3 ← dx x3 t2 h
    let x4 ← vzip (· + ·) x d3
    let t4 ← vzip (· + ·) theta h
    let d4 ← dx x4 t4 h
    vrk4 d1 d2 d3 d4
  else dx x theta h

/-- `f_step` of `jax_euler_step` (compile/jax.py:77-113). -/
def jaxEulerStep (dx : StepSolve K) (useRk4 : Bool) (xShapes thetaShapes : List (List Nat)) (n : Nat)
    (xs thetas theta0 thetaFinal : List (NDArray K)) : Res (List (NDArray K)) := do
  let h ← vzip (fun a b => (a - b) / (n : K)) (flatData thetaFinal) (flatData theta0)
  let step ← jaxIncrement dx useRk4 (flatData xs) (flatData thetas) h
  let xNextVec ← vzip (· + ·) (flatData xs) step
  let thetaNextVec ← vzip (· + ·) (flatData thetas) h
  let xNext ← flatTensorToRaggedList xNextVec xShapes
  let thetaNext ← flatTensorToRaggedList thetaNextVec thetaShapes
  return xNext ++ thetaNext

/-! ## The python loop around a compiled step -/

/-- A compiled step taking lists of arrays in declaration order. -/
abbrev ArrayStep (K : Type _) :=
  Nat → List (NDArray K) → List (NDArray K) → List (NDArray K) → List (NDArray K) →
    Res (List (NDArray K))

/-- Calling a step compiled with named inputs (compile/pytensor.py:242-243,266, compile/jax.py:78-83):
the arrays are picked out by name; a missing keyword is an exception. -/
def callByName (step : ArrayStep K) (varNames paramNames : List Str) (n : Nat)
    (kw : Dict Str (NDArray K)) : Res (List (NDArray K)) := do
  let xs ← varNames.mapM (dgetE kw)
  let thetas ← paramNames.mapM (dgetE kw)
  let theta0 ← paramNames.mapM fun k => dgetE kw (k ++ "_initial".toList)
  let thetaFinal ← paramNames.mapM fun k => dgetE kw (k ++ "_final".toList)
  step n xs thetas theta0 thetaFinal

/-- `f(**a, **b, **c, **d, n_steps=n)`: a keyword given twice is a `TypeError`. -/
def mergeKw (ds : List (Dict Str (NDArray K))) : Res (Dict Str (NDArray K)) :=
  if ("n_steps".toList :: ds.flatten.map Prod.fst).Nodup then .ok ds.flatten else .error .typeError

/-- The `for t in range(n_steps)` loop (compile/euler.py:53-69).  What is collected is the list of
dicts `{k: value assigned to results[k][t]}`, one per step, in the order of `data.keys()`. -/
def pyEulerLoop (fStep : Dict Str (NDArray K) → Res (List (NDArray K)))
    (varNames paramNames dataKeys : List Str) (thetaFinal thetaInitial : Dict Str (NDArray K)) :
    Nat → Dict Str (NDArray K) → Dict Str (NDArray K) → Res (List (Dict Str (NDArray K)))
  | 0, _, _ => .ok []
  | k + 1, curVars, curParams => do
      let kw ← mergeKw [curParams, curVars, thetaFinal, thetaInitial]
      let cur ← fStep kw
      let curVars' := dofPairs (varNames.zip (cur.take varNames.length))
      let curParams' := dofPairs (paramNames.zip (cur.drop varNames.length))
      let row ← dataKeys.mapM fun key => do
        let v ← if key ∈ varNames then dgetE curVars' key else dgetE curParams' key
        return (key, v)
      let rest ← pyEulerLoop fStep varNames paramNames dataKeys thetaFinal thetaInitial k curVars'
        curParams'
      return row :: rest

/-- `results[key]`: an array with one leading entry per step, into which the values are written
(compile/euler.py:37-40,68-69).  Simplification: a value of another shape is an error (no
broadcasting), and an entry that is never written (`np.empty`) is an error. -/
def stackResults (rows : List (Dict Str (NDArray K))) (key : Str) (shape : List Nat) :
    Res (NDArray K) := do
  let vals ← rows.mapM fun row => do
    let v ← dgetE row key
    if v.shape = shape then return v.data else .error .valueError
  return ⟨rows.length :: shape, vals.flatten⟩

/-- `pytensor_euler_function_with_python_loop` (compile/euler.py:20-77), for a step compiled with named
inputs. -/
def pythonLoopEuler (step : ArrayStep K) (variables parameters : List ModelObject) (coords : Coords)
    (thetaFinal : List K) (n : Nat) (data : Dict Str (NDArray K)) : Res (List (NDArray K)) := do
  let varNames := variables.map ModelObject.name
  let paramNames := parameters.map ModelObject.name
  let curParams := data.filter fun kv => kv.1 ∈ paramNames
  let curVars := data.filter fun kv => kv.1 ∈ varNames
  let tf ← flatArrayToVariableDict thetaFinal parameters coords
  let tfKw := dofPairs (tf.map fun kv => (kv.1 ++ "_final".toList, kv.2))
  let tiKw := dofPairs ((data.filter fun kv => kv.1 ∈ paramNames).map fun kv =>
    (kv.1 ++ "_initial".toList, kv.2))
  let shapes ← (varNames ++ paramNames).mapM fun k => (dgetE data k).map NDArray.shape
  let rows ← pyEulerLoop (callByName step varNames paramNames n) varNames paramNames (dkeys data)
    tfKw tiKw n curVars curParams
  ((varNames ++ paramNames).zip shapes).mapM fun ks => stackResults rows ks.1 ks.2

/-! ## The scan -/

/-- `step_func` of `symbolic_euler_approximation` (compile/euler.py:153-206). -/
def scanStep (dx : StepSolve K) (useRk4 : Bool) (xShapes thetaShapes : List (List Nat)) (n : Nat)
    (thetaInitial thetaFinal : List K) (xs thetas : List (NDArray K)) :
    Res (List (NDArray K) × List (NDArray K)) := do
  let h ← vzip (fun a b => (a - b) / (n : K)) thetaFinal thetaInitial
  let deltaTheta ← flatTensorToRaggedList h thetaShapes
  let half (as ds : List (NDArray K)) : Res (List (NDArray K)) :=
    (as.zip ds).mapM fun p => azip (fun a b => a + 2⁻¹ * b) p.1 p.2
  let full (as ds : List (NDArray K)) : Res (List (NDArray K)) :=
    (as.zip ds).mapM fun p => azip (· + ·) p.1 p.2
  let deltaX ←
    if useRk4 then do
      let dx1 ← dx (flatData xs) (flatData thetas) h
      let deltaX1 ← flatTensorToRaggedList dx1 xShapes
      let x2 ← half xs deltaX1
      let t2 ← half thetas deltaTheta
      let dx2 ← dx (flatData x2) (flatData t2) h
      let deltaX2 ← flatTensorToRaggedList dx2 xShapes
      let x3 ← half xs deltaX2
      let dx3 ← dx (flatData x3) (flatData t2) h
      let deltaX3 ← flatTensorToRaggedList dx3 xShapes
      let x4 ← full xs deltaX3
      let t4 ← full thetas deltaTheta
      let dx4 ← dx (flatData x4) (flatData t4) h
      let deltaX4 ← flatTensorToRaggedList dx4 xShapes
      let a ← (deltaX1.zip deltaX2).mapM fun p => azip (fun a b => a + 2 * b) p.1 p.2
      let b ← (a.zip deltaX3).mapM fun p => azip (fun a b => a + 2 * b) p.1 p.2
      (b.zip deltaX4).mapM fun p => azip (fun a b => (a + b) / 6) p.1 p.2
    else do
      let step ← dx (flatData xs) (flatData thetas) h
      flatTensorToRaggedList step xShapes
  let xNext ← full xs deltaX
  let thetaNext ← full thetas deltaTheta
  return (xNext, thetaNext)

/-- `pytensor.scan(step_func, outputs_info=..., n_steps=n)` (compile/euler.py:208-214): the outputs of
the steps, in order. -/
def scanLoop (step : List (NDArray K) → List (NDArray K) → Res (List (NDArray K) × List (NDArray K))) :
    Nat → List (NDArray K) → List (NDArray K) → Res (List (List (NDArray K)))
  | 0, _, _ => .ok []
  | k + 1, xs, thetas => do
      let s ← step xs thetas
      let rest ← scanLoop step k s.1 s.2
      return (s.1 ++ s.2) :: rest

/-- The stacked output number `i`, with the initial value in front (compile/euler.py:216-222). -/
def stackWithInitial (rows : List (List (NDArray K))) (i : Nat) (x : NDArray K) : NDArray K :=
  ⟨(rows.length + 1) :: x.shape,
    x.data ++ (rows.map fun row => ((row[i]?).map NDArray.data).getD []).flatten⟩

/-- `symbolic_euler_approximation` (compile/euler.py:80-224), evaluated: `non_sequences` hands the
initial parameters to every step. -/
def scanEuler (dx : StepSolve K) (useRk4 : Bool) (variables parameters : List ModelObject)
    (coords : Coords) (thetaFinal : List K) (n : Nat) (data : Dict Str (NDArray K)) :
    Res (List (NDArray K)) := do
  let xs ← variables.mapM fun o => dgetE data o.name
  let thetas ← parameters.mapM fun o => dgetE data o.name
  let xShapes ← variables.mapM fun o => inferShape o coords
  let thetaShapes ← parameters.mapM fun o => inferShape o coords
  let rows ← scanLoop (scanStep dx useRk4 xShapes thetaShapes n (flatData thetas) thetaFinal) n xs
    thetas
  return (xs ++ thetas).mapIdx fun i x => stackWithInitial rows i x

end Verif
