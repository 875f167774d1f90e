import Verif.Model.Euler
import Verif.Spec.Layout
import Mathlib.LinearAlgebra.Matrix.NonsingularInverse

/-!
# Specification vocabulary for the Euler properties
-/

namespace Verif

variable {K : Type _} [Field K]

/-- The four ways of running an Euler simulation. -/
inductive EulerBackend where
  | numba
  | pytensorLoop
  | jaxLoop (rk4 : Bool)
  | scan (rk4 : Bool)
  deriving DecidableEq, Repr

/-- Is the Runge-Kutta increment used? -/
def EulerBackend.rk4 : EulerBackend → Bool
  | .numba => false
  | .pytensorLoop => false
  | .jaxLoop r => r
  | .scan r => r

/-- Does the returned trajectory start with the initial state? -/
def EulerBackend.keepsStart : EulerBackend → Bool
  | .numba => true
  | .pytensorLoop => false
  | .jaxLoop _ => false
  | .scan _ => true

/-- `f_euler(theta_final=..., n_steps=..., **data)` as each back-end provides it
(compile/numba.py:132-164 with base/function_wrappers.py:170-197, compile/pytensor.py:228-269 and
compile/jax.py:67-115 with compile/euler.py:20-77, compile/euler.py:80-224). -/
def runEuler (b : EulerBackend) (dx : StepSolve K) (vars params : List ModelObject) (coords : Coords)
    (thetaFinal : List K) (n : Nat) (data : Dict Str (NDArray K)) : Res (List (NDArray K)) :=
  match b with
  | .numba => wrapNumbaEuler (numbaEuler (numbaStep dx (totalSize coords vars))) vars params coords
      thetaFinal n data
  | .pytensorLoop => pythonLoopEuler (pytensorEulerStep dx (vars.map (specShape coords))) vars params
      coords thetaFinal n data
  | .jaxLoop rk4 => pythonLoopEuler (jaxEulerStep dx rk4 (vars.map (specShape coords))
      (params.map (specShape coords))) vars params coords thetaFinal n data
  | .scan rk4 => scanEuler dx rk4 vars params coords thetaFinal n data

/-- The values stored for some objects, flat, in the order of the objects. -/
def flatOf (data : Dict Str (NDArray K)) (objs : List ModelObject) : List K :=
  (objs.map fun o => ((dget data o.name).map NDArray.data).getD []).flatten

/-- Row `t` of an array with a leading time axis, flat. -/
def rowOf (a : NDArray K) (t : Nat) : List K :=
  (a.data.drop (t * a.shape.tail.prod)).take a.shape.tail.prod

/-- Row `t` of a trajectory: the rows of all its arrays, one after the other. -/
def stateRow (outs : List (NDArray K)) (t : Nat) : List K := (outs.map fun a => rowOf a t).flatten

/-- The state after `t` steps, as a caller reads it off the trajectory `outs` (and, for back-ends that
do not return it, the initial data). -/
def EulerBackend.stateAfter (b : EulerBackend) (vars params : List ModelObject)
    (data : Dict Str (NDArray K)) (outs : List (NDArray K)) (t : Nat) : List K :=
  if b.keepsStart then stateRow outs t
  else if t = 0 then flatOf data (vars ++ params) else stateRow outs (t - 1)

/-- Keyword names that the python loop passes to the step function are pairwise different. -/
def KeywordsOK (vars params : List ModelObject) : Prop :=
  ("n_steps".toList :: ((vars ++ params).map ModelObject.name ++
    params.map (fun o => o.name ++ "_final".toList) ++
    params.map (fun o => o.name ++ "_initial".toList))).Nodup

instance (vars params : List ModelObject) : Decidable (KeywordsOK vars params) := by
  unfold KeywordsOK; infer_instance

/-- A well formed call: known dims, no empty dims, at least one variable and one parameter, names that
do not clash, and exactly the declared data, correctly shaped. -/
structure EulerCall (coords : Coords) (vars params : List ModelObject) (data : Dict Str (NDArray K))
    (thetaFinal : List K) : Prop where
  known : ∀ o ∈ vars ++ params, KnownDims coords o
  nonempty : ∀ o ∈ vars ++ params, specSize coords o ≠ 0
  someVar : vars ≠ []
  someParam : params ≠ []
  keywords : KeywordsOK vars params
  keys : (dkeys data).Perm ((vars ++ params).map ModelObject.name)
  shaped : ∀ o ∈ vars ++ params, DataFor coords data o
  final : thetaFinal.length = totalSize coords params

/-- The solver returns vectors of the right length. -/
def LenOK (dx : StepSolve K) (nx np : Nat) : Prop :=
  ∀ x t h d, x.length = nx → t.length = np → h.length = np → dx x t h = .ok d → d.length = nx

/-- A vector of a known length as a function on `Fin`. -/
def toVec (n : Nat) (l : List K) : Fin n → K := fun i => (l[i.val]?).getD 0

/-- The two Jacobians of a model with `nx` variables and `np` parameters, at a point. -/
structure Jacobians (K : Type _) (nx np : Nat) where
  A : List K → List K → Matrix (Fin nx) (Fin nx) K
  B : List K → List K → Matrix (Fin nx) (Fin np) K

open Classical in
/-- `-solve(A, B @ h)`; a singular matrix makes numpy raise `LinAlgError`. -/
noncomputable def Jacobians.solve {nx np : Nat} (J : Jacobians K nx np) : StepSolve K :=
  fun x t h =>
    if IsUnit (J.A x t).det then
      .ok (List.ofFn (-((J.A x t)⁻¹.mulVec ((J.B x t).mulVec (toVec np h)))))
    else .error .linAlg

end Verif
