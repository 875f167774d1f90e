import Verif.Spec.Euler

/-!
# Where one step of the Euler function forms its linear systems
-/

namespace Verif

variable {K : Type _} [Field K]

/-- The points at which one step from `(x, t)` solves for a direction: `(x, t)` itself, and with Runge-Kutta
steps also the two midpoints and the end point reached with the directions found before. -/
def solvedAt (dx : StepSolve K) (rk4 : Bool) (x t h : List K) : List (List K × List K) :=
  let half (a b : List K) := List.zipWith (fun a b => a + 2⁻¹ * b) a b
  if rk4 then
    (x, t) :: match dx x t h with
    | .error _ => []
    | .ok d1 => (half x d1, half t h) :: match dx (half x d1) (half t h) h with
      | .error _ => []
      | .ok d2 => (half x d2, half t h) :: match dx (half x d2) (half t h) h with
        | .error _ => []
        | .ok d3 => [(List.zipWith (· + ·) x d3, List.zipWith (· + ·) t h)]
  else [(x, t)]

/-- The same, for a state given as one flat vector with `nx` variables first. -/
def EulerBackend.points (b : EulerBackend) (dx : StepSolve K) (nx : Nat) (s h : List K) : List (List K) :=
  (solvedAt dx b.rk4 (s.take nx) (s.drop nx) h).map fun p => p.1 ++ p.2

theorem EulerBackend.points_plain (b : EulerBackend) (hb : b.rk4 = false) (dx : StepSolve K) (nx : Nat)
    (s h : List K) : b.points dx nx s h = [s] := by
  simp [EulerBackend.points, solvedAt, hb]

end Verif
