import Verif.Model.Rebalance
import Mathlib.Analysis.SpecialFunctions.Log.Basic

/-!
# The objectives of the rebalancing problem

The two functions that `balance_SAM` hands to the optimizers, over the real numbers.
-/

namespace Verif

variable {ι : Type} [DecidableEq ι]

/-- `cp.kl_div(x, y)`. -/
noncomputable def klDiv (x y : ℝ) : ℝ := x * Real.log (x / y) - x + y

/-- The objective given to cvxpy (tools/rebalance.py:176, 193): `kl_div(x_optim, x + delta).sum()`, where
`x` are the nonzero cells of the normalized matrix. -/
noncomputable def cvxpyObjective (delta : ℝ) (df : Sam ι ℝ) (x : List ℝ) : ℝ :=
  (List.zipWith (fun a v => klDiv a (v + delta)) x
    (sparseToVectorAndMatrix df.cols.length df.values).1).sum

/-- The objective given to scipy (tools/rebalance.py:117-119):
`(x * (log(x + 1e-10) - log(nonzero_values))).sum()`. -/
noncomputable def scipyObjective (df : Sam ι ℝ) (x : List ℝ) : ℝ :=
  (List.zipWith (fun a v => a * (Real.log (a + 1 / 10 ^ 10) - Real.log v)) x
    (maskValues (fun v => decide (0 < v)) df.values)).sum

/-- A vector that the cvxpy problem (tools/rebalance.py:187-196) has as its solution; the second
arguments of `kl_div` are in its domain. -/
def CvxpyOptimal (delta : ℝ) (df : Sam ι ℝ) (scale : ℝ) (x : List ℝ) : Prop :=
  (∀ v ∈ (sparseToVectorAndMatrix df.cols.length df.values).1, 0 < v + delta) ∧
  CvxpyConstraints df scale x ∧
    ∀ y, CvxpyConstraints df scale y → cvxpyObjective delta df x ≤ cvxpyObjective delta df y

/-- A vector that the scipy problem (tools/rebalance.py:239-255) has as its solution. -/
def ScipyOptimal (df : Sam ι ℝ) (x : List ℝ) : Prop :=
  ScipyConstraints df x ∧ ∀ y, ScipyConstraints df y → scipyObjective df x ≤ scipyObjective df y

end Verif
