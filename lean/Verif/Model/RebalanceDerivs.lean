import Verif.Model.CrossEntropy
import Mathlib.Data.Sign.Basic

/-!
# The options and the derivatives of the scipy rebalancing problem

`_crossentropy_method_setup` compiles the objective, the two constraints and, depending on the options,
their derivatives; `_balance_with_scipy` chooses the options and calls `minimize`.
-/

namespace Verif

variable {ι : Type} [DecidableEq ι]

/-- Which functions `_crossentropy_method_setup` (tools/rebalance.py:89-156) returns instead of `None`. -/
structure CompiledDerivs where
  grad : Bool
  consGrad : Bool
  hess : Bool
  hessp : Bool
deriving DecidableEq

/-- The options of `_crossentropy_method_setup` (tools/rebalance.py:107-109, 129-156). -/
def crossentropySetup (useGrad useHess useHessp useConstraintGrad : Bool) : Res CompiledDerivs :=
  if useHess && !useGrad then .error .valueError
  else if useHessp && !useGrad then .error .valueError
  else .ok ⟨useGrad, useConstraintGrad, useHess, useHessp⟩

/-- The derivative arguments of the call of `minimize` (tools/rebalance.py:239-255); a field is false when
the argument is `None`. -/
structure MinimizeArgs where
  method : Str
  jac : Bool
  hess : Bool
  hessp : Bool
  constraintJac : Bool
deriving DecidableEq

/-- `_balance_with_scipy` up to the call of `minimize` (tools/rebalance.py:204-255). -/
def minimizeArgs (method : Option Str) (useGrad useHess useHessp useConstraintGrad : Bool) :
    Res MinimizeArgs :=
  let m : Str := method.getD "SLSQP".toList
  if !([("SLSQP".toList : Str), "COBYLA".toList, "trust-constr".toList].contains m) then .error .valueError
  else
    let off := m != "trust-constr".toList && (useHess || useHessp)
    let h := if off then false else useHess
    let hp := if off then false else useHessp
    match crossentropySetup useGrad h hp useConstraintGrad with
    | .error e => .error e
    | .ok f => .ok ⟨m, if useGrad then f.grad else false, if h then f.hess else false,
        if hp then f.hessp else false, f.consGrad⟩

/-- Entry `k` of `X.sum(axis=0) - X.sum(axis=1)` (tools/rebalance.py:121). -/
noncomputable def samGap (df : Sam ι ℝ) (x : List ℝ) (k : Nat) : ℝ :=
  ((List.range df.rows.length).map fun i => scatterPositive df.values x i k).sum -
    ((List.range df.rows.length).map fun j => scatterPositive df.values x k j).sum

/-- `constraint_1` (tools/rebalance.py:121). -/
noncomputable def constraintOne (df : Sam ι ℝ) (x : List ℝ) : ℝ :=
  ((List.range df.rows.length).map fun k => |samGap df x k|).sum

/-- `constraint_2` (tools/rebalance.py:122). -/
noncomputable def constraintTwo (x : List ℝ) : ℝ := x.sum - 1

/-- `pt.grad(constraint_1, x)` (tools/rebalance.py:133): the gradient of `abs` is `sign`, which is zero at
zero, and entry `(i, j)` of `X` counts in column sum `j` and in row sum `i`. -/
noncomputable def gradOne (df : Sam ι ℝ) (x : List ℝ) : List ℝ :=
  (maskPositions (fun v => decide (0 < v)) df.values).map fun ij =>
    ((SignType.sign (samGap df x ij.2) : SignType) : ℝ) - ((SignType.sign (samGap df x ij.1) : SignType) : ℝ)

/-- `pt.grad(constraint_2, x)` (tools/rebalance.py:134). -/
def gradTwo (x : List ℝ) : List ℝ := x.map fun _ => 1

/-- `pt.grad(cross_entropy, x)` (tools/rebalance.py:138), by the product rule. -/
noncomputable def gradCE (df : Sam ι ℝ) (x : List ℝ) : List ℝ :=
  List.zipWith (fun a v => (Real.log (a + 1 / 10 ^ 10) - Real.log v) + a / (a + 1 / 10 ^ 10)) x
    (maskValues (fun v => decide (0 < v)) df.values)

/-- Entry `k` of the diagonal of the Hessian. -/
noncomputable def hessTerm (a : ℝ) : ℝ := 1 / (a + 1 / 10 ^ 10) + (1 / 10 ^ 10) / (a + 1 / 10 ^ 10) ^ 2

/-- `jacobian(grad_ce, x)` (tools/rebalance.py:145), entry `l, k`. -/
noncomputable def hessCE (x : List ℝ) (l k : Nat) : ℝ :=
  if l = k then hessTerm (x.getD k 0) else 0

/-- `Rop(grad_ce, x, p)` (tools/rebalance.py:153): the elementwise gradient is pushed forward entry by
entry. -/
noncomputable def hesspCE (x p : List ℝ) : List ℝ := List.zipWith (fun a b => hessTerm a * b) x p

end Verif
