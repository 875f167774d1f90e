import Verif.Spec.Production

/-!
# A producer who maximises profits

"The profit maximization problem for this production function generates the following factor demands"
(production_functions.py:116-120, 224-238).
-/

namespace Verif

/-- The bundle `gs` has other amounts of the factors of `fs`, at the same prices and with the same shares. -/
def OtherBundle (fs gs : List FactorVal) : Prop :=
  List.Forall₂ (fun f g => g.p = f.p ∧ g.a = f.a ∧ 0 < g.X) fs gs

/-- What the factors cost. -/
noncomputable def factorCost (fs : List FactorVal) : ℝ := (fs.map fun f => f.p * f.X).sum

/-- The output `Y` can be produced from the bundle `fs`, and no other bundle with any output that can be
produced from it brings a higher profit at the output price `P`.  `F y gs` means that `y` can be produced
from `gs`. -/
structure ProfitMaximum (F : ℝ → List FactorVal → Prop) (Y P : ℝ) (fs : List FactorVal) : Prop where
  feasible : F Y fs
  best : ∀ gs, OtherBundle fs gs → ∀ y, F y gs → P * y - factorCost gs ≤ P * Y - factorCost fs

/-- The same for a producer who buys `Y` at the price `P` and makes the bundle `fs` out of it. -/
structure RevenueMaximum (F : ℝ → List FactorVal → Prop) (Y P : ℝ) (fs : List FactorVal) : Prop where
  feasible : F Y fs
  best : ∀ gs, OtherBundle fs gs → ∀ y, F y gs → factorCost gs - P * y ≤ factorCost fs - P * Y

/-- With fixed proportions `y` can be produced when there is enough of every factor. -/
def LeontiefFeasible (y : ℝ) (fs : List FactorVal) : Prop := ∀ f ∈ fs, f.a * y ≤ f.X

end Verif
