import Verif.Spec.Put

/-!
# Models whose dims have one label each, and the same models without dims (C108)

What a user does who drops the dims of a model with one sector, one household and so on: objects as in
cge_modeling/base/primitives.py:47-240, equations as in cge_modeling/base/cge.py:71-200 and 463-500.
-/

namespace Verif

/-- The expression without indices: a scalar for every array, and no sums or products. -/
def RExpr.withoutDims : RExpr → RExpr
  | .num q => .num q
  | .sym x => .sym x
  | .indexed b _ => .sym b
  | .add a b => .add a.withoutDims b.withoutDims
  | .mul a b => .mul a.withoutDims b.withoutDims
  | .pow a b => .pow a.withoutDims b.withoutDims
  | .log a => .log a.withoutDims
  | .exp a => .exp a.withoutDims
  | .red _ body _ => body.withoutDims

/-- The object without dims. -/
def ModelObject.withoutDims (o : ModelObject) : ModelObject := { o with dims := [] }

/-- Every sum and every product ranges over the one label, as in `Sum(x[i], (i, 0, 0))`. -/
def OverOne : RExpr → Prop
  | .num _ => True
  | .sym _ => True
  | .indexed _ _ => True
  | .add a b => OverOne a ∧ OverOne b
  | .mul a b => OverOne a ∧ OverOne b
  | .pow a b => OverOne a ∧ OverOne b
  | .log a => OverOne a
  | .exp a => OverOne a
  | .red _ body lims => OverOne body ∧ ∀ l ∈ lims, l.lo = 0 ∧ l.stop = 1

/-- Every dim has one label. -/
def OneLabel (coords : Coords) : Prop := ∀ d ∈ dkeys coords, ∃ l, labelsOf coords d = [l]

/-- The equations are those of `eqs` without indices; their names are not compared. -/
def SameWithoutDims (eqs eqs₂ : List IndexedEq) : Prop :=
  List.Forall₂ (fun q q₂ => q₂.lhs = q.lhs.withoutDims ∧ q₂.rhs = q.rhs.withoutDims) eqs eqs₂

end Verif
