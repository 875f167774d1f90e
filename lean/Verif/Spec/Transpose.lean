import Verif.Spec.Scalarise

/-!
# The same model with the dims of its objects in another order (C110)

Objects as in cge_modeling/base/primitives.py:47-240, equations as in cge_modeling/base/cge.py:71-200.
-/

namespace Verif

/-- The entries `l`, which go with the dims `ds`, in the order of the dims `ds₂`. -/
def inOrder {α : Type _} (ds ds₂ : List Str) (l : List α) : List α := ds₂.filterMap fun d => dget (ds.zip l) d

/-- The object declared with the dims that `new` lists for its name. -/
def ModelObject.transposed (new : Str → List Str) (o : ModelObject) : ModelObject := { o with dims := new o.name }

/-- The expression with the indices of every object in the new order: `X[j, i]` for `X[i, j]`. -/
def RExpr.transposed (old new : Str → List Str) : RExpr → RExpr
  | .num q => .num q
  | .sym x => .sym x
  | .indexed b ix => .indexed b (inOrder (old b) (new b) ix)
  | .add a b => .add (a.transposed old new) (b.transposed old new)
  | .mul a b => .mul (a.transposed old new) (b.transposed old new)
  | .pow a b => .pow (a.transposed old new) (b.transposed old new)
  | .log a => .log (a.transposed old new)
  | .exp a => .exp (a.transposed old new)
  | .red op body lims => .red op (body.transposed old new) lims

def IndexedEq.transposed (old new : Str → List Str) (q : IndexedEq) : IndexedEq :=
  { q with lhs := q.lhs.transposed old new, rhs := q.rhs.transposed old new }

/-- `old` lists the dims of the objects, `new` the same dims in any order. -/
def Transposes (old new : Str → List Str) (objs : List ModelObject) : Prop :=
  ∀ o ∈ objs, old o.name = o.dims ∧ (new o.name).Perm o.dims

/-- The arrays `s₂` of the transposed objects have the same entries for the same labels as the arrays `s`. -/
def SameTransposed (coords : Coords) (new : Str → List Str) (objs : List ModelObject) (s s₂ : List ℝ) : Prop :=
  s.length = totalSize coords objs ∧ s₂.length = totalSize coords (objs.map (ModelObject.transposed new)) ∧
    ∀ o ∈ objs, ∀ ls ∈ product (o.dims.map (labelsOf coords)),
      arrayEntry coords (objs.map (ModelObject.transposed new)) s₂ o.name
          ((inOrder o.dims (new o.name) ls).map sympifyLabel) =
        arrayEntry coords objs s o.name (ls.map sympifyLabel)

end Verif
