import Verif.Spec.Scalarise

/-!
# Putting numbers or other objects in the place of objects in equations
-/

namespace Verif

/-- `s x` is written for each scalar symbol `x`, and the array `f b` for each array `b`. -/
def RExpr.put (s : Str → RExpr) (f : Str → Str) : RExpr → RExpr
  | .num q => .num q
  | .sym x => s x
  | .indexed b ix => .indexed (f b) ix
  | .add a b => .add (a.put s f) (b.put s f)
  | .mul a b => .mul (a.put s f) (b.put s f)
  | .pow a b => .pow (a.put s f) (b.put s f)
  | .log a => .log (a.put s f)
  | .exp a => .exp (a.put s f)
  | .red op body lims => .red op (body.put s f) lims

/-- The number `q` for the scalar `k`. -/
def RExpr.withNumber (k : Str) (q : ℚ) (e : RExpr) : RExpr :=
  e.put (fun x => if x = k then .num q else .sym x) id

/-- The object `z` for the object `p`. -/
def RExpr.instead (p z : Str) (e : RExpr) : RExpr :=
  e.put (fun x => .sym (if x = p then z else x)) (fun b => if b = p then z else b)

/-- The same on both sides of an equation. -/
def IndexedEq.withNumber (k : Str) (q : ℚ) (e : IndexedEq) : IndexedEq :=
  ⟨e.name, e.lhs.withNumber k q, e.rhs.withNumber k q⟩

/-- The same on both sides of an equation. -/
def IndexedEq.instead (p z : Str) (e : IndexedEq) : IndexedEq :=
  ⟨e.name, e.lhs.instead p z, e.rhs.instead p z⟩

/-- An object with its own indices, `p` or `p[i, j]`. -/
def wholeOf (o : ModelObject) : RExpr :=
  if o.dims = [] then .sym o.name else .indexed o.name (o.dims.map .idx)

/-- The equation `z = p`, or `z[i, j] = p[i, j]`. -/
def fixedAt (name : Template) (z p : ModelObject) : IndexedEq := ⟨name, wholeOf z, wholeOf p⟩

example : (RExpr.add (.sym "k".toList) (.indexed "X".toList [.idx "i".toList])).withNumber "k".toList 3 =
    .add (.num 3) (.indexed "X".toList [.idx "i".toList]) := by rfl

end Verif
