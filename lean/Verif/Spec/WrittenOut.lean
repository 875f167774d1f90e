import Verif.Lemmas.RelabelModel

/-!
# The model written out label by label (C109)

What a user writes who does without dims (objects as in cge_modeling/base/primitives.py:47-240, equations as in
cge_modeling/base/cge.py:71-200): one scalar for each element of each array, under the name that the model gives to it,
and one equation for each combination of labels.
-/

namespace Verif

/-- One scalar object for each element of each object: `X_a` and `X_b` for `X` with labels `a` and `b`. -/
def writtenOut (coords : Coords) (objs : List ModelObject) : List ModelObject :=
  (scalarNames coords objs).map fun n => { name := n }

/-- `a + b + c` or `a * b * c`. -/
def RExpr.joined (op : RedOp) : List RExpr → RExpr
  | [] => match op with
    | .sum => .num 0
    | .prod => .num 1
  | [a] => a
  | a :: b :: l => match op with
    | .sum => .add a (joined op (b :: l))
    | .prod => .mul a (joined op (b :: l))

/-- The terms of a sum or product one after the other, for all labels of the first limit, then of the second, … -/
def RExpr.overLabels (coords : Coords) (op : RedOp) : List Lim → ((Str → SIdx) → RExpr) → (Str → SIdx) → RExpr
  | [], F, η => F η
  | l :: ls, F, η =>
      overLabels coords op ls (fun η => joined op ((limLabels coords l).map fun x => F (setEnv η l.i (sympifyLabel x)))) η

/-- The expression for one choice of labels: `X_a` for `X[i]` if `i` stands for `a`. -/
def RExpr.written (coords : Coords) : RExpr → (Str → SIdx) → RExpr
  | .num q, _ => .num q
  | .sym x, _ => .sym x
  | .indexed b ix, η => .sym (joinStr "_".toList (b :: ix.map fun s => labelText (bindIdx η s)))
  | .add a b, η => .add (a.written coords η) (b.written coords η)
  | .mul a b, η => .mul (a.written coords η) (b.written coords η)
  | .pow a b, η => .pow (a.written coords η) (b.written coords η)
  | .log a, η => .log (a.written coords η)
  | .exp a, η => .exp (a.written coords η)
  | .red op body lims, η => overLabels coords op lims (body.written coords) η

/-- The equations with the combinations of labels of their free dims, in order. -/
def instances (coords : Coords) (numeraire : Option ModelObject) (eqs : List IndexedEq) :
    List (IndexedEq × (Str → SIdx)) :=
  eqs.flatMap fun q =>
    let ds := freeDims coords (numeraire.toList.map ModelObject.name) q.lhs q.rhs
    (product (ds.map (labelsOf coords))).map fun ls => (q, bindLabels ds ls)

/-- `eqs₂` has one equation for each equation of `eqs` and each combination of labels, in this order; the names of the
equations are not compared. -/
def EqsWrittenOut (coords : Coords) (numeraire : Option ModelObject) (eqs eqs₂ : List IndexedEq) : Prop :=
  List.Forall₂ (fun p q₂ => q₂.lhs = p.1.lhs.written coords p.2 ∧ q₂.rhs = p.1.rhs.written coords p.2)
    (instances coords numeraire eqs) eqs₂

end Verif
