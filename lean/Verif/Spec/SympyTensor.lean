import Verif.Spec.Layout
import Verif.Py.Str
import Mathlib.Data.Real.Basic

/-!
# The scalars of a model, and points given by flat vectors
-/

namespace Verif

/-- The names of the scalars of a list of objects, in the order of the flat vector: the name of the
object and the labels, joined by `_`. -/
def scalarNames (coords : Coords) (objs : List ModelObject) : List Str :=
  objs.flatMap fun o => (product (o.dims.map (labelsOf coords))).map fun ls =>
    joinStr "_".toList (o.name :: ls)

/-- A model in which no two scalars share a name. -/
structure ScalarModel (coords : Coords) (vars params : List ModelObject) : Prop where
  known : ∀ o ∈ vars ++ params, KnownDims coords o
  dims : ∀ o ∈ vars ++ params, o.dims.Nodup
  fresh : ∀ o ∈ vars ++ params, o.dimVals = []
  labels : ∀ o ∈ vars ++ params, ∀ d ∈ o.dims, (labelsOf coords d).Nodup
  names : ((vars ++ params).map ModelObject.name).Nodup
  scalars : (scalarNames coords (vars ++ params)).Nodup

/-- The point at which the scalar `names[k]` has the value `vals[k]`. -/
noncomputable def flatPoint (names : List Str) (vals : List ℝ) (n : Str) : ℝ :=
  vals.getD (names.idxOf n) 0

/-- Output `i` of a call that succeeds. -/
noncomputable def outAt (r : Res (List ℝ)) (i : Nat) : ℝ :=
  match r with
  | .ok l => l.getD i 0
  | .error _ => 0

end Verif
