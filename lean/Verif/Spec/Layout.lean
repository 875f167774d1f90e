import Verif.Model.Objects

/-!
# Specification vocabulary for data layout

Small definitions, independent of the modelled functions, in which the layout properties are stated.
-/

namespace Verif

/-- The labels of a dim (empty for an unknown dim; statements assume `KnownDims`). -/
def labelsOf (coords : Coords) (dim : Str) : List Str := (dget coords dim).getD []

/-- All dims of the object are keys of `coords`. -/
def KnownDims (coords : Coords) (o : ModelObject) : Prop := ∀ dim ∈ o.dims, dim ∈ dkeys coords

instance (coords : Coords) (o : ModelObject) : Decidable (KnownDims coords o) := by
  unfold KnownDims; infer_instance

/-- The shape an object must have: one axis per dim, as long as the dim has labels. -/
def specShape (coords : Coords) (o : ModelObject) : List Nat :=
  o.dims.map fun dim => (labelsOf coords dim).length

/-- Number of elements of an object. -/
def specSize (coords : Coords) (o : ModelObject) : Nat := (specShape coords o).prod

/-- Number of elements of a list of objects. -/
def totalSize (coords : Coords) (objs : List ModelObject) : Nat :=
  (objs.map (specSize coords)).sum

/-- Position of the first element of object number `m`. -/
def offsetOf (coords : Coords) (objs : List ModelObject) (m : Nat) : Nat :=
  totalSize coords (objs.take m)

/-- The dictionary has a correctly shaped array for the object. -/
def DataFor {α : Type _} (coords : Coords) (d : Dict Str (NDArray α)) (o : ModelObject) : Prop :=
  ∃ a, dget d o.name = some a ∧ a.shape = specShape coords o ∧ a.WF

end Verif
