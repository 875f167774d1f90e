import Verif.Py.Dict
import Verif.Py.NDArray

/-!
# Model objects and coordinates

Models `cge_modeling/base/primitives.py:46-222` (`ModelObject`, `Variable`, `Parameter`) as far as
names, dims and dim values are concerned (the LaTeX attributes are not modelled), and
`cge_modeling/base/utilities.py:210-256`.
-/

namespace Verif

/-- `ModelObject` (base/primitives.py:46-58).  Simplification: only `name`, `dims`, `dim_vals`
(in insertion order) are kept; `base_name` always equals `name` (line 67) and `name` never changes.
Labels may be `str` or `int` in the code; they are strings here (they are only ever compared and
turned into text with `str`). -/
structure ModelObject where
  name : Str
  dims : List Str := []
  dimVals : Dict Str Str := []
  deriving DecidableEq, Repr

/-- `coords : dict[str, list[str]]`. -/
abbrev Coords := Dict Str (List Str)

/-- `infer_object_shape_from_coords` (base/utilities.py:254-256):
`tuple(len(coords[dim]) for dim in obj.dims)`, `KeyError` on an unknown dim. -/
def inferShape (obj : ModelObject) (coords : Coords) : Res (List Nat) :=
  obj.dims.mapM fun dim => (dgetE coords dim).map List.length

end Verif
