import Verif.Model.Registry
import Mathlib.Data.List.Sort

/-!
# Calibration helpers

Models `check_shape`, `finalize_calibration` and `initialize_parameter`
(`cge_modeling/base/cge.py:1159-1188`).
-/

namespace Verif

variable {α E : Type _}

/-- What a local name of the calling function can hold, as far as `finalize_calibration` looks at it:
anything `np.array` turns into a zero-dimensional array (a number), a flat Python list of those, a numpy
array, a pandas `Series` with its index, a pandas `DataFrame` with its index and columns (`values` in
row-major order). -/
inductive CallerLocal (α : Type _) where
  | scalar (x : α)
  | list (xs : List α)
  | array (a : NDArray α)
  | series (index : List Str) (values : List α)
  | frame (index columns : List Str) (values : List α)
  deriving DecidableEq, Repr

/-- `np.array(data)` after `data.values` for pandas objects (base/cge.py:1177-1179, 1163). -/
def CallerLocal.toArray : CallerLocal α → NDArray α
  | .scalar x => ⟨[], [x]⟩
  | .list xs => ⟨[xs.length], xs⟩
  | .array a => a
  | .series _ values => ⟨[values.length], values⟩
  | .frame index columns values => ⟨[index.length, columns.length], values⟩

/-- The two messages that are printed (base/cge.py:1168 and 1181). -/
inductive CalMsg where
  | badShape (name : Str) (got expected : List Nat)
  | notFound (name : Str)
  deriving DecidableEq, Repr

/-- The object inside a `Found`. -/
def Found.obj : Found → ModelObject
  | .variable o => o
  | .parameter o => o

/-- `check_shape` (base/cge.py:1159-1169): the array to use and the message printed, if any.
`squeeze` of an array of shape `(1,)` or `()` only changes the shape. -/
def checkShape (r : Reg E) (coords : Coords) (data : NDArray α) (name : Str) :
    Res (NDArray α × Option CalMsg) := do
  let f ← getOne r name
  let shape ← inferShape f.obj coords
  let data := if (data.shape = [1] ∨ data.shape = []) ∧ shape = [] then ⟨[], data.data⟩ else data
  return (data, if data.shape ≠ shape then some (.badShape name data.shape shape) else none)

/-- `sorted(objects)` (base/cge.py:1175).  `ModelObject` is a dataclass with `order=True` whose first
field is the name (base/primitives.py:46-48), and names are unique within a group, so the order is that
of the names, by code points. -/
def sortedByName (os : List ModelObject) : List ModelObject :=
  os.insertionSort fun a b => a.name ≤ b.name

/-- The loop of `finalize_calibration` (base/cge.py:1175-1182). -/
def finalizeLoop (r : Reg E) (coords : Coords) (callerLocals : Dict Str (CallerLocal α)) :
    List ModelObject → Dict Str (NDArray α) → List CalMsg → Res (Dict Str (NDArray α) × List CalMsg)
  | [], d, out => .ok (d, out)
  | o :: os, d, out =>
      match (if o.name ≠ "_".toList then dget callerLocals o.name else none) with
      | none => finalizeLoop r coords callerLocals os d (out ++ [.notFound o.name])
      | some v =>
          match checkShape r coords v.toArray o.name with
          | .error e => .error e
          | .ok (a, msg) => finalizeLoop r coords callerLocals os (dset d o.name a) (out ++ msg.toList)

/-- `finalize_calibration` (base/cge.py:1171-1183): the dictionary and what was printed. -/
def finalizeCalibration (r : Reg E) (coords : Coords) (callerLocals : Dict Str (CallerLocal α)) :
    Res (Dict Str (NDArray α) × List CalMsg) :=
  finalizeLoop r coords callerLocals
    (sortedByName (dvalues r.variables) ++ sortedByName (dvalues r.parameters)) [] []

/-- `initialize_parameter` (base/cge.py:1185-1188). -/
def initializeParameter (r : Reg E) (coords : Coords) (name : Str) (value : α) : Res (NDArray α) := do
  let f ← getOne r name
  let size ← inferShape f.obj coords
  return ⟨size, List.replicate size.prod value⟩

end Verif
