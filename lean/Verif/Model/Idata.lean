import Verif.Model.Flat

/-!
# From arrays to labelled results

Models `cge_modeling/tools/output_tools.py:412-487` (`list_of_array_to_idata`,
`optimizer_result_to_idata`).  An `InferenceData` with the groups `variables` and `parameters` is a pair
of datasets; a dataset is the dictionary of its data variables, each with the names of its axes.
-/

namespace Verif

variable {α : Type _}

/-- The data variables of an `xr.Dataset`: for each name the names of the axes and the array. -/
abbrev XDataset (α : Type _) := Dict Str (List Str × NDArray α)

/-- Whether one data variable fits the coordinates: as many axis names as axes, and each axis that has
coordinate labels is as long as there are labels. -/
def fitsCoords (coords : Coords) (v : List Str × NDArray α) : Bool :=
  v.1.length == v.2.shape.length &&
    (v.1.zip v.2.shape).all fun p =>
      match dget coords p.1 with
      | none => true
      | some labels => labels.length == p.2

/-- `xr.Dataset(data_vars, coords=coords)`: xarray raises `ValueError` when a name is a data variable and
a coordinate at once, when the number of axis names is not the number of axes, and when an axis has
another length than its coordinate.  Simplification: axes without coordinate are not compared with each
other (the axes of model objects have coordinates). -/
def xrDataset (vars : XDataset α) (coords : Coords) : Res (XDataset α) :=
  if vars.any (fun p => decide (p.1 ∈ dkeys coords)) then .error .valueError
  else if vars.all (fun p => fitsCoords coords p.2) then .ok vars else .error .valueError

/-- `"step"`. -/
def stepName : Str := "step".toList

/-- `range(n)` as labels. -/
def rangeLabels (n : Nat) : List Str := (List.range n).map fun k => (toString k).toList

/-- `l[i]` for a list (`IndexError` beyond the end). -/
def listGetE {β : Type _} (l : List β) (i : Nat) : Res β :=
  match l[i]? with
  | none => .error .indexError
  | some a => .ok a

/-- `len(array)`: the length of the first axis; `TypeError` for an array without axes. -/
def ndLen (a : NDArray α) : Res Nat :=
  match a.shape with
  | [] => .error .typeError
  | n :: _ => .ok n

/-- The dict comprehensions of lines 447-453: object number `i` of the group takes array number
`i + shift`. -/
def trajectoryPairs (arrays : List (NDArray α)) (objs : List ModelObject) (shift : Nat) :
    Res (List (Str × (List Str × NDArray α))) :=
  objs.zipIdx.mapM fun p => (listGetE arrays (p.2 + shift)).map fun a =>
    (p.1.name, (stepName :: p.1.dims, a))

/-- `list_of_array_to_idata` (tools/output_tools.py:412-456). -/
def listOfArrayToIdata (arrays : List (NDArray α)) (vars params : List ModelObject)
    (coords : Coords) : Res (XDataset α × XDataset α) := do
  let first ← listGetE arrays 0
  let n ← ndLen first
  let coords' := dset coords stepName (rangeLabels n)
  let v ← trajectoryPairs arrays vars 0
  let p ← trajectoryPairs arrays params vars.length
  let dsVars ← xrDataset (dofPairs v) coords'
  let dsParams ← xrDataset (dofPairs p) coords'
  pure (dsVars, dsParams)

/-- `np.stack([a, b])`: a new first axis of length 2; `ValueError` when the shapes differ. -/
def npStack2 (a b : NDArray α) : Res (NDArray α) :=
  if a.shape = b.shape then .ok ⟨2 :: a.shape, a.data ++ b.data⟩ else .error .valueError

/-- The dict comprehensions of lines 466-480. -/
def stackPairs (initial result : Dict Str (NDArray α)) (objs : List ModelObject) :
    Res (List (Str × (List Str × NDArray α))) :=
  objs.mapM fun o => do
    let a ← dgetE initial o.name
    let b ← dgetE result o.name
    let s ← npStack2 a b
    pure (o.name, (stepName :: o.dims, s))

/-- `optimizer_result_to_idata` (tools/output_tools.py:459-487); `x` is `res.x`. -/
def optimizerResultToIdata (x theta : List α) (initial : Dict Str (NDArray α))
    (vars params : List ModelObject) (coords : Coords) : Res (XDataset α × XDataset α) := do
  let coords' := dset coords stepName (rangeLabels 2)
  let result ← flatArrayToVariableDict (x ++ theta) (vars ++ params) coords'
  let v ← stackPairs initial result vars
  let p ← stackPairs initial result params
  let dsVars ← xrDataset (dofPairs v) coords'
  let dsParams ← xrDataset (dofPairs p) coords'
  pure (dsVars, dsParams)

end Verif
