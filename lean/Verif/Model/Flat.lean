import Verif.Model.Objects

/-!
# Flat packing of model data

Models `cge_modeling/base/utilities.py:259-412`,
`cge_modeling/compile/pytensor_tools.py:64-99,128-138`.
-/

namespace Verif

variable {α : Type _}

/-- The Python slice `x[a:b]` of a flat array (clipped at the end, as numpy does). -/
def slice (x : List α) (a b : Nat) : List α := (x.drop a).take (b - a)

/-- The loop of `flat_array_to_variable_dict` (base/utilities.py:334-339): state is the running
`cursor` and the dict built so far. -/
def flatToDictLoop (x : List α) (coords : Coords) :
    List ModelObject → Nat → Dict Str (NDArray α) → Res (Dict Str (NDArray α))
  | [], _, d => .ok d
  | obj :: objects, cursor, d => do
      let shape ← inferShape obj coords
      let s := shape.prod
      let value ← reshape (slice x cursor (cursor + s)) shape
      flatToDictLoop x coords objects (cursor + s) (dset d obj.name value)

/-- `flat_array_to_variable_dict` (base/utilities.py:278-341). -/
def flatArrayToVariableDict (x : List α) (objects : List ModelObject) (coords : Coords) :
    Res (Dict Str (NDArray α)) :=
  flatToDictLoop x coords objects 0 []

/-- `[np.atleast_1d(d[var.name]).ravel() for var in objs]` (base/utilities.py:386-387): raveling a
C-ordered array gives its data; a Python scalar is a shape-`()` array with one element. -/
def ravelNamed (d : Dict Str (NDArray α)) (objs : List ModelObject) : Res (List (List α)) :=
  objs.mapM fun var => (dgetE d var.name).map NDArray.data

/-- `variable_dict_to_flat_array` (base/utilities.py:344-389). -/
def variableDictToFlatArray (d : Dict Str (NDArray α)) (variables parameters : List ModelObject) :
    Res (List α × List α) := do
  let vs ← ravelNamed d variables
  let x ← npConcatenate vs
  let ps ← ravelNamed d parameters
  let theta ← npConcatenate ps
  return (x, theta)

/-- `mask[a:b] = v`. -/
def setSlice (mask : List Bool) (a b : Nat) (v : Bool) : List Bool :=
  mask.mapIdx fun i m => if a ≤ i ∧ i < b then v else m

/-- Loop of `make_flat_array_return_mask` (base/utilities.py:267-273). -/
def returnMaskLoop (omitted : List Str) (coords : Coords) :
    List ModelObject → Nat → List Bool → Res (List Bool)
  | [], _, mask => .ok mask
  | obj :: objs, cursor, mask => do
      let shape ← inferShape obj coords
      let s := shape.prod
      let mask' := if obj.name ∈ omitted then setSlice mask cursor (cursor + s) false else mask
      returnMaskLoop omitted coords objs (cursor + s) mask'

/-- `make_flat_array_return_mask` (base/utilities.py:259-275); `n = x.shape[0]`. -/
def makeFlatArrayReturnMask (n : Nat) (objs : List ModelObject) (omitted : List Str)
    (coords : Coords) : Res (List Bool) :=
  returnMaskLoop omitted coords objs 0 (List.replicate n true)

/-- `counts.cumsum()` started from `acc`. -/
def cumsumFrom (acc : Nat) : List Nat → List Nat
  | [] => []
  | c :: cs => (acc + c) :: cumsumFrom (acc + c) cs

/-- The slices built in base/utilities.py:394-401: for the i-th key the half-open interval
`(cumcounts[i] - counts[i], cumcounts[i])`. -/
def paramSlices (d : Dict Str (NDArray α)) : Dict Str (Nat × Nat) :=
  let keys := dkeys d
  let counts := d.map fun p => p.2.shape.prod
  let cum := cumsumFrom 0 counts
  keys.zip ((cum.zip counts).map fun p => (p.1 - p.2, p.1))

/-- The loop `for name in names: mask[slice_dict[name]] = True` (base/utilities.py:409-410). -/
def maskNamesLoop (slices : Dict Str (Nat × Nat)) : List Str → List Bool → Res (List Bool)
  | [], mask => .ok mask
  | n :: ns, mask => do
      let ab ← dgetE slices n
      maskNamesLoop slices ns (setSlice mask ab.1 ab.2 true)

/-- `flat_mask_from_param_names` (base/utilities.py:392-412), with `names` already a list (a bare
string is wrapped at 406-407).  `np.concatenate([])` raises for an empty dict (395). -/
def flatMaskFromParamNames (d : Dict Str (NDArray α)) (names : List Str) : Res (List Bool) := do
  let flat ← npConcatenate (d.map fun p => p.2.data)
  maskNamesLoop (paramSlices d) names (List.replicate flat.length false)

/-- Boolean-mask selection `x[mask]`. -/
def maskSelect (x : List α) (mask : List Bool) : List α :=
  ((x.zip mask).filter Prod.snd).map Prod.fst

/-- Loop of `flat_tensor_to_ragged_list` (compile/pytensor_tools.py:128-138). -/
def raggedLoop (x : List α) : List (List Nat) → Nat → Res (List (NDArray α))
  | [], _ => .ok []
  | shape :: shapes, cursor => do
      let s := shape.prod
      let a ← reshape (slice x cursor (cursor + s)) shape
      let rest ← raggedLoop x shapes (cursor + s)
      return a :: rest

/-- `flat_tensor_to_ragged_list` (compile/pytensor_tools.py:128-138). -/
def flatTensorToRaggedList (x : List α) (shapes : List (List Nat)) : Res (List (NDArray α)) :=
  raggedLoop x shapes 0

/-- `flatten_equations` (compile/pytensor_tools.py:64-99): concatenation of the ravelled equations.
Simplification: casts to float and the static `specify_shape` are not modelled. -/
def flattenEquations (eqs : List (NDArray α)) : Res (List α) :=
  npConcatenate (eqs.map NDArray.data)

end Verif
