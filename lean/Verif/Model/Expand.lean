import Verif.Model.Flat
import Verif.Py.Str

/-!
# Unpacking indexed objects into scalars

Models `cge_modeling/tools/sympy_tools.py:99-117,352-430`,
`cge_modeling/base/primitives.py:22-29,203-209,243-272`,
`cge_modeling/base/cge.py:333-355,377-394,463-473`, `cge_modeling/base/utilities.py:25-63`,
`cge_modeling/compile/pytensor_tools.py:185-215`.
-/

namespace Verif

/-- `ModelObject.update_dim_value` (base/primitives.py:203-209), as far as `dim_vals` goes. -/
def updateDimValue (o : ModelObject) (dim value : Str) : Res ModelObject :=
  if dim ∈ o.dims then .ok { o with dimVals := dset o.dimVals dim value } else .error .valueError

/-- The argument `on_unused_dim`. -/
inductive OnUnused where
  | raise
  | ignore
  deriving DecidableEq, Repr

/-- `_validate_dims` (tools/sympy_tools.py:352-384).  `list(set(..))` has no defined order; `setList`
stands for the order in which the interpreter happens to list a set. -/
def validateDims (setList : List Str → List Str) (objDims dims : List Str) (mode : OnUnused) :
    Res (List Str) :=
  if dims.any fun d => decide (d ∉ objDims) then
    match mode with
    | .raise => .error .valueError
    | .ignore => .ok (setList (dims.filter fun d => decide (d ∈ objDims)))
  else .ok dims

/-- The inner loop `for dim, label in zip(dims, labels): new_obj.update_dim_value(dim, label)`. -/
def updateAll (o : ModelObject) : List (Str × Str) → Res ModelObject
  | [] => .ok o
  | p :: ps => do
      let o' ← updateDimValue o p.1 p.2
      updateAll o' ps

/-- `expand_obj_by_indices` for variables and parameters (tools/sympy_tools.py:387-430). -/
def expandObjByIndices (setList : List Str → List Str) (o : ModelObject) (coords : Coords)
    (dims : Option (List Str)) (mode : OnUnused) : Res (List ModelObject) := do
  let dims ← validateDims setList o.dims (dims.getD o.dims) mode
  let labels ← dims.mapM (dgetE coords)
  (product labels).mapM fun ls => updateAll o (dims.zip ls)

/-- `_unpack_objects` for variables or parameters (base/cge.py:333-355). -/
def unpackObjects (setList : List Str → List Str) (coords : Coords) (objs : List ModelObject) :
    Res (List ModelObject) :=
  (objs.mapM fun o => expandObjByIndices setList o coords none .ignore).map List.flatten

/-- `make_indexed_name` (tools/sympy_tools.py:99-117); the `delimiter` argument is not used there. -/
def makeIndexedName (o : ModelObject) : Str := joinStr "_".toList (o.name :: dvalues o.dimVals)

/-- `_unpack_variables` / `_unpack_parameters` (base/cge.py:375-379, 390-394): the new value of
`self._unpacked_variables`, a dict from names to objects. -/
def unpackGroup (setList : List Str → List Str) (coords : Coords) (objs : List ModelObject) :
    Res (Dict Str ModelObject) :=
  (unpackObjects setList coords objs).map fun us => dofPairs ((us.map makeIndexedName).zip us)

/-- `list.index`, raising `ValueError` when absent. -/
def listIndex (l : List Str) (a : Str) : Res Nat :=
  match l.findIdx? (· == a) with
  | some i => .ok i
  | none => .error .valueError

/-- The integer index computed for an unpacked object in `make_unpacked_to_packed_map`
(compile/pytensor_tools.py:199-201). -/
def packedIndex (coords : Coords) (o : ModelObject) : Res (List Nat) :=
  o.dims.mapM fun dim => do
    let labels ← dgetE coords dim
    let v ← dgetE o.dimVals dim
    listIndex labels v

/-! ## Equations -/

/-- The marker `<dim:d>`. -/
def marker (d : Str) : Str := "<dim:".toList ++ d ++ ">".toList

/-- `_pretty_print_dim_flags` (base/primitives.py:22-29).  Simplification: dim names have no regular
expression metacharacters and labels no backslashes, so `re.sub` is literal replacement. -/
def prettyPrint (s : Str) (dims : List Str) (dimVals : Dict Str Str) : Str :=
  dims.foldl (fun s dim => match dget dimVals dim with
    | some v => replaceAll (marker dim) v s
    | none => s) s

/-- `_SympyEquation` (base/primitives.py:243-281) over an arbitrary type of expressions. -/
structure SymEquation (E : Type _) where
  name : Str
  dims : List Str
  dimVals : Dict Str Str := []
  eq : E

variable {E : Type _}

/-- `_SympyEquation.update_dim_value` (base/primitives.py:260-270); `subst e dim value` stands for
`e.subs(sp.Idx(dim), value)`.  Note that `dim_vals` is overwritten. -/
def updateDimValueEq (subst : E → Str → Str → E) (q : SymEquation E) (dim value : Str) :
    Res (SymEquation E) :=
  if dim ∈ q.dims then
    .ok { q with
          eq := subst q.eq dim value
          name := prettyPrint q.name q.dims [(dim, value)]
          dimVals := [(dim, value)] }
  else .error .valueError

/-- The inner loop of `expand_obj_by_indices` for an equation. -/
def updateAllEq (subst : E → Str → Str → E) (q : SymEquation E) :
    List (Str × Str) → Res (SymEquation E)
  | [] => .ok q
  | p :: ps => do
      let q' ← updateDimValueEq subst q p.1 p.2
      updateAllEq subst q' ps

/-- `expand_obj_by_indices` for a `_SympyEquation` with `dims=None` (the only way it is called). -/
def expandEq (subst : E → Str → Str → E) (coords : Coords) (q : SymEquation E) :
    Res (List (SymEquation E)) := do
  let labels ← q.dims.mapM (dgetE coords)
  (product labels).mapM fun ls => updateAllEq subst q (q.dims.zip ls)

/-- `_unpack_equations`, sympy branch (base/cge.py:466-470). -/
def unpackEquationsSympy (subst : E → Str → Str → E) (coords : Coords) (qs : List (SymEquation E)) :
    Res (Dict Str (SymEquation E)) :=
  (qs.mapM (expandEq subst coords)).map fun us =>
    dofPairs ((us.flatten.map SymEquation.name).zip us.flatten)

/-- `re.findall("<dim:(a|b|…)>", s)` (base/utilities.py:45-51); `skip` as in `replaceGo`. -/
def findMarkersGo (alts : List Str) : Nat → Str → List Str
  | _, [] => []
  | skip + 1, _ :: s => findMarkersGo alts skip s
  | 0, c :: s =>
      match alts.find? fun d => (marker d).isPrefixOf (c :: s) with
      | some d => d :: findMarkersGo alts ((marker d).length - 1) s
      | none => findMarkersGo alts 0 s

/-- With no dims at all the joined pattern is empty and the alternation is the empty string. -/
def findMarkers (dims : List Str) (s : Str) : List Str :=
  findMarkersGo (if dims = [] then [[]] else dims) 0 s

/-- The body of the loop of `unpack_equation_strings` (base/utilities.py:49-61). -/
def unpackEquationName (coords : Coords) (name : Str) : Res (List Str) := do
  let named := findMarkers (dkeys coords) name
  if named = [] then return [name]
  let labels ← named.mapM (dgetE coords)
  return (product labels).map fun ls => prettyPrint name named (dofPairs (named.zip ls))

/-- `unpack_equation_strings` (base/utilities.py:25-63), on the equations' names. -/
def unpackEquationStrings (names : List Str) (coords : Coords) : Res (List Str) :=
  (names.mapM (unpackEquationName coords)).map List.flatten

/-- `_unpack_equations`, pytensor branch: `dict.fromkeys(names)` keeps first occurrences
(base/cge.py:471-473). -/
def unpackedEquationNames (names : List Str) (coords : Coords) : Res (List Str) :=
  (unpackEquationStrings names coords).map fun l => dkeys (dofPairs (l.map fun n => (n, ())))

end Verif
