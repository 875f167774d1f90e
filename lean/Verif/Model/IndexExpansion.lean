import Verif.Model.Reduce
import Verif.Model.Expand
import Verif.Model.Names

/-!
# Writing out indexed symbols

Models `expand_indices`, `enumerate_indexbase`, `indexed_var_to_symbol`, `make_indexbase_sub_dict`
(`cge_modeling/tools/sympy_tools.py:60-81,169-228`) and `_expand_var_by_index`
(`cge_modeling/base/utilities.py:101-173`).
-/

namespace Verif

/-- An `sp.Indexed`, e.g. `x[i, j]`.  Simplification: the functions of this file take any sympy
expressions; only single indexed symbols (what their names and the docstring speak of) and symbols
without index (`args = []`) are modelled. -/
structure IRef where
  base : Str
  args : List SIdx
  deriving DecidableEq, Repr

/-- `expr.has(index)` for an index symbol (tools/sympy_tools.py:72). -/
def IRef.has (r : IRef) (i : Str) : Bool := r.args.contains (.idx i)

/-- `expr.subs({index: value})` (tools/sympy_tools.py:74-75); `sympify` turns a label into a symbol. -/
def IRef.subs (r : IRef) (i : Str) (v : SIdx) : IRef :=
  { r with args := r.args.map fun a => if a = .idx i then v else a }

/-- One value of the inner loop: `if new_expr not in new_expressions: new_expressions.append(new_expr)`
(tools/sympy_tools.py:76-77). -/
def appendNew (acc : List IRef) (r : IRef) : List IRef := if r ∈ acc then acc else acc ++ [r]

/-- The body of `for expr in expressions` (tools/sympy_tools.py:71-79). -/
def expandStep (i : Str) (vs : List SIdx) (acc : List IRef) (r : IRef) : List IRef :=
  if r.has i then (vs.map (r.subs i)).foldl appendNew acc else acc ++ [r]

/-- `expand_indices` (tools/sympy_tools.py:60-81); `idx_values[0]` of an empty list is an
`IndexError`. -/
def expandIndices (exprs : List IRef) : List Str → List (List SIdx) → Res (List IRef)
  | [], _ => .ok exprs
  | _ :: _, [] => .error .indexError
  | i :: is, vs :: vss => expandIndices (exprs.foldl (expandStep i vs) []) is vss

/-- `enumerate_indexbase` (tools/sympy_tools.py:169-217).  An index dict maps numbers to labels; any
`expand_using` other than `"index"` means labels. -/
def enumerateIndexbase (exprs : List IRef) (indices : List Str) (indexDicts : List (Dict Nat Str))
    (expandUsing : Str) : Res (List IRef) :=
  if expandUsing = "index".toList then
    expandIndices exprs indices (indexDicts.map fun d => (dkeys d).map .num)
  else expandIndices exprs indices (indexDicts.map fun d => (dvalues d).map .lab)

/-- `str` of one index. -/
def sidxStr : SIdx → Str
  | .idx i => i
  | .num n => (toString n).toList
  | .lab l => l

/-- `Indexed.name`, which sympy defines as `str(self)`: `x[a, b]`; a plain symbol has its own name. -/
def IRef.name (r : IRef) : Str :=
  if r.args = [] then r.base
  else r.base ++ "[".toList ++ joinStr ", ".toList (r.args.map sidxStr) ++ "]".toList

/-- `make_indexbase_sub_dict` with `indexed_var_to_symbol` (tools/sympy_tools.py:220-228): the name of
the symbol that takes the place of each expression. -/
def makeIndexbaseSubDict (exprs : List IRef) : Dict IRef Str :=
  dofPairs (exprs.map fun r => (r, bracketsToSnakeCase r.name))

/-- A declared `Variable` or `Parameter` with the attributes given at its declaration
(base/primitives.py:46-58): besides the object of `Model/Objects`, the assumptions `real`, `positive`
and `extend_subscript`. -/
structure DeclaredObj where
  obj : ModelObject
  isParameter : Bool := false
  real : Bool := true
  positive : Bool := true
  extendSubscript : Nat := 0
  deriving DecidableEq, Repr

/-- One label of the innermost loop (base/utilities.py:158-170): the new object is built by `cls` from
name, dims, dim values and description; all other attributes get the default values. -/
def withLabel (d : Str) (o : DeclaredObj) (l : Str) : DeclaredObj :=
  { obj := { o.obj with dimVals := dset o.obj.dimVals d l }, isParameter := o.isParameter }

/-- One pass of `for dim in dims` (base/utilities.py:154-171). -/
def expandByLabels (p : Str × List Str) (out : List DeclaredObj) : List DeclaredObj :=
  out.flatMap fun o => p.2.map (withLabel p.1 o)

/-- `_expand_var_by_index` (base/utilities.py:101-173), descriptions left out.  Every dim of `coords` is a
dim of the object once the check is passed, so that `coords.get(dim, []) if dim in obj.dims else []` is
`coords[dim]`. -/
def expandVarByIndex (o : DeclaredObj) (coords : Coords) : Res (List DeclaredObj) :=
  if (dkeys coords).any fun d => decide (d ∉ o.obj.dims) then .error .valueError
  else .ok (coords.foldl (fun out p => expandByLabels p out) [o])

end Verif
