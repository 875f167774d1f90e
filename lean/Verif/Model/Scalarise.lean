import Verif.Model.Reduce
import Verif.Model.Expand
import Verif.Model.SymExpr

/-!
# From indexed equations to scalar equations

Models `ModelObject.to_sympy` (`cge_modeling/base/primitives.py:190-201`), the part of
`add_sympy_equation` after parsing (`cge_modeling/base/cge.py:422-447`), `find_equation_dims`
(`cge_modeling/tools/sympy_tools.py:281-284`), the substitution in `_SympyEquation.update_dim_value`
(`cge_modeling/base/primitives.py:260-266`), `indexed_variables_to_sub_dict` and `sub_all_eqs`
(`cge_modeling/tools/sympy_tools.py:93-96,142-166`) and `_simplify_unpacked_sympy_representation`
(`cge_modeling/base/cge.py:210-230`).

Parsing the text of an equation is sympy's (`parse_expr`); an equation is given by the two parsed sides.
-/

namespace Verif

open RExpr

/-- `ModelObject.to_sympy()` (base/primitives.py:190-201): a symbol, or an indexed base whose indices are
the dims, with the labels of `dim_vals` put for the dims they are given for.  (`base_name` is the name
the object was created with, which nothing changes.) -/
def toSympy (o : ModelObject) : RExpr :=
  if o.dims = [] then .sym o.name
  else .indexed o.name (o.dims.map fun d =>
    match dget o.dimVals d with
    | some v => sympifyLabel v
    | none => .idx d)

/-- The index symbols of an indexed symbol. -/
def idxNames : RExpr → List Str
  | .indexed _ ix => ix.filterMap fun s => match s with
    | .idx d => some d
    | _ => none
  | _ => []

/-- `subs({old: new})`: a reduction over one of the index symbols of `old` is left as it is, because sympy
does not substitute in it what contains its bound variable. -/
def subsUnbound (old new : RExpr) (e : RExpr) : RExpr :=
  if e = old then new else
  match e with
  | .num q => .num q
  | .sym x => .sym x
  | .indexed b ix => .indexed b ix
  | .add a b => .add (subsUnbound old new a) (subsUnbound old new b)
  | .mul a b => .mul (subsUnbound old new a) (subsUnbound old new b)
  | .pow a b => .pow (subsUnbound old new a) (subsUnbound old new b)
  | .log a => .log (subsUnbound old new a)
  | .exp a => .exp (subsUnbound old new a)
  | .red op body lims =>
      if lims.any fun l => (idxNames old).contains l.i then .red op body lims
      else .red op (subsUnbound old new body) lims

/-- `sympy_eq.subs({x: 1})` for the numeraire (base/cge.py:422-424). -/
def fixNumeraire (numeraire : Option ModelObject) (e : RExpr) : RExpr :=
  match numeraire with
  | none => e
  | some o => subsUnbound (toSympy o) (.num 1) e

/-- `eq.has(idx)` for an index symbol. -/
def hasIdx (d : Str) : RExpr → Bool
  | .num _ => false
  | .sym _ => false
  | .indexed _ ix => ix.contains (.idx d)
  | .add a b => hasIdx d a || hasIdx d b
  | .mul a b => hasIdx d a || hasIdx d b
  | .pow a b => hasIdx d a || hasIdx d b
  | .log a => hasIdx d a
  | .exp a => hasIdx d a
  | .red _ body lims => hasIdx d body || lims.any fun l => l.i == d

/-- `find_equation_dims` (tools/sympy_tools.py:281-284); the found symbols are already in the order of
`index_symbols`, so sorting them changes nothing. -/
def findEquationDims (e : RExpr) (indexSymbols : List Str) : List Str :=
  indexSymbols.filter fun d => hasIdx d e

/-- A parsed equation `lhs = rhs` and its name. -/
structure ParsedEq where
  name : Str
  lhs : RExpr
  rhs : RExpr

/-- `add_sympy_equation` after parsing (base/cge.py:422-447); whatever `substitute_reduce_ops` raises is
turned into `ValueError`.  (`a - b` is `a + (-1)*b` in sympy.) -/
def standardize (setList : List RExpr → List RExpr)
    (order : Dict (List SIdx) (List SIdx) → List (List SIdx × List SIdx)) (coords : Coords)
    (numeraire : Option ModelObject) (q : ParsedEq) : Res (SymEquation RExpr) :=
  match substituteReduceOps setList order
      (.add (fixNumeraire numeraire q.lhs) (.mul (.num (-1)) (fixNumeraire numeraire q.rhs))) coords with
  | .ok e => .ok { name := q.name, dims := findEquationDims e (dkeys coords), eq := e }
  | .error _ => .error .valueError

/-- Replacing the index symbol `d` by what `sympify` makes of a label. -/
def setLabel (d label : Str) : SIdx → SIdx
  | .idx j => if j = d then sympifyLabel label else .idx j
  | s => s

/-- `self._eq.subs(sp.Idx(dim), value)` (base/primitives.py:260-266).  Standardized equations have no
limits any more, in which sympy would also substitute. -/
def substLabel (e : RExpr) (dim value : Str) : RExpr := e.mapIx fun _ ix => ix.map (setLabel dim value)

/-- `indexed_variables_to_sub_dict` (tools/sympy_tools.py:142-166). -/
def removeIndicesDict (objs : List ModelObject) : Dict RExpr RExpr :=
  dofPairs (objs.map fun o => (toSympy o, .sym (makeIndexedName o)))

/-- `eq.subs(sub_dict)` (tools/sympy_tools.py:93-96): the entries one after the other, in an order of
sympy's own. -/
def removeIndices (order : Dict RExpr RExpr → List (RExpr × RExpr)) (d : Dict RExpr RExpr)
    (e : RExpr) : RExpr :=
  (order d).foldl (fun e p => replaceSub p.1 p.2 e) e

/-- The `symbol` entries of `_unpacked_equations` after the equations were added, unpacked and simplified
(base/cge.py:210-230, 396-447, 462-470). -/
def unpackedEquationSymbols (setList : List RExpr → List RExpr)
    (order : Dict (List SIdx) (List SIdx) → List (List SIdx × List SIdx))
    (order' : Dict RExpr RExpr → List (RExpr × RExpr)) (coords : Coords)
    (numeraire : Option ModelObject) (uv up : Dict Str ModelObject) (eqs : List ParsedEq) :
    Res (List RExpr) := do
  let qs ← eqs.mapM (standardize setList order coords numeraire)
  let D ← unpackEquationsSympy substLabel coords qs
  pure ((dvalues D).map fun q => removeIndices order' (removeIndicesDict (dvalues uv ++ dvalues up)) q.eq)

/-- An expression without indexed symbols and operators, as the back-ends need it; `none` if there are
some left. -/
def toScalarExpr : RExpr → Option (SymExpr Str)
  | .num q => some (.num q)
  | .sym x => some (.sym x)
  | .indexed _ _ => none
  | .add a b => (toScalarExpr a).bind fun a => (toScalarExpr b).map fun b => .add a b
  | .mul a b => (toScalarExpr a).bind fun a => (toScalarExpr b).map fun b => .mul a b
  | .pow a b => (toScalarExpr a).bind fun a => (toScalarExpr b).map fun b => .pow a b
  | .log a => (toScalarExpr a).map .log
  | .exp a => (toScalarExpr a).map .exp
  | .red _ _ _ => none

end Verif
