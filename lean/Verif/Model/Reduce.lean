import Verif.Py.NDArray
import Verif.Model.Flat
import Mathlib.Data.Rat.Defs

/-!
# Sums and products over an index

Models `substitute_reduce_ops` (`cge_modeling/tools/sympy_tools.py:287-349`) and the part of sympy it
relies on: `find`, `doit`, `preorder_traversal`, `subs`.
-/

namespace Verif

/-- An index of an `sp.Indexed`: an index symbol `sp.Idx(i)`, an integer, or a label (which `sympify`
turned into a `Symbol`). -/
inductive SIdx where
  | idx (i : Str)
  | num (n : Nat)
  | lab (l : Str)
  deriving DecidableEq, Repr

/-- The two reduction operators, in the order of `OPS_TO_FIND` (tools/sympy_tools.py:54-57). -/
inductive RedOp where
  | sum
  | prod
  deriving DecidableEq, Repr

/-- One limit `(i, lo, stop - 1)` of a `Sum` or `Product`; sympy's upper bound is inclusive, `stop` is
exclusive. -/
structure Lim where
  i : Str
  lo : Nat
  stop : Nat
  deriving DecidableEq, Repr

/-- sympy expressions with indexed symbols and reduction operators.  `Sum(Sum(f, a), b)` is flattened by
sympy to `Sum(f, a, b)`, therefore `red` has a list of limits, the innermost first. -/
inductive RExpr where
  | num (q : ℚ)
  | sym (x : Str)
  | indexed (b : Str) (ix : List SIdx)
  | add (a b : RExpr)
  | mul (a b : RExpr)
  | pow (a b : RExpr)
  | log (a : RExpr)
  | exp (a : RExpr)
  | red (op : RedOp) (body : RExpr) (lims : List Lim)
  deriving DecidableEq

namespace RExpr

/-- Change every index list (outside the scope of the remaining reduction operators). -/
def mapIx (g : Str → List SIdx → List SIdx) : RExpr → RExpr
  | num q => num q
  | sym x => sym x
  | indexed b ix => indexed b (g b ix)
  | add a b => add (mapIx g a) (mapIx g b)
  | mul a b => mul (mapIx g a) (mapIx g b)
  | pow a b => pow (mapIx g a) (mapIx g b)
  | log a => log (mapIx g a)
  | exp a => exp (mapIx g a)
  | red op body lims => red op (mapIx g body) lims

/-- Replacing the index symbol `i` by the integer `k`. -/
def setIdx (i : Str) (k : Nat) : SIdx → SIdx
  | .idx j => if j = i then .num k else .idx j
  | s => s

/-- `f.subs(i, k)`. -/
def substIdx (i : Str) (k : Nat) (e : RExpr) : RExpr := mapIx (fun _ ix => ix.map (setIdx i k)) e

/-- The sum or product of a list. -/
def reduceList : RedOp → List RExpr → RExpr
  | .sum, l => l.foldl add (num 0)
  | .prod, l => l.foldl mul (num 1)

/-- Expansion of the limits of a reduction, innermost first (sympy's `eval_sum_direct`). -/
def applyLims (op : RedOp) (f : RExpr) : List Lim → RExpr
  | [] => f
  | l :: ls =>
      applyLims op (reduceList op ((List.range' l.lo (l.stop - l.lo)).map fun k => substIdx l.i k f)) ls

/-- `op.doit()`, which is deep: operators inside the body are expanded first. -/
def doit : RExpr → RExpr
  | num q => num q
  | sym x => sym x
  | indexed b ix => indexed b ix
  | add a b => add (doit a) (doit b)
  | mul a b => mul (doit a) (doit b)
  | pow a b => pow (doit a) (doit b)
  | log a => log (doit a)
  | exp a => exp (doit a)
  | red op body lims => applyLims op (doit body) lims

/-- `[x for x in sp.preorder_traversal(expr) if isinstance(x, sp.Indexed)]`. -/
def indexeds : RExpr → List (Str × List SIdx)
  | num _ => []
  | sym _ => []
  | indexed b ix => [(b, ix)]
  | add a b => indexeds a ++ indexeds b
  | mul a b => indexeds a ++ indexeds b
  | pow a b => indexeds a ++ indexeds b
  | log a => indexeds a
  | exp a => indexeds a
  | red _ body _ => indexeds body

/-- The occurrences of an operator, `eq.find(op_to_find)` before it is made a set. -/
def findOps (o : RedOp) : RExpr → List RExpr
  | num _ => []
  | sym _ => []
  | indexed _ _ => []
  | add a b => findOps o a ++ findOps o b
  | mul a b => findOps o a ++ findOps o b
  | pow a b => findOps o a ++ findOps o b
  | log a => findOps o a
  | exp a => findOps o a
  | red op body lims => (if op = o then [red op body lims] else []) ++ findOps o body

/-- `eq.subs({old: new})` for a whole subexpression `old` (the largest occurrences are replaced). -/
def replaceSub (old new : RExpr) (e : RExpr) : RExpr :=
  if e = old then new else
  match e with
  | num q => num q
  | sym x => sym x
  | indexed b ix => indexed b ix
  | add a b => add (replaceSub old new a) (replaceSub old new b)
  | mul a b => mul (replaceSub old new a) (replaceSub old new b)
  | pow a b => pow (replaceSub old new a) (replaceSub old new b)
  | log a => log (replaceSub old new a)
  | exp a => exp (replaceSub old new a)
  | red op body lims => red op (replaceSub old new body) lims

/-- One step of `subs` with an indexed key: `base[old]` becomes `base[new]`. -/
def replaceIx (b : Str) (p : List SIdx × List SIdx) (b' : Str) (ix : List SIdx) : List SIdx :=
  if b' = b ∧ ix = p.1 then p.2 else ix

end RExpr

open RExpr

/-- What `sympify` makes of a label: a number if it is written with digits, else a symbol.
Simplification: labels that sympify parses as anything else (names of constants such as `E` or `pi`,
expressions) are treated as symbols. -/
def sympifyLabel (l : Str) : SIdx :=
  if l ≠ [] ∧ l.all Char.isDigit then .num (l.foldl (fun n c => 10 * n + (c.toNat - '0'.toNat)) 0)
  else .lab l

/-- `i.name`; integers have no name. -/
def idxName : SIdx → Res Str
  | .idx i => .ok i
  | .lab l => .ok l
  | .num _ => .error .attributeError

/-- `labels` at one position of `make_sub_dict` (tools/sympy_tools.py:307-313): labels or copies of the
index itself, next to the integers or copies of the index itself. -/
def positionPairs (used : List Str) (coords : Coords) (s : SIdx) : Res (List (SIdx × SIdx)) := do
  let n ← idxName s
  let labels ← dgetE coords n
  match s with
  | .idx i =>
      if i ∈ used then .ok (labels.zipIdx.map fun p => (SIdx.num p.2, sympifyLabel p.1))
      else .ok (labels.map fun _ => (SIdx.idx i, SIdx.idx i))
  | s => .ok (labels.map fun _ => (s, s))

/-- `make_sub_dict` (tools/sympy_tools.py:304-322): the substitution of integer indices by labels for
one indexed expression.  The two products are taken in step, so they are the product of the pairs. -/
def makeSubDict (used : List Str) (coords : Coords) (ix : List SIdx) :
    Res (Dict (List SIdx) (List SIdx)) := do
  let pairs ← ix.mapM (positionPairs used coords)
  return dofPairs ((product pairs).map fun ps => (ps.map Prod.fst, ps.map Prod.snd))

/-- The loop `for var in indexed_exprs: … op_doit = op_doit.subs(sub_dict)`
(tools/sympy_tools.py:335-338).  `subs` applies the entries of a dict one after the other, in an order of
sympy's own (`order`). -/
def relabel (order : Dict (List SIdx) (List SIdx) → List (List SIdx × List SIdx))
    (used : List Str) (coords : Coords) : List (Str × List SIdx) → RExpr → Res RExpr
  | [], e => .ok e
  | v :: vs, e => do
      let d ← makeSubDict used coords v.2
      relabel order used coords vs
        ((order d).foldl (fun e p => e.mapIx (replaceIx v.1 p)) e)

/-- The body of the loop over the found operators (tools/sympy_tools.py:329-340). -/
def substituteOp (order : Dict (List SIdx) (List SIdx) → List (List SIdx × List SIdx))
    (coords : Coords) (eq : RExpr) : RExpr → Res RExpr
  | .red op body lims => do
      let new ← relabel order (lims.map Lim.i) coords (indexeds body) (doit (.red op body lims))
      return replaceSub (.red op body lims) new eq
  | _ => .ok eq

/-- `substitute_reduce_ops` (tools/sympy_tools.py:287-349).  `setList` is the order in which the
interpreter happens to list the set of found operators. -/
def substituteReduceOps (setList : List RExpr → List RExpr)
    (order : Dict (List SIdx) (List SIdx) → List (List SIdx × List SIdx))
    (eq : RExpr) (coords : Coords) : Res RExpr := do
  let eq ← (setList (findOps .sum eq)).foldlM (substituteOp order coords) eq
  (setList (findOps .prod eq)).foldlM (substituteOp order coords) eq

end Verif
