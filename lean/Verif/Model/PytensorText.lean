import Verif.Model.Expand
import Verif.Model.Flat
import Verif.Model.Scalarise
import Verif.Model.Wrappers
import Verif.Model.PyExpr
import Verif.Spec.ArrayText

/-!
# Equations read by the pytensor back-end and by sympy

Models `vars_and_params_to_pytensor`, `cge_primitives_to_pytensor` and `validate_pytensor_parsing_result`
(`cge_modeling/compile/pytensor.py:36-72,109-131`), `object_to_pytensor` and `make_printer_cache`
(`cge_modeling/compile/pytensor_tools.py:102-126,141-180`), and what `sp.parse_expr` makes of the text of an
equation (`cge_modeling/base/cge.py:396-420`).

Python's `eval` reads the text by Python's grammar; an equation is given here by the expression its text is
read as (`Reads`).  Arithmetic on tensors follows numpy's broadcasting rules, on real numbers.
-/

namespace Verif

/-! ## Text to arrays -/

/-- The names of an expression. -/
def PExpr.vars : PExpr → List Str
  | .var x => [x]
  | .num _ => []
  | .neg e => vars e
  | .pos e => vars e
  | .add a b => vars a ++ vars b
  | .sub a b => vars a ++ vars b
  | .mul a b => vars a ++ vars b
  | .div a b => vars a ++ vars b
  | .pow a b => vars a ++ vars b
  | .post e _ => vars e
  | .sumOver e _ _ _ => vars e
  | .prodOver e _ _ _ => vars e

namespace Arr

/-- A number. -/
def const (q : ℝ) : Arr := ⟨[], fun _ => q⟩

/-- A function of every entry. -/
def map (f : ℝ → ℝ) (a : Arr) : Arr := ⟨a.shape, fun idx => f (a.get idx)⟩

/-- The entries in row-major order. -/
def entries (a : Arr) : List ℝ := (product (a.shape.map List.range)).map a.get

/-- `a.sum()` -/
def sumAll (a : Arr) : Arr := const a.entries.sum

/-- `a.prod()` -/
def prodAll (a : Arr) : Arr := const a.entries.prod

/-- The array given by shape and data. -/
def ofNDArray (a : NDArray ℝ) : Arr := ⟨a.shape, fun idx => (a.at? idx).getD 0⟩

end Arr

/-- The static shape of the result of an operation; pytensor refuses to build it if the shapes do not fit. -/
def broadcastShapes (s t : List Nat) : Res (List Nat) :=
  match Arr.broadcastRev s.reverse t.reverse with
  | some u => .ok u.reverse
  | none => .error .valueError

/-- An operation on two arrays. -/
noncomputable def arrayOp (f : ℝ → ℝ → ℝ) (a b : Arr) : Res Arr :=
  match a.op f b with
  | some c => .ok c
  | none => .error .valueError

/-- The axis of `.sum(axis=k)`: axes are integers. -/
def axisOf (k : Str) : Res Nat := if '.' ∈ k then .error .typeError else .ok (digitsVal k)

/-- Methods and slices.  Numbers have none of the methods of tensors and cannot be indexed.  An axis must be
there.  An item takes away the first axis; whether the position exists is only found out in a call.
Simplification: only `sum`, `prod` and `ravel` are modelled, other methods are refused. -/
def postShape (isNumber : Bool) (q : Post) (s : List Nat) : Res (List Nat) :=
  match q with
  | .call m =>
      if isNumber then .error .attributeError
      else if m = "sum".toList ∨ m = "prod".toList then .ok []
      else if m = "ravel".toList then .ok [s.prod]
      else .error .attributeError
  | .sumAxis k =>
      if isNumber then .error .attributeError
      else do
        let n ← axisOf k
        if n < s.length then .ok (s.eraseIdx n) else .error .valueError
  | .newAxis0 => if isNumber then .error .typeError else .ok (1 :: s)
  | .newAxis1 =>
      if isNumber then .error .typeError
      else match s with
        | [] => .error .indexError
        | d :: s => .ok (d :: 1 :: s)
  | .item k =>
      if isNumber then .error .typeError
      else do
        let _ ← axisOf k
        match s with
        | [] => .error .indexError
        | _ :: s => .ok s
  | .subs _ _ => .error .attributeError
  | .subsNum _ _ => .error .attributeError
  | .subsList _ => .error .attributeError

/-- The same for arrays. -/
noncomputable def postArr (isNumber : Bool) (q : Post) (a : Arr) : Res Arr :=
  match q with
  | .call m =>
      if isNumber then .error .attributeError
      else if m = "sum".toList then .ok a.sumAll
      else if m = "prod".toList then .ok a.prodAll
      else if m = "ravel".toList then .ok a.ravel
      else .error .attributeError
  | .sumAxis k =>
      if isNumber then .error .attributeError
      else do
        let n ← axisOf k
        match a.sumAxis n with
        | some b => .ok b
        | none => .error .valueError
  | .newAxis0 => if isNumber then .error .typeError else .ok a.newAxis0
  | .newAxis1 =>
      if isNumber then .error .typeError
      else match a.newAxis1 with
        | some b => .ok b
        | none => .error .indexError
  | .item k =>
      if isNumber then .error .typeError
      else do
        let n ← axisOf k
        match a.item n with
        | some b => .ok b
        | none => .error .indexError
  | .subs _ _ => .error .attributeError
  | .subsNum _ _ => .error .attributeError
  | .subsList _ => .error .attributeError

/-- The static shape of `eval(text, cache)` (compile/pytensor.py:64).  `Sum` and `Product` are not names
the text may use.
Simplification: divisions of Python numbers by zero are not modelled. -/
def evalShape (shapes : Str → Res (List Nat)) : PExpr → Res (List Nat)
  | .var x => shapes x
  | .num _ => .ok []
  | .neg e => evalShape shapes e
  | .pos e => evalShape shapes e
  | .add a b => do broadcastShapes (← evalShape shapes a) (← evalShape shapes b)
  | .sub a b => do broadcastShapes (← evalShape shapes a) (← evalShape shapes b)
  | .mul a b => do broadcastShapes (← evalShape shapes a) (← evalShape shapes b)
  | .div a b => do broadcastShapes (← evalShape shapes a) (← evalShape shapes b)
  | .pow a b => do broadcastShapes (← evalShape shapes a) (← evalShape shapes b)
  | .post e q => do postShape e.vars.isEmpty q (← evalShape shapes e)
  | .sumOver _ _ _ _ => .error .nameError
  | .prodOver _ _ _ _ => .error .nameError

/-- The value of the graph `eval(text, cache)` when the tensors have the given values. -/
noncomputable def evalArr (env : Str → Res Arr) : PExpr → Res Arr
  | .var x => env x
  | .num s => .ok (Arr.const (numVal s))
  | .neg e => do .ok ((← evalArr env e).map fun v => - v)
  | .pos e => evalArr env e
  | .add a b => do arrayOp (· + ·) (← evalArr env a) (← evalArr env b)
  | .sub a b => do arrayOp (· - ·) (← evalArr env a) (← evalArr env b)
  | .mul a b => do arrayOp (· * ·) (← evalArr env a) (← evalArr env b)
  | .div a b => do arrayOp (· / ·) (← evalArr env a) (← evalArr env b)
  | .pow a b => do arrayOp (· ^ ·) (← evalArr env a) (← evalArr env b)
  | .post e q => do postArr e.vars.isEmpty q (← evalArr env e)
  | .sumOver _ _ _ _ => .error .nameError
  | .prodOver _ _ _ _ => .error .nameError

/-- The name of the module `pytensor.tensor` in the cache (compile/pytensor.py:60). -/
def ptName : Str := "pt".toList

/-- `object_to_pytensor` for every object and `make_printer_cache`, keys reduced to the names
(compile/pytensor.py:35-47, 59): the static shapes of the tensors. -/
def shapeCache (coords : Coords) (objs : List ModelObject) : Res (Dict Str (List Nat)) :=
  (objs.mapM fun o => (inferShape o coords).map fun s => (o.name, s)).map dofPairs

/-- Looking up a name in the cache: `pt` is the module whatever it was before, and has no arithmetic.
(Python's builtins can also be named, but are no tensors either.) -/
def lookupName {α : Type _} (cache : Dict Str α) (x : Str) : Res α :=
  if x = ptName then .error .typeError
  else match dget cache x with
    | some v => .ok v
    | none => .error .nameError

/-- A call of `f_system` (compile/pytensor.py:64-70,287-293): the keyword arguments must be the inputs; the
flat vector must have the specified length (pytensor may find a wrong length already when it builds the
graph; here it is always the call that raises). -/
noncomputable def callTextSystem (inputs : List Str) (nEq : Nat) (es : List PExpr) : KwFun ℝ (List ℝ) := fun d =>
  if !((dkeys d).all (fun n => decide (n ∈ inputs)) && inputs.all fun n => decide (n ∈ dkeys d)) then
    .error .typeError
  else do
    let arrs ← es.mapM (evalArr fun x => (lookupName d x).map Arr.ofNDArray)
    let flat ← flattenEquations (arrs.map fun a => (⟨a.shape, a.entries⟩ : NDArray ℝ))
    if flat.length = nEq then .ok flat else .error .assertion

/-- `validate_pytensor_parsing_result` (compile/pytensor.py:109-127): every tensor is in the cache (so no
name is used twice, and none is `pt`) and is used in some equation.  Equations cannot use other tensors,
because `eval` finds only those of the cache. -/
def validateParsing (objs : List ModelObject) (es : List PExpr) : Res Unit :=
  if (objs.map ModelObject.name).Nodup ∧ ptName ∉ objs.map ModelObject.name ∧
      ∀ o ∈ objs, o.name ∈ es.flatMap PExpr.vars then .ok ()
  else .error .valueError

/-- `cge_primitives_to_pytensor`, `validate_pytensor_parsing_result` and the compilation of `f_system`
(compile/pytensor.py:50-72,281-293), for equations with the given names and expressions. -/
noncomputable def compileText (coords : Coords) (objs : List ModelObject) (names : List Str)
    (es : List PExpr) : Res (KwFun ℝ (List ℝ)) := do
  let unpacked ← unpackedEquationNames names coords
  let cache ← shapeCache coords objs
  let shapes ← es.mapM (evalShape (lookupName cache))
  let _ ← npConcatenate (shapes.map fun s => List.replicate s.prod ())
  validateParsing objs es
  pure (callTextSystem (objs.map ModelObject.name) unpacked.length es)

/-! ## Text to sympy -/

/-- The value of a numeral. -/
def numQ (s : Str) : ℚ :=
  let ip := s.takeWhile (· != '.')
  let fp := (s.dropWhile (· != '.')).drop 1
  (digitsVal (ip ++ fp) : ℚ) / 10 ^ fp.length

/-- `Sum(e, limit)` and `Product(e, limit)`: sympy joins the limits of nested sums or products, the innermost
first. -/
def sympyRed (op : RedOp) (e : RExpr) (l : Lim) : RExpr :=
  match e with
  | .red op' body lims => if op' = op then .red op body (lims ++ [l]) else .red op (.red op' body lims) [l]
  | e => .red op e [l]

/-- `i` becomes `j`. -/
def renameIdx (i j : Str) : SIdx → SIdx
  | .idx d => .idx (if d = i then j else d)
  | s => s

/-- `e.subs(i, j)` for two symbols, also where they are indices; bound indices stay. -/
def renameSymbol (i j : Str) : RExpr → RExpr
  | .num q => .num q
  | .sym x => .sym (if x = i then j else x)
  | .indexed b ix => .indexed b (ix.map (renameIdx i j))
  | .add a b => .add (renameSymbol i j a) (renameSymbol i j b)
  | .mul a b => .mul (renameSymbol i j a) (renameSymbol i j b)
  | .pow a b => .pow (renameSymbol i j a) (renameSymbol i j b)
  | .log a => .log (renameSymbol i j a)
  | .exp a => .exp (renameSymbol i j a)
  | .red op body lims =>
      if lims.any fun l => decide (l.i = i) then .red op body lims else .red op (renameSymbol i j body) lims

/-- `e.subs(A, B)`.  Simplification: an index is only replaced by another symbol. -/
def subsExpr (A B : RExpr) (e : RExpr) : RExpr :=
  match A, B with
  | .sym i, .sym j => renameSymbol i j e
  | A, B => subsUnbound A B e

/-- What a name means to `sp.parse_expr`. -/
def symbolOf (locals : Dict Str RExpr) (x : Str) : RExpr := (dget locals x).getD (.sym x)

/-- `e.subs([(a, b), …])`: one replacement after the other. -/
def subsNames (locals : Dict Str RExpr) (ps : List (Str × Str)) (e : RExpr) : RExpr :=
  ps.foldl (fun e p => subsExpr (symbolOf locals p.1) (symbolOf locals p.2) e) e

/-- `e.subs(i, k)` for a symbol and a number, also where the symbol is an index; bound indices stay. -/
def numberSymbol (i : Str) (k : Nat) : RExpr → RExpr
  | .num q => .num q
  | .sym x => if x = i then .num k else .sym x
  | .indexed b ix => .indexed b (ix.map (RExpr.setIdx i k))
  | .add a b => .add (numberSymbol i k a) (numberSymbol i k b)
  | .mul a b => .mul (numberSymbol i k a) (numberSymbol i k b)
  | .pow a b => .pow (numberSymbol i k a) (numberSymbol i k b)
  | .log a => .log (numberSymbol i k a)
  | .exp a => .exp (numberSymbol i k a)
  | .red op body lims =>
      if lims.any fun l => decide (l.i = i) then .red op body lims else .red op (numberSymbol i k body) lims

/-- `e.subs({i: k})` for a number `k`.  Simplification: fractions are refused. -/
def subsNumber (locals : Dict Str RExpr) (i k : Str) (e : RExpr) : Res RExpr :=
  if '.' ∈ k then .error .valueError
  else match symbolOf locals i with
    | .sym x => .ok (numberSymbol x (digitsVal k) e)
    | A => .ok (subsUnbound A (.num (digitsVal k)) e)

/-- `local_dict` (base/cge.py:398-406): the objects; the names of the dims are index symbols and replace
objects of the same name. -/
def localDict (coords : Coords) (objs : List ModelObject) : Dict Str RExpr :=
  dupdate (dofPairs (objs.map fun o => (o.name, toSympy o))) ((dkeys coords).map fun d => (d, .sym d))

/-- `sp.parse_expr(text, local_dict=…)` (base/cge.py:408-420) up to equality of values: unknown names become
symbols, `-a` is `(-1)*a` and `a/b` is `a*b**(-1)`; sympy's expressions have no methods named `sum`, `prod` or
`ravel` and cannot be indexed by `None` or numbers (what is raised is turned into `ValueError`). -/
def sympyOf (locals : Dict Str RExpr) : PExpr → Res RExpr
  | .var x => .ok (symbolOf locals x)
  | .num s => .ok (.num (numQ s))
  | .neg e => do .ok (.mul (.num (-1)) (← sympyOf locals e))
  | .pos e => sympyOf locals e
  | .add a b => do .ok (.add (← sympyOf locals a) (← sympyOf locals b))
  | .sub a b => do .ok (.add (← sympyOf locals a) (.mul (.num (-1)) (← sympyOf locals b)))
  | .mul a b => do .ok (.mul (← sympyOf locals a) (← sympyOf locals b))
  | .div a b => do .ok (.mul (← sympyOf locals a) (.pow (← sympyOf locals b) (.num (-1))))
  | .pow a b => do .ok (.pow (← sympyOf locals a) (← sympyOf locals b))
  | .post e q => do
      let r ← sympyOf locals e
      match q with
      | .subs i j => .ok (subsNames locals [(i, j)] r)
      | .subsNum i k => subsNumber locals i k r
      | .subsList ps => .ok (subsNames locals ps r)
      | _ => .error .valueError
  | .sumOver e d lo hi => do .ok (sympyRed .sum (← sympyOf locals e) ⟨d, digitsVal lo, digitsVal hi + 1⟩)
  | .prodOver e d lo hi => do .ok (sympyRed .prod (← sympyOf locals e) ⟨d, digitsVal lo, digitsVal hi + 1⟩)

/-- The parsed equation. -/
def parseSympy (coords : Coords) (objs : List ModelObject) (name : Str) (l r : PExpr) : Res ParsedEq := do
  .ok ⟨name, ← sympyOf (localDict coords objs) l, ← sympyOf (localDict coords objs) r⟩

end Verif
