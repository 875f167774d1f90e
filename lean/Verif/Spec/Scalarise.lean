import Verif.Spec.Reduce
import Verif.Spec.SympyTensor
import Verif.Spec.Template

/-!
# What the indexed equations of a model say about its arrays
-/

namespace Verif

/-- The symbols of an expression that have no indices. -/
def RExpr.syms : RExpr → List Str
  | .num _ => []
  | .sym x => [x]
  | .indexed _ _ => []
  | .add a b => syms a ++ syms b
  | .mul a b => syms a ++ syms b
  | .pow a b => syms a ++ syms b
  | .log a => syms a
  | .exp a => syms a
  | .red _ body _ => syms body

/-- The index `d` occurs free, at a symbol other than those in `fixed`: not bound by a reduction, and not
in a reduction over nothing. -/
def hasFree (fixed : List Str) (d : Str) : RExpr → Bool
  | .num _ => false
  | .sym _ => false
  | .indexed b ix => !fixed.contains b && ix.contains (.idx d)
  | .add a b => hasFree fixed d a || hasFree fixed d b
  | .mul a b => hasFree fixed d a || hasFree fixed d b
  | .pow a b => hasFree fixed d a || hasFree fixed d b
  | .log a => hasFree fixed d a
  | .exp a => hasFree fixed d a
  | .red _ body lims =>
      hasFree fixed d body && lims.all fun l => l.i != d && decide (l.lo < l.stop)

/-- The free indices of `lhs = rhs`, in the order of the coordinates. -/
def freeDims (coords : Coords) (fixed : List Str) (lhs rhs : RExpr) : List Str :=
  (dkeys coords).filter fun d => hasFree fixed d lhs || hasFree fixed d rhs

/-- The text of a label. -/
def labelText : SIdx → Str
  | .idx i => i
  | .num n => (toString n).toList
  | .lab l => l

/-- The entry, for the given labels, of the array of object `b` when the arrays of the objects, one after
the other and each in row-major order, are `flat`. -/
noncomputable def arrayEntry (coords : Coords) (objs : List ModelObject) (flat : List ℝ) (b : Str)
    (ix : List SIdx) : ℝ :=
  match objs.findIdx? (fun o => o.name = b) with
  | none => 0
  | some m => flat.getD (offsetOf coords objs m + ravelIndex (((objs[m]?).map (specShape coords)).getD [])
      ((((objs[m]?).map ModelObject.dims).getD []).zipWith
        (fun d s => (labelsOf coords d).idxOf (labelText s)) ix)) 0

/-- The same, with all entries of the objects in `fixed` equal to one. -/
noncomputable def entryFixing (coords : Coords) (fixed : List Str) (objs : List ModelObject)
    (flat : List ℝ) (b : Str) (ix : List SIdx) : ℝ :=
  if b ∈ fixed then 1 else arrayEntry coords objs flat b ix

/-- Every object is used with as many indices as it has dims, and each index ranges over labels of the
dim in whose place it stands. -/
structure WellIndexed (coords : Coords) (objs : List ModelObject) (e : RExpr) : Prop where
  scalars : ∀ x ∈ e.syms, ∃ o ∈ objs, o.name = x ∧ o.dims = []
  arrays : ∀ v ∈ e.indexeds, ∃ o ∈ objs, o.name = v.1 ∧ o.dims ≠ [] ∧ List.Forall₂ (fun s d =>
    (∃ i, s = .idx i ∧ i ∈ dkeys coords ∧ ∀ l ∈ labelsOf coords i, l ∈ labelsOf coords d) ∨
    (∃ l, s = sympifyLabel l ∧ l ∈ labelsOf coords d)) v.2 o.dims

/-- The index symbols stand for the given labels. -/
def bindLabels (ds ls : List Str) : Str → SIdx := fun d =>
  match dget (ds.zip ls) d with
  | some l => sympifyLabel l
  | none => .idx d

/-- The label chosen for a dim. -/
def chosen (ds ls : List Str) : Str → Str := fun d => (dget (ds.zip ls) d).getD []

/-- An equation `lhs = rhs` with a name that may contain markers. -/
structure IndexedEq where
  name : Template
  lhs : RExpr
  rhs : RExpr

/-- What an equation demands of the arrays `flat`: for every combination of labels of its free indices,
in row-major order, the difference of its sides should be zero. -/
noncomputable def demanded (coords : Coords) (fixed : List Str) (objs : List ModelObject) (flat : List ℝ)
    (q : IndexedEq) : List ℝ :=
  let ds := freeDims coords fixed q.lhs q.rhs
  let entry := entryFixing coords fixed objs flat
  (product (ds.map (labelsOf coords))).map fun ls =>
    q.lhs.value (fun x => entry x []) entry coords (bindLabels ds ls) -
      q.rhs.value (fun x => entry x []) entry coords (bindLabels ds ls)

/-- No reduction over an index of `o` has `o` in its body. -/
def NotCaptured (o : ModelObject) : RExpr → Prop
  | .num _ => True
  | .sym _ => True
  | .indexed _ _ => True
  | .add a b => NotCaptured o a ∧ NotCaptured o b
  | .mul a b => NotCaptured o a ∧ NotCaptured o b
  | .pow a b => NotCaptured o a ∧ NotCaptured o b
  | .log a => NotCaptured o a
  | .exp a => NotCaptured o a
  | .red _ body lims =>
      NotCaptured o body ∧ ((∃ l ∈ lims, l.i ∈ o.dims) → ∀ v ∈ body.indexeds, v.1 ≠ o.name)

/-- One side of an equation of the model. -/
structure SideOK (coords : Coords) (objs : List ModelObject) (numeraire : Option ModelObject)
    (e : RExpr) : Prop where
  plain : AllPlain coords e
  indexed : WellIndexed coords (objs ++ numeraire.toList) e
  /-- The numeraire is used with its own indices only. -/
  own : ∀ o, numeraire = some o → ∀ v ∈ e.indexeds, v.1 = o.name → v.2 = o.dims.map .idx
  free : ∀ o, numeraire = some o → NotCaptured o e

/-- The variables that are solved for: all but the numeraire. -/
def solvedVars (numeraire : Option ModelObject) (vars : List ModelObject) : List ModelObject :=
  vars.filter fun o => decide (o.name ∉ numeraire.toList.map ModelObject.name)

/-- A model given by indexed equations; the numeraire, if there is one, is one of the variables. -/
structure IndexedModel (coords : Coords) (vars params : List ModelObject)
    (numeraire : Option ModelObject) (eqs : List IndexedEq) : Prop where
  scalar : ScalarModel coords vars params
  coords_nodup : (dkeys coords).Nodup
  dim_names : ∀ d ∈ dkeys coords, '>' ∉ d
  label_names : ∀ d ls, dget coords d = some ls → ∀ (k : Nat) (l : Str), ls[k]? = some l → FitLabel ls.length k l ∧ '<' ∉ l
  numeraire_mem : ∀ o, numeraire = some o → o ∈ vars
  sides : ∀ q ∈ eqs, SideOK coords (solvedVars numeraire vars ++ params) numeraire q.lhs ∧
    SideOK coords (solvedVars numeraire vars ++ params) numeraire q.rhs
  clean : ∀ q ∈ eqs, q.name.Clean
  markers : ∀ q ∈ eqs, ∀ d ∈ q.name.dims,
    d ∈ freeDims coords (numeraire.toList.map ModelObject.name) q.lhs q.rhs
  names : (eqs.flatMap fun q =>
    let ds := freeDims coords (numeraire.toList.map ModelObject.name) q.lhs q.rhs
    (product (ds.map (labelsOf coords))).map fun ls => q.name.filled (chosen ds ls)).Nodup

end Verif
