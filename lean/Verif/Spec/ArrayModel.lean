import Verif.Model.PyExpr
import Verif.Spec.ExprValue
import Verif.Spec.Scalarise

/-!
# Equations written for arrays and the same equations written with indices
-/

namespace Verif

/-- `Sum(f, (d, lo, hi))` or `Product(f, (d, lo, hi))`. -/
def overDim : RedOp → PExpr → Str → Str → Str → PExpr
  | .sum => .sumOver
  | .prod => .prodOver

/-- The method of arrays that adds up or multiplies all entries. -/
def reduceMethod : RedOp → Str
  | .sum => "sum".toList
  | .prod => "prod".toList

/-- The limits `(d, lo, hi)` are those of all labels of `d`. -/
def FullRange (coords : Coords) (d lo hi : Str) : Prop :=
  digitsVal lo = 0 ∧ digitsVal hi + 1 = (labelsOf coords d).length

/-- `Sum(… Sum(f, (d, 0, n - 1)) …)` over all labels of the given dims, the last one innermost. -/
inductive SumsOver (coords : Coords) (op : RedOp) : List Str → PExpr → PExpr → Prop where
  | nil {f} : SumsOver coords op [] f f
  | cons {d ds f g lo hi} : SumsOver coords op ds f g → FullRange coords d lo hi →
      SumsOver coords op (d :: ds) f (overDim op g d lo hi)

/-- The axes of an array: a dim, or `none` for an axis of length one made by `None`. -/
abbrev Axes := List (Option Str)

/-- An axis of length one is repeated. -/
inductive AxisFit : Option Str → Option Str → Option Str → Prop where
  | same {a} : AxisFit a a a
  | left {a} : AxisFit none a a
  | right {a} : AxisFit a none a

/-- numpy's rule for the axes of two operands, the last axes first: missing axes are repeated, too. -/
inductive AxesFitRev : Axes → Axes → Axes → Prop where
  | left {s} : AxesFitRev [] s s
  | right {s} : AxesFitRev s [] s
  | cons {a b c s t u} : AxisFit a b c → AxesFitRev s t u → AxesFitRev (a :: s) (b :: t) (c :: u)

/-- The axes `ds` and `es` of two operands give the axes `fs`. -/
def AxesFit (ds es fs : Axes) : Prop := AxesFitRev ds.reverse es.reverse fs.reverse

/-- What `[(a, b), …]` makes of an index, one replacement after the other. -/
def renamed (ps : List (Str × Str)) (d : Str) : Str := ps.foldl (fun d p => if d = p.1 then p.2 else d) d

/-- The replacements put, for every axis, a dim with the same labels, and concern no object. -/
structure RenamesAxes (coords : Coords) (objs : List ModelObject) (ps : List (Str × Str)) (axs : Axes) :
    Prop where
  objects : ∀ p ∈ ps, p.1 ∉ objs.map ModelObject.name ∧ p.2 ∉ objs.map ModelObject.name
  known : ∀ d, some d ∈ axs → renamed ps d ∈ dkeys coords
  labels : ∀ d, some d ∈ axs → labelsOf coords (renamed ps d) = labelsOf coords d

/-- `Twins b e f axs`: `e`, written for arrays, and `f`, written for sympy, are the same arithmetic with
objects, and `e` has the axes `axs`.  They differ in the order of sums and products, in how axes are brought together, by `x[None]`, `x[:, None]`
and `x.ravel()` or by replacing indices, and (only if `b` is true) in how sums and products are written,
`(body).sum()` or `(body).sum(axis=k)`, and `Sum(body, (d, 0, n - 1))`, and how entries are picked, `x[0]` and
`x.subs({d:0})`, where the label at position 0 is `"0"`. -/
inductive Twins (coords : Coords) (objs : List ModelObject) : Bool → PExpr → PExpr → Axes → Prop where
  | var {b o} : o ∈ objs → Twins coords objs b (.var o.name) (.var o.name) (o.dims.map some)
  | num {b s} : Twins coords objs b (.num s) (.num s) []
  | neg {b e f ds} : Twins coords objs b e f ds → Twins coords objs b (.neg e) (.neg f) ds
  | pos {b e f ds} : Twins coords objs b e f ds → Twins coords objs b (.pos e) (.pos f) ds
  | add {b e g f h ds es fs} : Twins coords objs b e f ds → Twins coords objs b g h es → AxesFit ds es fs →
      Twins coords objs b (.add e g) (.add f h) fs
  | sub {b e g f h ds es fs} : Twins coords objs b e f ds → Twins coords objs b g h es → AxesFit ds es fs →
      Twins coords objs b (.sub e g) (.sub f h) fs
  | mul {b e g f h ds es fs} : Twins coords objs b e f ds → Twins coords objs b g h es → AxesFit ds es fs →
      Twins coords objs b (.mul e g) (.mul f h) fs
  | div {b e g f h ds es fs} : Twins coords objs b e f ds → Twins coords objs b g h es → AxesFit ds es fs →
      Twins coords objs b (.div e g) (.div f h) fs
  | pow {b e g f h ds es fs} : Twins coords objs b e f ds → Twins coords objs b g h es → AxesFit ds es fs →
      Twins coords objs b (.pow e g) (.pow f h) fs
  | addSwap {b e g f h ds es fs} : Twins coords objs b e f ds → Twins coords objs b g h es → AxesFit ds es fs →
      Twins coords objs b (.add e g) (.add h f) fs
  | mulSwap {b e g f h ds es fs} : Twins coords objs b e f ds → Twins coords objs b g h es → AxesFit ds es fs →
      Twins coords objs b (.mul e g) (.mul h f) fs
  | newAxis0 {b e f ds} : Twins coords objs b e f ds → ds ≠ [] →
      Twins coords objs b (.post e .newAxis0) f (none :: ds)
  | newAxis1 {b e f a ds} : Twins coords objs b e f (a :: ds) →
      Twins coords objs b (.post e .newAxis1) f (a :: none :: ds)
  | ravel {b e f d} : Twins coords objs b e f [some d] →
      Twins coords objs b (.post e (.call "ravel".toList)) f [some d]
  | subs {e f axs i j} : Twins coords objs false e f axs → RenamesAxes coords objs [(i, j)] axs →
      Twins coords objs false e (.post f (.subs i j)) (axs.map (Option.map (renamed [(i, j)])))
  | subsList {e f axs ps} : Twins coords objs false e f axs → RenamesAxes coords objs ps axs →
      Twins coords objs false e (.post f (.subsList ps)) (axs.map (Option.map (renamed ps)))
  | free {e f axs} : Twins coords objs false e f axs → Twins coords objs true e f axs
  | reduce {op e f g ds} : Twins coords objs false e f (ds.map some) → ds ≠ [] → ds.Nodup →
      SumsOver coords op ds f g → Twins coords objs true (.post e (.call (reduceMethod op))) g []
  | sumAxis {e f axs k d lo hi} : Twins coords objs false e f axs → '.' ∉ k →
      axs[digitsVal k]? = some (some d) → some d ∉ axs.eraseIdx (digitsVal k) → FullRange coords d lo hi →
      Twins coords objs true (.post e (.sumAxis k)) (.sumOver f d lo hi) (axs.eraseIdx (digitsVal k))
  | item {e f axs d k} : Twins coords objs false e f (some d :: axs) → some d ∉ axs → '.' ∉ k →
      (labelsOf coords d)[digitsVal k]? = some (toString (digitsVal k)).toList →
      d ∉ objs.map ModelObject.name →
      Twins coords objs true (.post e (.item k)) (.post f (.subsNum d k)) axs

/-- An equation with its text for the pytensor back-end and its text for sympy. -/
structure TextEq where
  name : Template
  arrLhs : Str
  arrRhs : Str
  symLhs : Str
  symRhs : Str

/-- The two texts of an equation. -/
def TextEq.arrText (q : TextEq) : Str := q.arrLhs ++ " = ".toList ++ q.arrRhs

def TextEq.symText (q : TextEq) : Str := q.symLhs ++ " = ".toList ++ q.symRhs

/-- The two texts of an equation are read as twins with the axes `ds`, which are in the order of the
coordinates and are the markers of the name. -/
structure TextEq.OK (coords : Coords) (objs : List ModelObject) (q : TextEq) (l r l' r' : PExpr)
    (ds : List Str) : Prop where
  arrL : Reads q.arrLhs l
  arrR : Reads q.arrRhs r
  symL : Reads q.symLhs l'
  symR : Reads q.symRhs r'
  equals : OnlyAxisEquals q.arrLhs
  twins : ∃ dl dr, Twins coords objs true l l' dl ∧ Twins coords objs true r r' dr ∧
    AxesFit dl dr (ds.map some)
  order : List.Sublist ds (dkeys coords)
  clean : q.name.Clean
  markers : q.name.dims = ds

/-- The name `x` occurs in the expression. -/
def PExpr.Names (x : Str) : PExpr → Prop
  | .var y => x = y
  | .num _ => False
  | .neg e => Names x e
  | .pos e => Names x e
  | .add a b => Names x a ∨ Names x b
  | .sub a b => Names x a ∨ Names x b
  | .mul a b => Names x a ∨ Names x b
  | .div a b => Names x a ∨ Names x b
  | .pow a b => Names x a ∨ Names x b
  | .post e _ => Names x e
  | .sumOver e _ _ _ => Names x e
  | .prodOver e _ _ _ => Names x e

/-- A model whose equations are given by texts for both back-ends. -/
structure ArrayModel (coords : Coords) (vars params : List ModelObject) (eqs : List TextEq) : Prop where
  scalar : ScalarModel coords vars params
  coords_nodup : (dkeys coords).Nodup
  dim_names : ∀ d ∈ dkeys coords, '>' ∉ d
  label_names : ∀ d ls, dget coords d = some ls → ∀ (k : Nat) (l : Str), ls[k]? = some l → FitLabel ls.length k l ∧ '<' ∉ l
  labels : ∀ d ∈ dkeys coords, labelsOf coords d ≠ []
  names : ∀ o ∈ vars ++ params, o.name ≠ "pt".toList ∧ o.name ∉ dkeys coords
  nonempty : eqs ≠ []
  sides : ∀ q ∈ eqs, ∃ l r l' r' ds, q.OK coords (vars ++ params) l r l' r' ds
  used : ∀ o ∈ vars ++ params, ∃ q ∈ eqs, ∃ l r, Reads q.arrLhs l ∧ Reads q.arrRhs r ∧
    (l.Names o.name ∨ r.Names o.name)
  distinct : (eqs.flatMap fun q => (product (q.name.dims.map (labelsOf coords))).map fun ls =>
    q.name.filled (chosen q.name.dims ls)).Nodup

end Verif
