import Verif.Model.Reduce
import Mathlib.Analysis.SpecialFunctions.Pow.Real

/-!
# What sums and products over an index mean

`value … e η` is the number denoted by an expression when the index symbols stand for `η`.
-/

namespace Verif

/-- Let the index symbol `i` stand for `s`. -/
def setEnv (η : Str → SIdx) (i : Str) (s : SIdx) : Str → SIdx := fun j => if j = i then s else η j

/-- Resolve an index. -/
def bindIdx (η : Str → SIdx) : SIdx → SIdx
  | .idx i => η i
  | s => s

/-- The sum or product of numbers. -/
def reduceVals : RedOp → List ℝ → ℝ
  | .sum, l => l.sum
  | .prod, l => l.prod

/-- The labels a limit ranges over: all labels of the index when the limit is `(i, 0, n - 1)`. -/
def limLabels (coords : Coords) (l : Lim) : List Str :=
  (((dget coords l.i).getD []).drop l.lo).take (l.stop - l.lo)

/-- Reduce `F` over the given values of every limit, the first limit innermost. -/
def overLims (vals : Lim → List SIdx) (op : RedOp) :
    List Lim → ((Str → SIdx) → ℝ) → (Str → SIdx) → ℝ
  | [], F, η => F η
  | l :: ls, F, η =>
      overLims vals op ls (fun η => reduceVals op ((vals l).map fun s => F (setEnv η l.i s))) η

/-- The value of an expression: `σ` gives the scalars, `A` the entries of the indexed symbols, `η` the
index symbols.  A reduction ranges over the labels of its indices, as `sympify` reads them. -/
noncomputable def RExpr.value (σ : Str → ℝ) (A : Str → List SIdx → ℝ) (coords : Coords) :
    RExpr → (Str → SIdx) → ℝ
  | .num q, _ => (q : ℝ)
  | .sym x, _ => σ x
  | .indexed b ix, η => A b (ix.map (bindIdx η))
  | .add a b, η => value σ A coords a η + value σ A coords b η
  | .mul a b, η => value σ A coords a η * value σ A coords b η
  | .pow a b, η => value σ A coords a η ^ value σ A coords b η
  | .log a, η => Real.log (value σ A coords a η)
  | .exp a, η => Real.exp (value σ A coords a η)
  | .red op body lims, η =>
      overLims (fun l => (limLabels coords l).map sympifyLabel) op lims (value σ A coords body) η

/-- No reduction operator is left. -/
def RedFree : RExpr → Prop
  | .num _ => True
  | .sym _ => True
  | .indexed _ _ => True
  | .add a b => RedFree a ∧ RedFree b
  | .mul a b => RedFree a ∧ RedFree b
  | .pow a b => RedFree a ∧ RedFree b
  | .log a => RedFree a
  | .exp a => RedFree a
  | .red _ _ _ => False

/-- A label that is not written with digits only. -/
def NotNumeral (l : Str) : Prop := ¬ (l ≠ [] ∧ l.all Char.isDigit = true)

/-- A label that can stand at position `k` of `n`: it is not written with digits only, or it is a number, and
then the number `k` itself or one that is no position at all. -/
def FitLabel (n k : Nat) (l : Str) : Prop :=
  NotNumeral l ∨ ∃ m : Nat, l = (toString m).toList ∧ (m = k ∨ n ≤ m)

/-- All labels can stand where they stand. -/
def FitLabels (coords : Coords) : Prop :=
  ∀ i ls, dget coords i = some ls → ∀ (k : Nat) (l : Str), ls[k]? = some l → FitLabel ls.length k l

/-- A reduction as the models use it: nothing nested in the body, bounds within the labels, all indices
of the body known and with labels, and a base symbol whose index lists agree (position by position) on
the labels. -/
structure PlainReduction (coords : Coords) (body : RExpr) (lims : List Lim) : Prop where
  redFree : RedFree body
  bounds : ∀ l ∈ lims, l.stop ≤ ((dget coords l.i).getD []).length
  known : ∀ v ∈ body.indexeds, ∀ s ∈ v.2, ∃ i ls, s = SIdx.idx i ∧ dget coords i = some ls ∧ ls ≠ []
  consistent : ∀ v ∈ body.indexeds, ∀ w ∈ body.indexeds, v.1 = w.1 → ∀ (p : Nat) (i j : Str),
    v.2[p]? = some (.idx i) → w.2[p]? = some (.idx j) →
    i ∈ lims.map Lim.i → j ∈ lims.map Lim.i → dget coords i = dget coords j

/-- Every reduction inside the expression is plain. -/
def AllPlain (coords : Coords) : RExpr → Prop
  | .num _ => True
  | .sym _ => True
  | .indexed _ _ => True
  | .add a b => AllPlain coords a ∧ AllPlain coords b
  | .mul a b => AllPlain coords a ∧ AllPlain coords b
  | .pow a b => AllPlain coords a ∧ AllPlain coords b
  | .log a => AllPlain coords a
  | .exp a => AllPlain coords a
  | .red _ body lims => PlainReduction coords body lims

end Verif
