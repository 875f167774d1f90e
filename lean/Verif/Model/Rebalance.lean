import Verif.Py.Basic
import Mathlib.Algebra.Order.Field.Basic

/-!
# Rebalancing a social accounting matrix

Models `cge_modeling/tools/rebalance.py`.  A data frame is its row labels, its column labels, the number
of levels of the two, and a value for every pair of labels; labels are taken to be unique.  Numbers are
elements of an ordered field.  The numerical optimizers (cvxpy, scipy) are parameters: the theorems
speak about every vector they may return.  Not modelled: assignment to a label that does not exist
(pandas enlarges the frame); the theorems assume that rows and columns have the same labels.
-/

namespace Verif

variable {ι R : Type} [DecidableEq ι] [Field R] [LinearOrder R]

/-- A data frame. -/
structure Sam (ι R : Type) where
  rows : List ι
  cols : List ι
  rowLevels : Nat
  colLevels : Nat
  cell : ι → ι → R

/-- `df.sum().sum()`. -/
def Sam.total (df : Sam ι R) : R :=
  (df.cols.map fun c => (df.rows.map fun r => df.cell r c).sum).sum

/-- The cells found by `(df < 0).melt(...)` (tools/rebalance.py:36-50): column by column. -/
def negativeLocs (df : Sam ι R) : List (ι × ι) :=
  df.cols.flatMap fun c => (df.rows.filter fun r => decide (df.cell r c < 0)).map fun r => (r, c)

/-- The attributes of a fitted `SAMTransformer`. -/
structure Fitted (ι R : Type) where
  scale : R
  negLocs : List (ι × ι)
  nLevels : Nat

/-- `SAMTransformer.fit` (tools/rebalance.py:29-52). -/
def samFit (df : Sam ι R) : Res (Fitted ι R) :=
  if df.rowLevels ≠ df.colLevels then .error .assertion
  else .ok ⟨df.total, negativeLocs df, df.rowLevels⟩

/-- `df.loc[row, col] = v`. -/
def setCell (f : ι → ι → R) (row col : ι) (v : R) : ι → ι → R :=
  fun r c => if r = row ∧ c = col then v else f r c

/-- The loop body of `transform` (tools/rebalance.py:60-62). -/
def moveNegative (f : ι → ι → R) (loc : ι × ι) : ι → ι → R :=
  setCell (setCell f loc.2 loc.1 (-(f loc.1 loc.2))) loc.1 loc.2 0

/-- The loop body of `inverse_transform` (tools/rebalance.py:76-78). -/
def moveBack (f : ι → ι → R) (loc : ι × ι) : ι → ι → R :=
  setCell (setCell f loc.1 loc.2 (-(f loc.2 loc.1))) loc.2 loc.1 0

/-- Every label the loop reads is there; otherwise `df.loc` raises `KeyError`. -/
def hasLocs (df : Sam ι R) (locs : List (ι × ι)) : Bool :=
  locs.all fun l => df.rows.contains l.1 && df.cols.contains l.2

/-- `SAMTransformer.transform` (tools/rebalance.py:54-64); `none` is an unfitted transformer. -/
def samTransform (t : Option (Fitted ι R)) (df : Sam ι R) : Res (Sam ι R) :=
  match t with
  | none => .error .valueError
  | some t =>
    if ¬ (t.nLevels = df.colLevels ∧ df.colLevels = df.rowLevels) then .error .assertion
    else if hasLocs df t.negLocs then
      .ok { df with cell := t.negLocs.foldl moveNegative fun r c => df.cell r c / t.scale }
    else .error .keyError

/-- `SAMTransformer.inverse_transform` (tools/rebalance.py:70-81).  The loop reads the mirror cell. -/
def samInverse (t : Option (Fitted ι R)) (df : Sam ι R) : Res (Sam ι R) :=
  match t with
  | none => .error .valueError
  | some t =>
    if ¬ (t.nLevels = df.colLevels ∧ df.colLevels = df.rowLevels) then .error .assertion
    else if hasLocs df (t.negLocs.map Prod.swap) then
      .ok { df with cell := fun r c => t.negLocs.foldl moveBack df.cell r c * t.scale }
    else .error .keyError

/-- `SAMTransformer.fit_transform` (tools/rebalance.py:66-68), with the fitted transformer. -/
def samFitTransform (df : Sam ι R) : Res (Fitted ι R × Sam ι R) := do
  let t ← samFit df
  let d ← samTransform (some t) df
  pure (t, d)

/-- A `SAMTransformer` object (tools/rebalance.py:20-27); the attributes that start as `None` are only
read after the flag is set. -/
structure SamObj (ι R : Type) where
  isFit : Bool
  scale : R
  negLocs : List (ι × ι)
  nLevels : Nat

/-- `SAMTransformer()`. -/
def SamObj.new : SamObj ι R := ⟨false, 0, [], 0⟩

/-- The object as `transform` and `inverse_transform` see it. -/
def SamObj.fitted (o : SamObj ι R) : Option (Fitted ι R) :=
  if o.isFit then some ⟨o.scale, o.negLocs, o.nLevels⟩ else none

/-- `fit` on the object: the number of levels is stored before the assertion. -/
def SamObj.fit (o : SamObj ι R) (df : Sam ι R) : SamObj ι R × Res Unit :=
  match samFit df with
  | .ok t => (⟨true, t.scale, t.negLocs, t.nLevels⟩, .ok ())
  | .error e => ({ o with nLevels := df.rowLevels }, .error e)

/-- `transform` on the object. -/
def SamObj.transform (o : SamObj ι R) (df : Sam ι R) : Res (Sam ι R) := samTransform o.fitted df

/-- `inverse_transform` on the object. -/
def SamObj.inverse (o : SamObj ι R) (df : Sam ι R) : Res (Sam ι R) := samInverse o.fitted df

/-! ### The optimizers' vectors -/

/-- `df.values`. -/
def Sam.values (df : Sam ι R) : List (List R) := df.rows.map fun r => df.cols.map fun c => df.cell r c

/-- The positions of the cells selected by a mask, row by row: `Z.nonzero()` of a `csr_array`, and the
positions of the true entries of `df.values > 0`. -/
def maskPositions (p : R → Bool) (V : List (List R)) : List (Nat × Nat) :=
  V.zipIdx.flatMap fun ri => ri.1.zipIdx.filterMap fun vj => if p vj.1 then some (ri.2, vj.2) else none

/-- The values selected by the mask: `Z.data` and `get_flat_nonzero_values`
(tools/rebalance.py:84-86, 161). -/
def maskValues (p : R → Bool) (V : List (List R)) : List R := V.flatten.filter p

/-- `sparse_to_vector_and_matrix` (tools/rebalance.py:159-171): the vector of values and the matrix `A`
given by the row of the single one in each of its columns; `m` is the number of columns of `Z`. -/
def sparseToVectorAndMatrix (m : Nat) (V : List (List R)) : List R × List Nat :=
  (maskValues (fun v => decide (v ≠ 0)) V,
   (maskPositions (fun v => decide (v ≠ 0)) V).map fun ij => ij.1 * m + ij.2)

/-- Entry `q` of `A @ x`. -/
def matVec (A : List Nat) (x : List R) (q : Nat) : R :=
  (((A.zip x).filter fun p => p.1 == q).map Prod.snd).sum

/-- `(A @ x).reshape((n, m))` (tools/rebalance.py:185, 198), entry `i, j`. -/
def reshapeAx (m : Nat) (A : List Nat) (x : List R) (i j : Nat) : R := matVec A x (i * m + j)

/-- `X = zeros; X[df.values > 0] = x` (tools/rebalance.py:111-115), entry `i, j`. -/
def scatterPositive (V : List (List R)) (x : List R) (i j : Nat) : R :=
  match ((maskPositions (fun v => decide (0 < v)) V).zip x).find? fun p => p.1 == (i, j) with
  | some p => p.2
  | none => 0

/-- `pd.DataFrame(Z, index=df.index, columns=df.columns)`. -/
def withValues (df : Sam ι R) (Z : Nat → Nat → R) : Sam ι R :=
  { df with cell := fun r c => Z (df.rows.idxOf r) (df.cols.idxOf c) }

/-- `_balance_with_cvxpy` (tools/rebalance.py:174-201) when the solver returns the vector `x`. -/
def balanceWithCvxpy (x : List R) (df : Sam ι R) : Sam ι R :=
  withValues df (reshapeAx df.rows.length (sparseToVectorAndMatrix df.cols.length df.values).2 x)

/-- `_balance_with_scipy` (tools/rebalance.py:204-268) when the optimizer returns the vector `x`. -/
def balanceWithScipy (x : List R) (df : Sam ι R) : Sam ι R :=
  withValues df (scatterPositive df.values x)

/-- `balance_SAM` (tools/rebalance.py:271-314) with the optimizers' answers `optCvxpy`, `optScipy` as
functions of the normalized matrix and the scale. -/
def balanceSam (optCvxpy : Sam ι R → R → List R) (optScipy : Sam ι R → List R)
    (crossEntropy useCvxpy : Bool) (sam : Sam ι R) : Res (Sam ι R) :=
  if crossEntropy = false then .error .notImplemented
  else do
    let (t, normalized) ← samFitTransform sam
    let balanced := if useCvxpy then balanceWithCvxpy (optCvxpy normalized t.scale) normalized
      else balanceWithScipy (optScipy normalized) normalized
    samInverse (some t) balanced

/-- The equality constraints given to cvxpy (tools/rebalance.py:187-191): the vector sums to one, and the
column sums times the scale are the row sums times the scale, position by position. -/
def CvxpyConstraints (df : Sam ι R) (scale : R) (x : List R) : Prop :=
  let n := df.rows.length
  let Z := reshapeAx n (sparseToVectorAndMatrix df.cols.length df.values).2 x
  x.length = (sparseToVectorAndMatrix df.cols.length df.values).1.length ∧ x.sum = 1 ∧ (∀ v ∈ x, 0 ≤ v) ∧
  ∀ k < n, ((List.range n).map fun i => Z i k).sum * scale = ((List.range n).map fun j => Z k j).sum * scale

/-- The constraints given to scipy (tools/rebalance.py:121-122, 243-251): the sum of the absolute
differences between column and row sums is zero, the vector sums to one. -/
def ScipyConstraints (df : Sam ι R) (x : List R) : Prop :=
  let n := df.rows.length
  let Z := scatterPositive df.values x
  x.length = (maskValues (fun v => decide (0 < v)) df.values).length ∧ x.sum = 1 ∧ (∀ v ∈ x, 0 ≤ v ∧ v ≤ 1) ∧
  ((List.range n).map fun k =>
    |((List.range n).map fun i => Z i k).sum - ((List.range n).map fun j => Z k j).sum|).sum = 0

end Verif
