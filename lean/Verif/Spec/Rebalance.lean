import Verif.Model.Rebalance

/-!
# Square accounting matrices and their balances
-/

namespace Verif

variable {ι R : Type} [Field R] [LinearOrder R]

/-- Rows and columns have the same labels, each once (possibly in a different order). -/
structure SquareSam (df : Sam ι R) : Prop where
  rows : df.rows.Nodup
  cols : df.cols.Nodup
  same : ∀ x, x ∈ df.rows ↔ x ∈ df.cols
  levels : df.rowLevels = df.colLevels

/-- The row total of account `k`. -/
def rowTotal (df : Sam ι R) (k : ι) : R := (df.cols.map fun c => df.cell k c).sum

/-- The column total of account `k`. -/
def colTotal (df : Sam ι R) (k : ι) : R := (df.rows.map fun r => df.cell r k).sum

/-- The sum of the absolute values of the entries. -/
def absTotal (df : Sam ι R) : R := (df.cols.map fun c => (df.rows.map fun r => |df.cell r c|).sum).sum

/-- No two accounts have negative entries in both of their mirrored cells. -/
def NoMirroredNegatives (df : Sam ι R) : Prop :=
  ∀ r ∈ df.rows, ∀ c ∈ df.cols, r ≠ c → df.cell r c < 0 → ¬ df.cell c r < 0

end Verif
