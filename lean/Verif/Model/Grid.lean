import Verif.Py.Basic

/-!
# Layout of panels

Models `prepare_gridspec_figure` (`cge_modeling/plotting.py:14-53`).
-/

namespace Verif

/-- A pair of slices: rows `r0:r1`, columns `c0:c1` of the grid. -/
structure GridLoc where
  r0 : Nat
  r1 : Nat
  c0 : Nat
  c1 : Nat
  deriving DecidableEq

/-- The result of `prepare_gridspec_figure`: the shape of the grid and the locations. -/
structure GridFigure where
  rows : Nat
  cols : Nat
  locs : List GridLoc
  deriving DecidableEq

/-- `prepare_gridspec_figure` (plotting.py:14-53).  Matplotlib refuses a grid without rows. -/
def prepareGrid (nCols nPlots : Nat) : Res GridFigure :=
  if nCols = 0 then .error .zeroDivision
  else
    let remainder := nPlots % nCols
    let hasRemainder := if remainder > 0 then 1 else 0
    let nRows := nPlots / nCols + hasRemainder
    if nRows = 0 then .error .valueError
    else
      let full := (List.range (nRows - hasRemainder)).flatMap fun i =>
        (List.range nCols).map fun j => (⟨i * 2, (i + 1) * 2, j * 2, (j + 1) * 2⟩ : GridLoc)
      let last := if remainder > 0 then
          (List.range remainder).map fun j =>
            (⟨(nRows - 1) * 2, nRows * 2, (nCols - remainder) + j * 2,
              (nCols - remainder) + (j + 1) * 2⟩ : GridLoc)
        else []
      .ok ⟨2 * nRows, 2 * nCols, full ++ last⟩

end Verif
