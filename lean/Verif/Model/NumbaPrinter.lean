import Verif.Model.NumbaCode
import Verif.Model.Production
import Mathlib.Data.Real.Basic

/-!
# Model of the printer that turns sympy expressions into numba code

`cge_modeling/compile/numba_tools.py`, lines 17-61: the class `NumbaFriendlyNumPyPrinter` overrides four methods of
sympy's `NumPyPrinter`.  The text of the arguments (`self._print(i)`) comes from the inherited methods and is an input
here.
-/

namespace Verif

/-- `_print_Max` (numba_tools.py:20-25); `self._module` is `numpy`. -/
def printMax (args : List Str) : Str :=
  "numpy.maximum(".toList ++ joinStr ",".toList args ++ ")".toList

/-- The expression of a piece.  `sp.Float(e)` (numba_tools.py:38) converts a number and raises `TypeError` for an
expression with symbols in it. -/
inductive PieceExpr where
  /-- a number, with the text that is printed for `sp.Float(e)` -/
  | number (text : Str)
  /-- an expression with free symbols -/
  | formula (text : Str)
  deriving DecidableEq

/-- `self._print(sp.Float(e))` -/
def PieceExpr.printFloat : PieceExpr → Res Str
  | .number t => .ok t
  | .formula _ => .error .typeError

/-- One argument of a `Piecewise`: the expression and the printed condition. -/
structure PwPiece where
  /-- `arg.expr` -/
  expr : PieceExpr
  /-- `self._print(arg.cond)` -/
  cond : Str

/-- The loop at lines 32-44: the list `result`, with the counter `i`. -/
def piecewiseLoop : Nat → List Str → List PwPiece → Res (List Str)
  | _, result, [] => .ok result
  | i, result, p :: ps =>
    match p.expr.printFloat with
    | .error e => .error e
    | .ok t =>
      piecewiseLoop (i + 1)
        (result ++ (if i = 0 then ["(".toList] else []) ++
          ["(".toList, t, ")".toList, " if ".toList, p.cond, " else ".toList]) ps

/-- `_print_Piecewise` (numba_tools.py:27-50). -/
def printPiecewise (ps : List PwPiece) : Res Str :=
  match piecewiseLoop 0 [] ps with
  | .error e => .error e
  | .ok all =>
    -- 45: `result = result[:-1]`
    let result := all.dropLast
    -- 46: `result[-1]`
    match result.getLast? with
    | none => .error .indexError
    | some last =>
      if last = "True".toList then
        .ok (result.dropLast.dropLast ++ [")".toList]).flatten
      else
        .ok (result ++ [" else None)".toList]).flatten

/-- `_print_DiracDelta` (numba_tools.py:52-55). -/
def printDiracDelta (_args : List Str) : Str := "0.0".toList

/-- `_print_log` (numba_tools.py:57-61). -/
def printLog (args : List Str) : Str :=
  "numpy.log(".toList ++ joinStr ",".toList args ++ ")".toList

end Verif
