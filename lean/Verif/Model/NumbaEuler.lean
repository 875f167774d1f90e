import Verif.Model.NumbaCode
import Verif.Model.SymExpr
import Verif.Model.Euler
import Mathlib.LinearAlgebra.Matrix.NonsingularInverse

/-!
# The linear system of the numba Euler step

Models `compile_numba_euler_func` (`cge_modeling/compile/numba.py:132-164`): the symbolic matrices, the
renaming of the symbols of the current point, and the binding of the compiled functions' arguments.
Simplifications: a symbol is its name (the generated code sees nothing else); the printing of the
expressions and `sp.cse` are exact; there is at least one parameter.
-/

namespace Verif

open SymExpr

/-- `sp.Symbol(f"{x.name}_0")` (compile/numba.py:141-143). -/
def zeroName (x : Str) : Str := x ++ "_0".toList

/-- One replacement `x → x_0`. -/
def replaceSym (e : SymExpr Str) (x : Str) : SymExpr Str :=
  e.mapAtoms fun y => if y = x then zeroName x else y

/-- `.subs(inital_state_subs)` (compile/numba.py:145-146).  sympy's `subs` with a dictionary makes the
replacements one after the other; `order` is the order it chooses. -/
def subsInOrder (order : List Str) (e : SymExpr Str) : SymExpr Str := order.foldl replaceSym e

/-- `list(inital_state_subs.values())` (compile/numba.py:149-154). -/
def pointNames (vars params : List Str) : List Str :=
  dvalues (dofPairs ((vars ++ params).map fun x => (x, zeroName x)))

/-- `A_sub` (compile/numba.py:135-138, 145). -/
def eulerA (order vars : List Str) (eqs : List (SymExpr Str)) : List (List (SymExpr Str)) :=
  (makeJacobian eqs vars).map fun row => row.map (subsInOrder order)

/-- `Bv`: the matrix of derivatives with respect to the parameters, renamed, times the column of the
parameters' symbols, which here stand for the step (compile/numba.py:139, 146). -/
def eulerBv (order params : List Str) (eqs : List (SymExpr Str)) : List (SymExpr Str) :=
  eqs.map fun e => SymExpr.sum (params.map fun p => .mul (subsInOrder order (diff p e)) (.sym p))

/-- The value of a name inside a compiled function.  (Names that are not bound do not occur in models
whose equations use declared names only; Python would raise `NameError`.) -/
noncomputable def localValue (locals : Dict Str (LocalVal ℝ)) (a : Str) : ℝ :=
  match dget locals a with
  | some (.num v) => v
  | _ => 0

/-- The two arrays of `f_dX` (compile/numba.py:155-160) when it is called as `f_step(step_size, x)` by
`euler_approx` (line 124): the compiled functions take the parameters' symbols from their first argument
and the `_0` symbols from the second. -/
noncomputable def numbaSystem (order vars params : List Str) (eqs : List (SymExpr Str))
    (stepSize x : List ℝ) : Res (List (List ℝ) × List ℝ) :=
  match runPrelude params (some (pointNames vars params)) stepSize x with
  | .error e => .error e
  | .ok locals =>
    if hidesNumpy locals then .error .attributeError
    else .ok
      ((eulerA order vars eqs).map fun row => row.map (eval (localValue locals)),
       (eulerBv order params eqs).map (eval (localValue locals)))

open Classical in
/-- `np.linalg.solve` (exact arithmetic): a matrix that is not square or that is singular raises
`LinAlgError`. -/
noncomputable def npSolve (A : List (List ℝ)) (b : List ℝ) : Res (List ℝ) :=
  if (∀ row ∈ A, row.length = A.length) ∧ b.length = A.length then
    let M : Matrix (Fin A.length) (Fin A.length) ℝ := fun i j => ((A[i.val]?.getD [])[j.val]?).getD 0
    if IsUnit M.det then .ok (List.ofFn (M⁻¹.mulVec fun i => (b[i.val]?).getD 0)) else .error .linAlg
  else .error .linAlg

/-- `f_dX` (compile/numba.py:155-160).  The state vector that `euler_approx` passes holds the variables
and then the parameters. -/
noncomputable def numbaDX (order vars params : List Str) (eqs : List (SymExpr Str)) : StepSolve ℝ :=
  fun x t stepSize =>
    match numbaSystem order vars params eqs stepSize (x ++ t) with
    | .error e => .error e
    | .ok (A, b) =>
      match npSolve A b with
      | .error e => .error e
      | .ok d => .ok (d.map fun v => -v)

end Verif
