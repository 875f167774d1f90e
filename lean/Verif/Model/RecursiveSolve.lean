import Verif.Model.SymExpr
import Mathlib.Data.List.Dedup

/-!
# Recursive calibration

Models `recursive_solve_symbolic` (`cge_modeling/tools/sympy_tools.py:532-591`).  `sp.simplify` and
`sp.solve` are parameters.  Simplifications: `.evalf()` is exact, so numbers are rationals, and
`sp.solve` of one equation in one unknown returns a list of numbers.
-/

namespace Verif

variable {α : Type} [DecidableEq α]

/-- The two sympy functions used. -/
structure SymSolver (α : Type) where
  simplify : SymExpr α → SymExpr α
  solve : SymExpr α → α → List ℚ

/-- A known value takes the place of its symbol. -/
def substSym (known : Dict α ℚ) (a : α) : SymExpr α :=
  match dget known a with
  | some v => .num v
  | none => .sym a

/-- `eq.subs(known_values)`. -/
def substKnown (known : Dict α ℚ) : SymExpr α → SymExpr α
  | .num q => .num q
  | .sym a => substSym known a
  | .add a b => .add (substKnown known a) (substKnown known b)
  | .mul a b => .mul (substKnown known a) (substKnown known b)
  | .pow a b => .pow (substKnown known a) (substKnown known b)
  | .log a => .log (substKnown known a)
  | .exp a => .exp (substKnown known a)

/-- `list(eq.free_symbols)`; the order does not matter below. -/
def freeSymbols (e : SymExpr α) : List α := e.atoms.dedup

/-- The value taken from the list of solutions (tools/sympy_tools.py:565-569): the first, or zero when
there is none. -/
def firstSolution (l : List ℚ) : ℚ := l.headD 0

/-- The state of the loop over the simplified equations (tools/sympy_tools.py:557-575). -/
structure PassState (α : Type) where
  known : Dict α ℚ
  found : Bool
  remove : List (SymExpr α)

/-- The body of that loop. -/
def passStep (S : SymSolver α) (st : PassState α) (e : SymExpr α) : PassState α :=
  match freeSymbols e with
  | [] => { st with remove := st.remove ++ [e] }
  | [x] => { known := dset st.known x (firstSolution (S.solve e x)), found := true,
             remove := st.remove ++ [e] }
  | _ => st

/-- One iteration of the outer loop up to the tests for `break` (tools/sympy_tools.py:555-578): the new
known values, whether a solution was found, and the equations left. -/
def solvePass (S : SymSolver α) (known : Dict α ℚ) (unsolved : List (SymExpr α)) :
    Dict α ℚ × Bool × List (SymExpr α) :=
  let simplified := unsolved.map fun e => S.simplify (substKnown known e)
  let st := simplified.foldl (passStep S) ⟨known, false, []⟩
  (st.known, st.found, st.remove.foldl List.erase simplified)

/-- The outer loop (tools/sympy_tools.py:555-584); `n` is `len(equations)`. -/
def solveLoop (S : SymSolver α) (n : Nat) :
    Nat → Dict α ℚ → List (SymExpr α) → Dict α ℚ × List (SymExpr α)
  | 0, known, unsolved => (known, unsolved)
  | k + 1, known, unsolved =>
      let r := solvePass S known unsolved
      if r.1.length = n then (r.1, r.2.2)
      else if r.2.1 = false then (r.1, r.2.2)
      else solveLoop S n k r.1 r.2.2

/-- `recursive_solve_symbolic` (tools/sympy_tools.py:532-591).  (The dictionary passed by the caller is
itself updated, also when the call raises.) -/
def recursiveSolve (S : SymSolver α) (equations : List (SymExpr α)) (known : Option (Dict α ℚ))
    (maxIter : Nat) : Res (Dict α ℚ) :=
  let r := solveLoop S equations.length maxIter (known.getD []) equations
  if r.2 = [] then .ok r.1 else .error .valueError

end Verif
