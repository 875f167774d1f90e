import Verif.Model.RecursiveSolve
import Verif.Spec.Calculus

/-!
# When a system can be solved one unknown at a time
-/

namespace Verif

variable {α : Type}

/-- The equations can be solved in the given order, starting from the symbols `K`: each has at most one
symbol that is neither in `K` nor in an earlier equation. -/
inductive OneAtATime : (α → Prop) → List (SymExpr α) → Prop
  | nil {K} : OneAtATime K []
  | cons {K e es} : (∃ x, ∀ y, Mentions y e → K y ∨ y = x) →
      OneAtATime (fun y => K y ∨ Mentions y e) es → OneAtATime K (e :: es)

/-- The equations can be solved one unknown at a time in some order. -/
def RecursivelySolvable (K : α → Prop) (eqs : List (SymExpr α)) : Prop :=
  ∃ o, o.Perm eqs ∧ OneAtATime K o

/-- `env` gives the known symbols their known values. -/
def AgreesWith [DecidableEq α] (env : α → ℝ) (known : Dict α ℚ) : Prop :=
  ∀ x v, dget known x = some v → env x = (v : ℝ)

/-- The expressions that can turn up while the equations are solved: equations, and simplified
equations with some values put in. -/
inductive Arises [DecidableEq α] (S : SymSolver α) (allowed : Dict α ℚ → Prop)
    (eqs : List (SymExpr α)) : SymExpr α → Prop
  | base {e} : e ∈ eqs → Arises S allowed eqs e
  | step {e} (K : Dict α ℚ) : allowed K → Arises S allowed eqs e →
      Arises S allowed eqs (S.simplify (substKnown K e))

/-- Simplifying neither adds nor loses symbols, on the expressions that turn up. -/
def KeepsSymbols [DecidableEq α] (S : SymSolver α) (eqs : List (SymExpr α)) : Prop :=
  ∀ e K, Arises S (fun _ => True) eqs e →
    ∀ x, Mentions x (S.simplify (substKnown K e)) ↔ Mentions x (substKnown K e)

end Verif
