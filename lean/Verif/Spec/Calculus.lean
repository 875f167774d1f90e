import Verif.Model.SymExpr
import Mathlib.Analysis.Calculus.Deriv.Basic
import Mathlib.Analysis.SpecialFunctions.Pow.Real

/-!
# What a derivative is, and where the expressions have one
-/

namespace Verif

variable {α : Type} [DecidableEq α]

/-- `d` is the partial derivative of `f` with respect to the symbol `x` at the point `env`. -/
def HasPartial (f : (α → ℝ) → ℝ) (x : α) (d : ℝ) (env : α → ℝ) : Prop :=
  HasDerivAt (fun t => f (Function.update env x t)) d (env x)

/-- The points at which all powers and logarithms inside an expression are defined (as real numbers)
and smooth: logarithms of positive numbers; powers of positive numbers, integer powers of nonzero
numbers, natural powers of anything. -/
def Regular (env : α → ℝ) : SymExpr α → Prop
  | .num _ => True
  | .sym _ => True
  | .add a b => Regular env a ∧ Regular env b
  | .mul a b => Regular env a ∧ Regular env b
  | .pow a b => Regular env a ∧ Regular env b ∧
      (0 < a.eval env ∨ ∃ q, b = .num q ∧
        ((∃ n : ℕ, q = n) ∨ (a.eval env ≠ 0 ∧ ∃ n : ℤ, q = n)))
  | .log a => Regular env a ∧ 0 < a.eval env
  | .exp a => Regular env a

/-- The symbol `x` occurs in the expression. -/
inductive Mentions (x : α) : SymExpr α → Prop
  | sym : Mentions x (.sym x)
  | addL {a b} : Mentions x a → Mentions x (.add a b)
  | addR {a b} : Mentions x b → Mentions x (.add a b)
  | mulL {a b} : Mentions x a → Mentions x (.mul a b)
  | mulR {a b} : Mentions x b → Mentions x (.mul a b)
  | powL {a b} : Mentions x a → Mentions x (.pow a b)
  | powR {a b} : Mentions x b → Mentions x (.pow a b)
  | log {a} : Mentions x a → Mentions x (.log a)
  | exp {a} : Mentions x a → Mentions x (.exp a)

end Verif
