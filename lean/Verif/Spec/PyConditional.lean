import Verif.Py.Basic
import Mathlib.Analysis.SpecialFunctions.Log.Basic

/-!
# Specification: what python makes of conditional expressions and calls of numpy functions

Only the part of the grammar that the printer of the numba back-end uses.  `num` and `cond` say which texts are
read as plain arithmetic, and as conditions, and with which value; they are arbitrary.
-/

namespace Verif

variable {σ : Type}

/-- `numpy.maximum(a, b)`.  A third positional argument is the array into which the result is written, so that a
number there is a `TypeError`; so is a missing argument. -/
noncomputable def npMaximum : List ℝ → Res ℝ
  | [a, b] => .ok (max a b)
  | _ => .error .typeError

/-- `numpy.log(a)`; a second positional argument would be the array for the result. -/
noncomputable def npLog : List ℝ → Res ℝ
  | [a] => .ok (Real.log a)
  | _ => .error .typeError

/-- The functions that generated code calls. -/
noncomputable def npCall (f : Str) : Option (List ℝ → Res ℝ) :=
  if f = "numpy.maximum".toList then some npMaximum
  else if f = "numpy.log".toList then some npLog
  else none

open Classical in
/-- `PyReads num cond atom s v`: python reads the text `s` as an expression with the value `v x` in the state `x`
(`none` for python's `None`); `atom` says that the text needs no parentheses around it. -/
inductive PyReads (num : Str → (σ → ℝ) → Prop) (cond : Str → (σ → Prop) → Prop) :
    Bool → Str → (σ → Res (Option ℝ)) → Prop
  /-- arithmetic -/
  | num {s v} : num s v → PyReads num cond false s fun x => .ok (some (v x))
  /-- the constant `None` -/
  | none : PyReads num cond true "None".toList fun _ => .ok none
  /-- an expression in parentheses -/
  | paren {l s v} : PyReads num cond l s v → PyReads num cond true ("(".toList ++ s ++ ")".toList) v
  /-- `s if c else t`; the operator associates to the right -/
  | ite {l s c t v C w} : PyReads num cond true s v → cond c C → PyReads num cond l t w →
      PyReads num cond false (s ++ " if ".toList ++ c ++ " else ".toList ++ t) fun x => if C x then v x else w x
  /-- `f(a,b,…)` with arithmetic arguments -/
  | call {f : Str} {F} {args : List (Str × (σ → ℝ))} : npCall f = some F → (∀ a ∈ args, num a.1 a.2) →
      PyReads num cond true (f ++ "(".toList ++ (",".toList.intercalate (args.map (·.1))) ++ ")".toList)
        fun x => (F (args.map fun a => a.2 x)).map some

open Classical in
/-- The value of a piecewise expression: that of the first piece whose condition holds. -/
noncomputable def firstPiece : List ((σ → ℝ) × (σ → Prop)) → σ → Option ℝ
  | [], _ => none
  | p :: ps, x => if p.2 x then some (p.1 x) else firstPiece ps x

end Verif
