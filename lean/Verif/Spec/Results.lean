import Verif.Model.Results

/-!
# Specification vocabulary for the result store
-/

namespace Verif

variable {γ : Type _}

/-- One `write_results(data, path, name, overwrite)` call. -/
structure SaveOp (γ : Type _) where
  name : Str
  data : γ
  overwrite : Bool := false

/-- A history of saves; `none` if one of them does not terminate. -/
def runSaves (today : Str) : List (SaveOp γ) → Dir γ → Option (Dir γ)
  | [], dir => some dir
  | op :: ops, dir => (writeResults dir today (some op.name) op.overwrite op.data).bind
      (runSaves today ops)

/-- The data saved under a name, oldest first. -/
def savedUnder (name : Str) (ops : List (SaveOp γ)) : List γ :=
  (ops.filter fun op => decide (op.name = name)).map SaveOp.data

/-- `y` looks like an automatically numbered copy of `z`: `y = z(17)`. -/
def LooksLikeCopy (y z : Str) : Prop :=
  ∃ d : Str, d ≠ [] ∧ (∀ c ∈ d, c.isDigit = true) ∧ y = z ++ '(' :: (d ++ [')'])

/-- A plain name: no `pkl` at the end, and not made of dots only. -/
def PlainName (y : Str) : Prop := endsWith y "pkl" = false ∧ ¬ (y.all (· = '.') = true)

end Verif
