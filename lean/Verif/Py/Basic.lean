/-!
# Python substrate: exceptions and strings

Python exceptions are modelled as values of `PyErr`; a function that may raise returns
`Except PyErr α`.  Python strings are modelled as lists of characters (`Str`).
-/

namespace Verif

/-- The exception classes the modelled code can raise.  Messages are not modelled. -/
inductive PyErr where
  | valueError
  | keyError
  | typeError
  | indexError
  | attributeError
  | fileNotFound
  | notImplemented
  | zeroDivision
  | assertion
  | linAlg
  | nameError
  deriving DecidableEq, Repr

/-- A Python call that returns a value or raises. -/
abbrev Res (α : Type _) := Except PyErr α

/-- Python strings as lists of characters. -/
abbrev Str := List Char

instance : Coe String Str := ⟨String.toList⟩

/-- `Except` equality is decidable when the payload's is (used only in examples). -/
instance {ε α : Type _} [DecidableEq ε] [DecidableEq α] : DecidableEq (Except ε α)
  | .ok a, .ok b => if h : a = b then isTrue (by rw [h]) else isFalse (by intro h'; cases h'; exact h rfl)
  | .error a, .error b => if h : a = b then isTrue (by rw [h]) else isFalse (by intro h'; cases h'; exact h rfl)
  | .ok _, .error _ => isFalse (by intro h; cases h)
  | .error _, .ok _ => isFalse (by intro h; cases h)

end Verif
