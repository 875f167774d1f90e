import Verif.Model.Scenario

/-!
# Specification vocabulary for scenarios
-/

namespace Verif

variable {α : Type _}

/-- What a reader of the dictionary sees under name `k`. -/
def seen (h : Heap α) (d : Dict Str (PyVal α)) (k : Str) : Option α :=
  (dget d k).bind (readVal h)

/-- The references stored in a dictionary, in order. -/
def refsOf : Dict Str (PyVal α) → List Nat
  | [] => []
  | (_, .num _) :: d => refsOf d
  | (_, .ref r) :: d => r :: refsOf d

/-- No dangling references (always true in Python). -/
def ValidRefs (h : Heap α) (d : Dict Str (PyVal α)) : Prop := ∀ r ∈ refsOf d, r < h.length

/-- The scenario the user asked for: the given value, the initial value plus the offset, the initial
value times the factor, or the initial value. -/
def wantedScenario (add mul : α → α → α) (initial values delta pct : Str → Option α) (k : Str) :
    Option α :=
  match values k, delta k, pct k, initial k with
  | some v, _, _, _ => some v
  | none, some c, _, some x => some (add x c)
  | none, none, some c, some x => some (mul x c)
  | none, none, none, x => x
  | none, _, _, none => none

end Verif
