import Verif.Py.Dict

/-!
# Specification vocabulary for equation names with `<dim:…>` markers
-/

namespace Verif

/-- A name is a sequence of plain pieces and dim markers. -/
inductive Seg where
  | lit (s : Str)
  | dim (d : Str)
  deriving DecidableEq, Repr

abbrev Template := List Seg

/-- The text of a template: plain pieces as they are, marker for `d` as `<dim:d>`. -/
def Template.text (t : Template) : Str :=
  t.flatMap fun
    | .lit s => s
    | .dim d => "<dim:".toList ++ d ++ ">".toList

/-- The dims named by the markers, in order. -/
def Template.dims (t : Template) : List Str :=
  t.filterMap fun
    | .lit _ => none
    | .dim d => some d

/-- The text with a label for every dim. -/
def Template.filled (t : Template) (label : Str → Str) : Str :=
  t.flatMap fun
    | .lit s => s
    | .dim d => label d

/-- Plain pieces contain no `<`, dim names no `<` or `>`. -/
def Template.Clean (t : Template) : Prop :=
  ∀ s ∈ t, match s with
    | .lit s => '<' ∉ s
    | .dim d => '<' ∉ d ∧ '>' ∉ d

instance (t : Template) : Decidable t.Clean := by
  unfold Template.Clean
  have : ∀ s : Seg, Decidable (match s with
    | .lit s => '<' ∉ s
    | .dim d => '<' ∉ d ∧ '>' ∉ d) := by
    intro s; cases s <;> infer_instance
  infer_instance

end Verif
