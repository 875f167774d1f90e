import Verif.Model.Table

/-!
# What the headings of a table should be
-/

namespace Verif

mutual
/-- The data columns under a column, from left to right. -/
def Col.columns : Col → List Str
  | .mk n [] => [n]
  | .mk _ (c :: cs) => c.columns ++ Col.columnsL cs
/-- The data columns under several columns. -/
def Col.columnsL : List Col → List Str
  | [] => []
  | c :: cs => c.columns ++ Col.columnsL cs
end

/-- The heading cells over the columns of `t`, `l` rows below the row of `t` itself: at level 0 the name
of `t` followed by empty cells up to the width of `t`; further down the rows of the subcolumns side by
side, and one empty cell under a data column. -/
def idealRow : Nat → Col → List (Option Str)
  | 0, t => some t.name :: List.replicate (t.columns.length - 1) none
  | l + 1, .mk _ cs => if cs.isEmpty then [none] else cs.flatMap (idealRow l)

/-- The columns `l` levels below `t`, from left to right. -/
def levelOf : Nat → Col → List Col
  | 0, t => [t]
  | l + 1, .mk _ cs => cs.flatMap (levelOf l)

/-- Columns may have subcolumns, and these may have subcolumns, but there it ends. -/
def DepthThree (t : Col) : Prop := ∀ c ∈ t.children, ∀ g ∈ c.children, g.children = []

/-- The subcolumns that have subcolumns of their own have two each on average. -/
def TwoOnAverage (t : Col) : Prop :=
  ((t.children.filter fun c => !c.children.isEmpty).map fun c => c.children.length).sum =
    2 * (t.children.filter fun c => !c.children.isEmpty).length

/-- Columns may have subcolumns, but there it ends. -/
def DepthTwo (t : Col) : Prop := ∀ c ∈ t.children, c.children = []

end Verif
