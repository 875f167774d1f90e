import Verif.Py.Basic

/-!
# Table headings

Models `Node`, `Tree.make_headings` and `compute_padding` (`cge_modeling/tools/output_tools.py:22-227`).
A nested column dictionary, and the tree `build_tree` makes of it, is a list of `Col`; a column without
children is a data column (so is an empty dictionary, as in the code).  The data are not modelled.
-/

namespace Verif

/-- A column with its subcolumns: a node of the tree (tools/output_tools.py:49-76, 194-227). -/
inductive Col where
  | mk (name : Str) (children : List Col)

def Col.name : Col → Str | .mk n _ => n
def Col.children : Col → List Col | .mk _ cs => cs

mutual
/-- `get_n_descendents` (tools/output_tools.py:29-33). -/
def Col.nDesc : Col → Nat
  | .mk _ cs => cs.length + Col.nDescL cs
/-- The sum over the children. -/
def Col.nDescL : List Col → Nat
  | [] => 0
  | c :: cs => c.nDesc + Col.nDescL cs
end

mutual
/-- `get_all_descendents` (tools/output_tools.py:91-97), each with its level; the node itself has level
`l`. -/
def Col.desc (l : Nat) : Col → List (Nat × Col)
  | .mk _ cs => cs.map (fun c => (l + 1, c)) ++ Col.descL (l + 1) cs
/-- The descendents of the children. -/
def Col.descL (l : Nat) : List Col → List (Nat × Col)
  | [] => []
  | c :: cs => c.desc l ++ Col.descL l cs
end

/-- `compute_padding` (tools/output_tools.py:42-46); a Python integer, possibly negative. -/
def Col.padding (t : Col) : Int :=
  ((t.nDesc - 1 : Nat) : Int) - (((t.desc 0).map fun d => ((d.2.nDesc - 1 : Nat) : Int)).sum)

/-- `get_subtree(root)` (tools/output_tools.py:147-149): the root and its descendents with levels. -/
def Col.family (root : Col) : List (Nat × Col) := (0, root) :: root.desc 0

/-- `family.get_nodes(level)` (tools/output_tools.py:134-135). -/
def nodesAtLevel (fam : List (Nat × Col)) (l : Nat) : List Col :=
  (fam.filter fun p => p.1 == l).map Prod.snd

/-- `family.get_leaves()` (tools/output_tools.py:140-141). -/
def leavesOf (fam : List (Nat × Col)) : List Col :=
  (fam.map Prod.snd).filter fun c => c.children.isEmpty

/-- `[node.name] + [None] * compute_padding(node)`; a negative factor gives the empty list. -/
def paddedName (t : Col) : List (Option Str) :=
  some t.name :: List.replicate t.padding.toNat none

/-- What one root adds to the headings of one level (tools/output_tools.py:174-190). -/
def headingPart (level : Nat) (root : Col) : List (Option Str) :=
  let fam := root.family
  let familyLevel := nodesAtLevel fam level
  if familyLevel.isEmpty then List.replicate (leavesOf fam).length none
  else match level with
    | 0 => familyLevel.flatMap paddedName
    | l + 1 => (nodesAtLevel fam l).flatMap fun parent =>
        if parent.children.isEmpty then [none] else parent.children.flatMap paddedName

/-- `max_level` (tools/output_tools.py:130-132): one more than the largest level. -/
def maxLevel (forest : List Col) : Nat :=
  ((forest.flatMap fun r => r.family.map Prod.fst).foldl max 0) + 1

/-- `make_headings` (tools/output_tools.py:167-191).  Row `level` collects the parts of the roots in
order (the code's loops are the other way round: every root adds to every level). -/
def makeHeadings (forest : List Col) : List (List (Option Str)) :=
  if forest.isEmpty then [] else
    (List.range (maxLevel forest)).map fun l => forest.flatMap (headingPart l)

mutual
/-- The nodes in the order in which `build_tree` adds them: depth first
(tools/output_tools.py:217-225). -/
def Col.preorder : Col → List Col
  | .mk n cs => .mk n cs :: Col.preorderL cs
/-- The nodes of the children. -/
def Col.preorderL : List Col → List Col
  | [] => []
  | c :: cs => c.preorder ++ Col.preorderL cs
end

/-- The names of the data columns of the table: `tree.get_leaves()`
(tools/output_tools.py:258-259). -/
def dataColumns (forest : List Col) : List Str :=
  ((forest.flatMap Col.preorder).filter fun c => c.children.isEmpty).map Col.name

end Verif
