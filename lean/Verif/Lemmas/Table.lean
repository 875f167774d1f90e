import Verif.Spec.Table
import Mathlib.Tactic.Ring
import Mathlib.Tactic.Linarith
import Mathlib.Algebra.BigOperators.Group.List.Basic

/-!
# Lemmas about table headings
-/

namespace Verif

theorem columnsL_eq (cs : List Col) : Col.columnsL cs = cs.flatMap Col.columns := by
  induction cs with
  | nil => rfl
  | cons c cs ih => rw [Col.columnsL, ih, List.flatMap_cons]

theorem columns_leaf (t : Col) (h : t.children = []) : t.columns = [t.name] := by
  obtain ⟨n, cs⟩ := t
  simp only [Col.children] at h
  subst h
  simp [Col.columns, Col.name]

theorem columns_node (t : Col) (h : t.children ≠ []) : t.columns = t.children.flatMap Col.columns := by
  obtain ⟨n, cs⟩ := t
  cases cs with
  | nil => simp [Col.children] at h
  | cons c cs => simp [Col.columns, Col.children, columnsL_eq]

mutual
theorem columns_pos : ∀ t : Col, 0 < t.columns.length
  | .mk _ [] => by simp [Col.columns]
  | .mk _ (c :: _) => by
    have := columns_pos c
    simp only [Col.columns, List.length_append]
    omega
end

theorem nDescL_eq (cs : List Col) : Col.nDescL cs = (cs.map Col.nDesc).sum := by
  induction cs with
  | nil => rfl
  | cons c cs ih => rw [Col.nDescL, ih, List.map_cons, List.sum_cons]

theorem descL_eq (l : Nat) (cs : List Col) : Col.descL l cs = cs.flatMap (Col.desc l) := by
  induction cs with
  | nil => rfl
  | cons c cs ih => rw [Col.descL, ih, List.flatMap_cons]

theorem desc_eq (l : Nat) (t : Col) :
    t.desc l = t.children.map (fun c => (l + 1, c)) ++ t.children.flatMap (Col.desc (l + 1)) := by
  obtain ⟨n, cs⟩ := t
  rw [Col.desc, descL_eq]; rfl

theorem nDesc_eq (t : Col) : t.nDesc = t.children.length + (t.children.map Col.nDesc).sum := by
  obtain ⟨n, cs⟩ := t
  rw [Col.nDesc, nDescL_eq]; rfl

/-! ### Levels -/

mutual
theorem desc_levels : ∀ (t : Col) (l : Nat), ∀ p ∈ t.desc l, l < p.1
  | .mk _ cs, l, p, hp => by
    rw [Col.desc, List.mem_append] at hp
    rcases hp with hp | hp
    · obtain ⟨c, -, rfl⟩ := List.mem_map.mp hp
      simp
    · have := descL_levels cs (l + 1) p hp
      omega
theorem descL_levels : ∀ (cs : List Col) (l : Nat), ∀ p ∈ Col.descL l cs, l < p.1
  | [], l, p, hp => by simp [Col.descL] at hp
  | c :: cs, l, p, hp => by
    rw [Col.descL, List.mem_append] at hp
    rcases hp with hp | hp
    · exact desc_levels c l p hp
    · exact descL_levels cs l p hp
end

theorem nodesAt_append (a b : List (Nat × Col)) (k : Nat) :
    nodesAtLevel (a ++ b) k = nodesAtLevel a k ++ nodesAtLevel b k := by
  simp [nodesAtLevel]

theorem nodesAt_nil_of (a : List (Nat × Col)) (k : Nat) (h : ∀ p ∈ a, p.1 ≠ k) :
    nodesAtLevel a k = [] := by
  unfold nodesAtLevel
  rw [List.filter_eq_nil_iff.mpr, List.map_nil]
  intro p hp
  simpa using h p hp

theorem nodesAt_const (cs : List Col) (k l : Nat) :
    nodesAtLevel (cs.map fun c => (l, c)) k = if l = k then cs else [] := by
  unfold nodesAtLevel
  split
  · rename_i h
    subst h
    rw [List.filter_eq_self.mpr]
    · simp [Function.comp_def]
    · intro p hp
      obtain ⟨c, -, rfl⟩ := List.mem_map.mp hp
      simp
  · rename_i h
    rw [List.filter_eq_nil_iff.mpr, List.map_nil]
    intro p hp
    obtain ⟨c, -, rfl⟩ := List.mem_map.mp hp
    simpa using h

theorem levelOf_one (cs : List Col) : cs.flatMap (levelOf 0) = cs := by
  induction cs with
  | nil => rfl
  | cons c cs ih => rw [List.flatMap_cons, ih]; rfl

mutual
theorem nodesAt_desc : ∀ (t : Col) (l k : Nat),
    nodesAtLevel (t.desc l) (l + 1 + k) = levelOf (k + 1) t
  | .mk _ cs, l, k => by
    rw [Col.desc, nodesAt_append, nodesAt_const, levelOf]
    cases k with
    | zero =>
      rw [if_pos rfl, nodesAt_nil_of, List.append_nil, levelOf_one]
      intro p hp
      have := descL_levels cs (l + 1) p hp
      omega
    | succ k =>
      rw [if_neg (by omega), List.nil_append]
      have := nodesAt_descL cs (l + 1) k
      rw [show l + 1 + (k + 1) = l + 1 + 1 + k by omega]
      exact this
theorem nodesAt_descL : ∀ (cs : List Col) (l k : Nat),
    nodesAtLevel (Col.descL l cs) (l + 1 + k) = cs.flatMap (levelOf (k + 1))
  | [], l, k => by simp [Col.descL, nodesAtLevel]
  | c :: cs, l, k => by
    rw [Col.descL, nodesAt_append, nodesAt_desc c l k, nodesAt_descL cs l k, List.flatMap_cons]
end

theorem nodesAt_family (t : Col) (l : Nat) : nodesAtLevel t.family l = levelOf l t := by
  unfold Col.family
  cases l with
  | zero =>
    rw [← List.singleton_append, nodesAt_append, nodesAt_nil_of (t.desc 0)]
    · rfl
    · intro p hp
      have := desc_levels t 0 p hp
      omega
  | succ k =>
    rw [← List.singleton_append, nodesAt_append, nodesAt_nil_of [(0, t)], List.nil_append]
    · have := nodesAt_desc t 0 k
      rw [show 0 + 1 + k = k + 1 by omega] at this
      exact this
    · simp

theorem levelOf_succ : ∀ (l : Nat) (t : Col), levelOf (l + 1) t = (levelOf l t).flatMap Col.children
  | 0, .mk n cs => by
    show cs.flatMap (levelOf 0) = _
    rw [levelOf_one]; simp [levelOf, Col.children]
  | l + 1, .mk n cs => by
    rw [levelOf, levelOf, List.flatMap_assoc]
    congr 1
    funext c
    exact levelOf_succ l c

/-! ### Leaves -/

theorem leavesOf_append (a b : List (Nat × Col)) : leavesOf (a ++ b) = leavesOf a ++ leavesOf b := by
  simp [leavesOf]

mutual
theorem leaves_desc : ∀ (t : Col) (l : Nat),
    (leavesOf (t.desc l)).length + (if t.children.isEmpty then 1 else 0) = t.columns.length
  | .mk n [], l => by simp [Col.desc, Col.descL, leavesOf, Col.children, Col.columns]
  | .mk n (c :: cs), l => by
    have h := leaves_descL (c :: cs) (l + 1)
    rw [Col.desc, leavesOf_append, List.length_append]
    simp only [Col.children, List.isEmpty_cons, Bool.false_eq_true, if_false, Nat.add_zero]
    rw [Col.columns, ← Col.columnsL, ← h]
    congr 1
    simp [leavesOf, Function.comp_def]
theorem leaves_descL : ∀ (cs : List Col) (l : Nat),
    (cs.filter fun c => c.children.isEmpty).length + (leavesOf (Col.descL l cs)).length =
      (Col.columnsL cs).length
  | [], l => by simp [Col.descL, leavesOf, Col.columnsL]
  | c :: cs, l => by
    have h1 := leaves_desc c l
    have h2 := leaves_descL cs l
    rw [Col.descL, leavesOf_append, Col.columnsL, List.length_append, List.length_append, ← h1, ← h2,
      List.filter_cons]
    split <;> simp_all <;> omega
end

theorem leaves_family (t : Col) : (leavesOf t.family).length = t.columns.length := by
  have h := leaves_desc t 0
  unfold Col.family
  rw [← List.singleton_append, leavesOf_append, List.length_append, ← h, Nat.add_comm]
  congr 1
  unfold leavesOf
  simp only [List.map_cons, List.map_nil, List.filter_cons, List.filter_nil]
  split <;> rfl

mutual
theorem preorder_columns : ∀ t : Col,
    (t.preorder.filter fun c => c.children.isEmpty).map Col.name = t.columns
  | .mk n [] => by simp [Col.preorder, Col.preorderL, Col.children, Col.columns, Col.name]
  | .mk n (c :: cs) => by
    rw [Col.preorder, List.filter_cons_of_neg (by simp [Col.children]), preorderL_columns (c :: cs),
      Col.columns, Col.columnsL]
theorem preorderL_columns : ∀ cs : List Col,
    ((Col.preorderL cs).filter fun c => c.children.isEmpty).map Col.name = Col.columnsL cs
  | [] => by simp [Col.preorderL, Col.columnsL]
  | c :: cs => by
    rw [Col.preorderL, List.filter_append, List.map_append, preorder_columns c, preorderL_columns cs,
      Col.columnsL]
end

theorem length_idealRow : ∀ (l : Nat) (t : Col), (idealRow l t).length = t.columns.length
  | 0, t => by
    have := columns_pos t
    simp only [idealRow, List.length_cons, List.length_replicate]
    omega
  | l + 1, .mk n [] => by simp [idealRow, Col.columns]
  | l + 1, .mk n (c :: cs) => by
    rw [idealRow, columns_node _ (by simp [Col.children])]
    simp only [List.isEmpty_cons, Bool.false_eq_true, if_false, Col.children, List.length_flatMap]
    congr 1
    exact List.map_congr_left fun d _ => length_idealRow l d

end Verif
