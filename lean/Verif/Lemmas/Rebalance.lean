import Verif.Model.Rebalance
import Mathlib.Algebra.Order.BigOperators.Group.List
import Mathlib.Algebra.BigOperators.Group.List.Basic
import Mathlib.Data.List.Nodup
import Mathlib.Tactic.Ring
import Mathlib.Tactic.LinearCombination

/-!
# Lemmas about rebalancing
-/

namespace Verif

variable {ι R : Type} [DecidableEq ι] [Field R] [LinearOrder R]

/-! ### The loops -/

omit [LinearOrder R] in
theorem moveBack_eq (f : ι → ι → R) (l : ι × ι) : moveBack f l = moveNegative f l.swap := rfl

omit [LinearOrder R] in
theorem foldl_moveBack (locs : List (ι × ι)) : ∀ f : ι → ι → R,
    locs.foldl moveBack f = (locs.map Prod.swap).foldl moveNegative f := by
  induction locs with
  | nil => intro f; rfl
  | cons l ls ih => intro f; simp only [List.foldl_cons, List.map_cons, ih, moveBack_eq]

omit [LinearOrder R] in
theorem move_other (f : ι → ι → R) (l : ι × ι) (r c : ι) (h1 : l ≠ (r, c)) (h2 : l ≠ (c, r)) :
    moveNegative f l r c = f r c := by
  obtain ⟨a, b⟩ := l
  unfold moveNegative setCell
  rw [if_neg, if_neg]
  · rintro ⟨h, h'⟩; dsimp only at h h'; subst h; subst h'; exact h2 rfl
  · rintro ⟨h, h'⟩; dsimp only at h h'; subst h; subst h'; exact h1 rfl

omit [LinearOrder R] in
theorem move_here (f : ι → ι → R) (r c : ι) : moveNegative f (r, c) r c = 0 := by
  simp [moveNegative, setCell]

omit [LinearOrder R] in
theorem move_mirror (f : ι → ι → R) (r c : ι) (h : r ≠ c) :
    moveNegative f (c, r) r c = -(f c r) := by
  simp [moveNegative, setCell, h]

omit [LinearOrder R] in
theorem fold_none (locs : List (ι × ι)) : ∀ (f : ι → ι → R) (r c : ι), (r, c) ∉ locs → (c, r) ∉ locs →
    locs.foldl moveNegative f r c = f r c := by
  induction locs with
  | nil => intro f r c _ _; rfl
  | cons l ls ih =>
    intro f r c h1 h2
    simp only [List.mem_cons, not_or] at h1 h2
    rw [List.foldl_cons, ih _ _ _ h1.2 h2.2, move_other f l r c (Ne.symm h1.1) (Ne.symm h2.1)]

omit [LinearOrder R] in
theorem fold_here (locs : List (ι × ι)) : ∀ (f : ι → ι → R) (r c : ι), locs.Nodup →
    (r, c) ∈ locs → ((c, r) ∉ locs ∨ r = c) → locs.foldl moveNegative f r c = 0 := by
  induction locs with
  | nil => intro f r c _ h; simp at h
  | cons l ls ih =>
    intro f r c hn h1 h2
    rw [List.nodup_cons] at hn
    rw [List.foldl_cons]
    by_cases hl : l = (r, c)
    · subst hl
      rw [fold_none ls _ r c hn.1, move_here]
      rcases h2 with h2 | h2
      · exact fun hh => h2 (by simp [hh])
      · subst h2; exact hn.1
    · refine ih _ r c hn.2 ?_ ?_
      · exact (List.mem_cons.mp h1).resolve_left fun h => hl h.symm
      · exact h2.imp (fun h hh => h (by simp [hh])) id

omit [LinearOrder R] in
theorem fold_mirror (locs : List (ι × ι)) : ∀ (f : ι → ι → R) (r c : ι), locs.Nodup → r ≠ c →
    (r, c) ∉ locs → (c, r) ∈ locs → locs.foldl moveNegative f r c = -(f c r) := by
  induction locs with
  | nil => intro f r c _ _ _ h; simp at h
  | cons l ls ih =>
    intro f r c hn hne h1 h2
    rw [List.nodup_cons] at hn
    simp only [List.mem_cons, not_or] at h1
    rw [List.foldl_cons]
    by_cases hl : l = (c, r)
    · subst hl
      rw [fold_none ls _ r c h1.2 hn.1, move_mirror f r c hne]
    · rw [ih _ r c hn.2 hne h1.2 ((List.mem_cons.mp h2).resolve_left fun h => hl h.symm),
        move_other f l c r hl (Ne.symm h1.1)]

omit [LinearOrder R] in
theorem fold_both (locs : List (ι × ι)) : ∀ (f : ι → ι → R) (r c : ι), locs.Nodup → r ≠ c →
    (r, c) ∈ locs → (c, r) ∈ locs →
    (locs.foldl moveNegative f r c = f r c ∧ locs.foldl moveNegative f c r = 0) ∨
    (locs.foldl moveNegative f r c = 0 ∧ locs.foldl moveNegative f c r = f c r) := by
  induction locs with
  | nil => intro f r c _ _ h; simp at h
  | cons l ls ih =>
    intro f r c hn hne h1 h2
    rw [List.nodup_cons] at hn
    simp only [List.foldl_cons]
    by_cases hl1 : l = (r, c)
    · left
      subst hl1
      have h2' : (c, r) ∈ ls := (List.mem_cons.mp h2).resolve_left fun h => by
        simp only [Prod.mk.injEq] at h; exact hne h.2
      rw [fold_mirror ls _ r c hn.2 hne hn.1 h2', fold_here ls _ c r hn.2 h2' (Or.inl hn.1),
        move_mirror f c r (Ne.symm hne), neg_neg]
      exact ⟨rfl, rfl⟩
    · by_cases hl2 : l = (c, r)
      · right
        subst hl2
        have h1' : (r, c) ∈ ls := (List.mem_cons.mp h1).resolve_left fun h => by
          simp only [Prod.mk.injEq] at h; exact hne h.1
        rw [fold_mirror ls _ c r hn.2 (Ne.symm hne) hn.1 h1',
          fold_here ls _ r c hn.2 h1' (Or.inl hn.1), move_mirror f r c hne, neg_neg]
        exact ⟨rfl, rfl⟩
      · have h1' := (List.mem_cons.mp h1).resolve_left fun h => hl1 h.symm
        have h2' := (List.mem_cons.mp h2).resolve_left fun h => hl2 h.symm
        have := ih (moveNegative f l) r c hn.2 hne h1' h2'
        rwa [move_other f l r c hl1 hl2, move_other f l c r hl2 hl1] at this

/-! ### The negative cells -/

omit [DecidableEq ι] in
theorem mem_negativeLocs (df : Sam ι R) (r c : ι) :
    (r, c) ∈ negativeLocs df ↔ r ∈ df.rows ∧ c ∈ df.cols ∧ df.cell r c < 0 := by
  simp only [negativeLocs, List.mem_flatMap, List.mem_map, List.mem_filter, decide_eq_true_iff,
    Prod.mk.injEq]
  constructor
  · rintro ⟨c', hc', r', ⟨hr', hn⟩, rfl, rfl⟩
    exact ⟨hr', hc', hn⟩
  · rintro ⟨h1, h2, h3⟩
    exact ⟨c, h2, r, ⟨h1, h3⟩, rfl, rfl⟩

omit [DecidableEq ι] in
theorem nodup_negativeLocs (df : Sam ι R) (hr : df.rows.Nodup) (hc : df.cols.Nodup) :
    (negativeLocs df).Nodup := by
  unfold negativeLocs
  rw [List.nodup_flatMap]
  constructor
  · intro c _
    exact List.Nodup.map (fun a b h => by simpa using h) (hr.filter _)
  · refine List.Pairwise.imp ?_ hc
    intro a b hab
    rw [Function.onFun, List.disjoint_left]
    rintro ⟨x, y⟩ h1 h2
    obtain ⟨_, _, h1⟩ := List.mem_map.mp h1
    obtain ⟨_, _, h2⟩ := List.mem_map.mp h2
    simp only [Prod.mk.injEq] at h1 h2
    exact hab (h1.2.trans h2.2.symm)

/-! ### Fit, transform, inverse -/

theorem fitTransform_ok (df : Sam ι R) (hlev : df.rowLevels = df.colLevels) :
    samFitTransform df = .ok (⟨df.total, negativeLocs df, df.rowLevels⟩,
      { df with cell := (negativeLocs df).foldl moveNegative fun r c => df.cell r c / df.total }) := by
  have hl : hasLocs df (negativeLocs df) = true := by
    unfold hasLocs
    rw [List.all_eq_true]
    rintro ⟨r, c⟩ h
    obtain ⟨h1, h2, -⟩ := (mem_negativeLocs df r c).mp h
    simp [h1, h2]
  have h1 : samFit df = .ok ⟨df.total, negativeLocs df, df.rowLevels⟩ := by
    unfold samFit
    rw [if_neg (by simp [hlev])]
  have h2 : samTransform (some ⟨df.total, negativeLocs df, df.rowLevels⟩) df = .ok
      { df with cell := (negativeLocs df).foldl moveNegative fun r c => df.cell r c / df.total } := by
    unfold samTransform
    dsimp only
    rw [if_neg (by simp [hlev]), if_pos hl]
  unfold samFitTransform
  rw [h1]
  show (samTransform (some ⟨df.total, negativeLocs df, df.rowLevels⟩) df).bind _ = _
  rw [h2]
  rfl

omit [LinearOrder R] in
theorem inverse_ok (df : Sam ι R) (t : Fitted ι R) (hl1 : t.nLevels = df.colLevels)
    (hl2 : df.colLevels = df.rowLevels) (h : ∀ r c, (r, c) ∈ t.negLocs → c ∈ df.rows ∧ r ∈ df.cols) :
    samInverse (some t) df = .ok
      { df with cell := fun r c => (t.negLocs.map Prod.swap).foldl moveNegative df.cell r c * t.scale } := by
  unfold samInverse
  dsimp only
  rw [if_neg (by simp [hl1, hl2]), if_pos, foldl_moveBack]
  unfold hasLocs
  rw [List.all_eq_true]
  intro l hl
  obtain ⟨⟨r, c⟩, hrc, rfl⟩ := List.mem_map.mp hl
  obtain ⟨h1, h2⟩ := h r c hrc
  simp [h1, h2]

theorem mem_map_swap {β : Type} (l : List (β × β)) (r c : β) :
    (r, c) ∈ l.map Prod.swap ↔ (c, r) ∈ l := by
  simp only [List.mem_map]
  constructor
  · rintro ⟨⟨a, b⟩, h, he⟩
    simp only [Prod.swap, Prod.mk.injEq] at he
    obtain ⟨rfl, rfl⟩ := he
    exact h
  · exact fun h => ⟨(c, r), h, rfl⟩

theorem nodup_map_swap {β : Type} (l : List (β × β)) (h : l.Nodup) : (l.map Prod.swap).Nodup :=
  List.Nodup.map Prod.swap_injective h

end Verif
