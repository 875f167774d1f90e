import Verif.Model.Grid
import Mathlib.Tactic.Ring
import Mathlib.Tactic.Linarith

/-!
# C50: layout of panels
-/

namespace Verif

theorem range_flatMap {γ : Type} (a b : Nat) (hb : 0 < b) (f : Nat → Nat → γ) :
    (List.range a).flatMap (fun i => (List.range b).map (f i)) =
      (List.range (a * b)).map fun k => f (k / b) (k % b) := by
  induction a with
  | zero => simp
  | succ a ih =>
    rw [List.range_succ, List.flatMap_append, ih, Nat.succ_mul, List.range_add, List.map_append]
    congr 1
    rw [List.flatMap_cons, List.flatMap_nil, List.append_nil, List.map_map]
    refine List.map_congr_left fun j hj => ?_
    have hjb := List.mem_range.mp hj
    show _ = f ((a * b + j) / b) ((a * b + j) % b)
    rw [Nat.mul_comm a b, Nat.mul_add_div hb, Nat.div_eq_of_lt hjb, Nat.add_zero,
      Nat.mul_add_mod, Nat.mod_eq_of_lt hjb]

/-- The number of rows of panels. -/
def panelRows (nCols nPlots : Nat) : Nat := nPlots / nCols + (if nPlots % nCols > 0 then 1 else 0)

/-- Where panel `k` goes. -/
def panelLoc (nCols nPlots k : Nat) : GridLoc :=
  let pad := if k / nCols < nPlots / nCols then 0 else nCols - nPlots % nCols
  ⟨k / nCols * 2, (k / nCols + 1) * 2, pad + k % nCols * 2, pad + (k % nCols + 1) * 2⟩

theorem prepareGrid_eq (nCols nPlots : Nat) (hc : 1 ≤ nCols) (hp : 1 ≤ nPlots) :
    prepareGrid nCols nPlots = .ok ⟨2 * panelRows nCols nPlots, 2 * nCols,
      (List.range nPlots).map (panelLoc nCols nPlots)⟩ := by
  unfold prepareGrid
  rw [if_neg (by omega)]
  dsimp only
  have hdm := Nat.div_add_mod nPlots nCols
  have hmod := Nat.mod_lt nPlots hc
  set q := nPlots / nCols with hq
  set m := nPlots % nCols with hm
  have hrows : q + (if m > 0 then 1 else 0) ≠ 0 := by
    by_cases h : m > 0
    · rw [if_pos h]; exact Nat.succ_ne_zero _
    · rw [if_neg h]
      have hm0 : m = 0 := by omega
      rw [hm0, Nat.add_zero] at hdm
      intro h0
      have hq0 : q = 0 := by omega
      rw [hq0, Nat.mul_zero] at hdm
      omega
  rw [if_neg hrows]
  have e1 : panelRows nCols nPlots = q + (if m > 0 then 1 else 0) := rfl
  rw [← e1]
  congr 2
  have hfull : panelRows nCols nPlots - (if m > 0 then 1 else 0) = q := by
    rw [e1]; exact Nat.add_sub_cancel _ _
  rw [hfull, range_flatMap q nCols hc (fun i j => (⟨i * 2, (i + 1) * 2, j * 2, (j + 1) * 2⟩ : GridLoc))]
  have hsplit : nPlots = q * nCols + m := by rw [Nat.mul_comm]; exact hdm.symm
  conv_rhs => rw [show List.range nPlots = List.range (q * nCols + m) from congrArg _ hsplit]
  rw [List.range_add, List.map_append]
  congr 1
  · refine List.map_congr_left fun k hk => ?_
    have hk' := List.mem_range.mp hk
    unfold panelLoc
    rw [← hq, if_pos (Nat.div_lt_of_lt_mul (by rw [Nat.mul_comm]; exact hk'))]
    simp
  · rw [List.map_map]
    by_cases h0 : m > 0
    · rw [if_pos h0]
      refine List.map_congr_left fun j hj => ?_
      have hj' := List.mem_range.mp hj
      show _ = panelLoc nCols nPlots (q * nCols + j)
      have h1 : (q * nCols + j) / nCols = q := by
        rw [Nat.mul_comm, Nat.mul_add_div hc, Nat.div_eq_of_lt (by omega), Nat.add_zero]
      have h2 : (q * nCols + j) % nCols = j := by
        rw [Nat.mul_comm, Nat.mul_add_mod, Nat.mod_eq_of_lt (by omega)]
      unfold panelLoc
      rw [h1, h2, ← hq, ← hm, if_neg (Nat.lt_irrefl _), e1, if_pos h0]
      simp
    · have : m = 0 := by omega
      rw [if_neg h0, this]
      rfl

theorem div_lt_rows {nCols nPlots k : Nat} (hk : k < nPlots) :
    k / nCols < panelRows nCols nPlots ∧
    (¬ k / nCols < nPlots / nCols → k / nCols = nPlots / nCols ∧ k % nCols < nPlots % nCols) := by
  have hdm := Nat.div_add_mod nPlots nCols
  have hdk := Nat.div_add_mod k nCols
  have hmono : k / nCols ≤ nPlots / nCols := Nat.div_le_div_right (Nat.le_of_lt hk)
  have h2 : ¬ k / nCols < nPlots / nCols → k / nCols = nPlots / nCols ∧ k % nCols < nPlots % nCols := by
    intro h
    have he : k / nCols = nPlots / nCols := by omega
    rw [he] at hdk
    exact ⟨he, by omega⟩
  refine ⟨?_, h2⟩
  unfold panelRows
  by_cases h : k / nCols < nPlots / nCols
  · omega
  · obtain ⟨he, hm⟩ := h2 h
    rw [if_pos (by omega)]
    omega

/-- **C50**.  For at least one column and one panel: there are exactly `n_plots` locations; all have two
rows and two columns of the grid and lie inside it; no grid cell belongs to two of them; the rows are
filled from the top, `n_cols` panels each; and in an incomplete last row the free space on the left of
the first panel is the free space on the right of the last one. -/
theorem C50_grid (nCols nPlots : Nat) (hc : 1 ≤ nCols) (hp : 1 ≤ nPlots) :
    ∃ g, prepareGrid nCols nPlots = .ok g ∧ g.locs.length = nPlots ∧
      (∀ p ∈ g.locs, p.r1 = p.r0 + 2 ∧ p.c1 = p.c0 + 2 ∧ p.r1 ≤ g.rows ∧ p.c1 ≤ g.cols) ∧
      (∀ (k k' : Nat) p p', k ≠ k' → g.locs[k]? = some p → g.locs[k']? = some p' →
        ∀ i j, ¬ ((p.r0 ≤ i ∧ i < p.r1 ∧ p.c0 ≤ j ∧ j < p.c1) ∧
          (p'.r0 ≤ i ∧ i < p'.r1 ∧ p'.c0 ≤ j ∧ j < p'.c1))) ∧
      (∀ (k : Nat) p, g.locs[k]? = some p → p.r0 = 2 * (k / nCols)) ∧
      g.rows = 2 * (nPlots / nCols) + (if nPlots % nCols = 0 then 0 else 2) ∧ g.cols = 2 * nCols ∧
      (nPlots % nCols ≠ 0 → ∀ first last, g.locs[nPlots / nCols * nCols]? = some first →
        g.locs[nPlots - 1]? = some last → first.r0 = last.r0 ∧ first.c0 = g.cols - last.c1) := by
  have hget : ∀ (k : Nat) p, ((List.range nPlots).map (panelLoc nCols nPlots))[k]? = some p →
      k < nPlots ∧ p = panelLoc nCols nPlots k := by
    intro k p h
    rw [List.getElem?_map] at h
    by_cases hk : k < nPlots
    · rw [List.getElem?_range hk] at h
      exact ⟨hk, by simpa using h.symm⟩
    · rw [List.getElem?_eq_none (by simpa using hk)] at h
      cases h
  refine ⟨_, prepareGrid_eq nCols nPlots hc hp, by simp, ?_, ?_, ?_, ?_, rfl, ?_⟩
  · intro p hpm
    obtain ⟨k, hk, rfl⟩ := List.mem_map.mp hpm
    have hk' := List.mem_range.mp hk
    obtain ⟨h1, h2⟩ := div_lt_rows (nCols := nCols) hk'
    have hmod := Nat.mod_lt k hc
    have hmodn := Nat.mod_lt nPlots hc
    unfold panelLoc
    dsimp only
    refine ⟨by omega, by omega, by omega, ?_⟩
    by_cases h : k / nCols < nPlots / nCols
    · rw [if_pos h]; omega
    · rw [if_neg h]
      obtain ⟨-, h3⟩ := h2 h
      omega
  · intro k k' p p' hne hk hk' i j
    obtain ⟨hk1, rfl⟩ := hget k p hk
    obtain ⟨hk2, rfl⟩ := hget k' p' hk'
    unfold panelLoc
    dsimp only
    rintro ⟨⟨a1, a2, a3, a4⟩, b1, b2, b3, b4⟩
    have hrow : k / nCols = k' / nCols := by omega
    rw [hrow] at a3 a4
    have hcol : k % nCols = k' % nCols := by omega
    apply hne
    rw [← Nat.div_add_mod k nCols, ← Nat.div_add_mod k' nCols, hrow, hcol]
  · intro k p hk
    obtain ⟨-, rfl⟩ := hget k p hk
    unfold panelLoc
    dsimp only
    omega
  · dsimp only
    unfold panelRows
    split <;> split <;> omega
  · intro hm first last hf hl
    obtain ⟨hf1, rfl⟩ := hget _ _ hf
    obtain ⟨hl1, rfl⟩ := hget _ _ hl
    have hdm := Nat.div_add_mod nPlots nCols
    have hmod := Nat.mod_lt nPlots hc
    have f1 : nPlots / nCols * nCols / nCols = nPlots / nCols := Nat.mul_div_cancel _ hc
    have f2 : nPlots / nCols * nCols % nCols = 0 := Nat.mul_mod_left _ _
    have hlast : nPlots - 1 = nCols * (nPlots / nCols) + (nPlots % nCols - 1) := by omega
    have l1 : (nPlots - 1) / nCols = nPlots / nCols := by
      rw [hlast, Nat.mul_add_div hc,
        Nat.div_eq_of_lt (show nPlots % nCols - 1 < nCols by omega), Nat.add_zero]
    have l2 : (nPlots - 1) % nCols = nPlots % nCols - 1 := by
      rw [hlast, Nat.mul_add_mod, Nat.mod_eq_of_lt (by omega)]
    unfold panelLoc
    rw [f1, f2, l1, l2, if_neg (Nat.lt_irrefl _)]
    dsimp only
    refine ⟨rfl, by omega⟩

/-- Five panels in three columns: the last two are centred. -/
example : prepareGrid 3 5 = .ok ⟨4, 6, [⟨0, 2, 0, 2⟩, ⟨0, 2, 2, 4⟩, ⟨0, 2, 4, 6⟩, ⟨2, 4, 1, 3⟩, ⟨2, 4, 3, 5⟩]⟩ := by
  decide

end Verif
