import Verif.Spec.Rebalance
import Verif.Lemmas.Rebalance
import Mathlib.Algebra.Order.Ring.Rat
import Mathlib.Algebra.BigOperators.Ring.List

/-!
# C45–C47: the SAM transformer
-/

namespace Verif

variable {ι R : Type} [DecidableEq ι] [Field R] [LinearOrder R]

/-! ### C45 -/

/-- The attempts to fit a transformer, one after another, with the results. -/
def fitAll (o : SamObj ι R) : List (Sam ι R) → SamObj ι R × List (Res Unit)
  | [] => (o, [])
  | df :: dfs =>
    let (o1, r) := o.fit df
    let (o2, rs) := fitAll o1 dfs
    (o2, r :: rs)

omit [DecidableEq ι] in
theorem fitAll_isFit (dfs : List (Sam ι R)) : ∀ o : SamObj ι R,
    (fitAll o dfs).1.isFit = true ↔ o.isFit = true ∨ (.ok () : Res Unit) ∈ (fitAll o dfs).2 := by
  induction dfs with
  | nil => intro o; simp [fitAll]
  | cons df dfs ih =>
    intro o
    simp only [fitAll]
    rw [ih]
    cases h : samFit df with
    | ok t => simp [SamObj.fit, h]
    | error e => simp [SamObj.fit, h]

/-- **C45**, second half.  After any sequence of attempts to fit, the transformer refuses (with
`ValueError`, and for every matrix, both ways) exactly when no attempt succeeded. -/
theorem C45_refuses_before_fit (dfs : List (Sam ι R)) (df : Sam ι R) :
    let o := fitAll SamObj.new dfs
    ((.ok () : Res Unit) ∉ o.2 ↔ o.1.transform df = .error .valueError) ∧
    ((.ok () : Res Unit) ∉ o.2 ↔ o.1.inverse df = .error .valueError) := by
  intro o
  have h := fitAll_isFit dfs (SamObj.new : SamObj ι R)
  have h' : o.1.isFit = true ↔ (.ok () : Res Unit) ∈ o.2 := by
    rw [h]; simp [SamObj.new]; rfl
  rw [← h']
  constructor
  · unfold SamObj.transform SamObj.fitted samTransform
    cases o.1.isFit
    · simp
    · simp only [if_true, not_true, false_iff]
      split
      · simp
      · split <;> simp
  · unfold SamObj.inverse SamObj.fitted samInverse
    cases o.1.isFit
    · simp
    · simp only [if_true, not_true, false_iff]
      split
      · simp
      · split <;> simp

/-- An unfitted transformer, and one whose only fit failed. -/
example (df bad : Sam Nat ℚ) (h : bad.rowLevels ≠ bad.colLevels) :
    (SamObj.new : SamObj Nat ℚ).transform df = .error .valueError ∧
    (fitAll SamObj.new [bad]).1.transform df = .error .valueError := by
  refine ⟨((C45_refuses_before_fit [] df).1).mp (by simp [fitAll]),
    ((C45_refuses_before_fit [bad] df).1).mp ?_⟩
  simp [fitAll, SamObj.fit, samFit, h]

/-- **C45** (partial), first half: the round trip succeeds and keeps the labels, and it gives back the
matrix **exactly when** the mirror cell of every negative cell is zero.  (So the claim is false for a
negative entry on the diagonal, and for negative entries whose mirror cell is used.) -/
theorem C45_round_trip_partial [IsStrictOrderedRing R] (df : Sam ι R) (hsq : SquareSam df)
    (htot : df.total ≠ 0) :
    ∃ t d b, samFitTransform df = .ok (t, d) ∧ samInverse (some t) d = .ok b ∧
      b.rows = df.rows ∧ b.cols = df.cols ∧
      ((∀ r ∈ df.rows, ∀ c ∈ df.cols, b.cell r c = df.cell r c) ↔
        ∀ r ∈ df.rows, ∀ c ∈ df.cols, df.cell r c < 0 → df.cell c r = 0) := by
  have hN := nodup_negativeLocs df hsq.rows hsq.cols
  have hN' := nodup_map_swap _ hN
  refine ⟨_, _, _, fitTransform_ok df hsq.levels, inverse_ok _ _ hsq.levels hsq.levels.symm ?_, rfl,
    rfl, ?_⟩
  · intro r c h
    obtain ⟨h1, h2, -⟩ := (mem_negativeLocs df r c).mp h
    exact ⟨(hsq.same c).mpr h2, (hsq.same r).mp h1⟩
  dsimp only
  set N := negativeLocs df with hNdef
  set f : ι → ι → R := fun r c => df.cell r c / df.total with hf
  have hfs : ∀ r c, f r c * df.total = df.cell r c := fun r c => div_mul_cancel₀ _ htot
  set D := N.foldl moveNegative f with hD
  constructor
  · intro h r hr c hc hneg
    by_contra hm
    have hrc : (r, c) ∈ N := (mem_negativeLocs df r c).mpr ⟨hr, hc, hneg⟩
    have hcr' : c ∈ df.rows := (hsq.same c).mpr hc
    have hrc' : r ∈ df.cols := (hsq.same r).mp hr
    by_cases hrc_eq : r = c
    · subst hrc_eq
      have := h r hr r hc
      rw [fold_here _ _ _ _ hN' ((mem_map_swap _ _ _).mpr hrc) (Or.inr rfl), zero_mul] at this
      exact absurd this.symm hneg.ne
    · by_cases hcr : (c, r) ∈ N
      · rcases fold_both _ D r c hN' hrc_eq ((mem_map_swap _ _ _).mpr hcr)
          ((mem_map_swap _ _ _).mpr hrc) with ⟨-, h0⟩ | ⟨h0, -⟩
        · have := h c hcr' r hrc'
          rw [h0, zero_mul] at this
          exact hm this.symm
        · have := h r hr c hc
          rw [h0, zero_mul] at this
          exact hneg.ne this.symm
      · have := h c hcr' r hrc'
        rw [fold_here _ _ _ _ hN' ((mem_map_swap _ _ _).mpr hrc)
          (Or.inl fun hh => hcr ((mem_map_swap _ _ _).mp hh)), zero_mul] at this
        exact hm this.symm
  · intro h r hr c hc
    have hcr' : c ∈ df.rows := (hsq.same c).mpr hc
    have hrc' : r ∈ df.cols := (hsq.same r).mp hr
    by_cases h1 : (r, c) ∈ N
    · have hneg := ((mem_negativeLocs df r c).mp h1).2.2
      have hz := h r hr c hc hneg
      have hne : r ≠ c := by rintro rfl; rw [hz] at hneg; exact lt_irrefl _ hneg
      have h2 : (c, r) ∉ N := fun hh => by
        have := ((mem_negativeLocs df c r).mp hh).2.2
        rw [hz] at this; exact lt_irrefl _ this
      rw [fold_mirror _ D r c hN' hne (fun hh => h2 ((mem_map_swap _ _ _).mp hh))
        ((mem_map_swap _ _ _).mpr h1), hD, fold_mirror N f c r hN (Ne.symm hne) h2 h1, neg_neg, hfs]
    · by_cases h2 : (c, r) ∈ N
      · have hneg := ((mem_negativeLocs df c r).mp h2).2.2
        have hz := h c hcr' r hrc' hneg
        rw [fold_here _ D r c hN' ((mem_map_swap _ _ _).mpr h2)
          (Or.inl fun hh => h1 ((mem_map_swap _ _ _).mp hh)), zero_mul, hz]
      · rw [fold_none _ D r c (fun hh => h2 ((mem_map_swap _ _ _).mp hh))
          (fun hh => h1 ((mem_map_swap _ _ _).mp hh)), hD, fold_none N f r c h1 h2, hfs]

/-- A matrix over the accounts 0, 1 from its four entries. -/
def sam2 (a b c d : ℚ) : Sam Nat ℚ :=
  ⟨[0, 1], [0, 1], 1, 1, fun r s => if r = 0 then (if s = 0 then a else b) else if s = 0 then c else d⟩

theorem sam2_square (a b c d : ℚ) : SquareSam (sam2 a b c d) :=
  ⟨by simp [sam2], by simp [sam2], by simp [sam2], rfl⟩

/-- A negative cell whose mirror cell is empty comes back. -/
example : ∃ t d b, samFitTransform (sam2 1 (-2) 0 5) = .ok (t, d) ∧ samInverse (some t) d = .ok b ∧
    ∀ r ∈ [0, 1], ∀ c ∈ [0, 1], b.cell r c = (sam2 1 (-2) 0 5).cell r c := by
  obtain ⟨t, d, b, h1, h2, -, -, h3⟩ :=
    C45_round_trip_partial (sam2 1 (-2) 0 5) (sam2_square _ _ _ _) (by decide +kernel)
  exact ⟨t, d, b, h1, h2, h3.mpr (by decide +kernel)⟩

/-- **C45 is false** for a negative entry on the diagonal: it is lost. -/
theorem C45_diagonal_counterexample :
    ∃ t d b, samFitTransform (sam2 (-1) 2 3 4) = .ok (t, d) ∧ samInverse (some t) d = .ok b ∧
      b.cell 0 0 = 0 ∧ (sam2 (-1) 2 3 4).cell 0 0 = -1 := by
  refine ⟨_, _, _, fitTransform_ok _ rfl, inverse_ok _ _ rfl rfl ?_, by decide +kernel, rfl⟩
  intro r c h
  obtain ⟨h1, h2, -⟩ := (mem_negativeLocs _ r c).mp h
  exact ⟨h2, h1⟩

/-- **C45 is false** for a negative entry whose mirror cell is positive: the mirror entry is lost. -/
theorem C45_mirror_counterexample :
    ∃ t d b, samFitTransform (sam2 1 (-2) 3 4) = .ok (t, d) ∧ samInverse (some t) d = .ok b ∧
      b.cell 1 0 = 0 ∧ (sam2 1 (-2) 3 4).cell 1 0 = 3 := by
  refine ⟨_, _, _, fitTransform_ok _ rfl, inverse_ok _ _ rfl rfl ?_, by decide +kernel, rfl⟩
  intro r c h
  obtain ⟨h1, h2, -⟩ := (mem_negativeLocs _ r c).mp h
  exact ⟨h2, h1⟩

/-! ### C46 -/

/-- **C46** (partial).  With a positive total, the transformed matrix has no negative entry **exactly
when** no two accounts have negative entries in both of their mirrored cells. -/
theorem C46_nonnegative_partial [IsStrictOrderedRing R] (df : Sam ι R) (hsq : SquareSam df)
    (htot : 0 < df.total) :
    ∃ t d, samFitTransform df = .ok (t, d) ∧
      ((∀ r ∈ df.rows, ∀ c ∈ df.cols, 0 ≤ d.cell r c) ↔ NoMirroredNegatives df) := by
  have hN := nodup_negativeLocs df hsq.rows hsq.cols
  refine ⟨_, _, fitTransform_ok df hsq.levels, ?_⟩
  dsimp only
  set N := negativeLocs df with hNdef
  set f : ι → ι → R := fun r c => df.cell r c / df.total with hf
  constructor
  · intro h r hr c hc hne hneg hneg'
    have hcr' : c ∈ df.rows := (hsq.same c).mpr hc
    have hrc' : r ∈ df.cols := (hsq.same r).mp hr
    have h1 : (r, c) ∈ N := (mem_negativeLocs df r c).mpr ⟨hr, hc, hneg⟩
    have h2 : (c, r) ∈ N := (mem_negativeLocs df c r).mpr ⟨hcr', hrc', hneg'⟩
    rcases fold_both N f r c hN hne h1 h2 with ⟨h0, -⟩ | ⟨-, h0⟩
    · have := h r hr c hc
      rw [h0] at this
      exact absurd (div_neg_of_neg_of_pos hneg htot) (not_lt.mpr this)
    · have := h c hcr' r hrc'
      rw [h0] at this
      exact absurd (div_neg_of_neg_of_pos hneg' htot) (not_lt.mpr this)
  · intro h r hr c hc
    have hcr' : c ∈ df.rows := (hsq.same c).mpr hc
    have hrc' : r ∈ df.cols := (hsq.same r).mp hr
    by_cases h1 : (r, c) ∈ N
    · rw [fold_here N f r c hN h1]
      by_cases hrc : r = c
      · exact Or.inr hrc
      · exact Or.inl fun hh => h r hr c hc hrc ((mem_negativeLocs df r c).mp h1).2.2
          ((mem_negativeLocs df c r).mp hh).2.2
    · by_cases h2 : (c, r) ∈ N
      · have hneg := ((mem_negativeLocs df c r).mp h2).2.2
        have hne : r ≠ c := by rintro rfl; exact h1 h2
        rw [fold_mirror N f r c hN hne h1 h2]
        exact (neg_pos.mpr (div_neg_of_neg_of_pos hneg htot)).le
      · rw [fold_none N f r c h1 h2]
        refine div_nonneg ?_ htot.le
        by_contra hlt
        exact h1 ((mem_negativeLocs df r c).mpr ⟨hr, hc, not_le.mp hlt⟩)

/-- A negative entry on the diagonal and one beside a positive mirror entry are fine. -/
example : NoMirroredNegatives (sam2 (-1) (-2) 3 4) := by
  unfold NoMirroredNegatives; decide +kernel

/-- **C46 is false** for mirrored negative entries: one of them is negative after the transformation. -/
theorem C46_mirrored_counterexample :
    ∃ t d, samFitTransform (sam2 10 (-2) (-3) 4) = .ok (t, d) ∧ 0 < (sam2 10 (-2) (-3) 4).total ∧
      d.cell 1 0 < 0 :=
  ⟨_, _, fitTransform_ok _ rfl, by decide +kernel, by decide +kernel⟩

/-! ### C47 -/

omit [DecidableEq ι] [LinearOrder R] in
theorem balance_eq_sum (rows cols : List ι) (f : ι → ι → R) (hr : rows.Nodup) (hc : cols.Nodup)
    (hs : ∀ x, x ∈ rows ↔ x ∈ cols) (k : ι) :
    (cols.map fun c => f k c).sum - (rows.map fun r => f r k).sum =
      (rows.map fun j => f k j - f j k).sum := by
  have hp : cols.Perm rows := (List.perm_ext_iff_of_nodup hc hr).mpr fun x => (hs x).symm
  rw [(hp.map (fun c => f k c)).sum_eq]
  clear hp hs hc hr cols
  induction rows with
  | nil => simp
  | cons a l ih =>
    simp only [List.map_cons, List.sum_cons]
    rw [← ih]
    ring

/-- **C47** (partial), `transform`: if the mirror cell of every negative cell off the diagonal is zero,
every account's row total minus column total is divided by the scale; so a balanced matrix stays
balanced. -/
theorem C47_transform_partial [IsStrictOrderedRing R] (df : Sam ι R) (hsq : SquareSam df)
    (hmir : ∀ r ∈ df.rows, ∀ c ∈ df.cols, r ≠ c → df.cell r c < 0 → df.cell c r = 0) :
    ∃ t d, samFitTransform df = .ok (t, d) ∧
      ∀ k ∈ df.rows, rowTotal d k - colTotal d k = (rowTotal df k - colTotal df k) / df.total := by
  have hN := nodup_negativeLocs df hsq.rows hsq.cols
  refine ⟨_, _, fitTransform_ok df hsq.levels, ?_⟩
  intro k hk
  unfold rowTotal colTotal
  dsimp only
  rw [balance_eq_sum _ _ _ hsq.rows hsq.cols hsq.same, balance_eq_sum _ _ _ hsq.rows hsq.cols hsq.same,
    div_eq_mul_inv, ← List.sum_map_mul_right]
  congr 1
  refine List.map_congr_left fun j hj => ?_
  have hkc : k ∈ df.cols := (hsq.same k).mp hk
  have hjc : j ∈ df.cols := (hsq.same j).mp hj
  set N := negativeLocs df with hNdef
  by_cases hkj : k = j
  · subst hkj; ring
  · by_cases h1 : (k, j) ∈ N
    · have hz := hmir k hk j hjc hkj ((mem_negativeLocs df k j).mp h1).2.2
      have h2 : (j, k) ∉ N := fun hh => by
        have := ((mem_negativeLocs df j k).mp hh).2.2
        rw [hz] at this; exact lt_irrefl _ this
      rw [fold_here N _ k j hN h1 (Or.inl h2), fold_mirror N _ j k hN (Ne.symm hkj) h2 h1, hz]
      ring
    · by_cases h2 : (j, k) ∈ N
      · have hz := hmir j hj k hkc (Ne.symm hkj) ((mem_negativeLocs df j k).mp h2).2.2
        rw [fold_here N _ j k hN h2 (Or.inl h1), fold_mirror N _ k j hN hkj h1 h2, hz]
        ring
      · rw [fold_none N _ k j h1 h2, fold_none N _ j k h2 h1]
        ring

example : ∀ r ∈ (sam2 (-1) (-2) 0 4).rows, ∀ c ∈ (sam2 (-1) (-2) 0 4).cols, r ≠ c →
    (sam2 (-1) (-2) 0 4).cell r c < 0 → (sam2 (-1) (-2) 0 4).cell c r = 0 := by decide +kernel

/-- **C47** (partial), `inverse_transform` of any matrix `X` with the labels of the fitted one, after a
fit without mirrored negative entries: if `X` is zero at the (off-diagonal) cells that were negative,
every account's row total minus column total is multiplied by the scale. -/
theorem C47_inverse_partial (df X : Sam ι R) (hsq : SquareSam df)
    (hX : X.rows = df.rows ∧ X.cols = df.cols ∧ X.rowLevels = df.rowLevels ∧ X.colLevels = df.colLevels)
    (hno : NoMirroredNegatives df)
    (hzero : ∀ r ∈ df.rows, ∀ c ∈ df.cols, r ≠ c → df.cell r c < 0 → X.cell r c = 0) :
    ∃ t d b, samFitTransform df = .ok (t, d) ∧ samInverse (some t) X = .ok b ∧
      ∀ k ∈ df.rows, rowTotal b k - colTotal b k = (rowTotal X k - colTotal X k) * df.total := by
  obtain ⟨hXr, hXc, hXl, hXl'⟩ := hX
  have hN := nodup_negativeLocs df hsq.rows hsq.cols
  have hN' := nodup_map_swap _ hN
  refine ⟨_, _, _, fitTransform_ok df hsq.levels,
    inverse_ok X _ (by rw [hXl']; exact hsq.levels) (by rw [hXl, hXl']; exact hsq.levels.symm) ?_, ?_⟩
  · intro r c h
    obtain ⟨h1, h2, -⟩ := (mem_negativeLocs df r c).mp h
    rw [hXr, hXc]
    exact ⟨(hsq.same c).mpr h2, (hsq.same r).mp h1⟩
  intro k hk
  unfold rowTotal colTotal
  dsimp only
  rw [hXr, hXc, balance_eq_sum _ _ (fun r c => List.foldl moveNegative X.cell
      (List.map Prod.swap (negativeLocs df)) r c * df.total) hsq.rows hsq.cols hsq.same,
    balance_eq_sum _ _ _ hsq.rows hsq.cols hsq.same, ← List.sum_map_mul_right]
  congr 1
  refine List.map_congr_left fun j hj => ?_
  have hkc : k ∈ df.cols := (hsq.same k).mp hk
  have hjc : j ∈ df.cols := (hsq.same j).mp hj
  set N := negativeLocs df with hNdef
  have hsw := fun a b => mem_map_swap N a b
  by_cases hkj : k = j
  · subst hkj; ring
  · by_cases h1 : (k, j) ∈ N
    · have hneg := ((mem_negativeLocs df k j).mp h1).2.2
      have hz := hzero k hk j hjc hkj hneg
      have h2 : (j, k) ∉ N := fun hh =>
        hno k hk j hjc hkj hneg ((mem_negativeLocs df j k).mp hh).2.2
      rw [fold_here _ _ j k hN' ((hsw _ _).mpr h1) (Or.inl fun hh => h2 ((hsw _ _).mp hh)),
        fold_mirror _ _ k j hN' hkj (fun hh => h2 ((hsw _ _).mp hh)) ((hsw _ _).mpr h1), hz]
      ring
    · by_cases h2 : (j, k) ∈ N
      · have hneg := ((mem_negativeLocs df j k).mp h2).2.2
        have hz := hzero j hj k hkc (Ne.symm hkj) hneg
        rw [fold_here _ _ k j hN' ((hsw _ _).mpr h2) (Or.inl fun hh => h1 ((hsw _ _).mp hh)),
          fold_mirror _ _ j k hN' (Ne.symm hkj) (fun hh => h1 ((hsw _ _).mp hh)) ((hsw _ _).mpr h2), hz]
        ring
      · rw [fold_none _ _ k j (fun hh => h2 ((hsw _ _).mp hh)) (fun hh => h1 ((hsw _ _).mp hh)),
          fold_none _ _ j k (fun hh => h1 ((hsw _ _).mp hh)) (fun hh => h2 ((hsw _ _).mp hh))]
        ring

example : NoMirroredNegatives (sam2 1 (-2) 3 5) ∧
    ∀ r ∈ (sam2 1 (-2) 3 5).rows, ∀ c ∈ (sam2 1 (-2) 3 5).cols, r ≠ c →
      (sam2 1 (-2) 3 5).cell r c < 0 → (sam2 1 0 7 5).cell r c = 0 := by
  unfold NoMirroredNegatives; decide +kernel

/-- **C47 is false** when the mirror cell is used: the entry 3 is lost and with it the balance. -/
theorem C47_counterexample :
    ∃ t d, samFitTransform (sam2 1 (-2) 3 4) = .ok (t, d) ∧
      rowTotal d 0 - colTotal d 0 ≠
        (rowTotal (sam2 1 (-2) 3 4) 0 - colTotal (sam2 1 (-2) 3 4) 0) / (sam2 1 (-2) 3 4).total :=
  ⟨_, _, fitTransform_ok _ rfl, by decide +kernel⟩

/-- **C45.**  A table that lacks the row or the column of a moved entry is refused, in both directions. -/
theorem C45_missing_label_refused (t : Fitted ι R) (df : Sam ι R)
    (hl : t.nLevels = df.colLevels ∧ df.colLevels = df.rowLevels) :
    ((∃ l ∈ t.negLocs, l.1 ∉ df.rows ∨ l.2 ∉ df.cols) → samTransform (some t) df = .error .keyError) ∧
    ((∃ l ∈ t.negLocs, l.2 ∉ df.rows ∨ l.1 ∉ df.cols) → samInverse (some t) df = .error .keyError) := by
  constructor
  · rintro ⟨l, hmem, h⟩
    unfold samTransform
    dsimp only
    rw [if_neg (by simpa using hl), if_neg]
    unfold hasLocs
    rw [List.all_eq_true]
    intro hall
    have := hall l hmem
    rw [Bool.and_eq_true, List.contains_iff_mem, List.contains_iff_mem] at this
    rcases h with h | h
    · exact h this.1
    · exact h this.2
  · rintro ⟨l, hmem, h⟩
    unfold samInverse
    dsimp only
    rw [if_neg (by simpa using hl), if_neg]
    unfold hasLocs
    rw [List.all_eq_true]
    intro hall
    have := hall l.swap (List.mem_map.2 ⟨l, hmem, rfl⟩)
    rw [Bool.and_eq_true, List.contains_iff_mem, List.contains_iff_mem] at this
    rcases h with h | h
    · exact h this.1
    · exact h this.2

example : samTransform (some ⟨1, [(2, 0)], (sam2 1 2 3 4).colLevels⟩) (sam2 1 2 3 4) = .error .keyError :=
  (C45_missing_label_refused ⟨1, [(2, 0)], (sam2 1 2 3 4).colLevels⟩ (sam2 1 2 3 4) ⟨rfl, rfl⟩).1
    ⟨(2, 0), by simp, Or.inl (by decide)⟩

end Verif
