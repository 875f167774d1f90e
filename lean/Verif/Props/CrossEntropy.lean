import Verif.Lemmas.Scatter

/-!
# C67, C68: rebalancing a balanced SAM, and the uniqueness of the answer
-/

namespace Verif

open Set

variable {ι : Type} [DecidableEq ι]

/-! ### The two problems in common terms -/

/-- The positions used by cvxpy. -/
noncomputable def posC (d : Sam ι ℝ) : List (Nat × Nat) := maskPositions (fun v => decide (v ≠ 0)) d.values

/-- The positions used by scipy. -/
noncomputable def posS (d : Sam ι ℝ) : List (Nat × Nat) := maskPositions (fun v => decide (0 < v)) d.values

omit [DecidableEq ι] in
theorem values_rows (d : Sam ι ℝ) : RowsOf d.cols.length d.values := by
  intro row hrow
  obtain ⟨r, -, rfl⟩ := List.mem_map.mp hrow
  simp

omit [DecidableEq ι] in
theorem values_length (d : Sam ι ℝ) : d.values.length = d.rows.length := by simp [Sam.values]

omit [DecidableEq ι] in
theorem cvx_Z (d : Sam ι ℝ) (hsame : d.rows = d.cols) (x : List ℝ) (hl : x.length = (posC d).length)
    (i j : Nat) (hj : j < d.rows.length) :
    reshapeAx d.rows.length (sparseToVectorAndMatrix d.cols.length d.values).2 x i j =
      putAt (posC d) x (i, j) := by
  rw [hsame] at hj ⊢
  exact matVec_putAt d.cols.length (posC d) x (nodup_maskPositions _ _)
    (fun ij h => (maskPositions_lt _ _ _ (values_rows d) ij h).2) hl i j hj

omit [DecidableEq ι] in
theorem cvx_iff (d : Sam ι ℝ) (hsame : d.rows = d.cols) (scale : ℝ) (hs : scale ≠ 0) (x : List ℝ) :
    CvxpyConstraints d scale x ↔ Feas d.rows.length (posC d) x := by
  have hlen : (posC d).length = (sparseToVectorAndMatrix d.cols.length d.values).1.length :=
    mask_length _ _
  unfold CvxpyConstraints Feas
  dsimp only
  rw [← hlen]
  refine and_congr_right fun hl => and_congr_right fun _ => and_congr_right fun _ => ?_
  refine forall_congr' fun k => forall_congr' fun hk => ?_
  rw [mul_left_inj' hs, sum_map_range, sum_map_range]
  rw [Finset.sum_congr rfl fun i _ => cvx_Z d hsame x hl i k hk,
    Finset.sum_congr rfl fun j hj => cvx_Z d hsame x hl k j (Finset.mem_range.mp hj)]

theorem sum_abs_range_zero (n : Nat) (g : Nat → ℝ) (h : ∀ k < n, g k = 0) :
    ((List.range n).map fun k => |g k|).sum = 0 := by
  rw [sum_map_range]
  exact Finset.sum_eq_zero fun k hk => by rw [h k (Finset.mem_range.mp hk), abs_zero]

omit [DecidableEq ι] in
theorem scipy_Z (d : Sam ι ℝ) (x : List ℝ) (i j : Nat) :
    scatterPositive d.values x i j = putAt (posS d) x (i, j) := by
  unfold scatterPositive putAt posS
  generalize List.find? _ _ = o
  cases o <;> rfl

omit [DecidableEq ι] in
theorem scipy_iff (d : Sam ι ℝ) (x : List ℝ) :
    ScipyConstraints d x ↔ Feas d.rows.length (posS d) x := by
  have hlen : (posS d).length = (maskValues (fun v => decide (0 < v)) d.values).length :=
    mask_length _ _
  unfold ScipyConstraints Feas
  simp only [scipy_Z, sum_map_range]
  rw [← hlen]
  refine and_congr_right fun hl => and_congr_right fun h1 => ?_
  constructor
  · rintro ⟨h2, h3⟩
    refine ⟨fun v hv => (h2 v hv).1, fun k hk => ?_⟩
    exact sub_eq_zero.mp (sum_abs_zero (List.range d.rows.length) _ h3 k (List.mem_range.mpr hk))
  · rintro ⟨h2, h3⟩
    refine ⟨fun v hv => ⟨h2 v hv, ?_⟩, ?_⟩
    · rw [← h1]; exact List.single_le_sum h2 v hv
    · exact sum_abs_range_zero _ _ fun k hk => sub_eq_zero.mpr (h3 k hk)

theorem klDiv_continuous {w : ℝ} (hw : 0 < w) : Continuous fun a => klDiv a w := by
  simp only [klDiv_eq hw]
  have := Real.continuous_mul_log
  fun_prop

theorem ceTerm_continuousOn (v : ℝ) : ContinuousOn (fun a => ceTerm a v) (Ici (0 : ℝ)) := by
  unfold ceTerm
  refine continuousOn_id.mul (ContinuousOn.sub (ContinuousOn.log (by fun_prop) ?_) continuousOn_const)
  intro a ha
  have h1 : (0 : ℝ) < 1 / 10 ^ 10 := by positivity
  have h2 : (0 : ℝ) ≤ a := ha
  linarith

omit [DecidableEq ι] in
theorem cvx_existsUnique (delta : ℝ) (d : Sam ι ℝ) (hsame : d.rows = d.cols) (scale : ℝ) (hs : scale ≠ 0)
    (hdom : ∀ v ∈ (sparseToVectorAndMatrix d.cols.length d.values).1, 0 < v + delta)
    (hne : ∃ y, CvxpyConstraints d scale y) : ∃! x, CvxpyOptimal delta d scale x := by
  have h := existsUnique_min d.rows.length (posC d) (fun a v => klDiv a (v + delta))
    (sparseToVectorAndMatrix d.cols.length d.values).1 (mask_length _ _).symm
    (fun v hv a b ha hb hab => klDiv_strict (hdom v hv) ha hb hab)
    (fun v hv => (klDiv_continuous (hdom v hv)).continuousOn)
    (by obtain ⟨y, hy⟩ := hne; exact ⟨y, (cvx_iff d hsame scale hs y).mp hy⟩)
  have heq : ∀ x, CvxpyOptimal delta d scale x ↔ (Feas d.rows.length (posC d) x ∧
      ∀ y, Feas d.rows.length (posC d) y →
        (List.zipWith (fun a v => klDiv a (v + delta)) x
          (sparseToVectorAndMatrix d.cols.length d.values).1).sum ≤
        (List.zipWith (fun a v => klDiv a (v + delta)) y
          (sparseToVectorAndMatrix d.cols.length d.values).1).sum) := by
    intro x
    unfold CvxpyOptimal cvxpyObjective
    simp only [cvx_iff d hsame scale hs]
    exact ⟨fun h => h.2, fun h => ⟨hdom, h⟩⟩
  obtain ⟨x, hx, hu⟩ := h
  exact ⟨x, (heq x).mpr hx, fun y hy => hu y ((heq y).mp hy)⟩

omit [DecidableEq ι] in
theorem scipy_existsUnique (d : Sam ι ℝ) (hne : ∃ y, ScipyConstraints d y) :
    ∃! x, ScipyOptimal d x := by
  have h := existsUnique_min d.rows.length (posS d) ceTerm
    (maskValues (fun v => decide (0 < v)) d.values) (mask_length _ _).symm
    (fun v _ a b ha hb hab => ceTerm_strict v ha hb hab)
    (fun v _ => ceTerm_continuousOn v)
    (by obtain ⟨y, hy⟩ := hne; exact ⟨y, (scipy_iff d y).mp hy⟩)
  have heq : ∀ x, ScipyOptimal d x ↔ (Feas d.rows.length (posS d) x ∧
      ∀ y, Feas d.rows.length (posS d) y →
        (List.zipWith ceTerm x (maskValues (fun v => decide (0 < v)) d.values)).sum ≤
        (List.zipWith ceTerm y (maskValues (fun v => decide (0 < v)) d.values)).sum) := by
    intro x
    unfold ScipyOptimal scipyObjective
    simp only [scipy_iff d]
    rfl
  obtain ⟨x, hx, hu⟩ := h
  exact ⟨x, (heq x).mpr hx, fun y hy => hu y ((heq y).mp hy)⟩

/-- **C68**, one answer: for a matrix with the same labels in the same order along rows and columns and a
nonzero total, any two optimizers that return a solution of the problem they are given lead
`balance_SAM` to the same matrix. -/
theorem C68_unique (df : Sam ι ℝ) (hsame : df.rows = df.cols) (htot : df.total ≠ 0) (delta : ℝ)
    (o₁ o₂ : Sam ι ℝ → ℝ → List ℝ) (p₁ p₂ : Sam ι ℝ → List ℝ) (useCvxpy : Bool)
    (ho : ∀ t d, samFitTransform df = .ok (t, d) → useCvxpy = true →
      CvxpyOptimal delta d t.scale (o₁ d t.scale) ∧ CvxpyOptimal delta d t.scale (o₂ d t.scale))
    (hp : ∀ t d, samFitTransform df = .ok (t, d) → useCvxpy = false →
      ScipyOptimal d (p₁ d) ∧ ScipyOptimal d (p₂ d)) :
    balanceSam o₁ p₁ true useCvxpy df = balanceSam o₂ p₂ true useCvxpy df := by
  unfold balanceSam
  simp only [Bool.true_eq_false, if_false]
  by_cases hlev : df.rowLevels = df.colLevels
  · obtain ⟨t, d, htd, hd, hts⟩ : ∃ t d, samFitTransform df = .ok (t, d) ∧ d.rows = d.cols ∧
        t.scale = df.total := ⟨_, _, fitTransform_ok df hlev, hsame, rfl⟩
    rw [htd]
    show samInverse (some t) _ = samInverse (some t) _
    cases huse : useCvxpy with
    | true =>
      obtain ⟨h1, h2⟩ := ho t d htd huse
      have := (cvx_existsUnique delta d hd t.scale (by rw [hts]; exact htot) h1.1 ⟨_, h1.2.1⟩).unique h1 h2
      simp only [if_true]
      rw [this]
    | false =>
      obtain ⟨h1, h2⟩ := hp t d htd huse
      have := (scipy_existsUnique d ⟨_, h1.1⟩).unique h1 h2
      simp only [Bool.false_eq_true, if_false]
      rw [this]
  · have : samFitTransform df = .error .assertion := by
      unfold samFitTransform samFit
      rw [if_pos hlev]; rfl
    rw [this]; rfl

/-! ### The matrix as a vector -/

omit [DecidableEq ι] in
theorem mem_maskValues (p : ℝ → Bool) (d : Sam ι ℝ) (v : ℝ) (h : v ∈ maskValues p d.values) :
    p v = true ∧ ∃ r ∈ d.rows, ∃ c ∈ d.cols, d.cell r c = v := by
  unfold maskValues at h
  rw [List.mem_filter, List.mem_flatten] at h
  obtain ⟨⟨row, hrow, hv⟩, hp⟩ := h
  obtain ⟨r, hr, rfl⟩ := List.mem_map.mp hrow
  obtain ⟨c, hc, rfl⟩ := List.mem_map.mp hv
  exact ⟨hp, r, hr, c, hc, rfl⟩

theorem cvx_self (d : Sam ι ℝ) (hsame : d.rows = d.cols) (r c : ι) (hr : r ∈ d.rows) (hc : c ∈ d.cols) :
    putAt (posC d) (sparseToVectorAndMatrix d.cols.length d.values).1
      (d.rows.idxOf r, d.cols.idxOf c) = d.cell r c := by
  obtain ⟨row, h1, h2⟩ := sam_values_get d r c hr hc
  rw [← (C48_cvxpy_vector_matrix d.cols.length d.values (values_rows d)).1 _ row _ _ h1 h2]
  refine (matVec_putAt d.cols.length (posC d) _ (nodup_maskPositions _ _)
    (fun ij h => (maskPositions_lt _ _ _ (values_rows d) ij h).2) (mask_length _ _).symm _ _
    (List.idxOf_lt_length_iff.mpr hc)).symm

theorem scipy_self (d : Sam ι ℝ) (h0 : ∀ r ∈ d.rows, ∀ c ∈ d.cols, 0 ≤ d.cell r c) (r c : ι)
    (hr : r ∈ d.rows) (hc : c ∈ d.cols) :
    putAt (posS d) (maskValues (fun v => decide (0 < v)) d.values)
      (d.rows.idxOf r, d.cols.idxOf c) = d.cell r c := by
  obtain ⟨row, h1, h2⟩ := sam_values_get d r c hr hc
  rw [← (C48_scipy_vector_matrix d.cols.length d.values (values_rows d)).1 _ row _ _ h1 h2
    (h0 r hr c hc), scipy_Z]

theorem sum_rows (l : List ι) (hn : l.Nodup) (g : Nat → ℝ) :
    ∑ i ∈ Finset.range l.length, g i = (l.map fun c => g (l.idxOf c)).sum := by
  rw [sum_idxOf l hn g, sum_map_range]

/-- The sum of a scattered matrix, by labels. -/
theorem total_putAt (d : Sam ι ℝ) (hsame : d.rows = d.cols) (hn : d.rows.Nodup)
    (pos : List (Nat × Nat)) (x : List ℝ) (hnd : pos.Nodup)
    (hlt : ∀ ij ∈ pos, ij.1 < d.rows.length ∧ ij.2 < d.rows.length) (hl : x.length = pos.length) :
    (withValues d fun i j => putAt pos x (i, j)).total = x.sum := by
  rw [← sum_putAt d.rows.length d.rows.length pos x hnd hlt hl, Finset.sum_comm,
    sum_rows d.rows hn]
  unfold Sam.total withValues
  dsimp only
  rw [← hsame]
  congr 1
  refine List.map_congr_left fun c _ => ?_
  rw [sum_rows d.rows hn fun i => putAt pos x (i, d.rows.idxOf c)]

/-- The matrix itself meets the constraints if it is balanced. -/
theorem feas_self (d : Sam ι ℝ) (hsame : d.rows = d.cols) (hn : d.rows.Nodup)
    (pos : List (Nat × Nat)) (vs : List ℝ) (hnd : pos.Nodup)
    (hlt : ∀ ij ∈ pos, ij.1 < d.rows.length ∧ ij.2 < d.rows.length) (hl : vs.length = pos.length)
    (hself : ∀ r ∈ d.rows, ∀ c ∈ d.cols, putAt pos vs (d.rows.idxOf r, d.cols.idxOf c) = d.cell r c)
    (hpos : ∀ v ∈ vs, 0 ≤ v) (htot : d.total = 1)
    (hbal : ∀ k ∈ d.rows, rowTotal d k = colTotal d k) : Feas d.rows.length pos vs := by
  refine ⟨hl, ?_, hpos, ?_⟩
  · rw [← total_putAt d hsame hn pos vs hnd hlt hl, ← htot]
    unfold Sam.total withValues
    dsimp only
    congr 1
    refine List.map_congr_left fun c hc => ?_
    congr 1
    exact List.map_congr_left fun r hr => hself r hr c hc
  · intro k hk
    obtain ⟨a, ham, hk'⟩ : ∃ a ∈ d.rows, d.rows.idxOf a = k :=
      ⟨d.rows[k], List.getElem_mem hk, hn.idxOf_getElem k hk⟩
    have ham' : a ∈ d.cols := by rw [← hsame]; exact ham
    have hb := hbal a ham
    rw [sum_rows d.rows hn fun i => putAt pos vs (i, k), sum_rows d.rows hn fun j => putAt pos vs (k, j)]
    unfold rowTotal colTotal at hb
    have e1 : (d.rows.map fun r => putAt pos vs (d.rows.idxOf r, k)) =
        d.rows.map fun r => d.cell r a := by
      refine List.map_congr_left fun r hr => ?_
      rw [← hself r hr a ham', ← hsame, hk']
    have e2 : (d.rows.map fun c => putAt pos vs (k, d.rows.idxOf c)) =
        d.rows.map fun c => d.cell a c := by
      refine List.map_congr_left fun c hc => ?_
      rw [← hself a ham c (hsame ▸ hc), ← hsame, hk']
    rw [e1, e2, ← hb, hsame]

theorem putAt_close (pos : List (Nat × Nat)) (x y : List ℝ) (err : ℝ) (herr : 0 ≤ err) (hnd : pos.Nodup)
    (hx : x.length = pos.length) (hy : y.length = pos.length)
    (h : ∀ (n : Nat) a b, x[n]? = some a → y[n]? = some b → |a - b| ≤ err) (ij : Nat × Nat) :
    |putAt pos x ij - putAt pos y ij| ≤ err := by
  by_cases hmem : ij ∈ pos
  · obtain ⟨n, hn⟩ := List.getElem?_of_mem hmem
    have hlt := (List.getElem?_eq_some_iff.mp hn).1
    have h1 : x[n]? = some x[n] := List.getElem?_eq_getElem (by omega)
    have h2 : y[n]? = some y[n] := List.getElem?_eq_getElem (by omega)
    rw [putAt_get pos x n ij _ hnd hn h1, putAt_get pos y n ij _ hnd hn h2]
    exact h n _ _ h1 h2
  · rw [putAt_notMem _ _ _ hmem, putAt_notMem _ _ _ hmem, sub_zero, abs_zero]
    exact herr

theorem length_le_square (n : Nat) (pos : List (Nat × Nat)) (hnd : pos.Nodup)
    (hlt : ∀ ij ∈ pos, ij.1 < n ∧ ij.2 < n) : pos.length ≤ n ^ 2 := by
  rw [← List.toFinset_card_of_nodup hnd]
  have : pos.toFinset ⊆ Finset.range n ×ˢ Finset.range n := by
    intro ij h
    rw [List.mem_toFinset] at h
    rw [Finset.mem_product, Finset.mem_range, Finset.mem_range]
    exact hlt ij h
  refine (Finset.card_le_card this).trans ?_
  rw [Finset.card_product, Finset.card_range, sq]

theorem zip_term_le (G : ℝ → ℝ → ℝ) (x vs : List ℝ)
    (hG : ∀ (n : Nat) a v, x[n]? = some a → vs[n]? = some v → 0 ≤ G a v) (n : Nat) (a v : ℝ)
    (h1 : x[n]? = some a) (h2 : vs[n]? = some v) : G a v ≤ (List.zipWith G x vs).sum := by
  refine List.single_le_sum ?_ _ ?_
  · intro y hy
    obtain ⟨m, hm⟩ := List.getElem?_of_mem hy
    rw [List.getElem?_zipWith] at hm
    split at hm
    · rename_i a' v' h1' h2'
      cases hm
      exact hG m a' v' h1' h2'
    · cases hm
  · refine List.mem_of_getElem? (i := n) ?_
    rw [List.getElem?_zipWith, h1, h2]

theorem zip_self_le (G : ℝ → ℝ → ℝ) (vs : List ℝ) (c : ℝ) (hc : 0 ≤ c) (h : ∀ v ∈ vs, G v v ≤ c) (N : Nat)
    (hN : vs.length ≤ N) : (List.zipWith G vs vs).sum ≤ N * c := by
  rw [List.zipWith_self]
  have h1 := List.sum_le_card_nsmul (vs.map fun a => G a a) c (by
    intro y hy
    obtain ⟨v, hv, rfl⟩ := List.mem_map.mp hy
    exact h v hv)
  rw [List.length_map, nsmul_eq_mul] at h1
  exact h1.trans (mul_le_mul_of_nonneg_right (by exact_mod_cast hN) hc)

/-! ### The matrix divided by its total -/

/-- The normalized matrix. -/
noncomputable def normed (df : Sam ι ℝ) : Sam ι ℝ := { df with cell := fun r c => df.cell r c / df.total }

omit [DecidableEq ι] in
theorem normed_total (df : Sam ι ℝ) (ht : df.total ≠ 0) : (normed df).total = 1 := by
  have : (normed df).total = df.total * df.total⁻¹ := by
    generalize hT : df.total⁻¹ = T
    unfold Sam.total normed
    dsimp only
    simp only [div_eq_mul_inv, hT, List.sum_map_mul_right]
  rw [this, mul_inv_cancel₀ ht]

omit [DecidableEq ι] in
theorem normed_balanced (df : Sam ι ℝ) (k : ι) (h : rowTotal df k = colTotal df k) :
    rowTotal (normed df) k = colTotal (normed df) k := by
  unfold rowTotal colTotal normed at *
  dsimp only
  simp only [div_eq_mul_inv, List.sum_map_mul_right]
  rw [h]

theorem scaled_close {a b T err : ℝ} (hT : 0 < T) (h : |a - b| ≤ err) : |a * T - b * T| ≤ T * err := by
  rw [← sub_mul, abs_mul, abs_of_pos hT, mul_comm]
  exact mul_le_mul_of_nonneg_left h hT.le

theorem total_finset (df : Sam ι ℝ) (hsame : df.rows = df.cols) (hn : df.rows.Nodup) :
    df.total = ∑ c ∈ df.rows.toFinset, ∑ r ∈ df.rows.toFinset, df.cell r c := by
  unfold Sam.total
  rw [← hsame, List.sum_toFinset _ hn]
  congr 1
  refine List.map_congr_left fun c _ => ?_
  rw [List.sum_toFinset _ hn]

/-! ### Moving the negative entries -/

section Move

variable (df : Sam ι ℝ) (hsame : df.rows = df.cols) (hn : df.rows.Nodup)
  (hmir : ∀ r ∈ df.rows, ∀ c ∈ df.cols, df.cell r c < 0 → df.cell c r = 0)
include hsame hn hmir

theorem mir_ne (r c : ι) (hr : r ∈ df.rows) (hc : c ∈ df.rows) (h : df.cell r c < 0) : r ≠ c := by
  rintro rfl
  have := hmir r hr r (hsame ▸ hr) h
  linarith

theorem fold_move (f : ι → ι → ℝ) (r c : ι) (hr : r ∈ df.rows) (hc : c ∈ df.rows) :
    (negativeLocs df).foldl moveNegative f r c =
      if df.cell r c < 0 then 0 else if df.cell c r < 0 then -(f c r) else f r c := by
  have hN := nodup_negativeLocs df hn (hsame ▸ hn)
  have hm : ∀ r c, r ∈ df.rows → c ∈ df.rows → df.cell r c < 0 → (r, c) ∈ negativeLocs df :=
    fun r c hr hc h => (mem_negativeLocs df r c).mpr ⟨hr, hsame ▸ hc, h⟩
  have hnm : ∀ r c, ¬ df.cell r c < 0 → (r, c) ∉ negativeLocs df :=
    fun r c h hh => h ((mem_negativeLocs df r c).mp hh).2.2
  by_cases h1 : df.cell r c < 0
  · have h2 : ¬ df.cell c r < 0 := by rw [hmir r hr c (hsame ▸ hc) h1]; exact lt_irrefl _
    rw [if_pos h1, fold_here _ _ r c hN (hm r c hr hc h1) (Or.inl (hnm c r h2))]
  · rw [if_neg h1]
    by_cases h2 : df.cell c r < 0
    · rw [if_pos h2, fold_mirror _ _ r c hN (mir_ne df hsame hn hmir c r hc hr h2).symm (hnm r c h1)
        (hm c r hc hr h2)]
    · rw [if_neg h2, fold_none _ _ r c (hnm r c h1) (hnm c r h2)]

theorem fold_back (f : ι → ι → ℝ) (r c : ι) (hr : r ∈ df.rows) (hc : c ∈ df.rows) :
    ((negativeLocs df).map Prod.swap).foldl moveNegative f r c =
      if df.cell c r < 0 then 0 else if df.cell r c < 0 then -(f c r) else f r c := by
  have hN := nodup_map_swap _ (nodup_negativeLocs df hn (hsame ▸ hn))
  have hm : ∀ r c, r ∈ df.rows → c ∈ df.rows → df.cell r c < 0 →
      (c, r) ∈ (negativeLocs df).map Prod.swap :=
    fun r c hr hc h => (mem_map_swap _ _ _).mpr ((mem_negativeLocs df r c).mpr ⟨hr, hsame ▸ hc, h⟩)
  have hnm : ∀ r c, ¬ df.cell r c < 0 → (c, r) ∉ (negativeLocs df).map Prod.swap :=
    fun r c h hh => h ((mem_negativeLocs df r c).mp ((mem_map_swap _ _ _).mp hh)).2.2
  by_cases h1 : df.cell c r < 0
  · have h2 : ¬ df.cell r c < 0 := by rw [hmir c hc r (hsame ▸ hr) h1]; exact lt_irrefl _
    rw [if_pos h1, fold_here _ _ r c hN (hm c r hc hr h1) (Or.inl (hnm r c h2))]
  · rw [if_neg h1]
    by_cases h2 : df.cell r c < 0
    · rw [if_pos h2, fold_mirror _ _ r c hN (mir_ne df hsame hn hmir r c hr hc h2) (hnm c r h1)
        (hm r c hr hc h2)]
    · rw [if_neg h2, fold_none _ _ r c (hnm c r h1) (hnm r c h2)]

/-- What is known about the transformed matrix. -/
theorem moved (hlev : df.rowLevels = df.colLevels) (htot : 0 < df.total)
    (hbal : ∀ k ∈ df.rows, rowTotal df k = colTotal df k) :
    ∃ d, samFitTransform df = .ok (⟨df.total, negativeLocs df, df.rowLevels⟩, d) ∧
      d.rows = df.rows ∧ d.cols = df.cols ∧ d.rowLevels = df.rowLevels ∧ d.colLevels = df.colLevels ∧
      (∀ r ∈ df.rows, ∀ c ∈ df.rows, d.cell r c = if df.cell r c < 0 then 0
        else if df.cell c r < 0 then -(df.cell c r / df.total) else df.cell r c / df.total) ∧
      (∀ r ∈ df.rows, ∀ c ∈ df.rows, 0 ≤ d.cell r c) ∧
      d.total = absTotal df / df.total ∧ ∀ k ∈ df.rows, rowTotal d k = colTotal d k := by
  obtain ⟨t', d, htd, hb⟩ := C47_transform_partial df ⟨hn, hsame ▸ hn, fun x => by rw [hsame], hlev⟩
    (fun r hr c hc _ h => hmir r hr c hc h)
  have htd' := htd
  rw [fitTransform_ok df hlev] at htd'
  simp only [Except.ok.injEq, Prod.mk.injEq] at htd'
  obtain ⟨ht, hdd⟩ := htd'
  have hdr : d.rows = df.rows := by rw [← hdd]
  have hdc : d.cols = df.cols := by rw [← hdd]
  have hcell : ∀ r ∈ df.rows, ∀ c ∈ df.rows, d.cell r c = if df.cell r c < 0 then 0
      else if df.cell c r < 0 then -(df.cell c r / df.total) else df.cell r c / df.total := by
    intro r hr c hc
    rw [← hdd]
    exact fold_move df hsame hn hmir _ r c hr hc
  refine ⟨d, ht ▸ htd, hdr, hdc, by rw [← hdd], by rw [← hdd], hcell, ?_, ?_, ?_⟩
  · intro r hr c hc
    rw [hcell r hr c hc]
    split_ifs with h1 h2
    · exact le_rfl
    · rw [← neg_div]; exact div_nonneg (by linarith) htot.le
    · exact div_nonneg (not_lt.mp h1) htot.le
  · have hpair : ∀ r ∈ df.rows, ∀ c ∈ df.rows,
        d.cell r c + d.cell c r = (|df.cell r c| + |df.cell c r|) / df.total := by
      intro r hr c hc
      rw [hcell r hr c hc, hcell c hc r hr]
      by_cases h1 : df.cell r c < 0
      · have h0 := hmir r hr c (hsame ▸ hc) h1
        have h2 : ¬ df.cell c r < 0 := by rw [h0]; exact lt_irrefl _
        rw [if_pos h1, if_neg h2, if_pos h1, h0, abs_zero, abs_of_neg h1]
        ring
      · by_cases h2 : df.cell c r < 0
        · have h0 := hmir c hc r (hsame ▸ hr) h2
          rw [if_neg h1, if_pos h2, if_pos h2, h0, abs_zero, abs_of_neg h2]
          ring
        · rw [if_neg h1, if_neg h2, if_neg h2, if_neg h1, abs_of_nonneg (not_lt.mp h1),
            abs_of_nonneg (not_lt.mp h2)]
          ring
    have e1 := total_finset d (by rw [hdr, hdc, hsame]) (by rw [hdr]; exact hn)
    have e2 := total_finset { df with cell := fun r c => |df.cell r c| } hsame hn
    rw [hdr] at e1
    have e3 : absTotal df = Sam.total { df with cell := fun r c => |df.cell r c| } := rfl
    rw [← e3] at e2
    dsimp only at e2
    have hsum : ∑ c ∈ df.rows.toFinset, ∑ r ∈ df.rows.toFinset, (d.cell r c + d.cell c r) =
        ∑ c ∈ df.rows.toFinset, ∑ r ∈ df.rows.toFinset, (|df.cell r c| + |df.cell c r|) / df.total :=
      Finset.sum_congr rfl fun c hc => Finset.sum_congr rfl fun r hr =>
        hpair r (List.mem_toFinset.mp hr) c (List.mem_toFinset.mp hc)
    simp only [← Finset.sum_div, Finset.sum_add_distrib] at hsum
    rw [Finset.sum_comm (f := fun c r => |df.cell c r|), Finset.sum_comm (f := fun c r => d.cell c r),
      ← e1, ← e2, add_div] at hsum
    linarith
  · intro k hk
    have := hb k hk
    rw [hbal k hk, sub_self, zero_div, sub_eq_zero] at this
    exact this

end Move

theorem total_le_absTotal (df : Sam ι ℝ) (hsame : df.rows = df.cols) (hn : df.rows.Nodup) :
    df.total ≤ absTotal df := by
  have e1 := total_finset df hsame hn
  have e2 := total_finset { df with cell := fun r c => |df.cell r c| } hsame hn
  have e3 : absTotal df = Sam.total { df with cell := fun r c => |df.cell r c| } := rfl
  rw [e3, e1, e2]
  exact Finset.sum_le_sum fun c _ => Finset.sum_le_sum fun r _ => le_abs_self _

/-! ### C67 -/

theorem putAt_map (pos : List (Nat × Nat)) (S : ℝ) : ∀ (x : List ℝ) (ij : Nat × Nat),
    putAt pos (x.map fun v => v / S) ij = putAt pos x ij / S := by
  induction pos with
  | nil => intro x ij; simp [putAt_nil]
  | cons a pos ih =>
    intro x ij
    cases x with
    | nil => simp [putAt]
    | cons w x =>
      rw [List.map_cons, putAt_cons, putAt_cons, ih]
      split <;> rfl

/-- Dividing the weights by a number only changes the objective by a constant. -/
theorem kl_shift (S delta : ℝ) (hS : 0 < S) : ∀ (x vs : List ℝ), x.length = vs.length →
    (∀ v ∈ vs, 0 < v + delta) →
    (List.zipWith (fun a v => klDiv a (v + delta)) x vs).sum =
      (List.zipWith (fun a u => klDiv a (u + delta / S)) x (vs.map fun v => v / S)).sum -
        Real.log S * x.sum + (vs.map fun v => (v + delta) - (v + delta) / S).sum
  | [], [], _, _ => by simp
  | a :: x, v :: vs, hl, hv => by
    have ih := kl_shift S delta hS x vs (by simpa using hl) fun v h => hv v (List.mem_cons_of_mem _ h)
    have hv0 := hv v List.mem_cons_self
    simp only [List.zipWith_cons_cons, List.map_cons, List.sum_cons]
    rw [ih, klDiv_eq hv0, ← add_div, klDiv_eq (div_pos hv0 hS), Real.log_div hv0.ne' hS.ne']
    ring

theorem ce_shift (S : ℝ) (hS : 0 < S) : ∀ (x vs : List ℝ), x.length = vs.length → (∀ v ∈ vs, 0 < v) →
    (List.zipWith ceTerm x vs).sum =
      (List.zipWith ceTerm x (vs.map fun v => v / S)).sum - Real.log S * x.sum
  | [], [], _, _ => by simp
  | a :: x, v :: vs, hl, hv => by
    have ih := ce_shift S hS x vs (by simpa using hl) fun v h => hv v (List.mem_cons_of_mem _ h)
    have hv0 := hv v List.mem_cons_self
    simp only [List.zipWith_cons_cons, List.map_cons, List.sum_cons]
    rw [ih]
    unfold ceTerm
    rw [Real.log_div hv0.ne' hS.ne']
    ring

/-- A solution of the cvxpy problem is close to the weights if these meet the constraints. -/
theorem kl_close (n N : Nat) (pos : List (Nat × Nat)) (x us : List ℝ) (m delta : ℝ) (hm : 0 < m)
    (hd : 0 ≤ delta) (hum : ∀ u ∈ us, m ≤ u) (hfx : Feas n pos x) (hfu : Feas n pos us)
    (hN : us.length ≤ N)
    (hle : (List.zipWith (fun a u => klDiv a (u + delta)) x us).sum ≤
      (List.zipWith (fun a u => klDiv a (u + delta)) us us).sum) :
    ∀ (n : Nat) a u, x[n]? = some a → us[n]? = some u →
      |a - u| ≤ delta * (1 + Real.sqrt (2 * (1 + delta) * N / m)) := by
  have hupos : ∀ u ∈ us, 0 < u := fun u hu => hm.trans_le (hum u hu)
  have hup : (List.zipWith (fun a u => klDiv a (u + delta)) us us).sum ≤ (N : ℝ) * (delta ^ 2 / m) := by
    refine zip_self_le _ us _ (by positivity) (fun v hv => ?_) _ hN
    refine (klDiv_shift (hupos v hv) hd).trans ?_
    exact div_le_div_of_nonneg_left (by positivity) hm (hum v hv)
  have hone : ∀ y : List ℝ, Feas n pos y → ∀ a ∈ y, a ≤ 1 := by
    intro y hy a ha
    rw [← hy.2.1]; exact List.single_le_sum hy.2.2.1 a ha
  have hlow : ∀ (n : Nat) a v, x[n]? = some a → us[n]? = some v →
      (a - (v + delta)) ^ 2 / (2 * (1 + delta)) ≤ klDiv a (v + delta) := by
    intro n a v h1 h2
    have ha := List.mem_of_getElem? h1
    have hv := List.mem_of_getElem? h2
    have := hone x hfx a ha
    have := hone us hfu v hv
    have := hupos v hv
    exact klDiv_lower (hfx.2.2.1 a ha) (by linarith) (by linarith) (by linarith)
  intro n a v h1 h2
  have hterm := zip_term_le (fun a v => klDiv a (v + delta)) x us
    (fun n a v h1 h2 => le_trans (by positivity) (hlow n a v h1 h2)) n a v h1 h2
  have h3 : (a - (v + delta)) ^ 2 / (2 * (1 + delta)) ≤ (N : ℝ) * (delta ^ 2 / m) :=
    (hlow n a v h1 h2).trans (hterm.trans (hle.trans hup))
  rw [div_le_iff₀ (by positivity)] at h3
  have h4 : (a - (v + delta)) ^ 2 ≤ delta ^ 2 * (2 * (1 + delta) * N / m) := by
    refine h3.trans (le_of_eq ?_)
    field_simp
  have h5 := Real.abs_le_sqrt h4
  rw [Real.sqrt_mul (by positivity), Real.sqrt_sq hd] at h5
  have h6 : |a - v| ≤ |a - (v + delta)| + delta := by
    have := abs_add_le (a - (v + delta)) delta
    rw [abs_of_nonneg hd] at this
    rwa [show a - (v + delta) + delta = a - v by ring] at this
  rw [mul_add, mul_one]
  linarith

/-- The same for scipy. -/
theorem ce_close (n N : Nat) (pos : List (Nat × Nat)) (x us : List ℝ) (hupos : ∀ u ∈ us, 0 < u)
    (hfx : Feas n pos x) (hfu : Feas n pos us) (hN : us.length ≤ N)
    (hle : (List.zipWith ceTerm x us).sum ≤ (List.zipWith ceTerm us us).sum) :
    ∀ (n : Nat) a u, x[n]? = some a → us[n]? = some u →
      |a - u| ≤ Real.sqrt (2 * N / 10 ^ 10) := by
  have hup : (List.zipWith ceTerm us us).sum ≤ (N : ℝ) * (1 / 10 ^ 10) :=
    zip_self_le _ us _ (by positivity) (fun v hv => ceTerm_self (hupos v hv)) _ hN
  have hone : ∀ y : List ℝ, Feas n pos y → ∀ a ∈ y, a ≤ 1 := by
    intro y hy a ha
    rw [← hy.2.1]; exact List.single_le_sum hy.2.2.1 a ha
  have hkl : ∀ (y ws : List ℝ), y.length = ws.length → (∀ a ∈ y, 0 ≤ a) → (∀ v ∈ ws, 0 < v) →
      (List.zipWith klDiv y ws).sum + y.sum - ws.sum ≤ (List.zipWith ceTerm y ws).sum := by
    intro y
    induction y with
    | nil =>
      intro ws hl _ _
      have := List.length_eq_zero_iff.mp hl.symm
      subst this
      simp
    | cons a y ih =>
      intro ws hl ha hv
      cases ws with
      | nil => simp at hl
      | cons v ws =>
        have h1 := ih ws (by simpa using hl) (fun a h => ha a (List.mem_cons_of_mem _ h))
          (fun v h => hv v (List.mem_cons_of_mem _ h))
        have h2 := ceTerm_lower (ha a List.mem_cons_self) (hv v List.mem_cons_self)
        simp only [List.zipWith_cons_cons, List.sum_cons]
        linarith
  have hkl' := hkl x us (hfx.1.trans hfu.1.symm) hfx.2.2.1 hupos
  rw [hfx.2.1, hfu.2.1, add_sub_cancel_right] at hkl'
  have hlow : ∀ (n : Nat) a v, x[n]? = some a → us[n]? = some v → (a - v) ^ 2 / 2 ≤ klDiv a v := by
    intro n a v h1 h2
    have ha := List.mem_of_getElem? h1
    have hv := List.mem_of_getElem? h2
    have := klDiv_lower (hfx.2.2.1 a ha) (hone x hfx a ha) (hupos v hv) (hone us hfu v hv)
    rwa [mul_one] at this
  intro n a v h1 h2
  have hterm := zip_term_le klDiv x us
    (fun n a v h1 h2 => le_trans (by positivity) (hlow n a v h1 h2)) n a v h1 h2
  have h3 := (hlow n a v h1 h2).trans (hterm.trans (hkl'.trans (hle.trans hup)))
  refine Real.abs_le_sqrt ?_
  rw [div_le_iff₀ (by positivity)] at h3
  refine h3.trans (le_of_eq ?_)
  ring

/-- From the normalized matrix back to the matrix. -/
theorem back_close (df B d : Sam ι ℝ) (hsame : df.rows = df.cols) (hn : df.rows.Nodup)
    (hmir : ∀ r ∈ df.rows, ∀ c ∈ df.cols, df.cell r c < 0 → df.cell c r = 0)
    (htot : 0 < df.total) (A : ℝ) (hA : 0 < A)
    (hdcell : ∀ r ∈ df.rows, ∀ c ∈ df.rows, d.cell r c = if df.cell r c < 0 then 0
        else if df.cell c r < 0 then -(df.cell c r / df.total) else df.cell r c / df.total)
    (err : ℝ) (herr : 0 ≤ err)
    (hclose : ∀ r ∈ df.rows, ∀ c ∈ df.rows, |B.cell r c - d.cell r c / (A / df.total)| ≤ err)
    (r c : ι) (hr : r ∈ df.rows) (hc : c ∈ df.rows) :
    |((negativeLocs df).map Prod.swap).foldl moveNegative B.cell r c * df.total -
      df.cell r c * (df.total / A)| ≤ df.total * err := by
  have key : ∀ a b : ℝ, |a - b / df.total / (A / df.total)| ≤ err →
      |a * df.total - b * (df.total / A)| ≤ df.total * err := by
    intro a b h
    have h2 := scaled_close htot h
    rwa [show b / df.total / (A / df.total) * df.total = b * (df.total / A) by
      field_simp] at h2
  rw [fold_back df hsame hn hmir B.cell r c hr hc]
  by_cases h1 : df.cell c r < 0
  · rw [if_pos h1, hmir c hc r (hsame ▸ hr) h1]
    simpa using mul_nonneg htot.le herr
  · rw [if_neg h1]
    have h3 := hclose r hr c hc
    have h4 := hclose c hc r hr
    rw [hdcell r hr c hc, if_neg h1] at h3
    rw [hdcell c hc r hr, if_neg h1] at h4
    by_cases h2 : df.cell r c < 0
    · rw [if_pos h2]
      rw [if_pos h2, ← neg_div] at h4
      have := key _ _ h4
      rw [show -B.cell c r * df.total - df.cell r c * (df.total / A) =
        -(B.cell c r * df.total - -df.cell r c * (df.total / A)) by ring, abs_neg]
      exact this
    · rw [if_neg h2]
      rw [if_neg h2] at h3
      exact key _ _ h3

theorem feas_scaled (d : Sam ι ℝ) (hsame : d.rows = d.cols) (hn : d.rows.Nodup)
    (pos : List (Nat × Nat)) (vs : List ℝ) (hnd : pos.Nodup)
    (hlt : ∀ ij ∈ pos, ij.1 < d.rows.length ∧ ij.2 < d.rows.length) (hl : vs.length = pos.length)
    (hself : ∀ r ∈ d.rows, ∀ c ∈ d.cols, putAt pos vs (d.rows.idxOf r, d.cols.idxOf c) = d.cell r c)
    (hpos : ∀ v ∈ vs, 0 ≤ v) (htot : 0 < d.total)
    (hbal : ∀ k ∈ d.rows, rowTotal d k = colTotal d k) :
    Feas d.rows.length pos (vs.map fun v => v / d.total) := by
  refine feas_self (normed d) hsame hn pos _ hnd hlt (by simpa using hl) ?_ ?_
    (normed_total d htot.ne') (fun k hk => normed_balanced d k (hbal k hk))
  · intro r hr c hc
    rw [putAt_map]
    show putAt pos vs (d.rows.idxOf r, d.cols.idxOf c) / d.total = d.cell r c / d.total
    rw [hself r hr c hc]
  · intro v hv
    obtain ⟨w, hw, rfl⟩ := List.mem_map.mp hv
    exact div_nonneg (hpos w hw) htot.le

theorem balance_eq (df d : Sam ι ℝ) (hsame : df.rows = df.cols) (hlev : df.rowLevels = df.colLevels)
    (hfit : samFitTransform df = .ok (⟨df.total, negativeLocs df, df.rowLevels⟩, d))
    (hdr : d.rows = df.rows) (hdc : d.cols = df.cols) (hl1 : d.rowLevels = df.rowLevels)
    (hl2 : d.colLevels = df.colLevels)
    (o : Sam ι ℝ → ℝ → List ℝ) (p : Sam ι ℝ → List ℝ) (useCvxpy : Bool) (Z : Nat → Nat → ℝ)
    (hZ : (if useCvxpy then balanceWithCvxpy (o d df.total) d else balanceWithScipy (p d) d) =
      withValues d Z) :
    ∃ b, balanceSam o p true useCvxpy df = .ok b ∧ ∀ r c, b.cell r c =
      ((negativeLocs df).map Prod.swap).foldl moveNegative (withValues d Z).cell r c * df.total := by
  have hinv := inverse_ok (withValues d Z) ⟨df.total, negativeLocs df, df.rowLevels⟩
    (by show df.rowLevels = d.colLevels; rw [hl2]; exact hlev)
    (by show d.colLevels = d.rowLevels; rw [hl1, hl2]; exact hlev.symm) (by
      intro r c h
      obtain ⟨h1, h2, -⟩ := (mem_negativeLocs df r c).mp h
      show c ∈ d.rows ∧ r ∈ d.cols
      rw [hdr, hdc, ← hsame]
      exact ⟨hsame ▸ h2, h1⟩)
  obtain ⟨g, hg⟩ : ∃ g : ι → ι → ℝ, g = fun r c =>
      ((negativeLocs df).map Prod.swap).foldl moveNegative (withValues d Z).cell r c * df.total := ⟨_, rfl⟩
  refine ⟨{ withValues d Z with cell := g }, ?_, fun r c => by rw [hg]⟩
  unfold balanceSam
  rw [if_neg (by simp), hfit]
  show samInverse (some _) (if useCvxpy then balanceWithCvxpy (o d df.total) d
    else balanceWithScipy (p d) d) = _
  rw [hZ, hinv, hg]

/-- **C67** (partial), with cvxpy: take a balanced matrix with the same labels in the same order along
rows and columns and a positive total, in which the mirror cell of every negative entry is zero.  Let
every nonzero entry be, in absolute value, at least the share `m` of the sum `A` of the absolute values.
If the solver returns a solution of its problem, every entry of the matrix that `balance_SAM` returns is
within `total · δ (1 + √(2 (1 + δ) n² / m))` of `total / A` times the entry that was put in, where `δ` is
the option `delta` and `n` the number of accounts.  So without negative entries (`A = total`) the
matrix comes back as it was, up to this error; with them it comes back shrunk. -/
theorem C67_cvxpy_partial (df : Sam ι ℝ) (hsame : df.rows = df.cols) (hn : df.rows.Nodup)
    (hlev : df.rowLevels = df.colLevels) (htot : 0 < df.total)
    (hmir : ∀ r ∈ df.rows, ∀ c ∈ df.cols, df.cell r c < 0 → df.cell c r = 0)
    (hbal : ∀ k ∈ df.rows, rowTotal df k = colTotal df k)
    (m : ℝ) (hm : 0 < m) (hmin : ∀ r ∈ df.rows, ∀ c ∈ df.cols, df.cell r c ≠ 0 →
      m * absTotal df ≤ |df.cell r c|)
    (delta : ℝ) (hd : 0 ≤ delta) (o : Sam ι ℝ → ℝ → List ℝ) (p : Sam ι ℝ → List ℝ)
    (ho : ∀ t d, samFitTransform df = .ok (t, d) → CvxpyOptimal delta d t.scale (o d t.scale)) :
    ∃ b, balanceSam o p true true df = .ok b ∧ ∀ r ∈ df.rows, ∀ c ∈ df.cols,
      |b.cell r c - df.cell r c * (df.total / absTotal df)| ≤
        df.total * (delta * (1 + Real.sqrt (2 * (1 + delta) * df.rows.length ^ 2 / m))) := by
  obtain ⟨d, hfit, hdr, hdc, hl1, hl2, hdcell, hd0, hdt, hdb⟩ := moved df hsame hn hmir hlev htot hbal
  have hA : 0 < absTotal df := htot.trans_le (total_le_absTotal df hsame hn)
  have hS : 0 < d.total := by rw [hdt]; exact div_pos hA htot
  have hS1 : 1 ≤ d.total := by
    rw [hdt, one_le_div htot]; exact total_le_absTotal df hsame hn
  obtain ⟨hdom, hcx, hmx⟩ := ho _ _ hfit
  dsimp only at hdom hcx hmx
  have hds : d.rows = d.cols := by rw [hdr, hdc, hsame]
  have hdn : d.rows.Nodup := by rw [hdr]; exact hn
  obtain ⟨vs, hvs⟩ : ∃ vs, vs = (sparseToVectorAndMatrix d.cols.length d.values).1 := ⟨_, rfl⟩
  obtain ⟨x, hx⟩ : ∃ x, x = o d df.total := ⟨_, rfl⟩
  unfold cvxpyObjective at hmx
  rw [← hx, ← hvs] at hmx
  rw [← hx] at hcx
  rw [← hvs] at hdom
  have hnd : (posC d).Nodup := nodup_maskPositions _ _
  have hlt : ∀ ij ∈ posC d, ij.1 < d.rows.length ∧ ij.2 < d.rows.length := by
    intro ij h
    have := maskPositions_lt _ _ _ (values_rows d) ij h
    rw [values_length, ← hds] at this
    exact this
  have hlv : vs.length = (posC d).length := by rw [hvs]; exact (mask_length _ _).symm
  have hself : ∀ r ∈ d.rows, ∀ c ∈ d.cols,
      putAt (posC d) vs (d.rows.idxOf r, d.cols.idxOf c) = d.cell r c :=
    fun r hr c hc => by rw [hvs]; exact cvx_self d hds r c hr hc
  have hvm : ∀ v ∈ vs, m ≤ v / d.total := by
    intro v hv
    rw [hvs] at hv
    obtain ⟨h1, r, hr, c, hc, rfl⟩ := mem_maskValues _ d v hv
    rw [decide_eq_true_iff] at h1
    rw [hdr] at hr
    rw [hdc, ← hsame] at hc
    rw [hdt, le_div_iff₀ (div_pos hA htot)]
    rw [hdcell r hr c hc] at h1 ⊢
    by_cases h2 : df.cell r c < 0
    · rw [if_pos h2] at h1; exact absurd rfl h1
    rw [if_neg h2] at h1 ⊢
    by_cases h3 : df.cell c r < 0
    · rw [if_pos h3]
      have := hmin c hc r (hsame ▸ hr) h3.ne
      rw [abs_of_neg h3] at this
      rw [← neg_div, mul_div_assoc']
      exact div_le_div_of_nonneg_right this htot.le
    · rw [if_neg h3] at h1 ⊢
      have := hmin r hr c (hsame ▸ hc) fun h => h1 (by rw [h, zero_div])
      rw [abs_of_nonneg (not_lt.mp h2)] at this
      rw [mul_div_assoc']
      exact div_le_div_of_nonneg_right this htot.le
  have hvpos : ∀ v ∈ vs, 0 < v := by
    intro v hv
    have := hm.trans_le (hvm v hv)
    exact (div_pos_iff_of_pos_right hS).mp this
  obtain ⟨us, hus⟩ : ∃ us, us = vs.map fun v => v / d.total := ⟨_, rfl⟩
  have hfu : Feas d.rows.length (posC d) us := by
    rw [hus]
    exact feas_scaled d hds hdn (posC d) vs hnd hlt hlv hself (fun v hv => (hvpos v hv).le) hS
      (fun k hk => hdb k (hdr ▸ hk))
  have hfx := (cvx_iff d hds df.total htot.ne' x).mp hcx
  have hle := hmx us ((cvx_iff d hds df.total htot.ne' us).mpr hfu)
  rw [kl_shift d.total delta hS x vs (hfx.1.trans hlv.symm) hdom,
    kl_shift d.total delta hS us vs (hfu.1.trans hlv.symm) hdom, hfx.2.1, hfu.2.1, ← hus] at hle
  have hd' : 0 ≤ delta / d.total := div_nonneg hd hS.le
  have hd1 : delta / d.total ≤ delta := div_le_self hd hS1
  have hclose := kl_close d.rows.length (df.rows.length ^ 2) (posC d) x us m (delta / d.total) hm hd'
    (by
      intro u hu
      rw [hus] at hu
      obtain ⟨v, hv, rfl⟩ := List.mem_map.mp hu
      exact hvm v hv) hfx hfu (by
      rw [hfu.1, ← hdr]; exact length_le_square _ _ hnd hlt) (by linarith)
  have herr : delta / d.total * (1 + Real.sqrt (2 * (1 + delta / d.total) *
      ((df.rows.length ^ 2 : ℕ) : ℝ) / m)) ≤
      delta * (1 + Real.sqrt (2 * (1 + delta) * df.rows.length ^ 2 / m)) := by
    push_cast
    have : Real.sqrt (2 * (1 + delta / d.total) * (df.rows.length : ℝ) ^ 2 / m) ≤
        Real.sqrt (2 * (1 + delta) * df.rows.length ^ 2 / m) := by
      apply Real.sqrt_le_sqrt
      gcongr
    exact mul_le_mul hd1 (by linarith) (by positivity) hd
  have hZ : (if true = true then balanceWithCvxpy (o d df.total) d else balanceWithScipy (p d) d) =
      withValues d (reshapeAx d.rows.length (sparseToVectorAndMatrix d.cols.length d.values).2 x) := by
    rw [if_pos rfl, ← hx]; rfl
  obtain ⟨b, hb, hcell⟩ := balance_eq df d hsame hlev hfit hdr hdc hl1 hl2 o p true _ hZ
  refine ⟨b, hb, fun r hr c hc => ?_⟩
  rw [hcell r c]
  refine back_close df _ d hsame hn hmir htot (absTotal df) hA hdcell _ (by positivity) ?_ r c hr
    (hsame ▸ hc)
  intro r hr c hc
  have hr' : r ∈ d.rows := by rw [hdr]; exact hr
  have hc' : c ∈ d.cols := by rw [← hds, hdr]; exact hc
  have hfin := putAt_close (posC d) x us _ (by positivity) hnd hfx.1 hfu.1 hclose
    (d.rows.idxOf r, d.cols.idxOf c)
  rw [hus, putAt_map, hself r hr' c hc', hdt] at hfin
  have hbc : (withValues d (reshapeAx d.rows.length
      (sparseToVectorAndMatrix d.cols.length d.values).2 x)).cell r c =
      putAt (posC d) x (d.rows.idxOf r, d.cols.idxOf c) :=
    cvx_Z d hds x hfx.1 _ _ (by rw [hds]; exact List.idxOf_lt_length_iff.mpr hc')
  rw [hbc]
  rw [hdt] at herr
  exact hfin.trans herr

/-- **C67** (partial), with scipy: under the same conditions, if the optimizer returns a solution of its
problem, every entry is within `total · √(2 n² 10⁻¹⁰)` of `total / A` times the entry that was put in. -/
theorem C67_scipy_partial (df : Sam ι ℝ) (hsame : df.rows = df.cols) (hn : df.rows.Nodup)
    (hlev : df.rowLevels = df.colLevels) (htot : 0 < df.total)
    (hmir : ∀ r ∈ df.rows, ∀ c ∈ df.cols, df.cell r c < 0 → df.cell c r = 0)
    (hbal : ∀ k ∈ df.rows, rowTotal df k = colTotal df k)
    (o : Sam ι ℝ → ℝ → List ℝ) (p : Sam ι ℝ → List ℝ)
    (hp : ∀ t d, samFitTransform df = .ok (t, d) → ScipyOptimal d (p d)) :
    ∃ b, balanceSam o p true false df = .ok b ∧ ∀ r ∈ df.rows, ∀ c ∈ df.cols,
      |b.cell r c - df.cell r c * (df.total / absTotal df)| ≤
        df.total * Real.sqrt (2 * df.rows.length ^ 2 / 10 ^ 10) := by
  obtain ⟨d, hfit, hdr, hdc, hl1, hl2, hdcell, hd0, hdt, hdb⟩ := moved df hsame hn hmir hlev htot hbal
  have hA : 0 < absTotal df := htot.trans_le (total_le_absTotal df hsame hn)
  have hS : 0 < d.total := by rw [hdt]; exact div_pos hA htot
  obtain ⟨hcx, hmx⟩ := hp _ _ hfit
  have hds : d.rows = d.cols := by rw [hdr, hdc, hsame]
  have hdn : d.rows.Nodup := by rw [hdr]; exact hn
  have hd0' : ∀ r ∈ d.rows, ∀ c ∈ d.cols, 0 ≤ d.cell r c := by
    intro r hr c hc
    exact hd0 r (hdr ▸ hr) c (by rw [← hdr, hds]; exact hc)
  obtain ⟨vs, hvs⟩ : ∃ vs, vs = maskValues (fun v => decide (0 < v)) d.values := ⟨_, rfl⟩
  obtain ⟨x, hx⟩ : ∃ x, x = p d := ⟨_, rfl⟩
  rw [← hx] at hcx hmx
  have hnd : (posS d).Nodup := nodup_maskPositions _ _
  have hlt : ∀ ij ∈ posS d, ij.1 < d.rows.length ∧ ij.2 < d.rows.length := by
    intro ij h
    have := maskPositions_lt _ _ _ (values_rows d) ij h
    rw [values_length, ← hds] at this
    exact this
  have hlv : vs.length = (posS d).length := by rw [hvs]; exact (mask_length _ _).symm
  have hself : ∀ r ∈ d.rows, ∀ c ∈ d.cols,
      putAt (posS d) vs (d.rows.idxOf r, d.cols.idxOf c) = d.cell r c :=
    fun r hr c hc => by rw [hvs]; exact scipy_self d hd0' r c hr hc
  have hvpos : ∀ v ∈ vs, 0 < v := by
    intro v hv
    rw [hvs] at hv
    simpa using (mem_maskValues _ d v hv).1
  obtain ⟨us, hus⟩ : ∃ us, us = vs.map fun v => v / d.total := ⟨_, rfl⟩
  have hfu : Feas d.rows.length (posS d) us := by
    rw [hus]
    exact feas_scaled d hds hdn (posS d) vs hnd hlt hlv hself (fun v hv => (hvpos v hv).le) hS
      (fun k hk => hdb k (hdr ▸ hk))
  have hfx := (scipy_iff d x).mp hcx
  have hle0 := hmx us ((scipy_iff d us).mpr hfu)
  have hle : (List.zipWith ceTerm x vs).sum ≤ (List.zipWith ceTerm us vs).sum := by
    rw [hvs]; exact hle0
  rw [ce_shift d.total hS x vs (hfx.1.trans hlv.symm) hvpos,
    ce_shift d.total hS us vs (hfu.1.trans hlv.symm) hvpos, hfx.2.1, hfu.2.1, ← hus] at hle
  have hclose := ce_close d.rows.length (df.rows.length ^ 2) (posS d) x us
    (by
      intro u hu
      rw [hus] at hu
      obtain ⟨v, hv, rfl⟩ := List.mem_map.mp hu
      exact div_pos (hvpos v hv) hS) hfx hfu (by
      rw [hfu.1, ← hdr]; exact length_le_square _ _ hnd hlt) (by linarith)
  have hZ : (if false = true then balanceWithCvxpy (o d df.total) d else balanceWithScipy (p d) d) =
      withValues d (scatterPositive d.values x) := by
    rw [if_neg (by simp), ← hx]; rfl
  obtain ⟨b, hb, hcell⟩ := balance_eq df d hsame hlev hfit hdr hdc hl1 hl2 o p false _ hZ
  refine ⟨b, hb, fun r hr c hc => ?_⟩
  rw [hcell r c]
  refine back_close df _ d hsame hn hmir htot (absTotal df) hA hdcell _ (by positivity) ?_ r c hr
    (hsame ▸ hc)
  intro r hr c hc
  have hr' : r ∈ d.rows := by rw [hdr]; exact hr
  have hc' : c ∈ d.cols := by rw [← hds, hdr]; exact hc
  have hfin := putAt_close (posS d) x us _ (by positivity) hnd hfx.1 hfu.1 hclose
    (d.rows.idxOf r, d.cols.idxOf c)
  rw [hus, putAt_map, hself r hr' c hc', hdt] at hfin
  have hbc : (withValues d (scatterPositive d.values x)).cell r c =
      putAt (posS d) x (d.rows.idxOf r, d.cols.idxOf c) := scipy_Z d x _ _
  rw [hbc]
  push_cast at hfin
  exact hfin

/-! ### Negative entries -/

theorem changed_core (df B : Sam ι ℝ) (hsame : df.rows = df.cols) (hn : df.rows.Nodup)
    (htot : 0 < df.total) (hneg : ∃ r ∈ df.rows, ∃ c ∈ df.cols, df.cell r c < 0)
    (hBr : B.rows = df.rows) (hBc : B.cols = df.cols) (hB1 : B.total = 1)
    (hB0 : ∀ r ∈ df.rows, ∀ c ∈ df.cols, 0 ≤ B.cell r c)
    (hBz : ∀ r ∈ df.rows, ∀ c ∈ df.cols, df.cell r c < 0 → ¬ df.cell c r < 0 → B.cell r c = 0)
    (heq : ∀ r ∈ df.rows, ∀ c ∈ df.cols,
      ((negativeLocs df).map Prod.swap).foldl moveNegative B.cell r c * df.total = df.cell r c) :
    False := by
  have hN' := nodup_map_swap _ (nodup_negativeLocs df hn (hsame ▸ hn))
  have hc' : ∀ c, c ∈ df.cols ↔ c ∈ df.rows := fun c => by rw [hsame]
  simp only [hc'] at hneg hB0 hBz heq
  have hmem : ∀ r ∈ df.rows, ∀ c ∈ df.rows, df.cell r c < 0 → (c, r) ∈ (negativeLocs df).map Prod.swap :=
    fun r hr c hc h => (mem_map_swap _ _ _).mpr ((mem_negativeLocs df r c).mpr ⟨hr, (hc' c).mpr hc, h⟩)
  have hnot : ∀ r c, ¬ df.cell r c < 0 → (c, r) ∉ (negativeLocs df).map Prod.swap :=
    fun r c h hh => h ((mem_negativeLocs df r c).mp ((mem_map_swap _ _ _).mp hh)).2.2
  have hdiag : ∀ r ∈ df.rows, ¬ df.cell r r < 0 := by
    intro r hr h
    have := heq r hr r hr
    rw [fold_here _ _ r r hN' (hmem r hr r hr h) (Or.inr rfl), zero_mul] at this
    linarith
  have hmir : ∀ r ∈ df.rows, ∀ c ∈ df.rows, df.cell r c < 0 → ¬ df.cell c r < 0 := by
    intro r hr c hc h1 h2
    have hne : r ≠ c := by rintro rfl; exact hdiag r hr h1
    have e1 := heq r hr c hc
    have e2 := heq c hc r hr
    rcases fold_both _ B.cell r c hN' hne (hmem c hc r hr h2) (hmem r hr c hc h1) with h | h
    · rw [h.2, zero_mul] at e2; linarith
    · rw [h.1, zero_mul] at e1; linarith
  have hneg1 : ∀ r ∈ df.rows, ∀ c ∈ df.rows, df.cell r c < 0 →
      |df.cell r c| + |df.cell c r| = (B.cell r c + B.cell c r) * df.total := by
    intro r hr c hc h1
    have hne : r ≠ c := by rintro rfl; exact hdiag r hr h1
    have h2 := hmir r hr c hc h1
    have e1 := heq r hr c hc
    have e2 := heq c hc r hr
    rw [fold_mirror _ _ r c hN' hne (hnot c r h2) (hmem r hr c hc h1)] at e1
    rw [fold_here _ _ c r hN' (hmem r hr c hc h1) (Or.inl (hnot c r h2)), zero_mul] at e2
    rw [← e2, abs_zero, add_zero, hBz r hr c hc h1 h2, zero_add, ← e1, neg_mul, abs_neg,
      abs_of_nonneg (mul_nonneg (hB0 c hc r hr) htot.le)]
  have hpair : ∀ r ∈ df.rows, ∀ c ∈ df.rows,
      |df.cell r c| + |df.cell c r| = (B.cell r c + B.cell c r) * df.total := by
    intro r hr c hc
    by_cases h1 : df.cell r c < 0
    · exact hneg1 r hr c hc h1
    · by_cases h2 : df.cell c r < 0
      · rw [add_comm, add_comm (B.cell r c)]; exact hneg1 c hc r hr h2
      · have e1 := heq r hr c hc
        have e2 := heq c hc r hr
        rw [fold_none _ _ r c (hnot c r h2) (hnot r c h1)] at e1
        rw [fold_none _ _ c r (hnot r c h1) (hnot c r h2)] at e2
        rw [← e1, ← e2, abs_of_nonneg (mul_nonneg (hB0 r hr c hc) htot.le),
          abs_of_nonneg (mul_nonneg (hB0 c hc r hr) htot.le), add_mul]
  have hBt := total_finset B (by rw [hBr, hBc, hsame]) (by rw [hBr]; exact hn)
  have hdt := total_finset df hsame hn
  rw [hB1, hBr] at hBt
  have hsum : ∑ c ∈ df.rows.toFinset, ∑ r ∈ df.rows.toFinset, (|df.cell r c| + |df.cell c r|) =
      ∑ c ∈ df.rows.toFinset, ∑ r ∈ df.rows.toFinset, (B.cell r c + B.cell c r) * df.total :=
    Finset.sum_congr rfl fun c hc => Finset.sum_congr rfl fun r hr =>
      hpair r (List.mem_toFinset.mp hr) c (List.mem_toFinset.mp hc)
  simp only [← Finset.sum_mul, Finset.sum_add_distrib] at hsum
  rw [Finset.sum_comm (f := fun c r => |df.cell c r|), Finset.sum_comm (f := fun c r => B.cell c r),
    ← hBt] at hsum
  have hlt : ∑ c ∈ df.rows.toFinset, ∑ r ∈ df.rows.toFinset, df.cell r c <
      ∑ c ∈ df.rows.toFinset, ∑ r ∈ df.rows.toFinset, |df.cell r c| := by
    obtain ⟨r0, hr0, c0, hc0, h⟩ := hneg
    refine Finset.sum_lt_sum (fun c _ => Finset.sum_le_sum fun r _ => le_abs_self _)
      ⟨c0, List.mem_toFinset.mpr hc0, ?_⟩
    refine Finset.sum_lt_sum (fun r _ => le_abs_self _) ⟨r0, List.mem_toFinset.mpr hr0, ?_⟩
    exact lt_of_lt_of_le h (abs_nonneg _)
  rw [← hdt] at hlt
  linarith

/-- **C67 is false** whenever there is a negative entry: for a matrix with the same labels in the same
order along rows and columns and a positive total that has a negative entry, whatever vector meeting the
constraints the optimizer returns, the matrix returned by `balance_SAM` differs from the one put in, even
if that one is balanced.  (The entries are divided by their total before the negative entries are
moved, and the vector has to sum to one.) -/
theorem C67_negative_counterexample (df : Sam ι ℝ) (hsame : df.rows = df.cols) (hn : df.rows.Nodup)
    (hlev : df.rowLevels = df.colLevels) (htot : 0 < df.total)
    (hneg : ∃ r ∈ df.rows, ∃ c ∈ df.cols, df.cell r c < 0)
    (o : Sam ι ℝ → ℝ → List ℝ) (p : Sam ι ℝ → List ℝ) (useCvxpy : Bool)
    (ho : ∀ t d, samFitTransform df = .ok (t, d) → useCvxpy = true →
      CvxpyConstraints d t.scale (o d t.scale))
    (hp : ∀ t d, samFitTransform df = .ok (t, d) → useCvxpy = false → ScipyConstraints d (p d)) :
    ∃ b, balanceSam o p true useCvxpy df = .ok b ∧
      ∃ r ∈ df.rows, ∃ c ∈ df.cols, b.cell r c ≠ df.cell r c := by
  obtain ⟨t, d, htd, hdr, hdc, hdl1, hdl2, ht, hdcell⟩ : ∃ t d, samFitTransform df = .ok (t, d) ∧
      d.rows = df.rows ∧ d.cols = df.cols ∧ d.rowLevels = df.rowLevels ∧ d.colLevels = df.colLevels ∧
      t = ⟨df.total, negativeLocs df, df.rowLevels⟩ ∧
      d.cell = (negativeLocs df).foldl moveNegative fun r c => df.cell r c / df.total :=
    ⟨_, _, fitTransform_ok df hlev, rfl, rfl, rfl, rfl, rfl, rfl⟩
  have hts : t.scale = df.total := by rw [ht]
  have hds : d.rows = d.cols := by rw [hdr, hdc, hsame]
  have hdn : d.rows.Nodup := by rw [hdr]; exact hn
  have hd0 : ∀ r ∈ df.rows, ∀ c ∈ df.cols, df.cell r c < 0 → ¬ df.cell c r < 0 → d.cell r c = 0 := by
    intro r hr c hc h1 h2
    rw [hdcell]
    exact fold_here _ _ r c (nodup_negativeLocs df hn (hsame ▸ hn))
      ((mem_negativeLocs df r c).mpr ⟨hr, hc, h1⟩)
      (Or.inl fun hh => h2 ((mem_negativeLocs df c r).mp hh).2.2)
  obtain ⟨B, hB, pos, x, hcell, hBr, hBc, hBl1, hBl2, hfeas, hnd, hlt, hposz⟩ :
      ∃ B, B = (if useCvxpy then balanceWithCvxpy (o d t.scale) d else balanceWithScipy (p d) d) ∧
      ∃ pos x, (∀ r c, c ∈ d.cols → B.cell r c = putAt pos x (d.rows.idxOf r, d.cols.idxOf c)) ∧
        B.rows = d.rows ∧ B.cols = d.cols ∧ B.rowLevels = d.rowLevels ∧ B.colLevels = d.colLevels ∧
        Feas d.rows.length pos x ∧ pos.Nodup ∧
        (∀ ij ∈ pos, ij.1 < d.rows.length ∧ ij.2 < d.rows.length) ∧
        ∀ r ∈ d.rows, ∀ c ∈ d.cols, d.cell r c = 0 → (d.rows.idxOf r, d.cols.idxOf c) ∉ pos := by
    have hpos : ∀ q : ℝ → Bool, ∀ ij ∈ maskPositions q d.values,
        ij.1 < d.rows.length ∧ ij.2 < d.rows.length := by
      intro q ij h
      have := maskPositions_lt _ _ _ (values_rows d) ij h
      rw [values_length, ← hds] at this
      exact this
    have hz : ∀ q : ℝ → Bool, q 0 = false → ∀ r ∈ d.rows, ∀ c ∈ d.cols, d.cell r c = 0 →
        (d.rows.idxOf r, d.cols.idxOf c) ∉ maskPositions q d.values := by
      intro q hq r hr c hc h0 hmem
      obtain ⟨row, v, h1, h2, h3⟩ := (mem_maskPositions q _ _ _).mp hmem
      obtain ⟨row', h1', h2'⟩ := sam_values_get d r c hr hc
      rw [h1] at h1'
      cases h1'
      rw [h2, h0] at h2'
      cases h2'
      rw [hq] at h3
      cases h3
    cases huse : useCvxpy with
    | true =>
      have hf := (cvx_iff d hds t.scale (by rw [hts]; exact htot.ne') _).mp (ho t d htd huse)
      refine ⟨_, rfl, posC d, o d t.scale, ?_, rfl, rfl, rfl, rfl, hf, nodup_maskPositions _ _,
        hpos _, hz _ (by simp)⟩
      intro r c hc
      exact cvx_Z d hds _ hf.1 _ _ (by rw [hds]; exact List.idxOf_lt_length_iff.mpr hc)
    | false =>
      have hf := (scipy_iff d _).mp (hp t d htd huse)
      exact ⟨_, rfl, posS d, p d, fun r c _ => scipy_Z d _ _ _, rfl, rfl, rfl, rfl, hf,
        nodup_maskPositions _ _, hpos _, hz _ (by simp)⟩
  have hinv := inverse_ok B t (by rw [ht, hBl2, hdl2]; exact hlev)
    (by rw [hBl1, hBl2, hdl1, hdl2]; exact hlev.symm) (by
      intro r c h
      rw [ht] at h
      obtain ⟨h1, h2, -⟩ := (mem_negativeLocs df r c).mp h
      rw [hBr, hBc, hdr, hdc, ← hsame]
      exact ⟨hsame ▸ h2, h1⟩)
  obtain ⟨b, hb⟩ : ∃ b, b = { B with
      cell := fun r c => (t.negLocs.map Prod.swap).foldl moveNegative B.cell r c * t.scale } := ⟨_, rfl⟩
  refine ⟨b, ?_, ?_⟩
  · unfold balanceSam
    rw [if_neg (by simp), htd]
    show samInverse (some t) _ = _
    rw [← hB, hb]
    exact hinv
  · by_contra hall
    push Not at hall
    refine changed_core df B hsame hn htot hneg (hBr.trans hdr) (hBc.trans hdc) ?_ ?_ ?_ ?_
    · rw [← hfeas.2.1, ← total_putAt d hds hdn pos x hnd hlt hfeas.1]
      unfold Sam.total withValues
      dsimp only
      rw [hBr, hBc]
      congr 1
      refine List.map_congr_left fun c hc => ?_
      congr 1
      exact List.map_congr_left fun r _ => hcell r c hc
    · intro r _ c hc
      rw [hcell r c (by rw [hdc]; exact hc)]
      exact putAt_nonneg _ _ _ hfeas.2.2.1
    · intro r hr c hc h1 h2
      rw [hcell r c (by rw [hdc]; exact hc)]
      exact putAt_notMem _ _ _ (hposz r (by rw [hdr]; exact hr) c (by rw [hdc]; exact hc)
        (hd0 r hr c hc h1 h2))
    · intro r hr c hc
      rw [← hall r hr c hc, hb, ht]

/-! ### Existence -/

/-- **C68**, there is an answer: for a matrix with the same labels in the same order along rows and
columns, a positive total and no mirrored negative entries, the problem given to either optimizer has
exactly one solution if its constraints can be met at all. -/
theorem C68_exists (df : Sam ι ℝ) (hsame : df.rows = df.cols) (hn : df.rows.Nodup)
    (hlev : df.rowLevels = df.colLevels) (htot : 0 < df.total) (hno : NoMirroredNegatives df)
    (delta : ℝ) (hd : 0 ≤ delta) :
    ∃ t d, samFitTransform df = .ok (t, d) ∧
      ((∃ y, CvxpyConstraints d t.scale y) → ∃! x, CvxpyOptimal delta d t.scale x) ∧
      ((∃ y, ScipyConstraints d y) → ∃! x, ScipyOptimal d x) := by
  obtain ⟨t, d, htd, hiff⟩ := C46_nonnegative_partial df ⟨hn, hsame ▸ hn, fun x => by rw [hsame], hlev⟩ htot
  have hd0 := hiff.mpr hno
  refine ⟨t, d, htd, ?_, scipy_existsUnique d⟩
  rw [fitTransform_ok df hlev] at htd
  simp only [Except.ok.injEq, Prod.mk.injEq] at htd
  obtain ⟨ht, hdd⟩ := htd
  have hdr : d.rows = df.rows := by rw [← hdd]
  have hdc : d.cols = df.cols := by rw [← hdd]
  refine cvx_existsUnique delta d (by rw [hdr, hdc, hsame]) t.scale (by rw [← ht]; exact htot.ne') ?_
  intro v hv
  obtain ⟨h1, r, hr, c, hc, rfl⟩ := mem_maskValues _ d v hv
  rw [decide_eq_true_iff] at h1
  have := lt_of_le_of_ne (hd0 r (hdr ▸ hr) c (hdc ▸ hc)) (Ne.symm h1)
  linarith

/-- **C67**, its conditions can be met for every such matrix: the problems given to the optimizers have
a solution. -/
theorem C67_solvable (df : Sam ι ℝ) (hsame : df.rows = df.cols) (hn : df.rows.Nodup)
    (hlev : df.rowLevels = df.colLevels) (htot : 0 < df.total)
    (hmir : ∀ r ∈ df.rows, ∀ c ∈ df.cols, df.cell r c < 0 → df.cell c r = 0)
    (hbal : ∀ k ∈ df.rows, rowTotal df k = colTotal df k) (delta : ℝ) (hd : 0 ≤ delta) :
    ∃ t d, samFitTransform df = .ok (t, d) ∧ (∃ x, CvxpyOptimal delta d t.scale x) ∧
      ∃ x, ScipyOptimal d x := by
  obtain ⟨t, d, htd, hc, hs⟩ := C68_exists df hsame hn hlev htot
    (fun r hr c hc _ h => by rw [hmir r hr c hc h]; exact lt_irrefl _) delta hd
  obtain ⟨d', hfit, hdr, hdc, -, -, -, hd0, hdt, hdb⟩ := moved df hsame hn hmir hlev htot hbal
  have hS : 0 < d'.total := by
    rw [hdt]; exact div_pos (htot.trans_le (total_le_absTotal df hsame hn)) htot
  have hfit' := hfit
  rw [htd] at hfit'
  simp only [Except.ok.injEq, Prod.mk.injEq] at hfit'
  obtain ⟨ht, rfl⟩ := hfit'
  have hds : d.rows = d.cols := by rw [hdr, hdc, hsame]
  have hdn : d.rows.Nodup := by rw [hdr]; exact hn
  have hd0' : ∀ r ∈ d.rows, ∀ c ∈ d.cols, 0 ≤ d.cell r c := by
    intro r hr c hc
    exact hd0 r (hdr ▸ hr) c (by rw [← hdr, hds]; exact hc)
  have hlt : ∀ q : ℝ → Bool, ∀ ij ∈ maskPositions q d.values,
      ij.1 < d.rows.length ∧ ij.2 < d.rows.length := by
    intro q ij h
    have := maskPositions_lt _ _ _ (values_rows d) ij h
    rw [values_length, ← hds] at this
    exact this
  have hv0 : ∀ (q : ℝ → Bool), ∀ v ∈ maskValues q d.values, 0 ≤ v := by
    intro q v hv
    obtain ⟨-, r, hr, c, hc, rfl⟩ := mem_maskValues q d v hv
    exact hd0' r hr c hc
  have hb1 : ∀ k ∈ d.rows, rowTotal d k = colTotal d k := fun k hk => hdb k (hdr ▸ hk)
  have hscale : t.scale ≠ 0 := by rw [ht]; exact htot.ne'
  refine ⟨t, d, htd, ?_, ?_⟩
  · exact (hc ⟨_, (cvx_iff d hds t.scale hscale _).mpr (feas_scaled d hds hdn (posC d) _
      (nodup_maskPositions _ _) (hlt _) (mask_length _ _).symm
      (fun r hr c hc => cvx_self d hds r c hr hc) (hv0 _) hS hb1)⟩).exists
  · exact (hs ⟨_, (scipy_iff d _).mpr (feas_scaled d hds hdn (posS d) _
      (nodup_maskPositions _ _) (hlt _) (mask_length _ _).symm
      (fun r hr c hc => scipy_self d hd0' r c hr hc) (hv0 _) hS hb1)⟩).exists

/-- Three accounts with flows 2 around the circle and 1 back. -/
noncomputable def samRing : Sam Nat ℝ :=
  ⟨[0, 1, 2], [0, 1, 2], 1, 1, fun r s =>
    if (r + 1) % 3 = s then 2 else if (s + 1) % 3 = r then 1 else 0⟩

/-- The conditions of C67 and C68. -/
example : samRing.rows = samRing.cols ∧ samRing.rows.Nodup ∧ samRing.rowLevels = samRing.colLevels ∧
    samRing.total = 9 ∧
    (∀ r ∈ samRing.rows, ∀ c ∈ samRing.cols, samRing.cell r c < 0 → samRing.cell c r = 0) ∧
    (∀ k ∈ samRing.rows, rowTotal samRing k = colTotal samRing k) ∧
    ∀ r ∈ samRing.rows, ∀ c ∈ samRing.cols, samRing.cell r c ≠ 0 →
      (1 / 9) * absTotal samRing ≤ |samRing.cell r c| := by
  have ht : absTotal samRing = 9 := by norm_num [absTotal, samRing]
  refine ⟨rfl, by decide, rfl, by norm_num [Sam.total, samRing], ?_, ?_, ?_⟩
  · intro r _ c _ h
    have : 0 ≤ samRing.cell r c := by unfold samRing; dsimp only; split_ifs <;> norm_num
    linarith
  · intro k hk
    simp only [samRing, List.mem_cons, List.not_mem_nil, or_false] at hk
    rcases hk with rfl | rfl | rfl <;> norm_num [rowTotal, colTotal, samRing]
  · intro r _ c _ h
    rw [ht]
    unfold samRing at h ⊢
    dsimp only at h ⊢
    split_ifs at h ⊢ <;> first | exact absurd rfl h | norm_num

/-- A balanced matrix with a negative entry. -/
noncomputable def samNeg : Sam Nat ℝ :=
  ⟨[0, 1, 2], [0, 1, 2], 1, 1, fun r s =>
    if r = 0 ∧ s = 1 then -1 else if r = 0 ∧ s = 2 then 3 else if r = 1 ∧ s = 2 then 1 else
    if r = 2 ∧ s = 0 then 2 else if r = 2 ∧ s = 1 then 2 else 0⟩

/-- The conditions of the counterexample, and those of C67 (the matrix comes back times `7 / 9`). -/
example : samNeg.rows = samNeg.cols ∧ samNeg.rows.Nodup ∧ samNeg.total = 7 ∧ absTotal samNeg = 9 ∧
    (∀ r ∈ samNeg.rows, ∀ c ∈ samNeg.cols, samNeg.cell r c < 0 → samNeg.cell c r = 0) ∧
    (∀ k ∈ samNeg.rows, rowTotal samNeg k = colTotal samNeg k) ∧
    ∃ r ∈ samNeg.rows, ∃ c ∈ samNeg.cols, samNeg.cell r c < 0 := by
  refine ⟨rfl, by decide, by norm_num [Sam.total, samNeg], by norm_num [absTotal, samNeg], ?_, ?_,
    0, by decide, 1, by decide, ?_⟩
  · intro r hr c hc h
    simp only [samNeg, List.mem_cons, List.not_mem_nil, or_false] at hr hc
    rcases hr with rfl | rfl | rfl <;> rcases hc with rfl | rfl | rfl <;>
      first | (norm_num [samNeg] at h; done) | norm_num [samNeg]
  · intro k hk
    simp only [samNeg, List.mem_cons, List.not_mem_nil, or_false] at hk
    rcases hk with rfl | rfl | rfl <;> norm_num [rowTotal, colTotal, samNeg]
  · norm_num [samNeg]

end Verif
