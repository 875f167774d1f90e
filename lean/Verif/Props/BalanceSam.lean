import Verif.Props.Rebalance
import Mathlib.Algebra.Order.BigOperators.Group.List

/-!
# C48: the balanced SAM
-/

namespace Verif

variable {ι R : Type} [DecidableEq ι] [Field R] [LinearOrder R]

/-! ### Masks -/

/-- Positions and values of the selected cells. -/
def maskPairs (p : R → Bool) (V : List (List R)) : List ((Nat × Nat) × R) :=
  V.zipIdx.flatMap fun ri =>
    ri.1.zipIdx.filterMap fun vj => if p vj.1 then some ((ri.2, vj.2), vj.1) else none

omit [Field R] [LinearOrder R] in
theorem maskPairs_fst (p : R → Bool) (V : List (List R)) :
    (maskPairs p V).map Prod.fst = maskPositions p V := by
  unfold maskPairs maskPositions
  rw [List.map_flatMap]
  congr 1
  funext ri
  rw [List.map_filterMap]
  congr 1
  funext vj
  split <;> rfl

omit [Field R] [LinearOrder R] in
theorem filterMap_zipIdx (p : R → Bool) (i : Nat) (row : List R) : ∀ k : Nat,
    ((row.zipIdx k).filterMap fun vj =>
      if p vj.1 then some (((i, vj.2), vj.1) : (Nat × Nat) × R) else none).map Prod.snd =
      row.filter p := by
  induction row with
  | nil => intro k; rfl
  | cons v row ih =>
    intro k
    rw [List.zipIdx_cons, List.filterMap_cons, List.filter_cons]
    by_cases h : p v = true
    · simp only [h, if_true, List.map_cons]
      rw [ih]
    · simp only [h]
      exact ih _

omit [Field R] [LinearOrder R] in
theorem maskPairs_snd_aux (p : R → Bool) (V : List (List R)) : ∀ k : Nat,
    ((V.zipIdx k).flatMap fun ri =>
      ri.1.zipIdx.filterMap fun vj =>
        if p vj.1 then some (((ri.2, vj.2), vj.1) : (Nat × Nat) × R) else none).map Prod.snd =
      maskValues p V := by
  induction V with
  | nil => intro k; rfl
  | cons row V ih =>
    intro k
    rw [List.zipIdx_cons, List.flatMap_cons, List.map_append, ih, filterMap_zipIdx]
    simp [maskValues]

omit [Field R] [LinearOrder R] in
theorem maskPairs_snd (p : R → Bool) (V : List (List R)) :
    (maskPairs p V).map Prod.snd = maskValues p V := maskPairs_snd_aux p V 0

omit [Field R] [LinearOrder R] in
theorem mem_maskPairs (p : R → Bool) (V : List (List R)) (i j : Nat) (v : R) :
    ((i, j), v) ∈ maskPairs p V ↔
      ∃ row, V[i]? = some row ∧ row[j]? = some v ∧ p v = true := by
  unfold maskPairs
  rw [List.mem_flatMap]
  constructor
  · rintro ⟨⟨row, i'⟩, hrow, hm⟩
    rw [List.mem_filterMap] at hm
    obtain ⟨⟨v', j'⟩, hv, he⟩ := hm
    dsimp only at he
    split at he
    · rename_i hp
      simp only [Option.some.injEq, Prod.mk.injEq] at he
      obtain ⟨⟨rfl, rfl⟩, rfl⟩ := he
      exact ⟨row, List.mem_zipIdx_iff_getElem?.mp hrow, List.mem_zipIdx_iff_getElem?.mp hv, hp⟩
    · cases he
  · rintro ⟨row, h1, h2, h3⟩
    refine ⟨(row, i), List.mem_zipIdx_iff_getElem?.mpr h1, ?_⟩
    rw [List.mem_filterMap]
    exact ⟨(v, j), List.mem_zipIdx_iff_getElem?.mpr h2, by simp [h3]⟩

omit [Field R] [LinearOrder R] in
theorem mem_maskPositions (p : R → Bool) (V : List (List R)) (i j : Nat) :
    (i, j) ∈ maskPositions p V ↔ ∃ row v, V[i]? = some row ∧ row[j]? = some v ∧ p v = true := by
  rw [← maskPairs_fst, List.mem_map]
  constructor
  · rintro ⟨⟨ij, v⟩, hm, rfl⟩
    obtain ⟨row, h⟩ := (mem_maskPairs p V _ _ v).mp hm
    exact ⟨row, v, h⟩
  · rintro ⟨row, v, h⟩
    exact ⟨((i, j), v), (mem_maskPairs p V i j v).mpr ⟨row, h⟩, rfl⟩

theorem nodup_zipIdx {β : Type} (l : List β) (k : Nat) : ((l.zipIdx k).map Prod.snd).Nodup := by
  rw [List.zipIdx_map_snd]
  exact List.nodup_range'

omit [Field R] [LinearOrder R] in
theorem nodup_maskPositions (p : R → Bool) (V : List (List R)) : (maskPositions p V).Nodup := by
  unfold maskPositions
  rw [List.nodup_flatMap]
  constructor
  · rintro ⟨row, i⟩ _
    dsimp only
    have h := List.pairwise_map.mp (nodup_zipIdx row 0)
    rw [List.Nodup, List.pairwise_filterMap]
    refine h.imp ?_
    intro a b hab x hx y hy
    split at hx
    · split at hy
      · simp only [Option.some.injEq] at hx hy
        subst hx; subst hy
        intro he
        simp only [Prod.mk.injEq] at he
        exact hab he.2
      · cases hy
    · cases hx
  · have h := List.pairwise_map.mp (nodup_zipIdx V 0)
    refine h.imp ?_
    intro a b hab
    rw [Function.onFun, List.disjoint_left]
    intro x hx hy
    rw [List.mem_filterMap] at hx hy
    obtain ⟨u, -, hu⟩ := hx
    obtain ⟨w, -, hw⟩ := hy
    split at hu
    · split at hw
      · simp only [Option.some.injEq] at hu hw
        rw [← hw] at hu
        simp only [Prod.mk.injEq] at hu
        exact hab hu.1
      · cases hw
    · cases hu

/-! ### From vectors to matrices -/

omit [LinearOrder R] in
theorem matVec_notMem (A : List Nat) : ∀ (x : List R) (q : Nat), q ∉ A → matVec A x q = 0 := by
  intro x q h
  unfold matVec
  have : (A.zip x).filter (fun p => p.1 == q) = [] := by
    rw [List.filter_eq_nil_iff]
    rintro ⟨a, b⟩ hab
    have := (List.of_mem_zip hab).1
    simp only [beq_iff_eq]
    rintro rfl
    exact h this
  rw [this]; rfl

omit [LinearOrder R] in
theorem matVec_get (A : List Nat) : ∀ (x : List R) (n q : Nat) (v : R), A.Nodup → A[n]? = some q →
    x[n]? = some v → matVec A x q = v := by
  induction A with
  | nil => intro x n q v _ h; simp at h
  | cons a A ih =>
    intro x n q v hn hA hx
    rw [List.nodup_cons] at hn
    cases x with
    | nil => simp at hx
    | cons w x =>
      cases n with
      | zero =>
        simp only [List.getElem?_cons_zero, Option.some.injEq] at hA hx
        subst hA; subst hx
        have := matVec_notMem (R := R) A x a hn.1
        unfold matVec at this ⊢
        simp [this]
      | succ n =>
        simp only [List.getElem?_cons_succ] at hA hx
        have haq : a ≠ q := by rintro rfl; exact hn.1 (List.mem_of_getElem? hA)
        have := ih x n q v hn.2 hA hx
        unfold matVec at this ⊢
        rw [List.zip_cons_cons, List.filter_cons_of_neg (by simpa using haq), this]

/-- The list of lists has rows of length `m`. -/
def RowsOf (m : Nat) (V : List (List R)) : Prop := ∀ row ∈ V, row.length = m

theorem flat_inj {m i j i' j' : Nat} (hj : j < m) (hj' : j' < m) (h : i * m + j = i' * m + j') :
    i = i' ∧ j = j' := by
  have hm : 0 < m := by omega
  have h1 : (i * m + j) / m = i := by
    rw [Nat.mul_comm, Nat.mul_add_div hm, Nat.div_eq_of_lt hj, Nat.add_zero]
  have h2 : (i' * m + j') / m = i' := by
    rw [Nat.mul_comm, Nat.mul_add_div hm, Nat.div_eq_of_lt hj', Nat.add_zero]
  have hii : i = i' := by rw [← h1, ← h2, h]
  subst hii
  exact ⟨rfl, by omega⟩

omit [Field R] [LinearOrder R] in
theorem maskPositions_lt (p : R → Bool) (m : Nat) (V : List (List R)) (hV : RowsOf m V)
    (ij : Nat × Nat) (h : ij ∈ maskPositions p V) : ij.1 < V.length ∧ ij.2 < m := by
  obtain ⟨i, j⟩ := ij
  obtain ⟨row, v, h1, h2, -⟩ := (mem_maskPositions p V i j).mp h
  refine ⟨(List.getElem?_eq_some_iff.mp h1).1, ?_⟩
  rw [← hV row (List.mem_of_getElem? h1)]
  exact (List.getElem?_eq_some_iff.mp h2).1

omit [Field R] [LinearOrder R] in
theorem flat_nodup (p : R → Bool) (m : Nat) (V : List (List R)) (hV : RowsOf m V) :
    ((maskPositions p V).map fun ij => ij.1 * m + ij.2).Nodup := by
  refine List.Nodup.map_on ?_ (nodup_maskPositions p V)
  intro a ha b hb h
  obtain ⟨h1, h2⟩ := flat_inj (maskPositions_lt p m V hV a ha).2 (maskPositions_lt p m V hV b hb).2 h
  exact Prod.ext h1 h2

omit [Field R] [LinearOrder R] in
theorem mask_length (p : R → Bool) (V : List (List R)) :
    (maskPositions p V).length = (maskValues p V).length := by
  rw [← maskPairs_fst, ← maskPairs_snd]; simp

omit [Field R] [LinearOrder R] in
theorem scatter_notMem (pos : List (Nat × Nat)) (x : List R) (ij : Nat × Nat) (h : ij ∉ pos) :
    (pos.zip x).find? (fun p => p.1 == ij) = none := by
  rw [List.find?_eq_none]
  rintro ⟨a, b⟩ hab
  have := (List.of_mem_zip hab).1
  simp only [beq_iff_eq]
  rintro rfl
  exact h this

omit [Field R] [LinearOrder R] in
theorem scatter_get (pos : List (Nat × Nat)) : ∀ (x : List R) (n : Nat) (ij : Nat × Nat) (v : R),
    pos.Nodup → pos[n]? = some ij → x[n]? = some v →
    (pos.zip x).find? (fun p => p.1 == ij) = some (ij, v) := by
  induction pos with
  | nil => intro x n q v _ h; simp at h
  | cons a A ih =>
    intro x n q v hn hA hx
    rw [List.nodup_cons] at hn
    cases x with
    | nil => simp at hx
    | cons w x =>
      cases n with
      | zero =>
        simp only [List.getElem?_cons_zero, Option.some.injEq] at hA hx
        subst hA; subst hx
        simp
      | succ n =>
        simp only [List.getElem?_cons_succ] at hA hx
        have haq : a ≠ q := by rintro rfl; exact hn.1 (List.mem_of_getElem? hA)
        rw [List.zip_cons_cons, List.find?_cons_of_neg (by simpa using haq)]
        exact ih x n q v hn.2 hA hx

/-- **C48**, cvxpy's vector and matrix determine one another: for a matrix `V` with `m` columns, the
vector and the matrix `A` of `sparse_to_vector_and_matrix` give back `V`; any two vectors of that length
that give the same matrix are equal; and whatever the vector, cells that are zero in `V` stay zero. -/
theorem C48_cvxpy_vector_matrix (m : Nat) (V : List (List R)) (hV : ∀ row ∈ V, row.length = m) :
    let x := (sparseToVectorAndMatrix m V).1
    let A := (sparseToVectorAndMatrix m V).2
    (∀ (i : Nat) row (j : Nat) v, V[i]? = some row → row[j]? = some v → reshapeAx m A x i j = v) ∧
    (∀ y z : List R, y.length = x.length → z.length = x.length →
      (∀ i < V.length, ∀ j < m, reshapeAx m A y i j = reshapeAx m A z i j) → y = z) ∧
    ∀ (y : List R) (i : Nat) row (j : Nat), V[i]? = some row → row[j]? = some 0 →
      reshapeAx m A y i j = 0 := by
  intro x A
  have hnd : A.Nodup := flat_nodup _ m V hV
  have hz : ∀ (y : List R) (i : Nat) row (j : Nat), V[i]? = some row → row[j]? = some 0 →
      reshapeAx m A y i j = 0 := by
    intro y i row j hi hj
    refine matVec_notMem A y _ fun hmem => ?_
    obtain ⟨ij, hij, he⟩ := List.mem_map.mp hmem
    have hlt := maskPositions_lt _ m V hV ij hij
    have hjm : j < m := by
      rw [← hV row (List.mem_of_getElem? hi)]; exact (List.getElem?_eq_some_iff.mp hj).1
    obtain ⟨h1, h2⟩ := flat_inj hlt.2 hjm he
    obtain ⟨row', v', h3, h4, h5⟩ := (mem_maskPositions _ V ij.1 ij.2).mp hij
    rw [h1, hi] at h3
    cases h3
    rw [h2, hj] at h4
    cases h4
    simp at h5
  refine ⟨?_, ?_, hz⟩
  · intro i row j v hi hj
    by_cases hv : v = 0
    · subst hv; exact hz x i row j hi hj
    · have hmem : ((i, j), v) ∈ maskPairs (fun v => decide (v ≠ 0)) V :=
        (mem_maskPairs _ V i j v).mpr ⟨row, hi, hj, by simpa using hv⟩
      obtain ⟨n, hn⟩ := List.getElem?_of_mem hmem
      refine matVec_get A x n (i * m + j) v hnd ?_ ?_
      · show ((maskPositions _ V).map _)[n]? = _
        rw [← maskPairs_fst, List.map_map, List.getElem?_map, hn]; rfl
      · show (maskValues _ V)[n]? = _
        rw [← maskPairs_snd, List.getElem?_map, hn]; rfl
  · intro y z hy hz' h
    apply List.ext_getElem?
    intro n
    by_cases hn : n < x.length
    · have hnp : n < (maskPositions (fun v => decide (v ≠ 0)) V).length := by
        rw [mask_length]; exact hn
      have hlt := maskPositions_lt _ m V hV _ (List.getElem_mem hnp)
      have hA : A[n]? = some ((maskPositions (fun v => decide (v ≠ 0)) V)[n].1 * m +
          (maskPositions (fun v => decide (v ≠ 0)) V)[n].2) := by
        show ((maskPositions _ V).map _)[n]? = _
        rw [List.getElem?_map, List.getElem?_eq_getElem hnp]; rfl
      have e1 := matVec_get A y n _ y[n] hnd hA (List.getElem?_eq_getElem (by omega))
      have e2 := matVec_get A z n _ z[n] hnd hA (List.getElem?_eq_getElem (by omega))
      have := h _ hlt.1 _ hlt.2
      unfold reshapeAx at this
      rw [e1, e2] at this
      rw [List.getElem?_eq_getElem (by omega), List.getElem?_eq_getElem (by omega), this]
    · rw [List.getElem?_eq_none (by omega), List.getElem?_eq_none (by omega)]

example : sparseToVectorAndMatrix 2 [[(0 : ℚ), 3], [5, 0]] = ([3, 5], [1, 2]) := by decide +kernel

/-- **C48**, scipy's vector and matrix determine one another: a matrix `V` without negative entries comes
back from its positive values; any two vectors of that length that give the same matrix are equal; and
whatever the vector, cells that are not positive in `V` are zero. -/
theorem C48_scipy_vector_matrix (m : Nat) (V : List (List R)) (hV : ∀ row ∈ V, row.length = m) :
    let x := maskValues (fun v => decide (0 < v)) V
    (∀ (i : Nat) row (j : Nat) v, V[i]? = some row → row[j]? = some v → 0 ≤ v →
      scatterPositive V x i j = v) ∧
    (∀ y z : List R, y.length = x.length → z.length = x.length →
      (∀ i < V.length, ∀ j < m, scatterPositive V y i j = scatterPositive V z i j) → y = z) ∧
    ∀ (y : List R) (i : Nat) row (j : Nat) v, V[i]? = some row → row[j]? = some v → v ≤ 0 →
      scatterPositive V y i j = 0 := by
  intro x
  have hnd := nodup_maskPositions (fun v : R => decide (0 < v)) V
  have hz : ∀ (y : List R) (i : Nat) row (j : Nat) v, V[i]? = some row → row[j]? = some v → v ≤ 0 →
      scatterPositive V y i j = 0 := by
    intro y i row j v hi hj hv
    unfold scatterPositive
    rw [scatter_notMem]
    intro hmem
    obtain ⟨row', v', h3, h4, h5⟩ := (mem_maskPositions _ V i j).mp hmem
    rw [hi] at h3
    cases h3
    rw [hj] at h4
    cases h4
    rw [decide_eq_true_iff] at h5
    exact absurd h5 (not_lt.mpr hv)
  refine ⟨?_, ?_, hz⟩
  · intro i row j v hi hj hv
    by_cases h0 : v ≤ 0
    · rw [hz x i row j v hi hj h0]
      exact le_antisymm hv h0
    · have hmem : ((i, j), v) ∈ maskPairs (fun v => decide (0 < v)) V :=
        (mem_maskPairs _ V i j v).mpr ⟨row, hi, hj, by simpa using h0⟩
      obtain ⟨n, hn⟩ := List.getElem?_of_mem hmem
      unfold scatterPositive
      rw [scatter_get _ x n (i, j) v hnd]
      · rw [← maskPairs_fst, List.getElem?_map, hn]; rfl
      · show (maskValues _ V)[n]? = _
        rw [← maskPairs_snd, List.getElem?_map, hn]; rfl
  · intro y z hy hz' h
    apply List.ext_getElem?
    intro n
    by_cases hn : n < x.length
    · have hnp : n < (maskPositions (fun v => decide (0 < v)) V).length := by
        rw [mask_length]; exact hn
      have hlt := maskPositions_lt _ m V hV _ (List.getElem_mem hnp)
      have e1 := scatter_get _ y n _ y[n] hnd (List.getElem?_eq_getElem hnp)
        (List.getElem?_eq_getElem (by omega))
      have e2 := scatter_get _ z n _ z[n] hnd (List.getElem?_eq_getElem hnp)
        (List.getElem?_eq_getElem (by omega))
      have := h _ hlt.1 _ hlt.2
      unfold scatterPositive at this
      rw [e1, e2] at this
      rw [List.getElem?_eq_getElem (by omega), List.getElem?_eq_getElem (by omega)]
      exact congrArg some this
    · rw [List.getElem?_eq_none (by omega), List.getElem?_eq_none (by omega)]

example : maskValues (fun v => decide (0 < v)) [[(0 : ℚ), 3], [5, 0]] = [3, 5] := by decide +kernel

/-! ### The whole routine -/

omit [LinearOrder R] in
theorem sum_idxOf (l : List ι) (hn : l.Nodup) (g : Nat → R) :
    (l.map fun c => g (l.idxOf c)).sum = ((List.range l.length).map g).sum := by
  congr 1
  apply List.ext_getElem
  · simp
  · intro n h1 h2
    simp only [List.getElem_map, List.getElem_range]
    rw [hn.idxOf_getElem]

theorem sam_values_get (df : Sam ι R) (r c : ι) (hr : r ∈ df.rows) (hc : c ∈ df.cols) :
    ∃ row, df.values[df.rows.idxOf r]? = some row ∧ row[df.cols.idxOf c]? = some (df.cell r c) := by
  refine ⟨df.cols.map fun c => df.cell r c, ?_, ?_⟩
  · unfold Sam.values
    rw [List.getElem?_map, List.getElem?_idxOf hr]; rfl
  · rw [List.getElem?_map, List.getElem?_idxOf hc]; rfl

theorem balance_core [IsStrictOrderedRing R] (df : Sam ι R) (hsq : SquareSam df)
    (hno : NoMirroredNegatives df) (Z : Nat → Nat → R) (d : Sam ι R) (t : Fitted ι R)
    (hd : samFitTransform df = .ok (t, d))
    (hzero : ∀ r ∈ df.rows, ∀ c ∈ df.cols, d.cell r c = 0 → (withValues d Z).cell r c = 0)
    (hbal : ∀ k ∈ df.rows, rowTotal (withValues d Z) k = colTotal (withValues d Z) k) :
    ∃ b, samInverse (some t) (withValues d Z) = .ok b ∧
      (∀ k ∈ df.rows, rowTotal b k = colTotal b k) ∧
      ∀ r ∈ df.rows, ∀ c ∈ df.cols, df.cell r c = 0 → b.cell r c = 0 := by
  have hN := nodup_negativeLocs df hsq.rows hsq.cols
  have hN' := nodup_map_swap _ hN
  rw [fitTransform_ok df hsq.levels] at hd
  simp only [Except.ok.injEq, Prod.mk.injEq] at hd
  obtain ⟨ht, hd⟩ := hd
  have hcell : d.cell = (negativeLocs df).foldl moveNegative fun r c => df.cell r c / df.total := by
    rw [← hd]
  have hX : (withValues d Z).rows = df.rows ∧ (withValues d Z).cols = df.cols ∧
      (withValues d Z).rowLevels = df.rowLevels ∧ (withValues d Z).colLevels = df.colLevels := by
    subst hd; exact ⟨rfl, rfl, rfl, rfl⟩
  obtain ⟨t', d', b, h1, h2, h3⟩ := C47_inverse_partial df (withValues d Z) hsq hX hno (by
    intro r hr c hc hne hneg
    refine hzero r hr c hc ?_
    rw [hcell]
    refine fold_here _ _ r c hN ((mem_negativeLocs df r c).mpr ⟨hr, hc, hneg⟩) (Or.inl fun hh => ?_)
    exact hno r hr c hc hne hneg ((mem_negativeLocs df c r).mp hh).2.2)
  rw [fitTransform_ok df hsq.levels] at h1
  simp only [Except.ok.injEq, Prod.mk.injEq] at h1
  obtain ⟨ht', -⟩ := h1
  rw [← ht', ht] at h2
  refine ⟨b, h2, ?_, ?_⟩
  · intro k hk
    have := h3 k hk
    rw [hbal k hk, sub_self, zero_mul, sub_eq_zero] at this
    exact this
  · intro r hr c hc h0
    rw [inverse_ok (withValues d Z) t (by rw [← ht, hX.2.2.2]; exact hsq.levels)
      (by rw [hX.2.2.1, hX.2.2.2]; exact hsq.levels.symm) (by
        intro r c h
        rw [← ht] at h
        obtain ⟨h1, h2, -⟩ := (mem_negativeLocs df r c).mp h
        rw [hX.1, hX.2.1]
        exact ⟨(hsq.same c).mpr h2, (hsq.same r).mp h1⟩)] at h2
    simp only [Except.ok.injEq] at h2
    rw [← h2]
    dsimp only
    have hrc : (r, c) ∉ negativeLocs df := fun hh => by
      have := ((mem_negativeLocs df r c).mp hh).2.2
      rw [h0] at this; exact lt_irrefl _ this
    have htN : t.negLocs = negativeLocs df := by rw [← ht]
    rw [htN]
    by_cases h2 : (c, r) ∈ negativeLocs df
    · rw [fold_here _ _ r c hN' ((mem_map_swap _ _ _).mpr h2)
        (Or.inl fun hh => hrc ((mem_map_swap _ _ _).mp hh)), zero_mul]
    · rw [fold_none _ _ r c (fun hh => h2 ((mem_map_swap _ _ _).mp hh))
        (fun hh => hrc ((mem_map_swap _ _ _).mp hh)), hzero r hr c hc, zero_mul]
      rw [hcell, fold_none _ _ r c hrc h2, h0, zero_div]

omit [DecidableEq ι] in
theorem sum_abs_zero [IsStrictOrderedRing R] (l : List Nat) (g : Nat → R)
    (h : (l.map fun k => |g k|).sum = 0) : ∀ k ∈ l, g k = 0 := by
  induction l with
  | nil => simp
  | cons a l ih =>
    rw [List.map_cons, List.sum_cons] at h
    have h1 : 0 ≤ |g a| := abs_nonneg _
    have h2 : 0 ≤ (l.map fun k => |g k|).sum := by
      apply List.sum_nonneg
      intro y hy
      obtain ⟨k, -, rfl⟩ := List.mem_map.mp hy
      exact abs_nonneg _
    have ha : |g a| = 0 := le_antisymm (by rw [← h]; exact le_add_of_nonneg_right h2) h1
    rw [ha, zero_add] at h
    intro k hk
    rcases List.mem_cons.mp hk with rfl | hk
    · exact abs_eq_zero.mp ha
    · exact ih h k hk

/-- **C48** (partial).  For a matrix with the same labels in the same order along rows and columns, a
nonzero total, and no two accounts with negative entries in both of their mirrored cells: if the
optimizer's vector meets the constraints it was given, `balance_SAM` returns a matrix in which every
account's row total is its column total, and cells that were zero stay zero.  (Without either of the
first two conditions the claim is false, see the counterexamples.) -/
theorem C48_balanced_partial [IsStrictOrderedRing R] (df : Sam ι R)
    (hsame : df.rows = df.cols) (hnodup : df.rows.Nodup) (hlev : df.rowLevels = df.colLevels)
    (htot : df.total ≠ 0) (hno : NoMirroredNegatives df)
    (optCvxpy : Sam ι R → R → List R) (optScipy : Sam ι R → List R) (useCvxpy : Bool)
    (hc : ∀ t d, samFitTransform df = .ok (t, d) → useCvxpy = true →
      CvxpyConstraints d t.scale (optCvxpy d t.scale))
    (hs : ∀ t d, samFitTransform df = .ok (t, d) → useCvxpy = false →
      ScipyConstraints d (optScipy d)) :
    ∃ b, balanceSam optCvxpy optScipy true useCvxpy df = .ok b ∧
      (∀ k ∈ df.rows, rowTotal b k = colTotal b k) ∧
      ∀ r ∈ df.rows, ∀ c ∈ df.cols, df.cell r c = 0 → b.cell r c = 0 := by
  have hsq : SquareSam df := ⟨hnodup, hsame ▸ hnodup, fun x => by rw [hsame], hlev⟩
  obtain ⟨t, d, htd, hdr, hdc, hts⟩ : ∃ t d, samFitTransform df = .ok (t, d) ∧ d.rows = df.rows ∧
      d.cols = df.cols ∧ t.scale = df.total := ⟨_, _, fitTransform_ok df hlev, rfl, rfl, rfl⟩
  have hbs : balanceSam optCvxpy optScipy true useCvxpy df = samInverse (some t)
      (if useCvxpy = true then balanceWithCvxpy (optCvxpy d t.scale) d
        else balanceWithScipy (optScipy d) d) := by
    unfold balanceSam
    rw [if_neg (by simp), htd]
    rfl
  have hdrc : d.rows = d.cols := by rw [hdr, hdc, hsame]
  have hnodup' : d.rows.Nodup := by rw [hdr]; exact hnodup
  have hrows : ∀ row ∈ d.values, row.length = d.cols.length := by
    intro row hrow
    obtain ⟨r, -, rfl⟩ := List.mem_map.mp hrow
    simp
  have hsums : ∀ (Z : Nat → Nat → R), (∀ k < d.rows.length,
      ((List.range d.rows.length).map fun i => Z i k).sum =
        ((List.range d.rows.length).map fun j => Z k j).sum) →
      ∀ k ∈ df.rows, rowTotal (withValues d Z) k = colTotal (withValues d Z) k := by
    intro Z hZ k hk
    unfold rowTotal colTotal withValues
    dsimp only
    rw [← hdrc, sum_idxOf d.rows hnodup' (fun n => Z (d.rows.idxOf k) n),
      sum_idxOf d.rows hnodup' (fun n => Z n (d.rows.idxOf k))]
    exact (hZ _ (List.idxOf_lt_length_iff.mpr (by rw [hdr]; exact hk))).symm
  rw [hbs]
  cases huse : useCvxpy with
  | true =>
    obtain ⟨-, -, -, h4⟩ := hc t d htd huse
    rw [if_pos rfl]
    refine balance_core df hsq hno _ d t htd ?_ (hsums _ ?_)
    · intro r hr c hc' h0
      obtain ⟨row, hrow, hv⟩ := sam_values_get d r c (by rw [hdr]; exact hr) (by rw [hdc]; exact hc')
      rw [h0] at hv
      have := (C48_cvxpy_vector_matrix d.cols.length d.values hrows).2.2 (optCvxpy d t.scale) _ row _
        hrow hv
      unfold withValues
      dsimp only
      rw [hdrc] at this ⊢
      exact this
    · intro k hk
      exact mul_right_cancel₀ (by rw [hts]; exact htot) (h4 k hk)
  | false =>
    obtain ⟨-, -, -, h4⟩ := hs t d htd huse
    rw [if_neg (by simp)]
    refine balance_core df hsq hno _ d t htd ?_ (hsums _ ?_)
    · intro r hr c hc' h0
      obtain ⟨row, hrow, hv⟩ := sam_values_get d r c (by rw [hdr]; exact hr) (by rw [hdc]; exact hc')
      exact (C48_scipy_vector_matrix d.cols.length d.values hrows).2.2 (optScipy d) _ row _ _
        hrow hv (le_of_eq h0)
    · intro k hk
      exact sub_eq_zero.mp (sum_abs_zero _ _ h4 k (List.mem_range.mpr hk))

/-- A matrix with a negative entry, and a vector that meets cvxpy's constraints. -/
example : NoMirroredNegatives (sam2 1 5 (-1) 0) ∧
    ∃ t d, samFitTransform (sam2 1 5 (-1) 0) = .ok (t, d) ∧ CvxpyConstraints d t.scale [1, 0] := by
  refine ⟨by unfold NoMirroredNegatives; decide +kernel, _, _, fitTransform_ok _ rfl, ?_⟩
  unfold CvxpyConstraints
  decide +kernel

/-- Accounts 0 and 1 have negative entries in both mirrored cells. -/
def samMirror : Sam Nat ℚ :=
  ⟨[0, 1, 2], [0, 1, 2], 1, 1, fun r s =>
    if (r, s) = (0, 1) then -1 else if (r, s) = (1, 0) then -1 else
    if (r, s) = (0, 2) then 4 else if (r, s) = (2, 1) then 4 else 0⟩

/-- **C48 is false** for mirrored negative entries: after the transformation the cells `(0, 2)`, `(1, 0)`
and `(2, 1)` are in use, the vector `[1/3, 1/3, 1/3]` meets the constraints, and then both mirrored cells
`(0, 1)` and `(1, 0)` are set to zero. -/
theorem C48_mirrored_counterexample :
    ∃ t d x b, samFitTransform samMirror = .ok (t, d) ∧ CvxpyConstraints d t.scale x ∧
      samInverse (some t) (balanceWithCvxpy x d) = .ok b ∧ rowTotal b 0 ≠ colTotal b 0 := by
  refine ⟨_, _, [1/3, 1/3, 1/3], _, fitTransform_ok _ rfl, ?_, inverse_ok _ _ rfl rfl ?_, ?_⟩
  · unfold CvxpyConstraints
    decide +kernel
  · intro r c h
    obtain ⟨h1, h2, -⟩ := (mem_negativeLocs _ r c).mp h
    exact ⟨h2, h1⟩
  · decide +kernel

/-- The accounts 0, 1 in a different order along the columns. -/
def samOrder : Sam Nat ℚ := ⟨[0, 1], [1, 0], 1, 1, fun r s => if (r, s) = (0, 1) then 1 else if (r, s) = (1, 0) then 3 else 0⟩

/-- **C48 is false** when rows and columns are in different orders: the constraints compare positions,
so a vector that meets them can leave every account unbalanced. -/
theorem C48_order_counterexample :
    ∃ t d x b, samFitTransform samOrder = .ok (t, d) ∧ CvxpyConstraints d t.scale x ∧
      samInverse (some t) (balanceWithCvxpy x d) = .ok b ∧ rowTotal b 0 ≠ colTotal b 0 := by
  refine ⟨_, _, [1/4, 3/4], _, fitTransform_ok _ rfl, ?_, inverse_ok _ _ rfl rfl ?_, ?_⟩
  · unfold CvxpyConstraints
    decide +kernel
  · intro r c h
    obtain ⟨h1, h2, h3⟩ := (mem_negativeLocs _ r c).mp h
    have hne : ∀ r ∈ samOrder.rows, ∀ c ∈ samOrder.cols, ¬ samOrder.cell r c < 0 := by decide +kernel
    exact absurd h3 (hne r h1 c h2)
  · decide +kernel

end Verif
