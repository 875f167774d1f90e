import Verif.Lemmas.CrossEntropy
import Verif.Props.BalanceSam
import Mathlib.Topology.Algebra.Monoid
import Mathlib.Topology.Order.Compact
import Mathlib.Topology.MetricSpace.ProperSpace.Real
import Mathlib.Algebra.BigOperators.Fin
import Mathlib.Algebra.BigOperators.Field

/-!
# Scattering a vector into a matrix

What the two rebalancing problems have in common: the entries of a vector are put at given positions of
a matrix, the vector is nonnegative and sums to one, and the matrix is balanced.
-/

namespace Verif

open Set

/-- Entry `ij` of the matrix with the entries of `x` at the positions `pos`. -/
def putAt (pos : List (Nat × Nat)) (x : List ℝ) (ij : Nat × Nat) : ℝ :=
  match (pos.zip x).find? fun p => p.1 == ij with
  | some p => p.2
  | none => 0

theorem putAt_nil (x : List ℝ) (ij : Nat × Nat) : putAt [] x ij = 0 := rfl

theorem putAt_cons (a : Nat × Nat) (pos : List (Nat × Nat)) (w : ℝ) (x : List ℝ) (ij : Nat × Nat) :
    putAt (a :: pos) (w :: x) ij = if a = ij then w else putAt pos x ij := by
  unfold putAt
  rw [List.zip_cons_cons, List.find?_cons]
  by_cases h : a = ij
  · simp [h]
  · simp only [beq_eq_false_iff_ne.mpr h, if_neg h]

theorem putAt_notMem (pos : List (Nat × Nat)) (x : List ℝ) (ij : Nat × Nat) (h : ij ∉ pos) :
    putAt pos x ij = 0 := by
  unfold putAt; rw [scatter_notMem _ _ _ h]

theorem putAt_get (pos : List (Nat × Nat)) (x : List ℝ) (n : Nat) (ij : Nat × Nat) (v : ℝ)
    (hn : pos.Nodup) (h1 : pos[n]? = some ij) (h2 : x[n]? = some v) : putAt pos x ij = v := by
  unfold putAt; rw [scatter_get pos x n ij v hn h1 h2]

theorem putAt_nonneg (pos : List (Nat × Nat)) : ∀ (x : List ℝ) (ij : Nat × Nat), (∀ v ∈ x, 0 ≤ v) →
    0 ≤ putAt pos x ij := by
  intro x ij h
  unfold putAt
  split
  · rename_i p hp
    exact h _ (List.of_mem_zip (List.mem_of_find?_eq_some hp)).2
  · exact le_rfl

theorem sum_map_range (n : Nat) (f : Nat → ℝ) :
    ((List.range n).map f).sum = ∑ i ∈ Finset.range n, f i := rfl

/-- The matrix has the same sum as the vector. -/
theorem sum_putAt (n m : Nat) (pos : List (Nat × Nat)) : ∀ (x : List ℝ), pos.Nodup →
    (∀ ij ∈ pos, ij.1 < n ∧ ij.2 < m) → x.length = pos.length →
    ∑ i ∈ Finset.range n, ∑ j ∈ Finset.range m, putAt pos x (i, j) = x.sum := by
  induction pos with
  | nil =>
    intro x _ _ hl
    have : x = [] := List.length_eq_zero_iff.mp hl
    simp [this, putAt_nil]
  | cons a pos ih =>
    intro x hn hlt hl
    rw [List.nodup_cons] at hn
    cases x with
    | nil => simp at hl
    | cons w x =>
      have h0 := putAt_notMem pos x a hn.1
      have hcell : ∀ i j, putAt (a :: pos) (w :: x) (i, j) =
          (if a = (i, j) then w else 0) + putAt pos x (i, j) := by
        intro i j
        rw [putAt_cons]
        by_cases h : a = (i, j)
        · rw [if_pos h, if_pos h, ← h, h0, add_zero]
        · rw [if_neg h, if_neg h, zero_add]
      simp only [hcell, Finset.sum_add_distrib]
      rw [ih x hn.2 (fun ij h => hlt ij (List.mem_cons_of_mem _ h)) (by simpa using hl), List.sum_cons]
      congr 1
      obtain ⟨ha1, ha2⟩ := hlt a List.mem_cons_self
      rw [Finset.sum_eq_single a.1, Finset.sum_eq_single a.2]
      · rw [if_pos rfl]
      · intro j _ hj
        rw [if_neg]; intro h; exact hj (congrArg Prod.snd h).symm
      · intro h; exact absurd (Finset.mem_range.mpr ha2) h
      · intro i _ hi
        refine Finset.sum_eq_zero fun j _ => ?_
        rw [if_neg]; intro h; exact hi (congrArg Prod.fst h).symm
      · intro h; exact absurd (Finset.mem_range.mpr ha1) h

/-- `A @ x` reshaped is the scattered vector. -/
theorem matVec_putAt (m : Nat) (pos : List (Nat × Nat)) (x : List ℝ) (hn : pos.Nodup)
    (hm : ∀ ij ∈ pos, ij.2 < m) (hl : x.length = pos.length) (i j : Nat) (hj : j < m) :
    reshapeAx m (pos.map fun ij => ij.1 * m + ij.2) x i j = putAt pos x (i, j) := by
  unfold reshapeAx
  have hnd : (pos.map fun ij => ij.1 * m + ij.2).Nodup := by
    refine List.Nodup.map_on ?_ hn
    intro a ha b hb h
    obtain ⟨h1, h2⟩ := flat_inj (hm a ha) (hm b hb) h
    exact Prod.ext h1 h2
  by_cases hmem : (i, j) ∈ pos
  · obtain ⟨n, hn'⟩ := List.getElem?_of_mem hmem
    have hlt : n < x.length := by rw [hl]; exact (List.getElem?_eq_some_iff.mp hn').1
    rw [putAt_get pos x n (i, j) x[n] hn hn' (List.getElem?_eq_getElem hlt)]
    refine matVec_get _ x n _ _ hnd ?_ (List.getElem?_eq_getElem hlt)
    rw [List.getElem?_map, hn']; rfl
  · rw [putAt_notMem pos x _ hmem]
    refine matVec_notMem _ x _ fun h => hmem ?_
    obtain ⟨ij, hij, he⟩ := List.mem_map.mp h
    obtain ⟨h1, h2⟩ := flat_inj (hm ij hij) hj he
    have : ij = (i, j) := Prod.ext h1 h2
    rw [← this]; exact hij

/-! ### Midpoints -/

/-- The midpoint of two vectors. -/
noncomputable def mid (x y : List ℝ) : List ℝ := List.zipWith (fun a b => (a + b) / 2) x y

theorem mid_length (x y : List ℝ) (h : x.length = y.length) : (mid x y).length = x.length := by
  simp [mid, h]

theorem mid_sum : ∀ (x y : List ℝ), x.length = y.length → (mid x y).sum = (x.sum + y.sum) / 2
  | [], [], _ => by simp [mid]
  | a :: x, b :: y, h => by
    have := mid_sum x y (by simpa using h)
    unfold mid at this ⊢
    rw [List.zipWith_cons_cons, List.sum_cons, this, List.sum_cons, List.sum_cons]
    ring

theorem mid_nonneg (x y : List ℝ) (hx : ∀ v ∈ x, 0 ≤ v) (hy : ∀ v ∈ y, 0 ≤ v) :
    ∀ v ∈ mid x y, 0 ≤ v := by
  intro v hv
  unfold mid at hv
  rw [List.mem_iff_getElem] at hv
  obtain ⟨n, hn, rfl⟩ := hv
  rw [List.getElem_zipWith]
  have h1 := hx _ (List.getElem_mem (l := x) (n := n) (by simp at hn; omega))
  have h2 := hy _ (List.getElem_mem (l := y) (n := n) (by simp at hn; omega))
  linarith

theorem mid_putAt (pos : List (Nat × Nat)) : ∀ (x y : List ℝ) (ij : Nat × Nat), x.length = y.length →
    putAt pos (mid x y) ij = (putAt pos x ij + putAt pos y ij) / 2 := by
  induction pos with
  | nil => intro x y ij _; simp [putAt_nil]
  | cons a pos ih =>
    intro x y ij h
    cases x with
    | nil =>
      cases y with
      | nil => simp [mid, putAt]
      | cons b y => simp at h
    | cons c x =>
      cases y with
      | nil => simp at h
      | cons b y =>
        have := ih x y ij (by simpa using h)
        unfold mid at this ⊢
        rw [List.zipWith_cons_cons, putAt_cons, putAt_cons, putAt_cons, this]
        split <;> rfl

/-- A sum of strictly convex terms. -/
theorem mid_strict (F : ℝ → ℝ → ℝ) (vs : List ℝ)
    (hF : ∀ v ∈ vs, ∀ a b, 0 ≤ a → 0 ≤ b → a ≠ b → F ((a + b) / 2) v < (F a v + F b v) / 2) :
    ∀ x y : List ℝ, x.length = vs.length → y.length = vs.length → (∀ v ∈ x, 0 ≤ v) → (∀ v ∈ y, 0 ≤ v) →
      (List.zipWith F (mid x y) vs).sum ≤
        ((List.zipWith F x vs).sum + (List.zipWith F y vs).sum) / 2 ∧
      (x ≠ y → (List.zipWith F (mid x y) vs).sum <
        ((List.zipWith F x vs).sum + (List.zipWith F y vs).sum) / 2) := by
  induction vs with
  | nil =>
    intro x y hx hy _ _
    have h1 := List.length_eq_zero_iff.mp hx
    have h2 := List.length_eq_zero_iff.mp hy
    subst h1; subst h2
    simp
  | cons v vs ih =>
    intro x y hx hy hx0 hy0
    cases x with
    | nil => simp at hx
    | cons a x =>
      cases y with
      | nil => simp at hy
      | cons b y =>
        obtain ⟨i1, i2⟩ := ih (fun v' h => hF v' (List.mem_cons_of_mem _ h)) x y (by simpa using hx)
          (by simpa using hy) (fun v h => hx0 v (List.mem_cons_of_mem _ h))
          (fun v h => hy0 v (List.mem_cons_of_mem _ h))
        have ha := hx0 a List.mem_cons_self
        have hb := hy0 b List.mem_cons_self
        unfold mid at i1 i2 ⊢
        simp only [List.zipWith_cons_cons, List.sum_cons]
        by_cases hab : a = b
        · subst hab
          rw [show (a + a) / 2 = a by ring]
          refine ⟨by linarith, fun hne => ?_⟩
          have := i2 (fun h => hne (by rw [h]))
          linarith
        · have := hF v List.mem_cons_self a b ha hb hab
          exact ⟨by linarith, fun _ => by linarith⟩

/-! ### The common problem -/

/-- The constraints. -/
def Feas (n : Nat) (pos : List (Nat × Nat)) (x : List ℝ) : Prop :=
  x.length = pos.length ∧ x.sum = 1 ∧ (∀ v ∈ x, 0 ≤ v) ∧
  ∀ k < n, ∑ i ∈ Finset.range n, putAt pos x (i, k) = ∑ j ∈ Finset.range n, putAt pos x (k, j)

theorem feas_mid (n : Nat) (pos : List (Nat × Nat)) (x y : List ℝ) (hx : Feas n pos x)
    (hy : Feas n pos y) : Feas n pos (mid x y) := by
  have hl : x.length = y.length := hx.1.trans hy.1.symm
  refine ⟨(mid_length x y hl).trans hx.1, ?_, mid_nonneg x y hx.2.2.1 hy.2.2.1, ?_⟩
  · rw [mid_sum x y hl, hx.2.1, hy.2.1]; norm_num
  · intro k hk
    simp only [mid_putAt pos x y _ hl, ← Finset.sum_div, Finset.sum_add_distrib]
    rw [hx.2.2.2 k hk, hy.2.2.2 k hk]

theorem continuous_putAt (pos : List (Nat × Nat)) (ij : Nat × Nat) : ∀ k : Nat,
    Continuous fun f : Fin k → ℝ => putAt pos (List.ofFn f) ij := by
  induction pos with
  | nil => intro k; exact continuous_const
  | cons a pos ih =>
    intro k
    cases k with
    | zero => simpa [putAt] using continuous_const
    | succ k =>
      simp only [List.ofFn_succ, putAt_cons]
      split
      · exact continuous_apply 0
      · exact (ih k).comp (continuous_pi fun i => continuous_apply i.succ)

theorem continuousOn_obj (F : ℝ → ℝ → ℝ) (vs : List ℝ)
    (hF : ∀ v ∈ vs, ContinuousOn (fun a => F a v) (Ici (0 : ℝ))) : ∀ k : Nat,
    ContinuousOn (fun f : Fin k → ℝ => (List.zipWith F (List.ofFn f) vs).sum) {f | ∀ i, 0 ≤ f i} := by
  induction vs with
  | nil => intro k; simp only [List.zipWith_nil_right, List.sum_nil]; exact continuousOn_const
  | cons v vs ih =>
    intro k
    cases k with
    | zero => simp only [List.ofFn_zero, List.zipWith_nil_left, List.sum_nil]; exact continuousOn_const
    | succ k =>
      simp only [List.ofFn_succ, List.zipWith_cons_cons, List.sum_cons]
      refine ContinuousOn.add ?_ ?_
      · exact (hF v List.mem_cons_self).comp (continuous_apply 0).continuousOn fun f hf => hf 0
      · exact (ih (fun v' h => hF v' (List.mem_cons_of_mem _ h)) k).comp
          (continuous_pi fun i => continuous_apply i.succ).continuousOn fun f hf i => hf i.succ

/-- There is exactly one solution, if the constraints can be met. -/
theorem existsUnique_min (n : Nat) (pos : List (Nat × Nat)) (F : ℝ → ℝ → ℝ) (vs : List ℝ)
    (hl : vs.length = pos.length)
    (hs : ∀ v ∈ vs, ∀ a b, 0 ≤ a → 0 ≤ b → a ≠ b → F ((a + b) / 2) v < (F a v + F b v) / 2)
    (hc : ∀ v ∈ vs, ContinuousOn (fun a => F a v) (Ici 0)) (hne : ∃ y, Feas n pos y) :
    ∃! x, Feas n pos x ∧ ∀ y, Feas n pos y →
      (List.zipWith F x vs).sum ≤ (List.zipWith F y vs).sum := by
  obtain ⟨K, hK⟩ : ∃ K : Set (Fin pos.length → ℝ), K = {f | Feas n pos (List.ofFn f)} := ⟨_, rfl⟩
  have hof : ∀ y, Feas n pos y → ∃ f ∈ K, List.ofFn f = y := by
    intro y hy
    have h : List.ofFn (fun i : Fin pos.length => y[i.1]'(by rw [hy.1]; exact i.2)) = y := by
      apply List.ext_getElem
      · simp [hy.1]
      · intro i h1 h2
        simp
    exact ⟨_, by rw [hK]; show Feas n pos (List.ofFn _); rw [h]; exact hy, h⟩
  have hK0 : ∀ f ∈ K, ∀ i, 0 ≤ f i := by
    intro f hf i
    rw [hK] at hf
    exact hf.2.2.1 _ ((List.mem_ofFn' f (f i)).mpr ⟨i, rfl⟩)
  have hK1 : ∀ f ∈ K, ∑ i, f i = 1 := by
    intro f hf
    rw [hK] at hf
    have := hf.2.1
    rwa [List.sum_ofFn] at this
  have hcl : IsClosed K := by
    have : K = {f | ∑ i, f i = 1} ∩ {f | ∀ i, 0 ≤ f i} ∩
        {f | ∀ k < n, ∑ i ∈ Finset.range n, putAt pos (List.ofFn f) (i, k) =
          ∑ j ∈ Finset.range n, putAt pos (List.ofFn f) (k, j)} := by
      ext f
      constructor
      · intro hf
        refine ⟨⟨hK1 f hf, hK0 f hf⟩, ?_⟩
        rw [hK] at hf
        exact hf.2.2.2
      · rintro ⟨⟨h1, h2⟩, h3⟩
        rw [hK]
        refine ⟨by simp, by rw [List.sum_ofFn]; exact h1, ?_, h3⟩
        intro v hv
        obtain ⟨i, rfl⟩ := (List.mem_ofFn' f v).mp hv
        exact h2 i
    rw [this]
    refine IsClosed.inter (IsClosed.inter ?_ ?_) ?_
    · exact isClosed_eq (by fun_prop) continuous_const
    · rw [ofPred_forall]
      exact isClosed_iInter fun i => isClosed_le continuous_const (continuous_apply i)
    · simp only [ofPred_forall]
      refine isClosed_iInter fun k => isClosed_iInter fun _ => isClosed_eq ?_ ?_
      · exact continuous_finsetSum _ fun i _ => continuous_putAt pos _ _
      · exact continuous_finsetSum _ fun i _ => continuous_putAt pos _ _
  have hsub : K ⊆ Set.pi univ fun _ : Fin pos.length => Icc (0 : ℝ) 1 := by
    intro f hf i _
    refine ⟨hK0 f hf i, ?_⟩
    rw [← hK1 f hf]
    exact Finset.single_le_sum (fun i _ => hK0 f hf i) (Finset.mem_univ i)
  have hcomp : IsCompact K := (isCompact_univ_pi fun _ => isCompact_Icc).of_isClosed_subset hcl hsub
  obtain ⟨y0, hy0⟩ := hne
  obtain ⟨f0, hf0, -⟩ := hof y0 hy0
  obtain ⟨f, hf, hmin⟩ := hcomp.exists_isMinOn ⟨f0, hf0⟩
    ((continuousOn_obj F vs hc pos.length).mono hK0)
  have hfx : Feas n pos (List.ofFn f) := by rw [hK] at hf; exact hf
  have hmin' : ∀ y, Feas n pos y →
      (List.zipWith F (List.ofFn f) vs).sum ≤ (List.zipWith F y vs).sum := by
    intro y hy
    obtain ⟨g, hg, rfl⟩ := hof y hy
    exact hmin hg
  refine ⟨List.ofFn f, ⟨hfx, hmin'⟩, ?_⟩
  rintro y ⟨hy, hymin⟩
  by_contra hne'
  have h := (mid_strict F vs hs y (List.ofFn f) (hy.1.trans hl.symm) (hfx.1.trans hl.symm) hy.2.2.1
    hfx.2.2.1).2 hne'
  have h1 := hymin _ (feas_mid n pos y _ hy hfx)
  have h2 := hmin' _ (feas_mid n pos y _ hy hfx)
  linarith

end Verif
