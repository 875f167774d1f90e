import Verif.Model.ProdRewrite
import Mathlib.Analysis.Calculus.Deriv.Mul
import Mathlib.Data.List.Perm.Subperm
import Mathlib.Data.List.NodupEquivFin
import Mathlib.Data.Finset.Card

/-!
# C87: products over an index and their derivatives

The rewrite promises "there will never be zeros, which should always be the case for CGE models"
(pytensor_tools.py:21-25).
-/

namespace Verif

open scoped BigOperators

/-- **C87 (values).**  The rewrite does not change the value of a product, over all or some axes, of any array of any
shape, zeros included. -/
theorem C87_value {ndim : Nat} (op : ProdOp)
    (hax : ∀ l, op.axis = some l → l.Nodup ∧ ∀ a ∈ l, a < ndim)
    (shape : Fin ndim → Nat) (x : ((a : Fin ndim) → Fin (shape a)) → ℝ) (at_ : (a : Fin ndim) → Fin (shape a)) :
    (rewriteProd op ndim).eval shape x at_ = op.eval shape x at_ := by
  unfold rewriteProd prodToNoZeroProd
  split
  · rfl
  · rename_i new hnew
    split_ifs at hnew with hz
    obtain rfl := Option.some.inj hnew
    split_ifs with hd
    · have hred : ∀ a : Fin ndim, op.reduces a = true := by
        intro a
        unfold ProdOp.reduces
        match hop : op.axis with
        | none => rfl
        | some l =>
          obtain ⟨hnd, hlt⟩ := hax l hop
          simp only [ProdOp.outDims, hop] at hd
          have hsub : l.toFinset ⊆ Finset.range ndim := by
            intro b hb
            exact Finset.mem_range.2 (hlt b (List.mem_toFinset.1 hb))
          have hcard : (Finset.range ndim).card ≤ l.toFinset.card := by
            rw [Finset.card_range, List.toFinset_card_of_nodup hnd]
            omega
          have heq := Finset.eq_of_subset_of_card_le hsub hcard
          have : (a : Nat) ∈ l.toFinset := by rw [heq]; exact Finset.mem_range.2 a.2
          simpa using List.mem_toFinset.1 this
      unfold ProdOp.eval
      refine Finset.prod_congr rfl fun i _ => ?_
      rw [if_pos, if_pos]
      · intro a h; rw [hred a] at h; cases h
      · intro a h; simp [ProdOp.reduces] at h
    · rfl

/-- **C87 (meaning of the values).**  The value at a position is the product of the elements that stand at the same
places on all axes that are kept; over all axes, of all elements. -/
theorem C87_meaning {ndim : Nat} (op : ProdOp) (shape : Fin ndim → Nat)
    (x : ((a : Fin ndim) → Fin (shape a)) → ℝ) (at_ : (a : Fin ndim) → Fin (shape a)) :
    (∀ l, op.axis = some l →
      op.eval shape x at_ = ∏ i ∈ Finset.univ.filter (fun i : (a : Fin ndim) → Fin (shape a) =>
        ∀ a : Fin ndim, (a : Nat) ∉ l → i a = at_ a), x i) ∧
    (op.axis = none → op.eval shape x at_ = ∏ i, x i) := by
  constructor
  · intro l hl
    unfold ProdOp.eval
    rw [Finset.prod_filter]
    refine Finset.prod_congr rfl fun i _ => ?_
    simp only [ProdOp.reduces, hl, List.contains_eq_mem, decide_eq_false_iff_not]
  · intro h
    unfold ProdOp.eval
    refine Finset.prod_congr rfl fun i _ => ?_
    simp [ProdOp.reduces, h]

theorem hasDerivAt_prod_update {ι : Type} [Fintype ι] [DecidableEq ι] (x : ι → ℝ) (j : ι) :
    HasDerivAt (fun t => ∏ i, Function.update x j t i) (∏ i ∈ Finset.univ.erase j, x i) (x j) := by
  have h : (fun t => ∏ i, Function.update x j t i) = fun t => t * ∏ i ∈ Finset.univ.erase j, x i := by
    funext t
    rw [← Finset.mul_prod_erase Finset.univ _ (Finset.mem_univ j), Function.update_self]
    congr 1
    refine Finset.prod_congr rfl fun i hi => ?_
    rw [Function.update_of_ne (Finset.ne_of_mem_erase hi)]
  rw [h]
  simpa using (hasDerivAt_id (x j)).mul_const (∏ i ∈ Finset.univ.erase j, x i)

/-- **C87 (derivatives, `_partial`: with respect to elements that are not zero).**  After the rewrite, the derivative of
a product over all axes with respect to one of its elements is computed exactly when that element is not zero; it is
the derivative then. -/
theorem C87_gradient_partial {ι : Type} [Fintype ι] [DecidableEq ι] (ndim : Nat) (op : ProdOp) (hop : op.axis = none)
    (x : ι → ℝ) (j : ι) :
    (∃ d, (rewriteProd op ndim).gradient x j = some d ∧ HasDerivAt (fun t => ∏ i, Function.update x j t i) d (x j)) ↔
      x j ≠ 0 := by
  have hz : (rewriteProd op ndim).noZeros = true := by
    unfold rewriteProd prodToNoZeroProd
    cases h : op.noZeros
    · simp [ProdOp.outDims, hop]
    · simp [h]
  have hprod : ∏ i, x i = x j * ∏ i ∈ Finset.univ.erase j, x i := (Finset.mul_prod_erase _ _ (Finset.mem_univ j)).symm
  unfold ProdOp.gradient ieeeDiv
  rw [if_pos hz]
  constructor
  · rintro ⟨d, hd, -⟩ h0
    rw [if_pos h0] at hd
    cases hd
  · intro h0
    rw [if_neg h0]
    refine ⟨_, rfl, ?_⟩
    rw [hprod, mul_div_cancel_left₀ _ h0]
    exact hasDerivAt_prod_update x j

/-- Without the rewrite the derivative is computed and right at every array. -/
theorem C87_gradient_original {ι : Type} [Fintype ι] [DecidableEq ι] (x : ι → ℝ) (j : ι) :
    ∃ d, (ProdOp.mk none false).gradient x j = some d ∧
      HasDerivAt (fun t => ∏ i, Function.update x j t i) d (x j) :=
  ⟨_, rfl, hasDerivAt_prod_update x j⟩

/-- C87 is false of the derivatives at an array with a zero in it: the product of `(0, 3)` has the derivative 3 with
respect to its first element, and the rewritten graph divides zero by zero. -/
theorem C87_gradient_counterexample :
    (rewriteProd ⟨none, false⟩ 1).gradient (![0, 3] : Fin 2 → ℝ) 0 = none ∧
    HasDerivAt (fun t => ∏ i, Function.update (![0, 3] : Fin 2 → ℝ) 0 t i) 3 0 := by
  constructor
  · simp [rewriteProd, prodToNoZeroProd, ProdOp.outDims, ProdOp.gradient, ieeeDiv]
  · have h := hasDerivAt_prod_update (![0, 3] : Fin 2 → ℝ) 0
    have he : Finset.univ.erase (0 : Fin 2) = {1} := by decide
    rw [he, Finset.prod_singleton] at h
    exact h

/-- A product over the first axis of a matrix keeps its axis and makes no promise; one over all axes is rewritten. -/
example : rewriteProd ⟨some [0], false⟩ 2 = ⟨some [0], false⟩ ∧ rewriteProd ⟨none, false⟩ 2 = ⟨none, true⟩ ∧
    rewriteProd ⟨some [1, 0], false⟩ 2 = ⟨none, true⟩ := by decide

/-- The axes `[1, 0]` of a matrix meet the hypothesis of `C87_value`. -/
example : ∀ l, (ProdOp.mk (some [1, 0]) false).axis = some l → l.Nodup ∧ ∀ a ∈ l, a < 2 := by
  rintro l h
  obtain rfl := Option.some.inj h
  decide

end Verif
