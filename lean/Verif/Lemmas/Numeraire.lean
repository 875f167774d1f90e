import Verif.Props.SimulateConverges

/-!
# Rescaling the nominal variables of a system of equations
-/

namespace Verif

open Filter Topology

variable {n : Nat}

/-- The state in which the variables marked by `nom` are multiplied by `c`. -/
def rescaled (nom : Fin n → Bool) (c : ℝ) (x : Fin n → ℝ) : Fin n → ℝ :=
  fun j => if nom j then c * x j else x j

/-- The same as a linear map. -/
noncomputable def rescaledL (nom : Fin n → Bool) (c : ℝ) : (Fin n → ℝ) →L[ℝ] (Fin n → ℝ) :=
  ContinuousLinearMap.pi fun j => (if nom j then c else 1) • ContinuousLinearMap.proj j

theorem rescaledL_apply (nom : Fin n → Bool) (c : ℝ) (x : Fin n → ℝ) : rescaledL nom c x = rescaled nom c x := by
  funext j
  simp only [rescaledL, rescaled, ContinuousLinearMap.coe_pi', ContinuousLinearMap.smul_apply,
    ContinuousLinearMap.proj_apply, smul_eq_mul]
  split <;> simp

theorem rescaled_rescaled (nom : Fin n → Bool) (a b : ℝ) (x : Fin n → ℝ) :
    rescaled nom a (rescaled nom b x) = rescaled nom (a * b) x := by
  funext j
  unfold rescaled
  split <;> ring

theorem rescaled_one (nom : Fin n → Bool) (x : Fin n → ℝ) : rescaled nom 1 x = x := by
  funext j
  unfold rescaled
  split <;> simp

/-- The derivative of the rescaling in the factor. -/
theorem rescaled_hasDerivAt (nom : Fin n → Bool) (x : Fin n → ℝ) (c : ℝ) :
    HasDerivAt (fun d => rescaled nom d x) (fun j => if nom j then x j else 0) c := by
  rw [hasDerivAt_pi]
  intro j
  unfold rescaled
  by_cases h : nom j
  · simpa [h] using (hasDerivAt_id c).mul_const (x j)
  · simpa [h] using hasDerivAt_const c (x j)

/-- A derivative is given by its partial derivatives. -/
theorem fderiv_partials {m : Nat} {F : (Fin n → ℝ) → Fin m → ℝ} {x : Fin n → ℝ} (hF : DifferentiableAt ℝ F x)
    (D : Matrix (Fin m) (Fin n) ℝ)
    (hD : ∀ i j, HasDerivAt (fun u => F (Function.update x j u) i) (D i j) (x j)) (v : Fin n → ℝ) :
    fderiv ℝ F x v = D.mulVec v := by
  have hcol : ∀ i j, fderiv ℝ F x (Pi.single j 1) i = D i j := by
    intro i j
    have h1 : HasDerivAt (fun u => Function.update x j u) (Pi.single j (1 : ℝ)) (x j) := hasDerivAt_update x j (x j)
    have h2 : HasFDerivAt F (fderiv ℝ F x) (Function.update x j (x j)) := by
      rw [Function.update_eq_self]; exact hF.hasFDerivAt
    have h3 := h2.comp_hasDerivAt (x j) h1
    rw [hasDerivAt_pi] at h3
    exact (h3 i).unique (hD i j)
  have hv : v = ∑ j, v j • Pi.single j (1 : ℝ) := by
    funext i
    simp [Finset.sum_apply, Pi.single_apply]
  funext i
  conv_lhs => rw [hv]
  rw [map_sum, Finset.sum_apply, Matrix.mulVec, dotProduct]
  refine Finset.sum_congr rfl fun j _ => ?_
  rw [map_smul, Pi.smul_apply, hcol, smul_eq_mul, mul_comm]

/-- Let the rows of `FB` but one be those of `FA` times constants after rescaling; let that row fix `p` in `FA` and `q`
in `FB`.  If the derivative of `FA` is injective at a solution, so is that of `FB` at the rescaled solution. -/
theorem rescaled_injective (nom : Fin n → Bool) (FA FB : (Fin n → ℝ) → Fin n → ℝ) (x : Fin n → ℝ) (c : ℝ) (hc : 0 < c)
    (p q last : Fin n) (hp : nom p) (hq : nom q) (hA : DifferentiableAt ℝ FA x)
    (hB : DifferentiableAt ℝ FB (rescaled nom c x)) (g : Fin n → ℝ)
    (hhom : ∀ i, i ≠ last → ∀ᶠ y in 𝓝 x, FB (rescaled nom c y) i = g i * FA y i) (hg : ∀ i, g i ≠ 0)
    (hray : ∀ i, i ≠ last → ∀ d, 0 < d → FA (rescaled nom d x) i = 0)
    (hlA : ∀ y, FA y last = y p - 1) (hlB : ∀ y, FB y last = y q - 1) (hxp : x p = 1) (hxq : 0 < x q)
    (hinj : ∀ v, fderiv ℝ FA x v = 0 → v = 0) : ∀ v, fderiv ℝ FB (rescaled nom c x) v = 0 → v = 0 := by
  intro v hv
  -- the row that fixes a variable
  have hlast : ∀ (F : (Fin n → ℝ) → Fin n → ℝ) (y : Fin n → ℝ) (r : Fin n), DifferentiableAt ℝ F y →
      (∀ z, F z last = z r - 1) → ∀ u, fderiv ℝ F y u last = u r := by
    intro F y r hF hr u
    have h1 := (hasFDerivAt_pi'.1 hF.hasFDerivAt) last
    have h2 : HasFDerivAt (fun z => F z last) (ContinuousLinearMap.proj (R := ℝ) (φ := fun _ : Fin n => ℝ) r) y := by
      simp only [hr]
      exact ((ContinuousLinearMap.proj (R := ℝ) (φ := fun _ : Fin n => ℝ) r).hasFDerivAt).sub_const 1
    have h3 := h1.unique h2
    have h4 := congrArg (fun L => L u) h3
    simpa using h4
  -- the other rows
  have hrow : ∀ i, i ≠ last → ∀ u, fderiv ℝ FB (rescaled nom c x) (rescaled nom c u) i = g i * fderiv ℝ FA x u i := by
    intro i hi u
    have h1 := (hasFDerivAt_pi'.1 hA.hasFDerivAt) i
    have h2 := (hasFDerivAt_pi'.1 hB.hasFDerivAt) i
    have h3 : HasFDerivAt (fun y => FB (rescaled nom c y) i)
        (((ContinuousLinearMap.proj i).comp (fderiv ℝ FB (rescaled nom c x))).comp (rescaledL nom c)) x := by
      have h4 : HasFDerivAt (fun y => FB y i)
          ((ContinuousLinearMap.proj i).comp (fderiv ℝ FB (rescaled nom c x))) (rescaledL nom c x) := by
        rw [rescaledL_apply]; exact h2
      have h5 := h4.comp x (rescaledL nom c).hasFDerivAt
      have h6 : ((fun y => FB y i) ∘ (rescaledL nom c)) = fun y => FB (rescaled nom c y) i := by
        funext y
        simp [rescaledL_apply]
      rw [h6] at h5
      exact h5
    have h7 : HasFDerivAt (fun y => FB (rescaled nom c y) i)
        (g i • (ContinuousLinearMap.proj i).comp (fderiv ℝ FA x)) x :=
      (h1.const_mul (g i)).congr_of_eventuallyEq (hhom i hi)
    have h8 := congrArg (fun L => L u) (h3.unique h7)
    simpa [rescaledL_apply] using h8
  -- moving along the price level
  obtain ⟨e, he⟩ : ∃ e : Fin n → ℝ, e = fun j => if nom j then x j else 0 := ⟨_, rfl⟩
  have hker : ∀ i, i ≠ last → fderiv ℝ FA x e i = 0 := by
    intro i hi
    have h2 : HasFDerivAt FA (fderiv ℝ FA x) (rescaled nom 1 x) := by
      rw [rescaled_one]; exact hA.hasFDerivAt
    have h3 := h2.comp_hasDerivAt (1 : ℝ) (rescaled_hasDerivAt nom x 1)
    rw [hasDerivAt_pi] at h3
    have h4 : HasDerivAt (fun d => FA (rescaled nom d x) i) 0 (1 : ℝ) := by
      refine (hasDerivAt_const (1 : ℝ) (0 : ℝ)).congr_of_eventuallyEq ?_
      filter_upwards [lt_mem_nhds (show (0 : ℝ) < 1 by norm_num)] with d hd
      exact hray i hi d hd
    rw [he]
    exact (h3 i).unique h4
  obtain ⟨w, hw⟩ : ∃ w, w = rescaled nom c⁻¹ v := ⟨_, rfl⟩
  have hwv : rescaled nom c w = v := by
    rw [hw, rescaled_rescaled, mul_inv_cancel₀ hc.ne', rescaled_one]
  have hw0 : ∀ i, i ≠ last → fderiv ℝ FA x w i = 0 := by
    intro i hi
    have h1 := hrow i hi w
    rw [hwv, hv] at h1
    exact (mul_eq_zero.1 h1.symm).resolve_left (hg i)
  have hwe : w - w p • e = 0 := by
    refine hinj _ ?_
    funext i
    rw [map_sub, map_smul, Pi.sub_apply, Pi.smul_apply, Pi.zero_apply, smul_eq_mul]
    by_cases hi : i = last
    · subst hi
      rw [hlast FA x p hA hlA, hlast FA x p hA hlA, he]
      simp [hp, hxp]
    · rw [hw0 i hi, hker i hi]
      simp
  have hwe : w = w p • e := sub_eq_zero.1 hwe
  have hvq : v q = 0 := by
    rw [← hlast FB _ q hB hlB v, hv]
    rfl
  have hwp : w p = 0 := by
    have h1 : c * (w p * x q) = 0 := by
      rw [← hvq, ← hwv]
      unfold rescaled
      rw [if_pos hq]
      conv_rhs => rw [hwe]
      rw [he]
      simp [hq]
    rcases mul_eq_zero.1 h1 with h | h
    · exact absurd h hc.ne'
    · exact (mul_eq_zero.1 h).resolve_right hxq.ne'
  rw [← hwv, hwe, hwp, zero_smul]
  funext j
  unfold rescaled
  split <;> simp

end Verif
