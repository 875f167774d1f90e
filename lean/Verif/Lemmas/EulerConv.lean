import Verif.Lemmas.EulerVec
import Mathlib.Analysis.Calculus.MeanValue
import Mathlib.Analysis.Normed.Lp.PiLp
import Mathlib.Analysis.SpecialFunctions.Exp

/-!
# Error of one Euler step and of many
-/

namespace Verif

variable {E : Type _} [NormedAddCommGroup E] [NormedSpace ℝ E]

/-- The local error of an explicit Euler step along a curve with Lipschitz derivative. -/
theorem local_error (φ φ' : ℝ → E) (M : ℝ) (hM : 0 ≤ M)
    (hder : ∀ s ∈ Set.Icc (0 : ℝ) 1, HasDerivWithinAt φ (φ' s) (Set.Icc 0 1) s)
    (hlip : ∀ s ∈ Set.Icc (0 : ℝ) 1, ∀ u ∈ Set.Icc (0 : ℝ) 1, ‖φ' u - φ' s‖ ≤ M * |u - s|)
    (s δ : ℝ) (hδ : 0 ≤ δ) (hs : 0 ≤ s) (hs' : s + δ ≤ 1) :
    ‖φ (s + δ) - φ s - δ • φ' s‖ ≤ M * δ ^ 2 := by
  have hsub : Set.Icc s (s + δ) ⊆ Set.Icc (0 : ℝ) 1 := Set.Icc_subset_Icc hs hs'
  have hmem : s ∈ Set.Icc (0 : ℝ) 1 := ⟨hs, by linarith⟩
  have hd : ∀ u ∈ Set.Icc s (s + δ),
      HasDerivWithinAt (fun v => φ v - v • φ' s) (φ' u - φ' s) (Set.Icc s (s + δ)) u := by
    intro u hu
    have h1 := (hder u (hsub hu)).mono hsub
    have h2 : HasDerivWithinAt (fun v : ℝ => v • φ' s) ((1 : ℝ) • φ' s) (Set.Icc s (s + δ)) u :=
      (hasDerivWithinAt_id u _).smul_const (φ' s)
    rw [one_smul] at h2
    exact h1.sub h2
  have hb : ∀ u ∈ Set.Icc s (s + δ), ‖φ' u - φ' s‖ ≤ M * δ := by
    intro u hu
    refine (hlip s hmem u (hsub hu)).trans ?_
    apply mul_le_mul_of_nonneg_left _ hM
    rw [abs_of_nonneg (by linarith [hu.1])]
    linarith [hu.2]
  have := (convex_Icc s (s + δ)).norm_image_sub_le_of_norm_hasDerivWithin_le hd hb
    (Set.left_mem_Icc.2 (by linarith)) (Set.right_mem_Icc.2 (by linarith))
  rw [add_sub_cancel_left, Real.norm_of_nonneg hδ] at this
  calc ‖φ (s + δ) - φ s - δ • φ' s‖
      = ‖φ (s + δ) - (s + δ) • φ' s - (φ s - s • φ' s)‖ := by
        congr 1
        rw [add_smul]
        abel
    _ ≤ M * δ * δ := this
    _ = M * δ ^ 2 := by ring

/-- The bound on the error after `j` steps of size `δ`. -/
noncomputable def errBound (L M δ : ℝ) (j : Nat) : ℝ := j * (M * δ ^ 2) * (1 + L * δ) ^ j

theorem errBound_nonneg (L M δ : ℝ) (hL : 0 ≤ L) (hM : 0 ≤ M) (hδ : 0 ≤ δ) (j : Nat) :
    0 ≤ errBound L M δ j := by
  unfold errBound; positivity

theorem errBound_succ (L M δ : ℝ) (hL : 0 ≤ L) (hM : 0 ≤ M) (hδ : 0 ≤ δ) (j : Nat) :
    (1 + L * δ) * errBound L M δ j + M * δ ^ 2 ≤ errBound L M δ (j + 1) := by
  unfold errBound
  have hq : 1 ≤ 1 + L * δ := by nlinarith [mul_nonneg hL hδ]
  have hp : 1 ≤ (1 + L * δ) ^ (j + 1) := one_le_pow₀ hq
  have hmd : 0 ≤ M * δ ^ 2 := by positivity
  have h1 : M * δ ^ 2 * 1 ≤ M * δ ^ 2 * (1 + L * δ) ^ (j + 1) := mul_le_mul_of_nonneg_left hp hmd
  have h2 : ((j + 1 : ℕ) : ℝ) * (M * δ ^ 2) * (1 + L * δ) ^ (j + 1)
      = (1 + L * δ) * (j * (M * δ ^ 2) * (1 + L * δ) ^ j) + M * δ ^ 2 * (1 + L * δ) ^ (j + 1) := by
    push_cast
    ring
  rw [h2]
  linarith

theorem errBound_le (L M : ℝ) (hL : 0 ≤ L) (hM : 0 ≤ M) (n : Nat) (hn : 1 ≤ n) (j : Nat) (hj : j ≤ n) :
    errBound L M (1 / n) j ≤ M * Real.exp L / n := by
  have hn0 : (0 : ℝ) < n := by exact_mod_cast hn
  unfold errBound
  have h1 : (1 + L * (1 / (n : ℝ))) ^ j ≤ Real.exp L := by
    calc (1 + L * (1 / (n : ℝ))) ^ j ≤ (1 + L * (1 / (n : ℝ))) ^ n :=
          pow_le_pow_right₀ (by
            have : 0 ≤ L * (1 / (n : ℝ)) := by positivity
            linarith) hj
      _ ≤ (Real.exp (L * (1 / (n : ℝ)))) ^ n := by
          apply pow_le_pow_left₀ (by positivity)
          linarith [Real.add_one_le_exp (L * (1 / (n : ℝ)))]
      _ = Real.exp L := by
          rw [← Real.exp_nat_mul]
          congr 1
          field_simp
  have hjn : (j : ℝ) ≤ n := by exact_mod_cast hj
  have h2 : (j : ℝ) * (M * (1 / (n : ℝ)) ^ 2) ≤ M / n := by
    have : (n : ℝ) * (M * (1 / (n : ℝ)) ^ 2) = M / n := by field_simp
    rw [← this]
    exact mul_le_mul_of_nonneg_right hjn (by positivity)
  calc (j : ℝ) * (M * (1 / (n : ℝ)) ^ 2) * (1 + L * (1 / (n : ℝ))) ^ j
      ≤ M / n * Real.exp L := mul_le_mul h2 h1 (by positivity) (by positivity)
    _ = M * Real.exp L / n := by ring

/-- One step of the error recursion. -/
theorem error_step (φ φ' : ℝ → E) (L M δ : ℝ) (hL : 0 ≤ L) (hM : 0 ≤ M) (hδ : 0 ≤ δ)
    (hder : ∀ s ∈ Set.Icc (0 : ℝ) 1, HasDerivWithinAt φ (φ' s) (Set.Icc 0 1) s)
    (hlip : ∀ s ∈ Set.Icc (0 : ℝ) 1, ∀ u ∈ Set.Icc (0 : ℝ) 1, ‖φ' u - φ' s‖ ≤ M * |u - s|)
    (j : Nat) (hj : (j + 1 : ℝ) * δ ≤ 1) (x g : E)
    (hg : ‖g - φ' (j * δ)‖ ≤ L * ‖x - φ (j * δ)‖) (hx : ‖x - φ (j * δ)‖ ≤ errBound L M δ j) :
    ‖x + δ • g - φ ((j + 1 : ℝ) * δ)‖ ≤ errBound L M δ (j + 1) := by
  have hs : (0 : ℝ) ≤ j * δ := by positivity
  have hle := local_error φ φ' M hM hder hlip (j * δ) δ hδ hs (by linarith)
  have hsplit : (j + 1 : ℝ) * δ = j * δ + δ := by ring
  rw [hsplit]
  have hdecomp : x + δ • g - φ (j * δ + δ)
      = (x - φ (j * δ)) + δ • (g - φ' (j * δ)) - (φ (j * δ + δ) - φ (j * δ) - δ • φ' (j * δ)) := by
    rw [smul_sub]; abel
  rw [hdecomp]
  have h1 : ‖δ • (g - φ' (j * δ))‖ ≤ δ * (L * ‖x - φ (j * δ)‖) := by
    rw [norm_smul, Real.norm_of_nonneg hδ]
    exact mul_le_mul_of_nonneg_left hg hδ
  calc ‖(x - φ (j * δ)) + δ • (g - φ' (j * δ)) - (φ (j * δ + δ) - φ (j * δ) - δ • φ' (j * δ))‖
      ≤ ‖x - φ (j * δ)‖ + ‖δ • (g - φ' (j * δ))‖ + ‖φ (j * δ + δ) - φ (j * δ) - δ • φ' (j * δ)‖ :=
        (norm_sub_le _ _).trans (by gcongr; exact norm_add_le _ _)
    _ ≤ ‖x - φ (j * δ)‖ + δ * (L * ‖x - φ (j * δ)‖) + M * δ ^ 2 := by gcongr
    _ = (1 + L * δ) * ‖x - φ (j * δ)‖ + M * δ ^ 2 := by ring
    _ ≤ (1 + L * δ) * errBound L M δ j + M * δ ^ 2 := by
        gcongr
    _ ≤ errBound L M δ (j + 1) := errBound_succ L M δ hL hM hδ j

end Verif
