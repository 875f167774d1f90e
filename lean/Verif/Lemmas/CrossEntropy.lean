import Verif.Model.CrossEntropy
import Mathlib.Analysis.SpecialFunctions.Log.NegMulLog
import Mathlib.Analysis.Convex.SpecificFunctions.Basic
import Mathlib.Analysis.Calculus.Deriv.MeanValue
import Mathlib.Tactic.Linarith
import Mathlib.Tactic.Positivity
import Mathlib.Tactic.FieldSimp

/-!
# Inequalities for the relative entropy
-/

namespace Verif

open Set Real

theorem klDiv_eq {w : ℝ} (hw : 0 < w) (x : ℝ) : klDiv x w = x * log x - x * log w - x + w := by
  unfold klDiv
  by_cases hx : x = 0
  · simp [hx]
  · rw [log_div hx hw.ne']; ring

/-- The relative entropy is at least quadratic. -/
theorem klDiv_lower {x w M : ℝ} (hx : 0 ≤ x) (hxM : x ≤ M) (hw : 0 < w) (hwM : w ≤ M) :
    (x - w) ^ 2 / (2 * M) ≤ klDiv x w := by
  have hM : 0 < M := hw.trans_le hwM
  obtain ⟨f, hf⟩ : ∃ f : ℝ → ℝ, f = fun x => x * log x - x * log w - x + w - (x - w) ^ 2 / (2 * M) :=
    ⟨_, rfl⟩
  have hcont : Continuous f := by
    rw [hf]
    have := continuous_mul_log
    fun_prop
  have hder : ∀ y, 0 < y → HasDerivAt f (log y - log w - (y - w) / M) y := by
    intro y hy
    rw [hf]
    have h1 := hasDerivAt_mul_log hy.ne'
    have h2 := (hasDerivAt_id' y).mul_const (log w)
    have h3 := (((hasDerivAt_id' y).sub_const w).pow 2).div_const (2 * M)
    have h4 := (((h1.sub h2).sub (hasDerivAt_id' y)).add_const w).sub h3
    refine h4.congr_deriv ?_
    field_simp
    ring
  have hfw : f w = 0 := by rw [hf]; simp
  have hfx : 0 ≤ f x := by
    rcases le_total w x with h | h
    · have hmono : MonotoneOn f (Icc w M) := by
        refine monotoneOn_of_deriv_nonneg (convex_Icc _ _) hcont.continuousOn ?_ ?_
        · intro y hy
          rw [interior_Icc] at hy
          exact (hder y (hw.trans hy.1)).differentiableAt.differentiableWithinAt
        · intro y hy
          rw [interior_Icc] at hy
          have hy0 := hw.trans hy.1
          rw [(hder y hy0).deriv, ← log_div hy0.ne' hw.ne']
          have h1 := one_sub_inv_le_log_of_pos (div_pos hy0 hw)
          have h2 : (y - w) / M ≤ 1 - (y / w)⁻¹ := by
            rw [inv_div, one_sub_div hy0.ne']
            exact div_le_div_of_nonneg_left (by linarith [hy.1]) hy0 hy.2.le
          linarith
      have := hmono ⟨le_rfl, hwM⟩ ⟨h, hxM⟩ h
      rw [hfw] at this
      exact this
    · have hanti : AntitoneOn f (Icc 0 w) := by
        refine antitoneOn_of_deriv_nonpos (convex_Icc _ _) hcont.continuousOn ?_ ?_
        · intro y hy
          rw [interior_Icc] at hy
          exact (hder y hy.1).differentiableAt.differentiableWithinAt
        · intro y hy
          rw [interior_Icc] at hy
          have hy0 := hy.1
          rw [(hder y hy0).deriv, ← log_div hy0.ne' hw.ne']
          have h1 := log_le_sub_one_of_pos (div_pos hy0 hw)
          have h2 : y / w - 1 ≤ (y - w) / M := by
            rw [div_sub_one hw.ne', div_le_div_iff₀ hw hM]
            nlinarith [hy.2]
          linarith
      have := hanti ⟨hx, h⟩ ⟨hw.le, le_rfl⟩ h
      rw [hfw] at this
      exact this
  rw [klDiv_eq hw]
  rw [hf] at hfx
  dsimp only at hfx
  linarith

/-- The cost of the shift by `δ`. -/
theorem klDiv_shift {v δ : ℝ} (hv : 0 < v) (hδ : 0 ≤ δ) : klDiv v (v + δ) ≤ δ ^ 2 / v := by
  have hw : 0 < v + δ := by linarith
  unfold klDiv
  have h1 := log_le_sub_one_of_pos (div_pos hv hw)
  have h2 : v * log (v / (v + δ)) ≤ v * (v / (v + δ) - 1) := mul_le_mul_of_nonneg_left h1 hv.le
  have h3 : v * (v / (v + δ) - 1) - v + (v + δ) = δ ^ 2 / (v + δ) := by field_simp; ring
  have h4 : δ ^ 2 / (v + δ) ≤ δ ^ 2 / v := div_le_div_of_nonneg_left (by positivity) hv (by linarith)
  linarith

theorem klDiv_strict {w : ℝ} (hw : 0 < w) {x y : ℝ} (hx : 0 ≤ x) (hy : 0 ≤ y) (hne : x ≠ y) :
    klDiv ((x + y) / 2) w < (klDiv x w + klDiv y w) / 2 := by
  have h := strictConvexOn_mul_log.2 (mem_Ici.2 hx) (mem_Ici.2 hy) hne (show (0 : ℝ) < 1 / 2 by norm_num)
    (show (0 : ℝ) < 1 / 2 by norm_num) (by norm_num)
  simp only [smul_eq_mul] at h
  rw [show (1 / 2 : ℝ) * x + 1 / 2 * y = (x + y) / 2 by ring] at h
  rw [klDiv_eq hw, klDiv_eq hw, klDiv_eq hw]
  linarith

/-- One term of the scipy objective. -/
noncomputable def ceTerm (a v : ℝ) : ℝ := a * (Real.log (a + 1 / 10 ^ 10) - Real.log v)

theorem ceTerm_strict (v : ℝ) {x y : ℝ} (hx : 0 ≤ x) (hy : 0 ≤ y) (hne : x ≠ y) :
    ceTerm ((x + y) / 2) v < (ceTerm x v + ceTerm y v) / 2 := by
  obtain ⟨ε, hε, he⟩ : ∃ ε : ℝ, 0 < ε ∧ ε = 1 / 10 ^ 10 := ⟨_, by positivity, rfl⟩
  unfold ceTerm
  rw [← he]
  have h := strictConvexOn_mul_log.2 (mem_Ici.2 (by linarith : 0 ≤ x + ε))
    (mem_Ici.2 (by linarith : 0 ≤ y + ε)) (fun h => hne (by linarith)) (show (0 : ℝ) < 1 / 2 by norm_num)
    (show (0 : ℝ) < 1 / 2 by norm_num) (by norm_num)
  have g := strictConcaveOn_log_Ioi.concaveOn.2 (mem_Ioi.2 (by linarith : 0 < x + ε))
    (mem_Ioi.2 (by linarith : 0 < y + ε)) (show (0 : ℝ) ≤ 1 / 2 by norm_num)
    (show (0 : ℝ) ≤ 1 / 2 by norm_num) (by norm_num)
  simp only [smul_eq_mul] at h g
  rw [show (1 / 2 : ℝ) * (x + ε) + 1 / 2 * (y + ε) = (x + y) / 2 + ε by ring] at h g
  have g2 := mul_le_mul_of_nonneg_left g hε.le
  nlinarith

/-- Without the shift the term is smaller. -/
theorem ceTerm_lower {a v : ℝ} (ha : 0 ≤ a) (hv : 0 < v) : klDiv a v + a - v ≤ ceTerm a v := by
  rw [klDiv_eq hv]
  unfold ceTerm
  rcases ha.eq_or_lt with rfl | ha
  · simp
  · have : log a ≤ log (a + 1 / 10 ^ 10) := log_le_log ha (by
      have : (0 : ℝ) < 1 / 10 ^ 10 := by positivity
      linarith)
    nlinarith

/-- The cost of the shift. -/
theorem ceTerm_self {v : ℝ} (hv : 0 < v) : ceTerm v v ≤ 1 / 10 ^ 10 := by
  obtain ⟨ε, hε, he⟩ : ∃ ε : ℝ, 0 < ε ∧ ε = 1 / 10 ^ 10 := ⟨_, by positivity, rfl⟩
  unfold ceTerm
  rw [← he, ← log_div (by linarith) hv.ne']
  have h1 := log_le_sub_one_of_pos (div_pos (by linarith : 0 < v + ε) hv)
  have h2 : v * ((v + ε) / v - 1) = ε := by field_simp; ring
  nlinarith

end Verif
