import Verif.Lemmas.RungeKutta
import Mathlib.Analysis.Calculus.ContDiff.Operations
import Mathlib.Analysis.Calculus.ContDiff.Comp

/-!
# Smooth fields near a compact curve

A field that is four times continuously differentiable at the points of a compact curve has a
third-order expansion along the curve, and is bounded and Lipschitz in a tube around it.
-/

set_option maxSynthPendingDepth 3

namespace Verif

open Set Filter Topology

variable {V : Type _} [NormedAddCommGroup V] [NormedSpace ℝ V]

omit [NormedSpace ℝ V] in
/-- What holds near every point of the curve, with a constant, holds in a tube, with one constant. -/
theorem exists_tube {y : ℝ → V} (hy : ContinuousOn y (Icc 0 1)) {P : ℝ → V → Prop}
    (hmono : ∀ K K' x, K ≤ K' → P K x → P K' x)
    (h : ∀ s ∈ Icc (0 : ℝ) 1, ∃ K, ∀ᶠ x in 𝓝 (y s), P K x) :
    ∃ r > 0, ∃ K, ∀ s ∈ Icc (0 : ℝ) 1, ∀ x, ‖x - y s‖ ≤ r → P K x := by
  have hc : IsCompact (y '' Icc 0 1) := isCompact_Icc.image_of_continuousOn hy
  have hmain : ∃ r > 0, ∃ K, ∀ p ∈ y '' Icc (0 : ℝ) 1, ∀ x, ‖x - p‖ ≤ r → P K x := by
    refine hc.induction_on (p := fun S => ∃ r > 0, ∃ K, ∀ p ∈ S, ∀ x, ‖x - p‖ ≤ r → P K x) ?_ ?_ ?_ ?_
    · exact ⟨1, one_pos, 0, fun p hp => absurd hp (notMem_empty p)⟩
    · rintro S T hST ⟨r, hr, K, hK⟩
      exact ⟨r, hr, K, fun p hp => hK p (hST hp)⟩
    · rintro S T ⟨r, hr, K, hK⟩ ⟨r', hr', K', hK'⟩
      refine ⟨min r r', lt_min hr hr', max K K', ?_⟩
      rintro p (hp | hp) x hx
      · exact hmono _ _ _ (le_max_left _ _) (hK p hp x (hx.trans (min_le_left _ _)))
      · exact hmono _ _ _ (le_max_right _ _) (hK' p hp x (hx.trans (min_le_right _ _)))
    · rintro _ ⟨s, hs, rfl⟩
      obtain ⟨K, hK⟩ := h s hs
      obtain ⟨ε, hε, hb⟩ := Metric.eventually_nhds_iff.1 hK
      refine ⟨Metric.ball (y s) (ε / 2), mem_nhdsWithin_of_mem_nhds (Metric.ball_mem_nhds _ (by linarith)),
        ε / 4, by linarith, K, ?_⟩
      intro p hp x hx
      apply hb
      rw [Metric.mem_ball] at hp
      calc dist x (y s) ≤ dist x p + dist p (y s) := dist_triangle _ _ _
        _ < ε := by rw [dist_eq_norm x p]; linarith
  obtain ⟨r, hr, K, hK⟩ := hmain
  exact ⟨r, hr, K, fun s hs => hK (y s) ⟨s, hs, rfl⟩⟩

/-- A field that is differentiable at `x` with bounded derivative and values. -/
def Tame1 (f : V → V) (K : ℝ) (x : V) : Prop :=
  DifferentiableAt ℝ f x ∧ ‖f x‖ ≤ K ∧ ‖fderiv ℝ f x‖ ≤ K

/-- Four derivatives with bounds. -/
def Tame4 (f : V → V) (K : ℝ) (x : V) : Prop :=
  DifferentiableAt ℝ f x ∧ DifferentiableAt ℝ (fderiv ℝ f) x ∧
  DifferentiableAt ℝ (fderiv ℝ (fderiv ℝ f)) x ∧
  DifferentiableAt ℝ (fderiv ℝ (fderiv ℝ (fderiv ℝ f))) x ∧
  ‖f x‖ ≤ K ∧ ‖fderiv ℝ f x‖ ≤ K ∧ ‖fderiv ℝ (fderiv ℝ f) x‖ ≤ K ∧
  ‖fderiv ℝ (fderiv ℝ (fderiv ℝ f)) x‖ ≤ K ∧
  ‖fderiv ℝ (fderiv ℝ (fderiv ℝ (fderiv ℝ f))) x‖ ≤ K

theorem eventually_norm_le {W : Type _} [NormedAddCommGroup W] [NormedSpace ℝ W] {g : V → W} {p : V}
    (h : ContinuousAt g p) {K : ℝ} (hK : ‖g p‖ < K) : ∀ᶠ x in 𝓝 p, ‖g x‖ ≤ K :=
  (h.norm.eventually (gt_mem_nhds hK)).mono fun _ hx => le_of_lt hx

theorem eventually_diff {W : Type _} [NormedAddCommGroup W] [NormedSpace ℝ W] {g : V → W} {p : V}
    (h : ContDiffAt ℝ 1 g p) : ∀ᶠ x in 𝓝 p, DifferentiableAt ℝ g x :=
  (h.eventually (by simp)).mono fun _ hx => hx.differentiableAt (by simp)

theorem tame1_near {f : V → V} {p : V} (h : ContDiffAt ℝ 1 f p) : ∃ K, ∀ᶠ x in 𝓝 p, Tame1 f K x := by
  have h1 : ContDiffAt ℝ 0 (fderiv ℝ f) p := h.fderiv_right (by norm_num)
  refine ⟨max ‖f p‖ ‖fderiv ℝ f p‖ + 1, ?_⟩
  filter_upwards [eventually_diff h, eventually_norm_le h.continuousAt (K := max ‖f p‖ ‖fderiv ℝ f p‖ + 1)
      (by linarith [le_max_left ‖f p‖ ‖fderiv ℝ f p‖]),
    eventually_norm_le h1.continuousAt (K := max ‖f p‖ ‖fderiv ℝ f p‖ + 1)
      (by linarith [le_max_right ‖f p‖ ‖fderiv ℝ f p‖])] with x a b c
  exact ⟨a, b, c⟩

theorem tame4_near {f : V → V} {p : V} (h : ContDiffAt ℝ 4 f p) : ∃ K, ∀ᶠ x in 𝓝 p, Tame4 f K x := by
  have h1 : ContDiffAt ℝ 3 (fderiv ℝ f) p := h.fderiv_right (by norm_num)
  have h2 : ContDiffAt ℝ 2 (fderiv ℝ (fderiv ℝ f)) p := h1.fderiv_right (by norm_num)
  have h3 : ContDiffAt ℝ 1 (fderiv ℝ (fderiv ℝ (fderiv ℝ f))) p := h2.fderiv_right (by norm_num)
  have h4 : ContDiffAt ℝ 0 (fderiv ℝ (fderiv ℝ (fderiv ℝ (fderiv ℝ f)))) p := h3.fderiv_right (by norm_num)
  let K := ‖f p‖ + ‖fderiv ℝ f p‖ + ‖fderiv ℝ (fderiv ℝ f) p‖
    + ‖fderiv ℝ (fderiv ℝ (fderiv ℝ f)) p‖ + ‖fderiv ℝ (fderiv ℝ (fderiv ℝ (fderiv ℝ f))) p‖ + 1
  have n0 := norm_nonneg (f p)
  have n1 := norm_nonneg (fderiv ℝ f p)
  have n2 := norm_nonneg (fderiv ℝ (fderiv ℝ f) p)
  have n3 := norm_nonneg (fderiv ℝ (fderiv ℝ (fderiv ℝ f)) p)
  have n4 := norm_nonneg (fderiv ℝ (fderiv ℝ (fderiv ℝ (fderiv ℝ f))) p)
  refine ⟨K, ?_⟩
  filter_upwards [eventually_diff (h.of_le (by norm_num)), eventually_diff (h1.of_le (by norm_num)),
    eventually_diff (h2.of_le (by norm_num)), eventually_diff h3,
    eventually_norm_le h.continuousAt (K := K) (by simp only [K]; linarith),
    eventually_norm_le h1.continuousAt (K := K) (by simp only [K]; linarith),
    eventually_norm_le h2.continuousAt (K := K) (by simp only [K]; linarith),
    eventually_norm_le h3.continuousAt (K := K) (by simp only [K]; linarith),
    eventually_norm_le h4.continuousAt (K := K) (by simp only [K]; linarith)] with x a b c d e f g h i
  exact ⟨a, b, c, d, e, f, g, h, i⟩

/-- Along a ray: if `a' = b` and `b` is within `C` of a polynomial, then `a` minus the integrated
polynomial moves by at most `C`. -/
theorem ray_step {a b q q' : ℝ → V} {C : ℝ}
    (ha : ∀ t ∈ Icc (0 : ℝ) 1, HasDerivWithinAt a (b t) (Icc 0 1) t)
    (hq : ∀ t ∈ Icc (0 : ℝ) 1, HasDerivWithinAt q (q' t) (Icc 0 1) t) (h0 : q 0 = a 0)
    (hb : ∀ t ∈ Icc (0 : ℝ) 1, ‖b t - q' t‖ ≤ C) : ∀ t ∈ Icc (0 : ℝ) 1, ‖a t - q t‖ ≤ C := by
  intro t ht
  have hC : 0 ≤ C := (norm_nonneg _).trans (hb t ht)
  have := (convex_Icc (0 : ℝ) 1).norm_image_sub_le_of_norm_hasDerivWithin_le
    (fun s hs => (ha s hs).sub (hq s hs)) hb (left_mem_Icc.2 zero_le_one) ht
  simp only [Pi.sub_apply, h0, sub_self, sub_zero, Real.norm_of_nonneg ht.1] at this
  exact this.trans (by nlinarith [ht.2])

/-- The third-order Taylor bound inside a ball on which four derivatives are bounded by `K`. -/
theorem taylor3 {f : V → V} {K r : ℝ} {p : V} (h : ∀ x, ‖x - p‖ ≤ r → Tame4 f K x) (u : V) (hu : ‖u‖ ≤ r) :
    ‖f (p + u) - (f p + fderiv ℝ f p u + (1 / 2 : ℝ) • fderiv ℝ (fderiv ℝ f) p u u
      + (1 / 6 : ℝ) • fderiv ℝ (fderiv ℝ (fderiv ℝ f)) p u u u)‖ ≤ K * ‖u‖ ^ 4 := by
  have hin : ∀ t ∈ Icc (0 : ℝ) 1, Tame4 f K (p + t • u) := by
    intro t ht
    apply h
    rw [add_sub_cancel_left, norm_smul, Real.norm_of_nonneg ht.1]
    nlinarith [norm_nonneg u, ht.2]
  have hline : ∀ t : ℝ, HasDerivWithinAt (fun t : ℝ => p + t • u) u (Icc 0 1) t := by
    intro t
    have := ((hasDerivWithinAt_id t (Icc 0 1)).smul_const u).const_add p
    rwa [one_smul] at this
  have comp : ∀ {W : Type _} [NormedAddCommGroup W] [NormedSpace ℝ W] (g : V → W) (t : ℝ),
      DifferentiableAt ℝ g (p + t • u) →
      HasDerivWithinAt (fun t : ℝ => g (p + t • u)) (fderiv ℝ g (p + t • u) u) (Icc 0 1) t :=
    fun g t hg => hg.hasFDerivAt.comp_hasDerivWithinAt t (hline t)
  obtain ⟨a0, ha0⟩ : ∃ a0 : ℝ → V, a0 = fun t => f (p + t • u) := ⟨_, rfl⟩
  obtain ⟨a1, ha1⟩ : ∃ a1 : ℝ → V, a1 = fun t => fderiv ℝ f (p + t • u) u := ⟨_, rfl⟩
  obtain ⟨a2, ha2⟩ : ∃ a2 : ℝ → V, a2 = fun t => fderiv ℝ (fderiv ℝ f) (p + t • u) u u := ⟨_, rfl⟩
  obtain ⟨a3, ha3⟩ : ∃ a3 : ℝ → V, a3 = fun t => fderiv ℝ (fderiv ℝ (fderiv ℝ f)) (p + t • u) u u u :=
    ⟨_, rfl⟩
  obtain ⟨a4, ha4⟩ : ∃ a4 : ℝ → V,
      a4 = fun t => fderiv ℝ (fderiv ℝ (fderiv ℝ (fderiv ℝ f))) (p + t • u) u u u u := ⟨_, rfl⟩
  have d0 : ∀ t ∈ Icc (0 : ℝ) 1, HasDerivWithinAt a0 (a1 t) (Icc 0 1) t := by
    intro t ht; rw [ha0, ha1]; exact comp f t (hin t ht).1
  have app : ∀ {W : Type _} [NormedAddCommGroup W] [NormedSpace ℝ W] (g : ℝ → V →L[ℝ] W)
      (g' : V →L[ℝ] W) (t : ℝ), HasDerivWithinAt g g' (Icc 0 1) t →
      HasDerivWithinAt (fun t => g t u) (g' u) (Icc 0 1) t := by
    intro W _ _ g g' t hg
    have := hg.clm_apply (hasDerivWithinAt_const t (Icc 0 1) u)
    simpa using this
  have d1 : ∀ t ∈ Icc (0 : ℝ) 1, HasDerivWithinAt a1 (a2 t) (Icc 0 1) t := by
    intro t ht; rw [ha1, ha2]; exact app _ _ t (comp (fderiv ℝ f) t (hin t ht).2.1)
  have d2 : ∀ t ∈ Icc (0 : ℝ) 1, HasDerivWithinAt a2 (a3 t) (Icc 0 1) t := by
    intro t ht; rw [ha2, ha3]; exact app _ _ t (app _ _ t (comp (fderiv ℝ (fderiv ℝ f)) t (hin t ht).2.2.1))
  have d3 : ∀ t ∈ Icc (0 : ℝ) 1, HasDerivWithinAt a3 (a4 t) (Icc 0 1) t := by
    intro t ht; rw [ha3, ha4]
    exact app _ _ t (app _ _ t (app _ _ t (comp (fderiv ℝ (fderiv ℝ (fderiv ℝ f))) t (hin t ht).2.2.2.1)))
  have b4 : ∀ t ∈ Icc (0 : ℝ) 1, ‖a4 t - 0‖ ≤ K * ‖u‖ ^ 4 := by
    intro t ht
    have hK := (hin t ht).2.2.2.2.2.2.2.2
    rw [sub_zero, ha4]
    calc _ ≤ ‖fderiv ℝ (fderiv ℝ (fderiv ℝ (fderiv ℝ f))) (p + t • u) u u u‖ * ‖u‖ :=
          ContinuousLinearMap.le_opNorm _ _
      _ ≤ (‖fderiv ℝ (fderiv ℝ (fderiv ℝ (fderiv ℝ f))) (p + t • u) u u‖ * ‖u‖) * ‖u‖ := by
          gcongr; exact ContinuousLinearMap.le_opNorm _ _
      _ ≤ ((‖fderiv ℝ (fderiv ℝ (fderiv ℝ (fderiv ℝ f))) (p + t • u) u‖ * ‖u‖) * ‖u‖) * ‖u‖ := by
          gcongr; exact ContinuousLinearMap.le_opNorm _ _
      _ ≤ (((‖fderiv ℝ (fderiv ℝ (fderiv ℝ (fderiv ℝ f))) (p + t • u)‖ * ‖u‖) * ‖u‖) * ‖u‖) * ‖u‖ := by
          gcongr; exact ContinuousLinearMap.le_opNorm _ _
      _ ≤ (((K * ‖u‖) * ‖u‖) * ‖u‖) * ‖u‖ := by gcongr
      _ = K * ‖u‖ ^ 4 := by ring
  have pk : ∀ (k : ℕ) (c : V) (t : ℝ), HasDerivWithinAt (fun t : ℝ => t ^ (k + 1) • c)
      (t ^ k • ((k + 1 : ℕ) : ℝ) • c) (Icc 0 1) t := by
    intro k c t
    have h5 := ((hasDerivAt_pow (k + 1) t).hasDerivWithinAt (s := Icc 0 1)).smul_const c
    rw [smul_smul]
    convert h5 using 2
    simp [mul_comm]
  have pc : ∀ (c : V) (t : ℝ), HasDerivWithinAt (fun _ : ℝ => c) 0 (Icc 0 1) t :=
    fun c t => hasDerivWithinAt_const t _ c
  have s3 : ∀ t ∈ Icc (0 : ℝ) 1, ‖a3 t - a3 0‖ ≤ K * ‖u‖ ^ 4 :=
    ray_step d3 (q := fun _ => a3 0) (q' := fun _ => 0) (fun t _ => pc _ t) rfl b4
  have s2 : ∀ t ∈ Icc (0 : ℝ) 1, ‖a2 t - (a2 0 + t ^ 1 • a3 0)‖ ≤ K * ‖u‖ ^ 4 := by
    refine ray_step d2 (q := fun t => a2 0 + t ^ 1 • a3 0) (q' := fun t => a3 0) (fun t _ => ?_) (by simp) s3
    refine ((pc (a2 0) t).add (pk 0 (a3 0) t)).congr_deriv ?_
    simp
  have s1 : ∀ t ∈ Icc (0 : ℝ) 1, ‖a1 t - (a1 0 + t ^ 1 • a2 0 + t ^ 2 • (1 / 2 : ℝ) • a3 0)‖
      ≤ K * ‖u‖ ^ 4 := by
    refine ray_step d1 (q := fun t => a1 0 + t ^ 1 • a2 0 + t ^ 2 • (1 / 2 : ℝ) • a3 0)
      (fun t _ => ?_) (by simp) s2
    refine (((pc (a1 0) t).add (pk 0 (a2 0) t)).add (pk 1 ((1 / 2 : ℝ) • a3 0) t)).congr_deriv ?_
    norm_num [smul_smul]
  have s0 : ∀ t ∈ Icc (0 : ℝ) 1, ‖a0 t - (a0 0 + t ^ 1 • a1 0 + t ^ 2 • (1 / 2 : ℝ) • a2 0
      + t ^ 3 • (1 / 6 : ℝ) • a3 0)‖ ≤ K * ‖u‖ ^ 4 := by
    refine ray_step d0 (q := fun t => a0 0 + t ^ 1 • a1 0 + t ^ 2 • (1 / 2 : ℝ) • a2 0
      + t ^ 3 • (1 / 6 : ℝ) • a3 0) (fun t _ => ?_) (by simp) s1
    refine ((((pc (a0 0) t).add (pk 0 (a1 0) t)).add (pk 1 ((1 / 2 : ℝ) • a2 0) t)).add
      (pk 2 ((1 / 6 : ℝ) • a3 0) t)).congr_deriv ?_
    norm_num [smul_smul]
  have := s0 1 (right_mem_Icc.2 zero_le_one)
  simp only [ha0, ha1, ha2, ha3, one_smul, zero_smul, add_zero, one_pow] at this
  exact this

/-- Lipschitz bound inside a ball on which the derivative is bounded by `K`. -/
theorem lipschitz_ball {f : V → V} {K r : ℝ} {p : V} (h : ∀ x, ‖x - p‖ ≤ r → Tame1 f K x) (x x' : V)
    (hx : ‖x - p‖ ≤ r) (hx' : ‖x' - p‖ ≤ r) : ‖f x - f x'‖ ≤ K * ‖x - x'‖ := by
  have hb : ∀ z ∈ Metric.closedBall p r, Tame1 f K z := fun z hz => h z (by
    rwa [Metric.mem_closedBall, dist_eq_norm] at hz)
  refine (convex_closedBall p r).norm_image_sub_le_of_norm_fderiv_le (fun z hz => (hb z hz).1)
    (fun z hz => (hb z hz).2.2) ?_ ?_
  · rwa [Metric.mem_closedBall, dist_eq_norm]
  · rwa [Metric.mem_closedBall, dist_eq_norm]

/-- A field that is four times continuously differentiable on the curve has an expansion along it. -/
theorem exists_expansion {f : V → V} {y : ℝ → V} (hy : ContinuousOn y (Icc 0 1))
    (hf : ∀ s ∈ Icc (0 : ℝ) 1, ContDiffAt ℝ 4 f (y s)) :
    ∃ f1 f2 f3 r K, FieldExpansion f y f1 f2 f3 r K := by
  obtain ⟨r, hr, K, hK⟩ := exists_tube hy (P := fun K x => Tame4 f K x) (by
    rintro K K' x hKK ⟨a, b, c, d, e, g, h, i, j⟩
    exact ⟨a, b, c, d, e.trans hKK, g.trans hKK, h.trans hKK, i.trans hKK, j.trans hKK⟩)
    (fun s hs => tame4_near (hf s hs))
  have hself : ∀ s ∈ Icc (0 : ℝ) 1, Tame4 f K (y s) := fun s hs =>
    hK s hs _ (by rw [sub_self, norm_zero]; exact hr.le)
  refine ⟨fun s => fderiv ℝ f (y s), fun s => fderiv ℝ (fderiv ℝ f) (y s),
    fun s => fderiv ℝ (fderiv ℝ (fderiv ℝ f)) (y s), r, K, ?_⟩
  exact
    { radius := hr
      bound0 := fun s hs => (hself s hs).2.2.2.2.1
      bound1 := fun s hs => (hself s hs).2.2.2.2.2.1
      bound2 := fun s hs => (hself s hs).2.2.2.2.2.2.1
      bound3 := fun s hs => (hself s hs).2.2.2.2.2.2.2.1
      remainder := fun s hs u hu => taylor3 (hK s hs) u hu }

/-- A continuously differentiable field, with any further property that holds near the points of the
curve, is bounded and Lipschitz, with that property, in a tube around the curve. -/
theorem exists_fieldTube {f : V → V} {y : ℝ → V} (hy : ContinuousOn y (Icc 0 1))
    (hf : ∀ s ∈ Icc (0 : ℝ) 1, ContDiffAt ℝ 1 f (y s)) {Q : V → Prop}
    (hQ : ∀ s ∈ Icc (0 : ℝ) 1, ∀ᶠ x in 𝓝 (y s), Q x) :
    ∃ r L, FieldTube f y r L L ∧ ∀ s ∈ Icc (0 : ℝ) 1, ∀ x, ‖x - y s‖ ≤ r → Q x := by
  obtain ⟨r, hr, K, hK⟩ := exists_tube hy (P := fun K x => Tame1 f K x ∧ Q x) (by
    rintro K K' x hKK ⟨⟨a, b, c⟩, d⟩
    exact ⟨⟨a, b.trans hKK, c.trans hKK⟩, d⟩)
    (fun s hs => by
      obtain ⟨K, hK⟩ := tame1_near (hf s hs)
      exact ⟨K, hK.and (hQ s hs)⟩)
  have h0 : (0 : ℝ) ∈ Icc (0 : ℝ) 1 := left_mem_Icc.2 zero_le_one
  refine ⟨r, K, ?_, fun s hs x hx => (hK s hs x hx).2⟩
  exact
    { radius := hr
      lip_nonneg := (norm_nonneg (f (y 0))).trans
        (hK 0 h0 (y 0) (by rw [sub_self, norm_zero]; exact hr.le)).1.2.1
      bound := fun s hs x hx => (hK s hs x hx).1.2.1
      lipschitz := fun s hs x x' hx hx' => lipschitz_ball (fun z hz => (hK s hs z hz).1) x x' hx hx' }

end Verif
