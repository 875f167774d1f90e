import Verif.Props.EulerConvergence
import Verif.Lemmas.SmoothField
import Mathlib.Analysis.Calculus.ContDiff.Operations
import Mathlib.Analysis.Calculus.ContDiff.FiniteDimension
import Mathlib.Analysis.SpecialFunctions.ExpDeriv
import Mathlib.Analysis.Normed.Operator.BoundedLinearMaps
import Mathlib.LinearAlgebra.Matrix.NonsingularInverse
import Mathlib.Topology.Algebra.Module.FiniteDimension

/-!
# C22 and C57 for smooth models

The hypotheses here are about the model only: the equations are smooth near the solution curve, the
compiled Jacobians are the derivatives, and the Jacobian with respect to the variables is invertible on
the curve.  The tube, the Lipschitz constants and the smoothness of the curve that `SmoothPath` asks for
are derived.
-/

set_option maxSynthPendingDepth 3

namespace Verif

open Set Filter Topology Asymptotics

variable {nx np : Nat}

/-- A model that is `k` times continuously differentiable along a continuous curve of equilibria over the
straight parameter path, with invertible Jacobian on the curve. -/
structure SmoothModel (k : ℕ) (F : (Fin nx → ℝ) × (Fin np → ℝ) → Fin nx → ℝ)
    (A : (Fin nx → ℝ) → (Fin np → ℝ) → Matrix (Fin nx) (Fin nx) ℝ)
    (B : (Fin nx → ℝ) → (Fin np → ℝ) → Matrix (Fin nx) (Fin np) ℝ) (t0 tf : Fin np → ℝ)
    (φ : ℝ → Fin nx → ℝ) : Prop where
  /-- `φ s` is an equilibrium at the parameters of time `s`. -/
  solution : ∀ s ∈ Icc (0 : ℝ) 1, F (φ s, thetaPath t0 tf s) = 0
  continuous : ContinuousOn φ (Icc 0 1)
  smooth : ∀ s ∈ Icc (0 : ℝ) 1, ContDiffAt ℝ k F (φ s, thetaPath t0 tf s)
  /-- Near the curve `A` and `B` are the Jacobians of `F`. -/
  jacobian : ∀ s ∈ Icc (0 : ℝ) 1, ∀ᶠ p in 𝓝 (φ s, thetaPath t0 tf s),
    ∀ u v, fderiv ℝ F p (u, v) = (A p.1 p.2).mulVec u + (B p.1 p.2).mulVec v
  invertible : ∀ s ∈ Icc (0 : ℝ) 1, IsUnit (A (φ s) (thetaPath t0 tf s)).det

theorem isInvertible_of_isUnit (T : (Fin nx → ℝ) →L[ℝ] (Fin nx → ℝ)) (A : Matrix (Fin nx) (Fin nx) ℝ)
    (hT : ∀ u, T u = A.mulVec u) (hA : IsUnit A.det) : T.IsInvertible := by
  let S : (Fin nx → ℝ) →L[ℝ] (Fin nx → ℝ) := LinearMap.toContinuousLinearMap (Matrix.mulVecLin A⁻¹)
  have hS : ∀ u, S u = A⁻¹.mulVec u := fun u => rfl
  refine ContinuousLinearMap.IsInvertible.of_inverse (g := S) ?_ ?_
  · ext1 u
    show T (S u) = u
    rw [hS, hT, Matrix.mulVec_mulVec, Matrix.mul_nonsing_inv _ hA, Matrix.one_mulVec]
  · ext1 u
    show S (T u) = u
    rw [hS, hT, Matrix.mulVec_mulVec, Matrix.nonsing_inv_mul _ hA, Matrix.one_mulVec]

theorem isUnit_of_isInvertible (T : (Fin nx → ℝ) →L[ℝ] (Fin nx → ℝ)) (A : Matrix (Fin nx) (Fin nx) ℝ)
    (hT : ∀ u, T u = A.mulVec u) (h : T.IsInvertible) : IsUnit A.det := by
  rw [← Matrix.isUnit_iff_isUnit_det, ← Matrix.mulVec_injective_iff_isUnit]
  intro u v huv
  have : T u = T v := by rw [hT, hT]; exact huv
  have h2 := congrArg T.inverse this
  rwa [h.inverse_apply_self, h.inverse_apply_self] at h2

theorem inverse_eq_mulVec (T : (Fin nx → ℝ) →L[ℝ] (Fin nx → ℝ)) (A : Matrix (Fin nx) (Fin nx) ℝ)
    (hT : ∀ u, T u = A.mulVec u) (hA : IsUnit A.det) (v : Fin nx → ℝ) : T.inverse v = A⁻¹.mulVec v := by
  have h := isInvertible_of_isUnit T A hT hA
  apply mulVec_inj_of_isUnit _ hA
  rw [← hT, h.self_apply_inverse, Matrix.mulVec_mulVec, Matrix.mul_nonsing_inv _ hA, Matrix.one_mulVec]

section
variable {k : ℕ} {F : (Fin nx → ℝ) × (Fin np → ℝ) → Fin nx → ℝ}
  {A : (Fin nx → ℝ) → (Fin np → ℝ) → Matrix (Fin nx) (Fin nx) ℝ}
  {B : (Fin nx → ℝ) → (Fin np → ℝ) → Matrix (Fin nx) (Fin np) ℝ} {t0 tf : Fin np → ℝ}
  {φ : ℝ → Fin nx → ℝ}

theorem thetaPath_contDiff (t0 tf : Fin np → ℝ) {n : WithTop ℕ∞} : ContDiff ℝ n (thetaPath t0 tf) := by
  unfold thetaPath
  exact contDiff_const.add (contDiff_id.smul contDiff_const)

/-- The time-augmented direction field: time moves at speed one. -/
noncomputable def field (A : (Fin nx → ℝ) → (Fin np → ℝ) → Matrix (Fin nx) (Fin nx) ℝ)
    (B : (Fin nx → ℝ) → (Fin np → ℝ) → Matrix (Fin nx) (Fin np) ℝ) (t0 tf : Fin np → ℝ)
    (p : (Fin nx → ℝ) × ℝ) : (Fin nx → ℝ) × ℝ := (direction A B t0 tf p.1 p.2, 1)

/-- The derivative of `F` with respect to the variables. -/
noncomputable def partialX (F : (Fin nx → ℝ) × (Fin np → ℝ) → Fin nx → ℝ) (p : (Fin nx → ℝ) × (Fin np → ℝ)) :
    (Fin nx → ℝ) →L[ℝ] (Fin nx → ℝ) := (fderiv ℝ F p).comp (ContinuousLinearMap.inl ℝ _ _)

theorem partialX_apply {p : (Fin nx → ℝ) × (Fin np → ℝ)}
    (h : ∀ u v, fderiv ℝ F p (u, v) = (A p.1 p.2).mulVec u + (B p.1 p.2).mulVec v) (u : Fin nx → ℝ) :
    partialX F p u = (A p.1 p.2).mulVec u := by
  show fderiv ℝ F p (u, 0) = _
  rw [h, Matrix.mulVec_zero, add_zero]

theorem SmoothModel.tendsto (h : SmoothModel (k + 1) F A B t0 tf φ) {s : ℝ} (_hs : s ∈ Icc (0 : ℝ) 1) :
    Tendsto (fun q : (Fin nx → ℝ) × ℝ => (q.1, thetaPath t0 tf q.2)) (𝓝 (φ s, s))
      (𝓝 (φ s, thetaPath t0 tf s)) := by
  have _ := h
  have hc : Continuous (fun q : (Fin nx → ℝ) × ℝ => (q.1, thetaPath t0 tf q.2)) :=
    continuous_fst.prodMk (((thetaPath_contDiff t0 tf (n := 0)).continuous).comp continuous_snd)
  exact hc.continuousAt

/-- On the curve the partial derivative is invertible. -/
theorem SmoothModel.isInvertible (h : SmoothModel (k + 1) F A B t0 tf φ) {s : ℝ} (hs : s ∈ Icc (0 : ℝ) 1) :
    (partialX F (φ s, thetaPath t0 tf s)).IsInvertible :=
  isInvertible_of_isUnit _ _ (partialX_apply (h.jacobian s hs).self_of_nhds) (h.invertible s hs)

theorem SmoothModel.partialX_contDiffAt (h : SmoothModel (k + 1) F A B t0 tf φ) {s : ℝ}
    (hs : s ∈ Icc (0 : ℝ) 1) : ContDiffAt ℝ k (partialX F) (φ s, thetaPath t0 tf s) := by
  have h1 : ContDiffAt ℝ k (fderiv ℝ F) (φ s, thetaPath t0 tf s) := (h.smooth s hs).fderiv_right (by simp)
  exact h1.clm_comp contDiffAt_const

/-- Near the curve the Jacobian is invertible. -/
theorem SmoothModel.eventually_isUnit (h : SmoothModel (k + 1) F A B t0 tf φ) {s : ℝ}
    (hs : s ∈ Icc (0 : ℝ) 1) :
    ∀ᶠ q : (Fin nx → ℝ) × ℝ in 𝓝 (φ s, s), IsUnit (A q.1 (thetaPath t0 tf q.2)).det := by
  obtain ⟨e, he⟩ := h.isInvertible hs
  have h1 : ∀ᶠ p in 𝓝 (φ s, thetaPath t0 tf s), (partialX F p).IsInvertible := by
    have := e.nhds
    rw [he] at this
    exact (h.partialX_contDiffAt hs).continuousAt.eventually this
  filter_upwards [(h.tendsto hs).eventually h1, (h.tendsto hs).eventually (h.jacobian s hs)] with q a b
  exact isUnit_of_isInvertible _ _ (partialX_apply b) a

/-- The direction field is as smooth as the derivative of the model. -/
theorem SmoothModel.direction_contDiffAt (h : SmoothModel (k + 1) F A B t0 tf φ) {s : ℝ}
    (hs : s ∈ Icc (0 : ℝ) 1) :
    ContDiffAt ℝ k (fun q : (Fin nx → ℝ) × ℝ => direction A B t0 tf q.1 q.2) (φ s, s) := by
  have hpath : ContDiffAt ℝ k (fun q : (Fin nx → ℝ) × ℝ => (q.1, thetaPath t0 tf q.2)) (φ s, s) :=
    contDiffAt_fst.prodMk (((thetaPath_contDiff t0 tf).contDiffAt).comp (φ s, s) contDiffAt_snd)
  have h1 : ContDiffAt ℝ k (fderiv ℝ F) (φ s, thetaPath t0 tf s) := (h.smooth s hs).fderiv_right (by simp)
  have h2 : ContDiffAt ℝ k (fun q : (Fin nx → ℝ) × ℝ => fderiv ℝ F (q.1, thetaPath t0 tf q.2)) (φ s, s) :=
    ContDiffAt.comp (φ s, s) (g := fderiv ℝ F) h1 hpath
  have h3 : ContDiffAt ℝ k (fun q : (Fin nx → ℝ) × ℝ => partialX F (q.1, thetaPath t0 tf q.2)) (φ s, s) :=
    ContDiffAt.comp (φ s, s) (g := partialX F) (h.partialX_contDiffAt hs) hpath
  have h4 : ContDiffAt ℝ k (fun q : (Fin nx → ℝ) × ℝ =>
      (partialX F (q.1, thetaPath t0 tf q.2)).inverse) (φ s, s) :=
    ContDiffAt.comp (φ s, s) (g := ContinuousLinearMap.inverse)
      (h.isInvertible hs).contDiffAt_map_inverse h3
  have h5 : ContDiffAt ℝ k (fun q : (Fin nx → ℝ) × ℝ =>
      -((partialX F (q.1, thetaPath t0 tf q.2)).inverse
        (fderiv ℝ F (q.1, thetaPath t0 tf q.2) (0, tf - t0)))) (φ s, s) :=
    (h4.clm_apply (h2.clm_apply contDiffAt_const)).neg
  refine h5.congr_of_eventuallyEq ?_
  filter_upwards [h.eventually_isUnit hs, (h.tendsto hs).eventually (h.jacobian s hs)] with q a b
  rw [inverse_eq_mulVec _ _ (partialX_apply b) a, b, Matrix.mulVec_zero, zero_add]
  rfl

theorem SmoothModel.field_contDiffAt (h : SmoothModel (k + 1) F A B t0 tf φ) {s : ℝ}
    (hs : s ∈ Icc (0 : ℝ) 1) : ContDiffAt ℝ k (field A B t0 tf) (φ s, s) :=
  (h.direction_contDiffAt hs).prodMk contDiffAt_const

/-- A continuous curve of equilibria is differentiable and follows the direction field (implicit
differentiation). -/
theorem SmoothModel.hasDerivWithinAt (h : SmoothModel (k + 1) F A B t0 tf φ) {s : ℝ}
    (hs : s ∈ Icc (0 : ℝ) 1) : HasDerivWithinAt φ (direction A B t0 tf (φ s) s) (Icc 0 1) s := by
  have hF : HasFDerivAt F (fderiv ℝ F (φ s, thetaPath t0 tf s)) (φ s, thetaPath t0 tf s) :=
    ((h.smooth s hs).differentiableAt (by simp)).hasFDerivAt
  have hjac := (h.jacobian s hs).self_of_nhds
  have hu := h.invertible s hs
  have hcont : Tendsto (fun u => (φ u, thetaPath t0 tf u)) (𝓝[Icc 0 1] s) (𝓝 (φ s, thetaPath t0 tf s)) :=
    ((h.continuous s hs).prodMk_nhds ((thetaPath_contDiff t0 tf (n := 0)).continuous.continuousWithinAt))
  have ho := hF.isLittleO.comp_tendsto hcont
  have hdiff : ∀ u, thetaPath t0 tf u - thetaPath t0 tf s = (u - s) • (tf - t0) := by
    intro u; unfold thetaPath; module
  obtain ⟨d, hd⟩ : ∃ d, d = direction A B t0 tf (φ s) s := ⟨_, rfl⟩
  have hdA : (A (φ s) (thetaPath t0 tf s)).mulVec d = -((B (φ s) (thetaPath t0 tf s)).mulVec (tf - t0)) := by
    rw [hd]
    unfold direction
    rw [Matrix.mulVec_neg, Matrix.mulVec_mulVec, Matrix.mul_nonsing_inv _ hu, Matrix.one_mulVec]
  have hw : (fun u => φ u - φ s - (u - s) • d) =o[𝓝[Icc 0 1] s]
      (fun u => (φ u - φ s, (u - s) • (tf - t0))) := by
    have h1 := ((-(partialX F (φ s, thetaPath t0 tf s)).inverse).isBigO_comp _ _).trans_isLittleO ho
    refine (h1.congr' ?_ ?_)
    · filter_upwards [self_mem_nhdsWithin] with u hu'
      simp only [Function.comp_apply]
      rw [h.solution u hu', h.solution s hs, Prod.mk_sub_mk, hjac, hdiff]
      rw [sub_self, zero_sub, neg_apply, map_neg, neg_neg]
      have : (A (φ s) (thetaPath t0 tf s)).mulVec (φ u - φ s)
          + (B (φ s) (thetaPath t0 tf s)).mulVec ((u - s) • (tf - t0))
          = (A (φ s) (thetaPath t0 tf s)).mulVec (φ u - φ s - (u - s) • d) := by
        rw [Matrix.mulVec_sub _ (φ u - φ s), Matrix.mulVec_smul, Matrix.mulVec_smul, hdA, smul_neg, sub_neg_eq_add]
      rw [this, ← partialX_apply hjac, (h.isInvertible hs).inverse_apply_self]
    · filter_upwards with u
      simp only [Function.comp_apply]
      rw [Prod.mk_sub_mk, hdiff]
  rw [← hd, hasDerivWithinAt_iff_isLittleO]
  have hw2 : (fun u => ((φ u - φ s - (u - s) • d, 0) : (Fin nx → ℝ) × (Fin np → ℝ))) =o[𝓝[Icc 0 1] s]
      (fun u => (φ u - φ s, (u - s) • (tf - t0))) := by
    rw [isLittleO_prod_left]
    exact ⟨hw, isLittleO_zero _ _⟩
  have hO := hw2.right_isBigO_sub
  have hO2 : (fun u => (φ u - φ s, (u - s) • (tf - t0))) =O[𝓝[Icc 0 1] s] fun u => u - s := by
    refine hO.trans ?_
    have : (fun u => ((φ u - φ s, (u - s) • (tf - t0)) : (Fin nx → ℝ) × (Fin np → ℝ))
        - (φ u - φ s - (u - s) • d, 0)) = fun u => (u - s) • ((d, tf - t0) : (Fin nx → ℝ) × (Fin np → ℝ)) := by
      funext u
      rw [Prod.mk_sub_mk, Prod.smul_mk]
      congr 1
      · abel
      · rw [sub_zero]
    rw [this]
    have h3 : (fun u : ℝ => u - s) =O[𝓝[Icc 0 1] s] fun u => u - s := isBigO_refl _ _
    have h4 := h3.smul (isBigO_const_const ((d, tf - t0) : (Fin nx → ℝ) × (Fin np → ℝ))
      (one_ne_zero (α := ℝ)) (𝓝[Icc 0 1] s))
    simpa using h4
  exact hw.trans_isBigO hO2

end

/-! ## Plain Euler steps -/

/-- The conditions of `C22_error_bound` follow from smoothness of the model. -/
theorem SmoothModel.smoothPath {F : (Fin nx → ℝ) × (Fin np → ℝ) → Fin nx → ℝ}
    {A : (Fin nx → ℝ) → (Fin np → ℝ) → Matrix (Fin nx) (Fin nx) ℝ}
    {B : (Fin nx → ℝ) → (Fin np → ℝ) → Matrix (Fin nx) (Fin np) ℝ} {t0 tf : Fin np → ℝ}
    {φ : ℝ → Fin nx → ℝ} (h : SmoothModel 2 F A B t0 tf φ) :
    ∃ r L M, SmoothPath F A B t0 tf φ (fun s => direction A B t0 tf (φ s) s) r L M := by
  have hcurve : ContinuousOn (fun s => ((φ s, s) : (Fin nx → ℝ) × ℝ)) (Icc 0 1) :=
    h.continuous.prodMk continuousOn_id
  obtain ⟨r, L, T, hQ⟩ := exists_fieldTube hcurve (f := field A B t0 tf)
    (fun s hs => h.field_contDiffAt (k := 1) hs) (Q := fun q => IsUnit (A q.1 (thetaPath t0 tf q.2)).det)
    (fun s hs => h.eventually_isUnit (k := 1) hs)
  have hr := T.radius
  have hL := T.lip_nonneg
  have hself : ∀ s, ‖((φ s, s) : (Fin nx → ℝ) × ℝ) - (φ s, s)‖ ≤ r := by
    intro s; rw [sub_self, norm_zero]; exact hr.le
  have hdirb : ∀ s ∈ Icc (0 : ℝ) 1, ‖direction A B t0 tf (φ s) s‖ ≤ L := by
    intro s hs
    exact (norm_fst_le (field A B t0 tf (φ s, s))).trans (T.bound s hs _ (hself s))
  obtain ⟨N, hN⟩ : ∃ N, N = max L 1 := ⟨_, rfl⟩
  have hN1 : 1 ≤ N := by rw [hN]; exact le_max_right _ _
  have hNL : L ≤ N := by rw [hN]; exact le_max_left _ _
  have hφlip : ∀ s ∈ Icc (0 : ℝ) 1, ∀ u ∈ Icc (0 : ℝ) 1, ‖φ u - φ s‖ ≤ L * |u - s| := by
    intro s hs u hu
    have := (convex_Icc (0 : ℝ) 1).norm_image_sub_le_of_norm_hasDerivWithin_le
      (fun v hv => h.hasDerivWithinAt (k := 1) hv) hdirb hs hu
    simpa using this
  refine ⟨r, L, L * N + 2 * L * N / r, ?_⟩
  refine
    { solution := h.solution, jacobian := ?_, derivative := fun s hs => h.hasDerivWithinAt (k := 1) hs,
      smooth := ?_, radius := hr, lipschitz_nonneg := hL, smooth_nonneg := by positivity,
      invertible := ?_, lipschitz := ?_ }
  · intro s hs
    exact ⟨_, ((h.smooth s hs).differentiableAt (by simp)).hasFDerivAt, (h.jacobian s hs).self_of_nhds⟩
  · intro s hs u hu
    have hnn : 0 ≤ |u - s| := abs_nonneg _
    rcases le_or_gt (N * |u - s|) r with hsm | hbig
    · have hd : ‖((φ u, u) : (Fin nx → ℝ) × ℝ) - (φ s, s)‖ ≤ N * |u - s| := by
        rw [Prod.mk_sub_mk, Prod.norm_def]
        apply max_le
        · exact (hφlip s hs u hu).trans (by gcongr)
        · rw [Real.norm_eq_abs]
          nlinarith
      have h1 := T.lipschitz s hs (φ u, u) (φ s, s) (hd.trans hsm) (hself s)
      have h2 : ‖direction A B t0 tf (φ u) u - direction A B t0 tf (φ s) s‖
          ≤ ‖field A B t0 tf (φ u, u) - field A B t0 tf (φ s, s)‖ :=
        norm_fst_le (field A B t0 tf (φ u, u) - field A B t0 tf (φ s, s))
      have h3 : 0 ≤ 2 * L * N / r * |u - s| := by positivity
      calc _ ≤ _ := h2.trans h1
        _ ≤ L * (N * |u - s|) := by gcongr
        _ ≤ (L * N + 2 * L * N / r) * |u - s| := by nlinarith
    · have h1 : ‖direction A B t0 tf (φ u) u - direction A B t0 tf (φ s) s‖ ≤ L + L :=
        (norm_sub_le _ _).trans (add_le_add (hdirb u hu) (hdirb s hs))
      have h2 : 2 * L ≤ 2 * L * N / r * |u - s| := by
        have : 1 ≤ N * |u - s| / r := by rw [le_div_iff₀ hr]; linarith
        calc 2 * L = 2 * L * 1 := by ring
          _ ≤ 2 * L * (N * |u - s| / r) := by gcongr
          _ = _ := by ring
      have h3 : 0 ≤ L * N * |u - s| := by positivity
      calc _ ≤ _ := h1
        _ ≤ (L * N + 2 * L * N / r) * |u - s| := by nlinarith
  · intro s hs x hx
    refine hQ s hs (x, s) ?_
    rw [Prod.mk_sub_mk, sub_self, Prod.norm_def, norm_zero]
    exact max_le hx hr.le
  · intro s hs x hx
    have hp : ‖((x, s) : (Fin nx → ℝ) × ℝ) - (φ s, s)‖ = ‖x - φ s‖ := by
      rw [Prod.mk_sub_mk, sub_self, Prod.norm_def, norm_zero]
      exact max_eq_left (norm_nonneg _)
    have h1 := T.lipschitz s hs (x, s) (φ s, s) (by rw [hp]; exact hx) (hself s)
    rw [hp] at h1
    exact (norm_fst_le (field A B t0 tf (x, s) - field A B t0 tf (φ s, s))).trans h1

/-- **C22 (smooth models).**  Let the model be twice continuously differentiable near a continuous curve
`φ` of equilibria over the straight parameter path, with invertible Jacobian on the curve.  Then there
are `C` and `N` such that every plain Euler back-end, run with `n ≥ N` steps, succeeds and is within
`C / n` of the true equilibrium `φ (t / n)` after each number `t` of steps. -/
theorem C22_smooth_model (coords : Coords) (vars params : List ModelObject)
    (data : Dict Str (NDArray ℝ)) (tf : List ℝ) (hc : EulerCall coords vars params data tf)
    (F : (Fin (totalSize coords vars) → ℝ) × (Fin (totalSize coords params) → ℝ) →
      Fin (totalSize coords vars) → ℝ)
    (A : (Fin (totalSize coords vars) → ℝ) → (Fin (totalSize coords params) → ℝ) →
      Matrix (Fin (totalSize coords vars)) (Fin (totalSize coords vars)) ℝ)
    (B : (Fin (totalSize coords vars) → ℝ) → (Fin (totalSize coords params) → ℝ) →
      Matrix (Fin (totalSize coords vars)) (Fin (totalSize coords params)) ℝ)
    (φ : ℝ → Fin (totalSize coords vars) → ℝ)
    (h : SmoothModel 2 F A B (toVec _ (flatOf data params)) (toVec _ tf) φ)
    (hstart : φ 0 = toVec _ (flatOf data vars)) :
    ∃ (C : ℝ) (N : ℕ), ∀ b : EulerBackend, b.rk4 = false → ∀ n, N ≤ n →
      ∃ outs, runEuler b (vecJac A B).solve vars params coords tf n data = .ok outs ∧
        ∀ t, t ≤ n →
          ‖toVec _ (b.stateAfter vars params data outs t) - φ (t * (1 / n))‖ ≤ C / n := by
  obtain ⟨r, L, M, hp⟩ := h.smoothPath
  obtain ⟨N, hN⟩ := exists_nat_gt (M * Real.exp L / r)
  refine ⟨M * Real.exp L, N + 1, fun b hb n hn => ?_⟩
  have hn0 : (0 : ℝ) < n := by exact_mod_cast (by omega : 0 < n)
  refine C22_error_bound b hb coords vars params data tf hc F A B φ _ r L M hp hstart n (by omega) ?_
  rw [div_le_iff₀ hn0]
  rw [div_lt_iff₀ hp.radius] at hN
  have : (N : ℝ) ≤ n := by exact_mod_cast (by omega : N ≤ n)
  nlinarith [hp.radius]

/-! ## Runge-Kutta steps -/

/-- A run whose steps succeed and keep an invariant. -/
theorem run_invariant (b : EulerBackend) (dx : StepSolve ℝ) (coords : Coords)
    (vars params : List ModelObject) (data : Dict Str (NDArray ℝ)) (tf : List ℝ) (n : Nat)
    (hc : EulerCall coords vars params data tf)
    (hdx : LenOK dx (totalSize coords vars) (totalSize coords params))
    (I : Nat → List ℝ → List ℝ → Prop) (h0 : I 0 (flatOf data vars) (flatOf data params))
    (hstep : ∀ j, j < n → ∀ x t, x.length = totalSize coords vars → t.length = totalSize coords params →
      I j x t → ∃ d, jaxIncrement dx b.rk4 x t (stepVec n tf (flatOf data params)) = .ok d ∧
        d.length = totalSize coords vars ∧
        I (j + 1) (List.zipWith (· + ·) x d) (List.zipWith (· + ·) t (stepVec n tf (flatOf data params)))) :
    ∃ outs, runEuler b dx vars params coords tf n data = .ok outs ∧
      ∀ t, t ≤ n → ∃ x th, b.stateAfter vars params data outs t = x ++ th ∧
        x.length = totalSize coords vars ∧ I t x th := by
  have lx := (flatOf_spec coords data vars (fun o h => hc.shaped o (by simp [h]))).1
  have lt := (flatOf_spec coords data params (fun o h => hc.shaped o (by simp [h]))).1
  have hst : (stepVec n tf (flatOf data params)).length = totalSize coords params := by
    simp [stepVec, lt, hc.final]
  have rows : ∀ k j x t, j + k = n → x.length = totalSize coords vars →
      t.length = totalSize coords params → I j x t →
      ∃ R, eulerRows (jaxIncrement dx b.rk4) (stepVec n tf (flatOf data params)) k x t = .ok R := by
    intro k
    induction k with
    | zero => intro j x t _ _ _ _; exact ⟨[], rfl⟩
    | succ k ih =>
      intro j x t hj hx ht hI
      obtain ⟨d, h1, h2, h3⟩ := hstep j (by omega) x t hx ht hI
      obtain ⟨R, hR⟩ := ih (j + 1) _ _ (by omega) (by simp [hx, h2]) (by simp [ht, hst]) h3
      refine ⟨(List.zipWith (· + ·) x d, List.zipWith (· + ·) t (stepVec n tf (flatOf data params))) :: R,
        ?_⟩
      rw [eulerRows, h1]
      dsimp only
      rw [hR]
  obtain ⟨R, hR⟩ := rows n 0 _ _ (by omega) lx lt h0
  obtain ⟨outs, ho⟩ := runEuler_ok_of_rows b dx coords vars params data tf n hc hdx R hR
  refine ⟨outs, ho, ?_⟩
  obtain ⟨S, hS0, hS, hnext⟩ := stateAfter_spec b dx coords vars params data tf n hc hdx outs ho
  have key : ∀ t, t ≤ n → I t (S t).1 (S t).2 := by
    intro t
    induction t with
    | zero => intro _; rw [hS0]; exact h0
    | succ t ih =>
      intro ht
      obtain ⟨-, l1, m1⟩ := hS t (by omega)
      obtain ⟨d, hd, hn⟩ := hnext t (by omega)
      obtain ⟨d', h1, h2, h3⟩ := hstep t (by omega) _ _ l1 m1 (ih (by omega))
      rw [h1] at hd
      injection hd with hd
      subst hd
      rw [hn]
      exact h3
  intro t ht
  obtain ⟨e1, l1, -⟩ := hS t ht
  exact ⟨_, _, e1, l1, key t ht⟩

/-- The solver at parameters on the path returns the direction field times the step length. -/
theorem solve_on_path {A : (Fin nx → ℝ) → (Fin np → ℝ) → Matrix (Fin nx) (Fin nx) ℝ}
    {B : (Fin nx → ℝ) → (Fin np → ℝ) → Matrix (Fin nx) (Fin np) ℝ} {t0 tf : List ℝ}
    (ht0 : t0.length = np) (htf : tf.length = np) (n : Nat) (x t : List ℝ) (s : ℝ)
    (hts : toVec np t = thetaPath (toVec np t0) (toVec np tf) s)
    (hu : IsUnit (A (toVec nx x) (thetaPath (toVec np t0) (toVec np tf) s)).det) :
    ∃ d, (vecJac A B).solve x t (stepVec n tf t0) = .ok d ∧ d.length = nx ∧
      toVec nx d = (1 / n : ℝ) • direction A B (toVec np t0) (toVec np tf) (toVec nx x) s := by
  have hstep : toVec np (stepVec n tf t0) = (1 / n : ℝ) • (toVec np tf - toVec np t0) := by
    unfold stepVec
    rw [toVec_zipWith _ np tf t0 htf ht0]
    funext i
    simp only [Pi.smul_apply, Pi.sub_apply, smul_eq_mul]
    ring
  have hsolve := (vecJac A B).solve_of_isUnit x t (stepVec n tf t0)
    (by show IsUnit (A (toVec nx x) (toVec np t)).det; rw [hts]; exact hu)
  refine ⟨_, hsolve, by simp, ?_⟩
  rw [toVec_ofFn]
  show -((A (toVec nx x) (toVec np t))⁻¹.mulVec ((B (toVec nx x) (toVec np t)).mulVec _)) = _
  rw [hts, hstep, Matrix.mulVec_smul, Matrix.mulVec_smul, ← smul_neg]
  rfl

/-- The Runge-Kutta increment of the code is one classical Runge-Kutta step of length `1 / n` of the
time-augmented field, provided the Jacobian is invertible at the four points at which it is evaluated. -/
theorem jaxIncrement_rkStep {A : (Fin nx → ℝ) → (Fin np → ℝ) → Matrix (Fin nx) (Fin nx) ℝ}
    {B : (Fin nx → ℝ) → (Fin np → ℝ) → Matrix (Fin nx) (Fin np) ℝ} {t0 tf : List ℝ}
    (ht0 : t0.length = np) (htf : tf.length = np) (n : Nat) (x t : List ℝ) (s : ℝ) (hx : x.length = nx)
    (ht : t.length = np) (hts : toVec np t = thetaPath (toVec np t0) (toVec np tf) s)
    (G : (Fin nx → ℝ) × ℝ → (Fin nx → ℝ) × ℝ) (hG : G = field A B (toVec np t0) (toVec np tf))
    (Q : (Fin nx → ℝ) × ℝ → Prop)
    (hQ : ∀ q, Q q → IsUnit (A q.1 (thetaPath (toVec np t0) (toVec np tf) q.2)).det)
    (q1 q2 q3 q4 : (Fin nx → ℝ) × ℝ) (e1 : q1 = (toVec nx x, s)) (e2 : q2 = q1 + ((1 / n : ℝ) / 2) • G q1)
    (e3 : q3 = q1 + ((1 / n : ℝ) / 2) • G q2) (e4 : q4 = q1 + (1 / n : ℝ) • G q3)
    (u1 : Q q1) (u2 : Q q2) (u3 : Q q3) (u4 : Q q4) :
    ∃ d, jaxIncrement (vecJac A B).solve true x t (stepVec n tf t0) = .ok d ∧ d.length = nx ∧
      toVec np (List.zipWith (· + ·) t (stepVec n tf t0))
        = thetaPath (toVec np t0) (toVec np tf) (s + 1 / n) ∧
      ((toVec nx (List.zipWith (· + ·) x d), s + 1 / n) : (Fin nx → ℝ) × ℝ) = rkStep G (1 / n) (toVec nx x, s) := by
  have hstl : (stepVec n tf t0).length = np := by simp [stepVec, ht0, htf]
  have hstep : toVec np (stepVec n tf t0) = (1 / n : ℝ) • (toVec np tf - toVec np t0) := by
    unfold stepVec
    rw [toVec_zipWith _ np tf t0 htf ht0]
    funext i
    simp only [Pi.smul_apply, Pi.sub_apply, smul_eq_mul]
    ring
  have htime : ∀ (c : ℝ), thetaPath (toVec np t0) (toVec np tf) s + c • toVec np (stepVec n tf t0)
      = thetaPath (toVec np t0) (toVec np tf) (s + c * (1 / n)) := by
    intro c
    rw [hstep]
    unfold thetaPath
    module
  have tv : ∀ (m : Nat) (a b : List ℝ), a.length = m → b.length = m →
      toVec m (List.zipWith (fun a b => a + 2⁻¹ * b) a b) = toVec m a + (2⁻¹ : ℝ) • toVec m b := by
    intro m a b ha hb
    rw [toVec_zipWith _ m a b ha hb]
    rfl
  have g1 : ∀ q : (Fin nx → ℝ) × ℝ, (G q).1 = direction A B (toVec np t0) (toVec np tf) q.1 q.2 := by
    intro q; rw [hG]; rfl
  have g2 : ∀ q : (Fin nx → ℝ) × ℝ, (G q).2 = 1 := by
    intro q; rw [hG]; rfl
  -- first slope
  have p1 : q1.1 = toVec nx x := by rw [e1]
  have s1 : q1.2 = s := by rw [e1]
  obtain ⟨d1, c1, l1, v1⟩ := solve_on_path (A := A) (B := B) ht0 htf n x t q1.2 (by rw [s1]; exact hts)
    (by rw [← p1]; exact hQ _ u1)
  rw [← p1, ← g1] at v1
  -- second
  obtain ⟨x2, hx2⟩ : ∃ x2, x2 = List.zipWith (fun a b => a + 2⁻¹ * b) x d1 := ⟨_, rfl⟩
  obtain ⟨t2, ht2⟩ : ∃ t2, t2 = List.zipWith (fun a b => a + 2⁻¹ * b) t (stepVec n tf t0) := ⟨_, rfl⟩
  have p2 : q2.1 = toVec nx x2 := by
    rw [e2, hx2, tv nx x d1 hx l1, v1, ← p1, Prod.fst_add, Prod.smul_fst, smul_smul]
    congr 2
    ring
  have s2 : q2.2 = s + (2⁻¹ : ℝ) * (1 / n) := by
    rw [e2, Prod.snd_add, Prod.smul_snd, g2, s1, smul_eq_mul]
    ring
  have t2v : toVec np t2 = thetaPath (toVec np t0) (toVec np tf) (s + (2⁻¹ : ℝ) * (1 / n)) := by
    rw [ht2, tv np t _ ht hstl, hts, htime]
  obtain ⟨d2, c2, l2, v2⟩ := solve_on_path (A := A) (B := B) ht0 htf n x2 t2 q2.2 (by rw [s2]; exact t2v)
    (by rw [← p2]; exact hQ _ u2)
  rw [← p2, ← g1] at v2
  -- third
  obtain ⟨x3, hx3⟩ : ∃ x3, x3 = List.zipWith (fun a b => a + 2⁻¹ * b) x d2 := ⟨_, rfl⟩
  have p3 : q3.1 = toVec nx x3 := by
    rw [e3, hx3, tv nx x d2 hx l2, v2, ← p1, Prod.fst_add, Prod.smul_fst, smul_smul]
    congr 2
    ring
  have s3 : q3.2 = s + (2⁻¹ : ℝ) * (1 / n) := by
    rw [e3, Prod.snd_add, Prod.smul_snd, g2, s1, smul_eq_mul]
    ring
  obtain ⟨d3, c3, l3, v3⟩ := solve_on_path (A := A) (B := B) ht0 htf n x3 t2 q3.2 (by rw [s3]; exact t2v)
    (by rw [← p3]; exact hQ _ u3)
  rw [← p3, ← g1] at v3
  -- fourth
  obtain ⟨x4, hx4⟩ : ∃ x4, x4 = List.zipWith (· + ·) x d3 := ⟨_, rfl⟩
  obtain ⟨t4, ht4⟩ : ∃ t4, t4 = List.zipWith (· + ·) t (stepVec n tf t0) := ⟨_, rfl⟩
  have p4 : q4.1 = toVec nx x4 := by
    rw [e4, hx4, toVec_add nx x d3 hx l3, v3, ← p1, Prod.fst_add, Prod.smul_fst]
  have s4 : q4.2 = s + 1 / n := by
    rw [e4, Prod.snd_add, Prod.smul_snd, g2, s1, smul_eq_mul, mul_one]
  have t4v : toVec np t4 = thetaPath (toVec np t0) (toVec np tf) (s + 1 / n) := by
    have := htime 1
    rw [one_smul, one_mul] at this
    rw [ht4, toVec_add np t _ ht hstl, hts, this]
  obtain ⟨d4, c4, l4, v4⟩ := solve_on_path (A := A) (B := B) ht0 htf n x4 t4 q4.2 (by rw [s4]; exact t4v)
    (by rw [← p4]; exact hQ _ u4)
  rw [← p4, ← g1] at v4
  -- the combination
  obtain ⟨a, ha⟩ : ∃ a, a = List.zipWith (fun a b => a + 2 * b) d1 d2 := ⟨_, rfl⟩
  have la : a.length = nx := by simp [ha, l1, l2]
  obtain ⟨b, hb⟩ : ∃ b, b = List.zipWith (fun a b => a + 2 * b) a d3 := ⟨_, rfl⟩
  have lb : b.length = nx := by simp [hb, la, l3]
  obtain ⟨d, hd⟩ : ∃ d, d = List.zipWith (fun a b => (a + b) / 6) b d4 := ⟨_, rfl⟩
  have ld : d.length = nx := by simp [hd, lb, l4]
  have hrk : vrk4 d1 d2 d3 d4 = .ok d := by
    unfold vrk4
    rw [vzip_ok _ d1 d2 (by omega)]
    dsimp only [Bind.bind, Except.bind]
    rw [← ha, vzip_ok _ a d3 (by omega)]
    dsimp only [Bind.bind, Except.bind]
    rw [← hb, vzip_ok _ b d4 (by omega), ← hd]
  refine ⟨d, ?_, ld, by rw [← ht4]; exact t4v, ?_⟩
  · unfold jaxIncrement
    rw [if_pos rfl, c1]
    dsimp only [Bind.bind, Except.bind]
    rw [vzip_ok _ x d1 (by omega)]
    dsimp only
    rw [← hx2, vzip_ok _ t (stepVec n tf t0) (by omega)]
    dsimp only
    rw [← ht2, c2]
    dsimp only
    rw [vzip_ok _ x d2 (by omega)]
    dsimp only
    rw [← hx3, c3]
    dsimp only
    rw [vzip_ok _ x d3 (by omega)]
    dsimp only
    rw [← hx4, vzip_ok _ t (stepVec n tf t0) (by omega)]
    dsimp only
    rw [← ht4, c4]
    exact hrk
  · have hdv : toVec nx d = (1 / 6 : ℝ) • (toVec nx d1 + (2 : ℝ) • toVec nx d2 + (2 : ℝ) • toVec nx d3 + toVec nx d4) := by
      rw [hd, toVec_zipWith _ nx b d4 lb l4, hb, toVec_zipWith _ nx a d3 la l3, ha,
        toVec_zipWith _ nx d1 d2 l1 l2]
      funext i
      simp only [Pi.smul_apply, Pi.add_apply, smul_eq_mul]
      ring
    have hrks : rkStep G (1 / n) (toVec nx x, s)
        = q1 + ((1 / n : ℝ) / 6) • (G q1 + (2 : ℝ) • G q2 + (2 : ℝ) • G q3 + G q4) := by
      simp only [rkStep, e4, e3, e2, e1]
    rw [hrks, toVec_add nx x d hx ld, hdv, v1, v2, v3, v4, ← p1, ← s1]
    refine Prod.ext ?_ ?_
    · simp only [Prod.fst_add, Prod.smul_fst]
      module
    · simp only [Prod.snd_add, Prod.smul_snd, g2, smul_eq_mul]
      ring

/-- **C57.**  Let the model be five times continuously differentiable near a continuous curve `φ` of
equilibria over the straight parameter path, with invertible Jacobian on the curve.  Then there are `C`
and `N` such that every back-end that takes Runge-Kutta steps, run with `n ≥ N` steps, succeeds and is
within `C / n⁴` of the true equilibrium `φ (t / n)` after each number `t` of steps. -/
theorem C57_fourth_order (coords : Coords) (vars params : List ModelObject)
    (data : Dict Str (NDArray ℝ)) (tf : List ℝ) (hc : EulerCall coords vars params data tf)
    (F : (Fin (totalSize coords vars) → ℝ) × (Fin (totalSize coords params) → ℝ) →
      Fin (totalSize coords vars) → ℝ)
    (A : (Fin (totalSize coords vars) → ℝ) → (Fin (totalSize coords params) → ℝ) →
      Matrix (Fin (totalSize coords vars)) (Fin (totalSize coords vars)) ℝ)
    (B : (Fin (totalSize coords vars) → ℝ) → (Fin (totalSize coords params) → ℝ) →
      Matrix (Fin (totalSize coords vars)) (Fin (totalSize coords params)) ℝ)
    (φ : ℝ → Fin (totalSize coords vars) → ℝ)
    (h : SmoothModel 5 F A B (toVec _ (flatOf data params)) (toVec _ tf) φ)
    (hstart : φ 0 = toVec _ (flatOf data vars)) :
    ∃ (C : ℝ) (N : ℕ), ∀ b : EulerBackend, b.rk4 = true → ∀ n, N ≤ n →
      ∃ outs, runEuler b (vecJac A B).solve vars params coords tf n data = .ok outs ∧
        ∀ t, t ≤ n →
          ‖toVec _ (b.stateAfter vars params data outs t) - φ (t * (1 / n))‖ ≤ C / n ^ 4 := by
  have lx := (flatOf_spec coords data vars (fun o h => hc.shaped o (by simp [h]))).1
  have lt := (flatOf_spec coords data params (fun o h => hc.shaped o (by simp [h]))).1
  obtain ⟨G, hG⟩ : ∃ G, G = field A B (toVec _ (flatOf data params)) (toVec _ tf) := ⟨_, rfl⟩
  obtain ⟨y, hy⟩ : ∃ y : ℝ → (Fin (totalSize coords vars) → ℝ) × ℝ, y = fun s => (φ s, s) := ⟨_, rfl⟩
  have hcurve : ContinuousOn y (Icc 0 1) := by rw [hy]; exact h.continuous.prodMk continuousOn_id
  have hsm : ∀ s ∈ Icc (0 : ℝ) 1, ContDiffAt ℝ 4 G (y s) := by
    intro s hs; rw [hG, hy]; exact h.field_contDiffAt (k := 4) hs
  have hder : ∀ s ∈ Icc (0 : ℝ) 1, HasDerivWithinAt y (G (y s)) (Icc 0 1) s := by
    intro s hs; rw [hG, hy]
    exact (h.hasDerivWithinAt (k := 4) hs).prodMk (hasDerivWithinAt_id s _)
  obtain ⟨f1, f2, f3, r', K, E⟩ := exists_expansion hcurve hsm
  obtain ⟨C, δ, hC, hδ, hloc⟩ := E.local_error hder
  obtain ⟨r, L, T, hQ⟩ := exists_fieldTube hcurve (f := G) (fun s hs => (hsm s hs).of_le (by norm_num))
    (Q := fun q => IsUnit (A q.1 (thetaPath (toVec _ (flatOf data params)) (toVec _ tf) q.2)).det)
    (fun s hs => by rw [hy]; exact h.eventually_isUnit (k := 4) hs)
  have hr := T.radius
  have hL := T.lip_nonneg
  obtain ⟨N1, hN1⟩ := exists_nat_gt (1 / δ)
  obtain ⟨N2, hN2⟩ := exists_nat_gt (2 * L / r)
  obtain ⟨N3, hN3⟩ := exists_nat_gt L
  obtain ⟨N4, hN4⟩ := exists_nat_gt (2 * (C * Real.exp (2 * L)) / r)
  refine ⟨C * Real.exp (2 * L), N1 + N2 + N3 + N4 + 1, fun b hb n hn => ?_⟩
  have hn0 : (0 : ℝ) < n := by exact_mod_cast (by omega : 0 < n)
  have hle : ∀ {m : ℕ}, m ≤ N1 + N2 + N3 + N4 → (m : ℝ) ≤ n := fun hm => by
    exact_mod_cast (by omega : _ ≤ n)
  have hh : (0 : ℝ) ≤ 1 / n := by positivity
  have hδ' : (1 / n : ℝ) < δ := by
    rw [div_lt_iff₀ hδ] at hN1
    rw [div_lt_iff₀ hn0]
    nlinarith [hle (m := N1) (by omega)]
  have hM' : (1 / n : ℝ) * L ≤ r / 2 := by
    rw [div_lt_iff₀ hr] at hN2
    rw [div_mul_eq_mul_div, div_le_iff₀ hn0]
    nlinarith [hle (m := N2) (by omega)]
  have hL' : (1 / n : ℝ) * L ≤ 1 := by
    rw [div_mul_eq_mul_div, div_le_iff₀ hn0]
    linarith [hle (m := N3) (by omega)]
  have hCr : C * Real.exp (2 * L) / (n : ℝ) ^ 4 ≤ r / 2 := by
    rw [div_lt_iff₀ hr] at hN4
    have h1 : C * Real.exp (2 * L) / (n : ℝ) ≤ r / 2 := by
      rw [div_le_iff₀ hn0]
      nlinarith [hle (m := N4) (by omega)]
    have h2 : (n : ℝ) ≤ (n : ℝ) ^ 4 := by
      have : (1 : ℝ) ≤ n := by exact_mod_cast (by omega : 1 ≤ n)
      exact le_self_pow₀ this (by norm_num)
    refine (div_le_div_of_nonneg_left (by positivity) hn0 h2).trans h1
  have hbound : ∀ j, j ≤ n → rkBound L C (1 / n) j ≤ r / 2 := fun j hj =>
    (rkBound_le L C hL hC n (by omega) j hj).trans hCr
  obtain ⟨outs, ho, hI⟩ := run_invariant b (vecJac A B).solve coords vars params data tf n hc
    (vecJac A B).lenOK (fun j x t =>
      toVec (totalSize coords params) t
        = thetaPath (toVec _ (flatOf data params)) (toVec _ tf) (j * (1 / n)) ∧
      ‖((toVec _ x, (j * (1 / n) : ℝ)) : (Fin (totalSize coords vars) → ℝ) × ℝ) - y (j * (1 / n))‖
        ≤ rkBound L C (1 / n) j)
    ⟨by simp [thetaPath], by simp [hy, hstart, rkBound]⟩ (by
      rintro j hj x t hx ht ⟨i1, i2⟩
      obtain ⟨s, hs⟩ : ∃ s : ℝ, s = j * (1 / n) := ⟨_, rfl⟩
      have hs0 : 0 ≤ s := by rw [hs]; positivity
      have hs1 : s + 1 / n ≤ 1 := by
        rw [hs, mul_one_div, ← add_div, div_le_one hn0]
        exact_mod_cast hj
      have hsI : s ∈ Icc (0 : ℝ) 1 := ⟨hs0, by linarith⟩
      have hj1 : (((j + 1 : ℕ) : ℝ)) * (1 / n) = s + 1 / n := by rw [hs]; push_cast; ring
      rw [← hs] at i1 i2
      have hxs : ‖((toVec _ x, s) : (Fin (totalSize coords vars) → ℝ) × ℝ) - y s‖ ≤ r / 2 :=
        i2.trans (hbound j hj.le)
      have hin1 : ‖((toVec _ x, s) : (Fin (totalSize coords vars) → ℝ) × ℝ) - y s‖ ≤ r := by linarith
      have b1 := T.bound s hsI _ hin1
      have hin2 := T.stages hsI hh hM' hxs b1 (a := (1 / n : ℝ) / 2) (by linarith) (by linarith)
      have b2 := T.bound s hsI _ hin2
      have hin3 := T.stages hsI hh hM' hxs b2 (a := (1 / n : ℝ) / 2) (by linarith) (by linarith)
      have b3 := T.bound s hsI _ hin3
      have hin4 := T.stages hsI hh hM' hxs b3 (a := (1 / n : ℝ)) hh le_rfl
      obtain ⟨d, c1, c2, c3, c4⟩ := jaxIncrement_rkStep (A := A) (B := B) lt hc.final n x t s hx ht i1 G hG
        (fun q => IsUnit (A q.1 (thetaPath (toVec _ (flatOf data params)) (toVec _ tf) q.2)).det)
        (fun q hq => hq) _ _ _ _ rfl rfl rfl rfl
        (hQ s hsI _ hin1) (hQ s hsI _ hin2) (hQ s hsI _ hin3) (hQ s hsI _ hin4)
      refine ⟨d, by rw [hb]; exact c1, c2, ?_⟩
      rw [hj1, c4]
      exact ⟨c3, rk_error_step T hs0 hh hs1 hM' hL' (hloc s _ hs0 hh hs1 hδ') hC i2 (hbound j hj.le)⟩)
  refine ⟨outs, ho, fun t ht => ?_⟩
  obtain ⟨x, th, e, l, -, hb2⟩ := hI t ht
  rw [e, toVec_append _ _ _ l]
  have h1 : ‖toVec (totalSize coords vars) x - φ (t * (1 / n))‖
      ≤ ‖((toVec _ x, (t * (1 / n) : ℝ)) : (Fin (totalSize coords vars) → ℝ) × ℝ) - y (t * (1 / n))‖ := by
    rw [hy]
    exact norm_fst_le (((toVec _ x, (t * (1 / n) : ℝ)) : (Fin (totalSize coords vars) → ℝ) × ℝ)
      - (φ (t * (1 / n)), (t * (1 / n) : ℝ)))
  exact h1.trans (hb2.trans (rkBound_le L C hL hC n (by omega) t ht))

/-! The instance of `exSmoothPath`: the model `x e^{-a} = 1`, moved from `a = 0` to `a = 1`. -/

theorem exSmoothModel (k : ℕ) : SmoothModel (nx := 1) (np := 1) k
    (fun p _ => p.1 0 * Real.exp (-p.2 0) - 1)
    (fun _ a => Matrix.of fun _ _ => Real.exp (-a 0)) (fun x a => Matrix.of fun _ _ => -(x 0 * Real.exp (-a 0)))
    (toVec 1 [0]) (toVec 1 [1]) (fun s _ => Real.exp s) := by
  let p1 : (Fin 1 → ℝ) × (Fin 1 → ℝ) →L[ℝ] ℝ :=
    (ContinuousLinearMap.proj 0).comp (ContinuousLinearMap.fst ℝ _ _)
  let p2 : (Fin 1 → ℝ) × (Fin 1 → ℝ) →L[ℝ] ℝ :=
    (ContinuousLinearMap.proj 0).comp (ContinuousLinearMap.snd ℝ _ _)
  refine
    { solution := exSmoothPath.solution, continuous := ?_, smooth := ?_, jacobian := ?_, invertible := ?_ }
  · exact continuousOn_pi.2 fun _ => Real.continuous_exp.continuousOn
  · intro s _
    refine contDiffAt_pi.2 fun _ => ?_
    have h1 : ContDiff ℝ k (fun p : (Fin 1 → ℝ) × (Fin 1 → ℝ) => p.1 0) := p1.contDiff
    have h2 : ContDiff ℝ k (fun p : (Fin 1 → ℝ) × (Fin 1 → ℝ) => p.2 0) := p2.contDiff
    exact ((h1.mul h2.neg.exp).sub contDiff_const).contDiffAt
  · intro s _
    refine Eventually.of_forall fun p u v => ?_
    have h1 : HasFDerivAt (fun p : (Fin 1 → ℝ) × (Fin 1 → ℝ) => p.1 0) p1 p := p1.hasFDerivAt
    have h2 : HasFDerivAt (fun p : (Fin 1 → ℝ) × (Fin 1 → ℝ) => p.2 0) p2 p := p2.hasFDerivAt
    have h3 := (h1.mul (HasFDerivAt.exp h2.neg)).sub_const 1
    have h4 : HasFDerivAt (fun (p : (Fin 1 → ℝ) × (Fin 1 → ℝ)) (_ : Fin 1) => p.1 0 * Real.exp (-p.2 0) - 1)
      _ p := hasFDerivAt_pi.2 fun _ : Fin 1 => h3
    rw [h4.fderiv]
    funext i
    have hi : i = 0 := Subsingleton.elim _ _
    subst hi
    simp [Matrix.mulVec, dotProduct, p1, p2]
    ring
  · intro s _
    rw [Matrix.det_fin_one]
    exact (Real.exp_pos _).ne'.isUnit

/-- With Runge-Kutta steps the values of this model approach `e^(t/n)` with order four. -/
example : ∃ (C : ℝ) (N : ℕ), ∀ b : EulerBackend, b.rk4 = true → ∀ n, N ≤ n → ∃ outs,
    runEuler b (vecJac (nx := 1) (np := 1) (fun _ a => Matrix.of fun _ _ => Real.exp (-a 0))
      (fun x a => Matrix.of fun _ _ => -(x 0 * Real.exp (-a 0)))).solve exVarsR exParamsR [] [1] n exDataR
      = .ok outs ∧ ∀ t, t ≤ n →
        ‖toVec 1 (b.stateAfter exVarsR exParamsR exDataR outs t) - (fun _ => Real.exp (t * (1 / n)))‖
          ≤ C / n ^ 4 :=
  C57_fourth_order [] exVarsR exParamsR exDataR [1] exEulerCallR _ _ _ _ (exSmoothModel 5)
    (by funext i; have hi : i = (0 : Fin 1) := Subsingleton.elim _ _; subst hi; simp [toVec, flatOf]; rfl)

example : ∃ (C : ℝ) (N : ℕ), ∀ b : EulerBackend, b.rk4 = false → ∀ n, N ≤ n → ∃ outs,
    runEuler b (vecJac (nx := 1) (np := 1) (fun _ a => Matrix.of fun _ _ => Real.exp (-a 0))
      (fun x a => Matrix.of fun _ _ => -(x 0 * Real.exp (-a 0)))).solve exVarsR exParamsR [] [1] n exDataR
      = .ok outs ∧ ∀ t, t ≤ n →
        ‖toVec 1 (b.stateAfter exVarsR exParamsR exDataR outs t) - (fun _ => Real.exp (t * (1 / n)))‖
          ≤ C / n :=
  C22_smooth_model [] exVarsR exParamsR exDataR [1] exEulerCallR _ _ _ _ (exSmoothModel 2)
    (by funext i; have hi : i = (0 : Fin 1) := Subsingleton.elim _ _; subst hi; simp [toVec, flatOf]; rfl)

end Verif
