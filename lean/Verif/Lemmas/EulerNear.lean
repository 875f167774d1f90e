import Verif.Props.SmoothEuler

/-!
# Euler steps that start near the solution curve
-/

namespace Verif

open Set

variable {nx np : Nat}

/-- The bound on the error after `j` steps of size `δ` from a start that is off by `ε`. -/
noncomputable def nearBound (ε L M δ : ℝ) (j : Nat) : ℝ := (ε + j * (M * δ ^ 2)) * (1 + L * δ) ^ j

theorem nearBound_succ (ε L M δ : ℝ) (hL : 0 ≤ L) (hM : 0 ≤ M) (hδ : 0 ≤ δ) (j : Nat) :
    (1 + L * δ) * nearBound ε L M δ j + M * δ ^ 2 ≤ nearBound ε L M δ (j + 1) := by
  unfold nearBound
  have hq : 1 ≤ 1 + L * δ := by nlinarith [mul_nonneg hL hδ]
  have hp : 1 ≤ (1 + L * δ) ^ (j + 1) := one_le_pow₀ hq
  have hmd : 0 ≤ M * δ ^ 2 := by positivity
  have h1 : M * δ ^ 2 * 1 ≤ M * δ ^ 2 * (1 + L * δ) ^ (j + 1) := mul_le_mul_of_nonneg_left hp hmd
  have h2 : (ε + ((j + 1 : ℕ) : ℝ) * (M * δ ^ 2)) * (1 + L * δ) ^ (j + 1)
      = (1 + L * δ) * ((ε + j * (M * δ ^ 2)) * (1 + L * δ) ^ j) + M * δ ^ 2 * (1 + L * δ) ^ (j + 1) := by
    push_cast
    ring
  rw [h2]
  linarith

theorem nearBound_le (ε L M : ℝ) (hε : 0 ≤ ε) (hL : 0 ≤ L) (hM : 0 ≤ M) (n : Nat) (hn : 1 ≤ n) (j : Nat)
    (hj : j ≤ n) : nearBound ε L M (1 / n) j ≤ (ε + M / n) * Real.exp L := by
  have hn0 : (0 : ℝ) < n := by exact_mod_cast hn
  unfold nearBound
  have h1 : (1 + L * (1 / (n : ℝ))) ^ j ≤ Real.exp L := by
    calc (1 + L * (1 / (n : ℝ))) ^ j ≤ (1 + L * (1 / (n : ℝ))) ^ n :=
          pow_le_pow_right₀ (by
            have : 0 ≤ L * (1 / (n : ℝ)) := by positivity
            linarith) hj
      _ ≤ (Real.exp (L * (1 / (n : ℝ)))) ^ n := by
          apply pow_le_pow_left₀ (by positivity)
          linarith [Real.add_one_le_exp (L * (1 / (n : ℝ)))]
      _ = Real.exp L := by
          rw [← Real.exp_nat_mul]
          congr 1
          field_simp
  have hjn : (j : ℝ) ≤ n := by exact_mod_cast hj
  have h2 : (j : ℝ) * (M * (1 / (n : ℝ)) ^ 2) ≤ M / n := by
    have : (n : ℝ) * (M * (1 / (n : ℝ)) ^ 2) = M / n := by field_simp
    rw [← this]
    exact mul_le_mul_of_nonneg_right hjn (by positivity)
  exact mul_le_mul (by linarith) h1 (by positivity) (by positivity)

/-- One Euler step, whatever the error before it. -/
theorem error_step_near {E : Type _} [NormedAddCommGroup E] [NormedSpace ℝ E] (φ φ' : ℝ → E) (L M δ e : ℝ)
    (hL : 0 ≤ L) (hM : 0 ≤ M) (hδ : 0 ≤ δ)
    (hder : ∀ s ∈ Set.Icc (0 : ℝ) 1, HasDerivWithinAt φ (φ' s) (Set.Icc 0 1) s)
    (hlip : ∀ s ∈ Set.Icc (0 : ℝ) 1, ∀ u ∈ Set.Icc (0 : ℝ) 1, ‖φ' u - φ' s‖ ≤ M * |u - s|)
    (s : ℝ) (hs : 0 ≤ s) (hs1 : s + δ ≤ 1) (x g : E)
    (hg : ‖g - φ' s‖ ≤ L * ‖x - φ s‖) (hx : ‖x - φ s‖ ≤ e) :
    ‖x + δ • g - φ (s + δ)‖ ≤ (1 + L * δ) * e + M * δ ^ 2 := by
  have hle := local_error φ φ' M hM hder hlip s δ hδ hs hs1
  have hdecomp : x + δ • g - φ (s + δ)
      = (x - φ s) + δ • (g - φ' s) - (φ (s + δ) - φ s - δ • φ' s) := by
    rw [smul_sub]; abel
  rw [hdecomp]
  have h1 : ‖δ • (g - φ' s)‖ ≤ δ * (L * ‖x - φ s‖) := by
    rw [norm_smul, Real.norm_of_nonneg hδ]
    exact mul_le_mul_of_nonneg_left hg hδ
  calc ‖(x - φ s) + δ • (g - φ' s) - (φ (s + δ) - φ s - δ • φ' s)‖
      ≤ ‖x - φ s‖ + ‖δ • (g - φ' s)‖ + ‖φ (s + δ) - φ s - δ • φ' s‖ :=
        (norm_sub_le _ _).trans (by gcongr; exact norm_add_le _ _)
    _ ≤ ‖x - φ s‖ + δ * (L * ‖x - φ s‖) + M * δ ^ 2 := by gcongr
    _ = (1 + L * δ) * ‖x - φ s‖ + M * δ ^ 2 := by ring
    _ ≤ (1 + L * δ) * e + M * δ ^ 2 := by gcongr

/-- C22 for a start that is only near the curve. -/
theorem euler_near (b : EulerBackend) (hb : b.rk4 = false) (coords : Coords)
    (vars params : List ModelObject) (data : Dict Str (NDArray ℝ)) (tf : List ℝ)
    (hc : EulerCall coords vars params data tf)
    (F : (Fin (totalSize coords vars) → ℝ) × (Fin (totalSize coords params) → ℝ) →
      Fin (totalSize coords vars) → ℝ)
    (A : (Fin (totalSize coords vars) → ℝ) → (Fin (totalSize coords params) → ℝ) →
      Matrix (Fin (totalSize coords vars)) (Fin (totalSize coords vars)) ℝ)
    (B : (Fin (totalSize coords vars) → ℝ) → (Fin (totalSize coords params) → ℝ) →
      Matrix (Fin (totalSize coords vars)) (Fin (totalSize coords params)) ℝ)
    (φ φ' : ℝ → Fin (totalSize coords vars) → ℝ) (r L M : ℝ)
    (h : SmoothPath F A B (toVec _ (flatOf data params)) (toVec _ tf) φ φ' r L M) (ε : ℝ)
    (hstart : ‖toVec _ (flatOf data vars) - φ 0‖ ≤ ε)
    (n : Nat) (hn : 1 ≤ n) (hr : (ε + M / n) * Real.exp L ≤ r) :
    ∃ outs, runEuler b (vecJac A B).solve vars params coords tf n data = .ok outs ∧
      ∀ t, t ≤ n →
        ‖toVec _ (b.stateAfter vars params data outs t) - φ (t * (1 / n))‖ ≤ (ε + M / n) * Real.exp L := by
  have hn0 : (0 : ℝ) < n := by exact_mod_cast hn
  have hε : 0 ≤ ε := (norm_nonneg _).trans hstart
  have hL := h.lipschitz_nonneg
  have hM := h.smooth_nonneg
  have lt := (flatOf_spec coords data params (fun o h => hc.shaped o (by simp [h]))).1
  have hstl : (stepVec n tf (flatOf data params)).length = totalSize coords params := by
    simp [stepVec, lt, hc.final]
  have hstep : toVec (totalSize coords params) (stepVec n tf (flatOf data params)) =
      (1 / n : ℝ) • (toVec _ tf - toVec _ (flatOf data params)) := by
    unfold stepVec
    rw [toVec_zipWith _ _ tf _ hc.final lt]
    funext i
    simp only [Pi.smul_apply, Pi.sub_apply, smul_eq_mul]
    ring
  obtain ⟨outs, ho, hS⟩ := run_invariant b (vecJac A B).solve coords vars params data tf n hc
    (vecJac A B).lenOK
    (fun j x t => toVec _ t = thetaPath (toVec _ (flatOf data params)) (toVec _ tf) (j * (1 / n)) ∧
      ‖toVec _ x - φ (j * (1 / n))‖ ≤ nearBound ε L M (1 / n) j)
    (by
      constructor
      · simp [thetaPath]
      · simpa [nearBound] using hstart)
    (by
      rintro j hj x t hx ht ⟨htj, hxj⟩
      have hs : (j * (1 / n) : ℝ) ∈ Icc (0 : ℝ) 1 := by
        refine ⟨by positivity, ?_⟩
        rw [mul_one_div, div_le_one hn0]
        exact_mod_cast hj.le
      have hs1 : (j * (1 / n) : ℝ) + 1 / n ≤ 1 := by
        rw [← add_one_mul, mul_one_div, div_le_one hn0]
        exact_mod_cast hj
      have hclose : ‖toVec _ x - φ (j * (1 / n))‖ ≤ r :=
        hxj.trans ((nearBound_le ε L M hε hL hM n hn j hj.le).trans hr)
      have hu := h.invertible _ hs _ hclose
      obtain ⟨d, hd, hdl, hdv⟩ := solve_on_path lt hc.final n x t _ htj hu
      have hc1 : (((j + 1 : ℕ) : ℝ)) * (1 / n) = j * (1 / n) + 1 / n := by push_cast; ring
      refine ⟨d, by simpa [jaxIncrement, hb] using hd, hdl, ?_, ?_⟩
      · rw [toVec_add _ _ _ ht hstl, htj, hstep, hc1]
        unfold thetaPath
        module
      · rw [toVec_add _ _ _ hx hdl, hdv, hc1]
        exact (error_step_near φ φ' L M (1 / n) _ hL hM (by positivity) h.derivative h.smooth _ hs.1 hs1 _ _
          (by rw [h.follows _ hs]; exact h.lipschitz _ hs _ hclose) hxj).trans
          (nearBound_succ ε L M _ hL hM (by positivity) j))
  refine ⟨outs, ho, fun t ht => ?_⟩
  obtain ⟨x, th, e1, l1, -, hx⟩ := hS t ht
  rw [e1, toVec_append _ _ _ l1]
  exact hx.trans (nearBound_le ε L M hε hL hM n hn t ht)

/-- A smooth model: there are a radius and a constant that serve every start near the curve. -/
theorem smooth_near (coords : Coords) (vars params : List ModelObject) (t0 tf : List ℝ)
    (F : (Fin (totalSize coords vars) → ℝ) × (Fin (totalSize coords params) → ℝ) →
      Fin (totalSize coords vars) → ℝ)
    (A : (Fin (totalSize coords vars) → ℝ) → (Fin (totalSize coords params) → ℝ) →
      Matrix (Fin (totalSize coords vars)) (Fin (totalSize coords vars)) ℝ)
    (B : (Fin (totalSize coords vars) → ℝ) → (Fin (totalSize coords params) → ℝ) →
      Matrix (Fin (totalSize coords vars)) (Fin (totalSize coords params)) ℝ)
    (φ : ℝ → Fin (totalSize coords vars) → ℝ)
    (h : SmoothModel 2 F A B (toVec _ t0) (toVec _ tf) φ) :
    ∃ (C ρ : ℝ) (N : ℕ), 0 < C ∧ 0 < ρ ∧ ∀ b : EulerBackend, b.rk4 = false →
      ∀ (data : Dict Str (NDArray ℝ)), EulerCall coords vars params data tf → flatOf data params = t0 →
      ∀ ε ≤ ρ, ‖toVec _ (flatOf data vars) - φ 0‖ ≤ ε → ∀ n, N ≤ n →
      ∃ outs, runEuler b (vecJac A B).solve vars params coords tf n data = .ok outs ∧
        ∀ t, t ≤ n →
          ‖toVec _ (b.stateAfter vars params data outs t) - φ (t * (1 / n))‖ ≤ C * (ε + 1 / n) := by
  obtain ⟨r, L, M, hp⟩ := h.smoothPath
  have hr := hp.radius
  have hM := hp.smooth_nonneg
  have hexp := Real.exp_pos L
  obtain ⟨N, hN⟩ := exists_nat_gt (2 * M * Real.exp L / r)
  refine ⟨(1 + M) * Real.exp L, r / (2 * Real.exp L), N + 1, by positivity, by positivity, ?_⟩
  intro b hb data hc ht0 ε hε hstart n hn
  subst ht0
  have hn0 : (0 : ℝ) < n := by exact_mod_cast (by omega : 0 < n)
  have hε0 : 0 ≤ ε := (norm_nonneg _).trans hstart
  have h1 : M / n * Real.exp L ≤ r / 2 := by
    rw [div_mul_eq_mul_div, div_le_iff₀ hn0]
    rw [div_lt_iff₀ hr] at hN
    have : (N : ℝ) ≤ n := by exact_mod_cast (by omega : N ≤ n)
    nlinarith
  have h2 : ε * Real.exp L ≤ r / 2 := by
    calc ε * Real.exp L ≤ r / (2 * Real.exp L) * Real.exp L := by gcongr
      _ = r / 2 := by field_simp
  obtain ⟨outs, ho, hS⟩ := euler_near b hb coords vars params data tf hc F A B φ _ r L M hp ε hstart n
    (by omega) (by rw [add_mul]; linarith)
  refine ⟨outs, ho, fun t ht => (hS t ht).trans ?_⟩
  have h3 : (0 : ℝ) ≤ 1 / n := by positivity
  have h4 : M / n = M * (1 / n) := by ring
  rw [h4]
  have : ε + M * (1 / n) ≤ (1 + M) * (ε + 1 / n) := by nlinarith [mul_nonneg hM hε0]
  calc (ε + M * (1 / n)) * Real.exp L ≤ (1 + M) * (ε + 1 / n) * Real.exp L := by gcongr
    _ = _ := by ring

/-! ### Runge-Kutta steps -/

/-- How far Runge-Kutta steps can be off after `j` steps from a start that is off by `ε`. -/
noncomputable def rkNear (ε L C h : ℝ) (j : ℕ) : ℝ := (ε + j * (C * h ^ 5)) * (1 + 2 * L * h) ^ j

theorem rkNear_succ (ε L C h : ℝ) (hL : 0 ≤ L) (hC : 0 ≤ C) (hh : 0 ≤ h) (j : ℕ) :
    (1 + 2 * L * h) * rkNear ε L C h j + C * h ^ 5 ≤ rkNear ε L C h (j + 1) := by
  have h1 := rkBound_succ L C h hL hC hh j
  have h2 : ∀ j, rkNear ε L C h j = ε * (1 + 2 * L * h) ^ j + rkBound L C h j := by
    intro j
    unfold rkNear rkBound
    ring
  rw [h2, h2]
  have h3 : (1 + 2 * L * h) * (ε * (1 + 2 * L * h) ^ j + rkBound L C h j) =
      ε * (1 + 2 * L * h) ^ (j + 1) + (1 + 2 * L * h) * rkBound L C h j := by ring
  rw [h3]
  linarith

theorem rkNear_le (ε L C : ℝ) (hε : 0 ≤ ε) (hL : 0 ≤ L) (hC : 0 ≤ C) (n : ℕ) (hn : 1 ≤ n) (j : ℕ)
    (hj : j ≤ n) : rkNear ε L C (1 / n) j ≤ ε * Real.exp (2 * L) + C * Real.exp (2 * L) / n ^ 4 := by
  have hn0 : (0 : ℝ) < n := by exact_mod_cast hn
  have h1 : (1 + 2 * L * (1 / (n : ℝ))) ^ j ≤ Real.exp (2 * L) := by
    calc (1 + 2 * L * (1 / (n : ℝ))) ^ j ≤ (1 + 2 * L * (1 / (n : ℝ))) ^ n :=
          pow_le_pow_right₀ (by
            have : 0 ≤ 2 * L * (1 / (n : ℝ)) := by positivity
            linarith) hj
      _ ≤ (Real.exp (2 * L * (1 / (n : ℝ)))) ^ n := by
          apply pow_le_pow_left₀ (by positivity)
          linarith [Real.add_one_le_exp (2 * L * (1 / (n : ℝ)))]
      _ = Real.exp (2 * L) := by
          rw [← Real.exp_nat_mul]
          congr 1
          field_simp
  have h2 : rkNear ε L C (1 / n) j = ε * (1 + 2 * L * (1 / n)) ^ j + rkBound L C (1 / n) j := by
    unfold rkNear rkBound
    ring
  rw [h2]
  exact add_le_add (mul_le_mul_of_nonneg_left h1 hε) (rkBound_le L C hL hC n hn j hj)

/-- One Runge-Kutta step, whatever the error before it. -/
theorem rk_error_near {V : Type _} [NormedAddCommGroup V] [NormedSpace ℝ V] {f : V → V} {y : ℝ → V} {r : ℝ}
    {L M C h ε : ℝ} (T : FieldTube f y r L M) {s : ℝ} (hs : 0 ≤ s) (hh : 0 ≤ h)
    (hsh : s + h ≤ 1) (hM : h * M ≤ r / 2) (hL : h * L ≤ 1)
    (hloc : ‖rkStep f h (y s) - y (s + h)‖ ≤ C * h ^ 5) (hC : 0 ≤ C) {j : ℕ} {x : V}
    (hx : ‖x - y s‖ ≤ rkNear ε L C h j) (hr : rkNear ε L C h j ≤ r / 2) :
    ‖rkStep f h x - y (s + h)‖ ≤ rkNear ε L C h (j + 1) := by
  have hstr := T.stretch (x := x) (x' := y s) (s := s) ⟨hs, by linarith⟩ hh hM hL (hx.trans hr)
    (by rw [sub_self, norm_zero]; linarith [T.radius])
  have hq : 0 ≤ 1 + 2 * L * h := by nlinarith [mul_nonneg T.lip_nonneg hh]
  calc ‖rkStep f h x - y (s + h)‖
      = ‖(rkStep f h x - rkStep f h (y s)) + (rkStep f h (y s) - y (s + h))‖ := by congr 1; abel
    _ ≤ (1 + 2 * L * h) * ‖x - y s‖ + C * h ^ 5 := (norm_add_le _ _).trans (add_le_add hstr hloc)
    _ ≤ (1 + 2 * L * h) * rkNear ε L C h j + C * h ^ 5 := by gcongr
    _ ≤ rkNear ε L C h (j + 1) := rkNear_succ ε L C h T.lip_nonneg hC hh j

/-- C57 for a start that is only near the curve: one radius and one constant serve every such start. -/
theorem smooth_near_rk (coords : Coords) (vars params : List ModelObject) (t0 tf : List ℝ)
    (F : (Fin (totalSize coords vars) → ℝ) × (Fin (totalSize coords params) → ℝ) →
      Fin (totalSize coords vars) → ℝ)
    (A : (Fin (totalSize coords vars) → ℝ) → (Fin (totalSize coords params) → ℝ) →
      Matrix (Fin (totalSize coords vars)) (Fin (totalSize coords vars)) ℝ)
    (B : (Fin (totalSize coords vars) → ℝ) → (Fin (totalSize coords params) → ℝ) →
      Matrix (Fin (totalSize coords vars)) (Fin (totalSize coords params)) ℝ)
    (φ : ℝ → Fin (totalSize coords vars) → ℝ)
    (h : SmoothModel 5 F A B (toVec _ t0) (toVec _ tf) φ) :
    ∃ (C ρ : ℝ) (N : ℕ), 0 < C ∧ 0 < ρ ∧ ∀ b : EulerBackend, b.rk4 = true →
      ∀ (data : Dict Str (NDArray ℝ)), EulerCall coords vars params data tf → flatOf data params = t0 →
      ∀ ε ≤ ρ, ‖toVec _ (flatOf data vars) - φ 0‖ ≤ ε → ∀ n, N ≤ n →
      ∃ outs, runEuler b (vecJac A B).solve vars params coords tf n data = .ok outs ∧
        ∀ t, t ≤ n →
          ‖toVec _ (b.stateAfter vars params data outs t) - φ (t * (1 / n))‖ ≤ C * (ε + 1 / n ^ 4) := by
  obtain ⟨G, hG⟩ : ∃ G, G = field A B (toVec _ t0) (toVec _ tf) := ⟨_, rfl⟩
  obtain ⟨y, hy⟩ : ∃ y : ℝ → (Fin (totalSize coords vars) → ℝ) × ℝ, y = fun s => (φ s, s) := ⟨_, rfl⟩
  have hcurve : ContinuousOn y (Icc 0 1) := by rw [hy]; exact h.continuous.prodMk continuousOn_id
  have hsm : ∀ s ∈ Icc (0 : ℝ) 1, ContDiffAt ℝ 4 G (y s) := by
    intro s hs; rw [hG, hy]; exact h.field_contDiffAt (k := 4) hs
  have hder : ∀ s ∈ Icc (0 : ℝ) 1, HasDerivWithinAt y (G (y s)) (Icc 0 1) s := by
    intro s hs; rw [hG, hy]
    exact (h.hasDerivWithinAt (k := 4) hs).prodMk (hasDerivWithinAt_id s _)
  obtain ⟨f1, f2, f3, r', K, E⟩ := exists_expansion hcurve hsm
  obtain ⟨C, δ, hC, hδ, hloc⟩ := E.local_error hder
  obtain ⟨r, L, T, hQ⟩ := exists_fieldTube hcurve (f := G) (fun s hs => (hsm s hs).of_le (by norm_num))
    (Q := fun q => IsUnit (A q.1 (thetaPath (toVec _ t0) (toVec _ tf) q.2)).det)
    (fun s hs => by rw [hy]; exact h.eventually_isUnit (k := 4) hs)
  have hr := T.radius
  have hL := T.lip_nonneg
  obtain ⟨N1, hN1⟩ := exists_nat_gt (1 / δ)
  obtain ⟨N2, hN2⟩ := exists_nat_gt (2 * L / r)
  obtain ⟨N3, hN3⟩ := exists_nat_gt L
  obtain ⟨N4, hN4⟩ := exists_nat_gt (4 * (C * Real.exp (2 * L)) / r)
  have hexp := Real.exp_pos (2 * L)
  refine ⟨(1 + C) * Real.exp (2 * L), r / (4 * Real.exp (2 * L)), N1 + N2 + N3 + N4 + 1, by positivity,
    by positivity, ?_⟩
  intro b hb data hc ht0 ε hε hstart n hn
  subst ht0
  have lx := (flatOf_spec coords data vars (fun o h => hc.shaped o (by simp [h]))).1
  have lt := (flatOf_spec coords data params (fun o h => hc.shaped o (by simp [h]))).1
  have hε0 : 0 ≤ ε := (norm_nonneg _).trans hstart
  have hε2 : ε * Real.exp (2 * L) ≤ r / 4 := by
    calc ε * Real.exp (2 * L) ≤ r / (4 * Real.exp (2 * L)) * Real.exp (2 * L) := by gcongr
      _ = r / 4 := by field_simp
  have hn0 : (0 : ℝ) < n := by exact_mod_cast (by omega : 0 < n)
  have hle : ∀ {m : ℕ}, m ≤ N1 + N2 + N3 + N4 → (m : ℝ) ≤ n := fun hm => by
    exact_mod_cast (by omega : _ ≤ n)
  have hh : (0 : ℝ) ≤ 1 / n := by positivity
  have hδ' : (1 / n : ℝ) < δ := by
    rw [div_lt_iff₀ hδ] at hN1
    rw [div_lt_iff₀ hn0]
    nlinarith [hle (m := N1) (by omega)]
  have hM' : (1 / n : ℝ) * L ≤ r / 2 := by
    rw [div_lt_iff₀ hr] at hN2
    rw [div_mul_eq_mul_div, div_le_iff₀ hn0]
    nlinarith [hle (m := N2) (by omega)]
  have hL' : (1 / n : ℝ) * L ≤ 1 := by
    rw [div_mul_eq_mul_div, div_le_iff₀ hn0]
    linarith [hle (m := N3) (by omega)]
  have hCr : C * Real.exp (2 * L) / (n : ℝ) ^ 4 ≤ r / 4 := by
    rw [div_lt_iff₀ hr] at hN4
    have h1 : C * Real.exp (2 * L) / (n : ℝ) ≤ r / 4 := by
      rw [div_le_iff₀ hn0]
      nlinarith [hle (m := N4) (by omega)]
    have h2 : (n : ℝ) ≤ (n : ℝ) ^ 4 := by
      have : (1 : ℝ) ≤ n := by exact_mod_cast (by omega : 1 ≤ n)
      exact le_self_pow₀ this (by norm_num)
    refine (div_le_div_of_nonneg_left (by positivity) hn0 h2).trans h1
  have hbound : ∀ j, j ≤ n → rkNear ε L C (1 / n) j ≤ r / 2 := fun j hj =>
    (rkNear_le ε L C hε0 hL hC n (by omega) j hj).trans (by linarith)
  obtain ⟨outs, ho, hI⟩ := run_invariant b (vecJac A B).solve coords vars params data tf n hc
    (vecJac A B).lenOK (fun j x t =>
      toVec (totalSize coords params) t
        = thetaPath (toVec _ (flatOf data params)) (toVec _ tf) (j * (1 / n)) ∧
      ‖((toVec _ x, (j * (1 / n) : ℝ)) : (Fin (totalSize coords vars) → ℝ) × ℝ) - y (j * (1 / n))‖
        ≤ rkNear ε L C (1 / n) j)
    ⟨by simp [thetaPath], by
      simp only [hy, rkNear, Nat.cast_zero, zero_mul, pow_zero, mul_one, add_zero, Prod.mk_sub_mk, sub_self] at hstart ⊢
      rw [Prod.norm_mk, norm_zero, max_eq_left (norm_nonneg _)]
      exact hstart⟩ (by
      rintro j hj x t hx ht ⟨i1, i2⟩
      obtain ⟨s, hs⟩ : ∃ s : ℝ, s = j * (1 / n) := ⟨_, rfl⟩
      have hs0 : 0 ≤ s := by rw [hs]; positivity
      have hs1 : s + 1 / n ≤ 1 := by
        rw [hs, mul_one_div, ← add_div, div_le_one hn0]
        exact_mod_cast hj
      have hsI : s ∈ Icc (0 : ℝ) 1 := ⟨hs0, by linarith⟩
      have hj1 : (((j + 1 : ℕ) : ℝ)) * (1 / n) = s + 1 / n := by rw [hs]; push_cast; ring
      rw [← hs] at i1 i2
      have hxs : ‖((toVec _ x, s) : (Fin (totalSize coords vars) → ℝ) × ℝ) - y s‖ ≤ r / 2 :=
        i2.trans (hbound j hj.le)
      have hin1 : ‖((toVec _ x, s) : (Fin (totalSize coords vars) → ℝ) × ℝ) - y s‖ ≤ r := by linarith
      have b1 := T.bound s hsI _ hin1
      have hin2 := T.stages hsI hh hM' hxs b1 (a := (1 / n : ℝ) / 2) (by linarith) (by linarith)
      have b2 := T.bound s hsI _ hin2
      have hin3 := T.stages hsI hh hM' hxs b2 (a := (1 / n : ℝ) / 2) (by linarith) (by linarith)
      have b3 := T.bound s hsI _ hin3
      have hin4 := T.stages hsI hh hM' hxs b3 (a := (1 / n : ℝ)) hh le_rfl
      obtain ⟨d, c1, c2, c3, c4⟩ := jaxIncrement_rkStep (A := A) (B := B) lt hc.final n x t s hx ht i1 G hG
        (fun q => IsUnit (A q.1 (thetaPath (toVec _ (flatOf data params)) (toVec _ tf) q.2)).det)
        (fun q hq => hq) _ _ _ _ rfl rfl rfl rfl
        (hQ s hsI _ hin1) (hQ s hsI _ hin2) (hQ s hsI _ hin3) (hQ s hsI _ hin4)
      refine ⟨d, by rw [hb]; exact c1, c2, ?_⟩
      rw [hj1, c4]
      exact ⟨c3, rk_error_near T hs0 hh hs1 hM' hL' (hloc s _ hs0 hh hs1 hδ') hC i2 (hbound j hj.le)⟩)
  refine ⟨outs, ho, fun t ht => ?_⟩
  obtain ⟨x, th, e, l, -, hb2⟩ := hI t ht
  rw [e, toVec_append _ _ _ l]
  have h1 : ‖toVec (totalSize coords vars) x - φ (t * (1 / n))‖
      ≤ ‖((toVec _ x, (t * (1 / n) : ℝ)) : (Fin (totalSize coords vars) → ℝ) × ℝ) - y (t * (1 / n))‖ := by
    rw [hy]
    exact norm_fst_le (((toVec _ x, (t * (1 / n) : ℝ)) : (Fin (totalSize coords vars) → ℝ) × ℝ)
      - (φ (t * (1 / n)), (t * (1 / n) : ℝ)))
  refine h1.trans (hb2.trans ((rkNear_le ε L C hε0 hL hC n (by omega) t ht).trans ?_))
  have h3 : (0 : ℝ) ≤ 1 / n ^ 4 := by positivity
  have : ε * Real.exp (2 * L) + C * Real.exp (2 * L) / n ^ 4 =
      (ε + C * (1 / n ^ 4)) * Real.exp (2 * L) := by ring
  rw [this]
  have h4 : ε + C * (1 / n ^ 4) ≤ (1 + C) * (ε + 1 / n ^ 4) := by nlinarith [mul_nonneg hC hε0]
  calc (ε + C * (1 / n ^ 4)) * Real.exp (2 * L) ≤ (1 + C) * (ε + 1 / n ^ 4) * Real.exp (2 * L) := by gcongr
    _ = _ := by ring

end Verif
