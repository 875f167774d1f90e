import Verif.Lemmas.EulerConv
import Verif.Props.Euler
import Mathlib.Analysis.Calculus.FDeriv.Prod
import Mathlib.Analysis.Calculus.FDeriv.Comp
import Mathlib.Analysis.SpecialFunctions.ExpDeriv
import Mathlib.Analysis.Calculus.Deriv.Prod

/-!
# C22: the Euler simulation converges to the true solution
-/

namespace Verif

open Set Filter Topology

variable {nx np : Nat}

/-- The straight parameter path. -/
def thetaPath (t0 tf : Fin np → ℝ) (s : ℝ) : Fin np → ℝ := t0 + s • (tf - t0)

/-- The Jacobians of a model, as functions of vectors, in the form the Euler functions use. -/
noncomputable def vecJac (A : (Fin nx → ℝ) → (Fin np → ℝ) → Matrix (Fin nx) (Fin nx) ℝ)
    (B : (Fin nx → ℝ) → (Fin np → ℝ) → Matrix (Fin nx) (Fin np) ℝ) : Jacobians ℝ nx np :=
  { A := fun x t => A (toVec nx x) (toVec np t), B := fun x t => B (toVec nx x) (toVec np t) }

/-- The direction field along the parameter path: `-A⁻¹ B (theta_final - theta_0)` at the point `x` and
the parameters at time `s`. -/
noncomputable def direction (A : (Fin nx → ℝ) → (Fin np → ℝ) → Matrix (Fin nx) (Fin nx) ℝ)
    (B : (Fin nx → ℝ) → (Fin np → ℝ) → Matrix (Fin nx) (Fin np) ℝ) (t0 tf : Fin np → ℝ)
    (x : Fin nx → ℝ) (s : ℝ) : Fin nx → ℝ :=
  -((A x (thetaPath t0 tf s))⁻¹.mulVec ((B x (thetaPath t0 tf s)).mulVec (tf - t0)))

/-- The hypotheses of C22.  `F` is the model, `A` and `B` its Jacobians along the solution curve `φ`;
the curve has a Lipschitz derivative, the Jacobian is invertible and the direction field Lipschitz in a
tube around it. -/
structure SmoothPath (F : (Fin nx → ℝ) × (Fin np → ℝ) → Fin nx → ℝ)
    (A : (Fin nx → ℝ) → (Fin np → ℝ) → Matrix (Fin nx) (Fin nx) ℝ)
    (B : (Fin nx → ℝ) → (Fin np → ℝ) → Matrix (Fin nx) (Fin np) ℝ) (t0 tf : Fin np → ℝ)
    (φ φ' : ℝ → Fin nx → ℝ) (r L M : ℝ) : Prop where
  /-- `φ s` is an equilibrium at the parameters of time `s`. -/
  solution : ∀ s ∈ Icc (0 : ℝ) 1, F (φ s, thetaPath t0 tf s) = 0
  /-- `A` and `B` are the Jacobians of `F` on the curve. -/
  jacobian : ∀ s ∈ Icc (0 : ℝ) 1, ∃ F' : (Fin nx → ℝ) × (Fin np → ℝ) →L[ℝ] (Fin nx → ℝ),
    HasFDerivAt F F' (φ s, thetaPath t0 tf s) ∧
    ∀ u v, F' (u, v) = (A (φ s) (thetaPath t0 tf s)).mulVec u + (B (φ s) (thetaPath t0 tf s)).mulVec v
  derivative : ∀ s ∈ Icc (0 : ℝ) 1, HasDerivWithinAt φ (φ' s) (Icc 0 1) s
  smooth : ∀ s ∈ Icc (0 : ℝ) 1, ∀ u ∈ Icc (0 : ℝ) 1, ‖φ' u - φ' s‖ ≤ M * |u - s|
  radius : 0 < r
  lipschitz_nonneg : 0 ≤ L
  smooth_nonneg : 0 ≤ M
  invertible : ∀ s ∈ Icc (0 : ℝ) 1, ∀ x, ‖x - φ s‖ ≤ r → IsUnit (A x (thetaPath t0 tf s)).det
  lipschitz : ∀ s ∈ Icc (0 : ℝ) 1, ∀ x, ‖x - φ s‖ ≤ r →
    ‖direction A B t0 tf x s - direction A B t0 tf (φ s) s‖ ≤ L * ‖x - φ s‖

/-- The solution curve follows the direction field (implicit differentiation). -/
theorem SmoothPath.follows {F : (Fin nx → ℝ) × (Fin np → ℝ) → Fin nx → ℝ}
    {A : (Fin nx → ℝ) → (Fin np → ℝ) → Matrix (Fin nx) (Fin nx) ℝ}
    {B : (Fin nx → ℝ) → (Fin np → ℝ) → Matrix (Fin nx) (Fin np) ℝ} {t0 tf : Fin np → ℝ}
    {φ φ' : ℝ → Fin nx → ℝ} {r L M : ℝ} (h : SmoothPath F A B t0 tf φ φ' r L M)
    (s : ℝ) (hs : s ∈ Icc (0 : ℝ) 1) : φ' s = direction A B t0 tf (φ s) s := by
  obtain ⟨F', hF, hAB⟩ := h.jacobian s hs
  have hu := h.invertible s hs (φ s) (by rw [sub_self, norm_zero]; exact h.radius.le)
  have hpath : HasDerivWithinAt (thetaPath t0 tf) (tf - t0) (Icc 0 1) s := by
    have h1 : HasDerivWithinAt (fun s : ℝ => s • (tf - t0)) ((1 : ℝ) • (tf - t0)) (Icc 0 1) s :=
      (hasDerivWithinAt_id s _).smul_const (tf - t0)
    rw [one_smul] at h1
    exact h1.const_add t0
  have hpair : HasDerivWithinAt (fun s => (φ s, thetaPath t0 tf s)) (φ' s, tf - t0) (Icc 0 1) s :=
    (h.derivative s hs).prodMk hpath
  have hcomp : HasDerivWithinAt (fun s => F (φ s, thetaPath t0 tf s)) (F' (φ' s, tf - t0)) (Icc 0 1) s :=
    HasFDerivAt.comp_hasDerivWithinAt s hF hpair
  have hzero : HasDerivWithinAt (fun s => F (φ s, thetaPath t0 tf s)) 0 (Icc 0 1) s :=
    (hasDerivWithinAt_const s (Icc 0 1) (0 : Fin nx → ℝ)).congr (fun u hu => h.solution u hu)
      (h.solution s hs)
  have huniq : UniqueDiffWithinAt ℝ (Icc (0 : ℝ) 1) s := uniqueDiffOn_Icc zero_lt_one s hs
  have hz : F' (φ' s, tf - t0) = 0 := huniq.eq_deriv _ hcomp hzero
  rw [hAB] at hz
  apply mulVec_inj_of_isUnit _ hu
  unfold direction
  rw [Matrix.mulVec_neg, Matrix.mulVec_mulVec, Matrix.mul_nonsing_inv _ hu, Matrix.one_mulVec]
  exact eq_neg_of_add_eq_zero_left hz

/-- One step of a run that is close to the curve. -/
theorem SmoothPath.step {F : (Fin nx → ℝ) × (Fin np → ℝ) → Fin nx → ℝ}
    {A : (Fin nx → ℝ) → (Fin np → ℝ) → Matrix (Fin nx) (Fin nx) ℝ}
    {B : (Fin nx → ℝ) → (Fin np → ℝ) → Matrix (Fin nx) (Fin np) ℝ} {t0 tf : List ℝ}
    {φ φ' : ℝ → Fin nx → ℝ} {r L M : ℝ}
    (h : SmoothPath F A B (toVec np t0) (toVec np tf) φ φ' r L M)
    (ht0 : t0.length = np) (htf : tf.length = np)
    (n : Nat) (hn : 1 ≤ n) (hr : M * Real.exp L / n ≤ r) (j : Nat) (hj : j < n) (x t : List ℝ)
    (hx : x.length = nx) (ht : t.length = np)
    (htj : toVec np t = thetaPath (toVec np t0) (toVec np tf) (j * (1 / n)))
    (hxj : ‖toVec nx x - φ (j * (1 / n))‖ ≤ errBound L M (1 / n) j) :
    ∃ d, (vecJac A B).solve x t (stepVec n tf t0) = .ok d ∧ d.length = nx ∧
      toVec np (List.zipWith (· + ·) t (stepVec n tf t0))
        = thetaPath (toVec np t0) (toVec np tf) ((j + 1 : ℕ) * (1 / n)) ∧
      ‖toVec nx (List.zipWith (· + ·) x d) - φ ((j + 1 : ℕ) * (1 / n))‖
        ≤ errBound L M (1 / n) (j + 1) := by
  have hn0 : (0 : ℝ) < n := by exact_mod_cast hn
  have hs : (j * (1 / n) : ℝ) ∈ Icc (0 : ℝ) 1 := by
    refine ⟨by positivity, ?_⟩
    rw [mul_one_div, div_le_one hn0]
    exact_mod_cast hj.le
  have hclose : ‖toVec nx x - φ (j * (1 / n))‖ ≤ r :=
    hxj.trans ((errBound_le L M h.lipschitz_nonneg h.smooth_nonneg n hn j hj.le).trans hr)
  have hu := h.invertible _ hs _ hclose
  have hstl : (stepVec n tf t0).length = np := by simp [stepVec, ht0, htf]
  have hstep : toVec np (stepVec n tf t0) = (1 / n : ℝ) • (toVec np tf - toVec np t0) := by
    unfold stepVec
    rw [toVec_zipWith _ np tf t0 htf ht0]
    funext i
    simp only [Pi.smul_apply, Pi.sub_apply, smul_eq_mul]
    ring
  have hsolve := (vecJac A B).solve_of_isUnit x t (stepVec n tf t0)
    (by show IsUnit (A (toVec nx x) (toVec np t)).det; rw [htj]; exact hu)
  refine ⟨_, hsolve, by simp, ?_, ?_⟩
  · rw [toVec_add _ _ _ ht hstl, htj, hstep]
    unfold thetaPath
    rw [add_assoc, ← add_smul]
    congr 2
    push_cast
    ring
  · rw [toVec_add _ _ _ hx (by simp), toVec_ofFn]
    have hdir : -(((vecJac A B).A x t)⁻¹.mulVec (((vecJac A B).B x t).mulVec (toVec np (stepVec n tf t0))))
        = (1 / n : ℝ) • direction A B (toVec np t0) (toVec np tf) (toVec nx x) (j * (1 / n)) := by
      show -((A (toVec nx x) (toVec np t))⁻¹.mulVec ((B (toVec nx x) (toVec np t)).mulVec _)) = _
      rw [htj, hstep, Matrix.mulVec_smul, Matrix.mulVec_smul, ← smul_neg]
      rfl
    rw [hdir]
    have hstepE := error_step φ φ' L M (1 / n) h.lipschitz_nonneg h.smooth_nonneg (by positivity)
      h.derivative h.smooth j
      (by rw [mul_one_div, div_le_one hn0]; exact_mod_cast hj) (toVec nx x)
      (direction A B (toVec np t0) (toVec np tf) (toVec nx x) (j * (1 / n)))
      (by rw [h.follows _ hs]; exact h.lipschitz _ hs _ hclose) hxj
    have hc : (((j + 1 : ℕ) : ℝ)) = (j : ℝ) + 1 := by push_cast; ring
    rw [hc]
    exact hstepE

/-- **C22.**  Let `φ` be the solution curve over the straight parameter path from the initial
equilibrium, with Lipschitz derivative, and let the direction field be Lipschitz and the Jacobian
invertible in a tube around it.  Then for every number of steps with `M e^L / n ≤ r` every Euler
back-end succeeds, and after `t` of `n` steps the variables are within `M e^L / n` of the true
equilibrium `φ (t/n)`. -/
theorem C22_error_bound (b : EulerBackend) (hb : b.rk4 = false) (coords : Coords)
    (vars params : List ModelObject) (data : Dict Str (NDArray ℝ)) (tf : List ℝ)
    (hc : EulerCall coords vars params data tf)
    (F : (Fin (totalSize coords vars) → ℝ) × (Fin (totalSize coords params) → ℝ) →
      Fin (totalSize coords vars) → ℝ)
    (A : (Fin (totalSize coords vars) → ℝ) → (Fin (totalSize coords params) → ℝ) →
      Matrix (Fin (totalSize coords vars)) (Fin (totalSize coords vars)) ℝ)
    (B : (Fin (totalSize coords vars) → ℝ) → (Fin (totalSize coords params) → ℝ) →
      Matrix (Fin (totalSize coords vars)) (Fin (totalSize coords params)) ℝ)
    (φ φ' : ℝ → Fin (totalSize coords vars) → ℝ) (r L M : ℝ)
    (h : SmoothPath F A B (toVec _ (flatOf data params)) (toVec _ tf) φ φ' r L M)
    (hstart : φ 0 = toVec _ (flatOf data vars))
    (n : Nat) (hn : 1 ≤ n) (hr : M * Real.exp L / n ≤ r) :
    ∃ outs, runEuler b (vecJac A B).solve vars params coords tf n data = .ok outs ∧
      ∀ t, t ≤ n →
        ‖toVec _ (b.stateAfter vars params data outs t) - φ (t * (1 / n))‖ ≤ M * Real.exp L / n := by
  have lx := (flatOf_spec coords data vars (fun o h => hc.shaped o (by simp [h]))).1
  have lt := (flatOf_spec coords data params (fun o h => hc.shaped o (by simp [h]))).1
  have hst : (stepVec n tf (flatOf data params)).length = totalSize coords params := by
    simp [stepVec, lt, hc.final]
  have hinc : jaxIncrement (vecJac A B).solve b.rk4 = (vecJac A B).solve := by
    funext x t h; simp [jaxIncrement, hb]
  have rows : ∀ k j x t, j + k = n → x.length = totalSize coords vars →
      t.length = totalSize coords params →
      toVec (totalSize coords params) t
        = thetaPath (toVec _ (flatOf data params)) (toVec _ tf) (j * (1 / n)) →
      ‖toVec _ x - φ (j * (1 / n))‖ ≤ errBound L M (1 / n) j →
      ∃ R, eulerRows (vecJac A B).solve (stepVec n tf (flatOf data params)) k x t = .ok R := by
    intro k
    induction k with
    | zero => intro j x t _ _ _ _ _; exact ⟨[], rfl⟩
    | succ k ih =>
      intro j x t hj hx ht htj hxj
      obtain ⟨d, h1, h2, h3, h4⟩ := h.step lt hc.final n hn hr j (by omega) x t hx ht htj hxj
      obtain ⟨R, hR⟩ := ih (j + 1) _ _ (by omega) (by simp [hx, h2]) (by simp [ht, hst]) h3 h4
      refine ⟨(List.zipWith (· + ·) x d, List.zipWith (· + ·) t (stepVec n tf (flatOf data params))) :: R,
        ?_⟩
      rw [eulerRows, h1]
      dsimp only
      rw [hR]
  have h0p : toVec (totalSize coords params) (flatOf data params)
      = thetaPath (toVec _ (flatOf data params)) (toVec _ tf) (((0 : ℕ) : ℝ) * (1 / n)) := by
    simp [thetaPath]
  have h0x : ‖toVec (totalSize coords vars) (flatOf data vars) - φ (((0 : ℕ) : ℝ) * (1 / n))‖
      ≤ errBound L M (1 / n) 0 := by
    simp [hstart, errBound]
  obtain ⟨R, hR⟩ := rows n 0 (flatOf data vars) (flatOf data params) (by omega) lx lt h0p h0x
  obtain ⟨outs, ho⟩ := runEuler_ok_of_rows b (vecJac A B).solve coords vars params data tf n hc
    (vecJac A B).lenOK R (by rw [hinc]; exact hR)
  refine ⟨outs, ho, ?_⟩
  obtain ⟨S, hS0, hS, hstep⟩ := stateAfter_spec b _ coords vars params data tf n hc (vecJac A B).lenOK
    outs ho
  have key : ∀ t, t ≤ n →
      toVec (totalSize coords params) (S t).2 = thetaPath (toVec _ (flatOf data params)) (toVec _ tf) (t * (1 / n)) ∧
      ‖toVec _ (S t).1 - φ (t * (1 / n))‖ ≤ errBound L M (1 / n) t := by
    intro t
    induction t with
    | zero => intro _; rw [hS0]; exact ⟨h0p, h0x⟩
    | succ t ih =>
      intro ht
      obtain ⟨i1, i2⟩ := ih (by omega)
      obtain ⟨-, l1, m1⟩ := hS t (by omega)
      obtain ⟨d, hd, hnext⟩ := hstep t (by omega)
      obtain ⟨d', h1, h2, h3, h4⟩ := h.step lt hc.final n hn hr t (by omega) _ _ l1 m1 i1 i2
      rw [hinc, h1] at hd
      injection hd with hd
      subst hd
      rw [hnext]
      exact ⟨h3, h4⟩
  intro t ht
  obtain ⟨e1, l1, -⟩ := hS t ht
  rw [e1, toVec_append _ _ _ l1]
  exact (key t ht).2.trans (errBound_le L M h.lipschitz_nonneg h.smooth_nonneg n hn t ht)

/-- **C22 (limit).**  Under the same hypotheses the variables at the end of the simulation tend to the
equilibrium at `theta_final` as the number of steps grows: for every `ε` there is a number of steps
from which on every run succeeds and ends within `ε` of it. -/
theorem C22_converges (b : EulerBackend) (hb : b.rk4 = false) (coords : Coords)
    (vars params : List ModelObject) (data : Dict Str (NDArray ℝ)) (tf : List ℝ)
    (hc : EulerCall coords vars params data tf)
    (F : (Fin (totalSize coords vars) → ℝ) × (Fin (totalSize coords params) → ℝ) →
      Fin (totalSize coords vars) → ℝ)
    (A : (Fin (totalSize coords vars) → ℝ) → (Fin (totalSize coords params) → ℝ) →
      Matrix (Fin (totalSize coords vars)) (Fin (totalSize coords vars)) ℝ)
    (B : (Fin (totalSize coords vars) → ℝ) → (Fin (totalSize coords params) → ℝ) →
      Matrix (Fin (totalSize coords vars)) (Fin (totalSize coords params)) ℝ)
    (φ φ' : ℝ → Fin (totalSize coords vars) → ℝ) (r L M : ℝ)
    (h : SmoothPath F A B (toVec _ (flatOf data params)) (toVec _ tf) φ φ' r L M)
    (hstart : φ 0 = toVec _ (flatOf data vars)) (ε : ℝ) (hε : 0 < ε) :
    F (φ 1, toVec _ tf) = 0 ∧
    ∃ N : Nat, ∀ n, N ≤ n → ∃ outs,
      runEuler b (vecJac A B).solve vars params coords tf n data = .ok outs ∧
      ‖toVec _ (b.stateAfter vars params data outs n) - φ 1‖ ≤ ε := by
  constructor
  · have := h.solution 1 (right_mem_Icc.2 zero_le_one)
    rwa [show thetaPath (toVec _ (flatOf data params)) (toVec _ tf) 1 = toVec _ tf by
      simp [thetaPath]] at this
  · obtain ⟨N, hN⟩ := exists_nat_gt (M * Real.exp L / min r ε)
    have hm : 0 < min r ε := lt_min h.radius hε
    refine ⟨N + 1, fun n hn => ?_⟩
    have hn0 : (0 : ℝ) < n := by exact_mod_cast (by omega : 0 < n)
    have hle : M * Real.exp L / n ≤ min r ε := by
      rw [div_le_iff₀ hn0]
      rw [div_lt_iff₀ hm] at hN
      have : (N : ℝ) ≤ n := by exact_mod_cast (by omega : N ≤ n)
      nlinarith
    obtain ⟨outs, h1, h2⟩ := C22_error_bound b hb coords vars params data tf hc F A B φ φ' r L M h
      hstart n (by omega) (hle.trans (min_le_left _ _))
    refine ⟨outs, h1, ?_⟩
    have := h2 n (Nat.le_refl n)
    rw [mul_one_div, div_self hn0.ne'] at this
    exact this.trans (hle.trans (min_le_right _ _))

/-! A concrete instance: one variable `x`, one parameter `a`, the model `x e^{-a} = 1`, moved from
`a = 0` to `a = 1`; the solution curve is `e^s`. -/

def exVarsR : List ModelObject := [{ name := "x" }]
def exParamsR : List ModelObject := [{ name := "a" }]
noncomputable def exDataR : Dict Str (NDArray ℝ) := [("x", ⟨[], [1]⟩), ("a", ⟨[], [0]⟩)]

theorem exEulerCallR : EulerCall [] exVarsR exParamsR exDataR [1] where
  known := by decide
  nonempty := by decide
  someVar := by decide
  someParam := by decide
  keywords := by decide
  keys := by
    show ["x".toList, "a".toList].Perm ["x".toList, "a".toList]
    exact List.Perm.refl _
  shaped := by
    intro o ho
    simp only [exVarsR, exParamsR, List.cons_append, List.nil_append, List.mem_cons,
      List.not_mem_nil, or_false] at ho
    rcases ho with rfl | rfl
    · exact ⟨⟨[], [1]⟩, rfl, rfl, rfl⟩
    · exact ⟨⟨[], [0]⟩, rfl, rfl, rfl⟩
  final := rfl

theorem exSmoothPath : SmoothPath (nx := 1) (np := 1)
    (fun p _ => p.1 0 * Real.exp (-p.2 0) - 1)
    (fun _ a => Matrix.of fun _ _ => Real.exp (-a 0)) (fun x a => Matrix.of fun _ _ => -(x 0 * Real.exp (-a 0)))
    (toVec 1 [0]) (toVec 1 [1]) (fun s _ => Real.exp s) (fun s _ => Real.exp s) 1 1 (Real.exp 1) := by
  have hpath : ∀ s : ℝ, thetaPath (toVec 1 [0]) (toVec 1 [1]) s = fun _ => s := by
    intro s
    funext i
    have hi : i = 0 := Subsingleton.elim _ _
    subst hi
    simp [thetaPath, toVec]
  have hdir : ∀ (x : Fin 1 → ℝ) (s : ℝ), direction (nx := 1) (np := 1)
      (fun _ a => Matrix.of fun _ _ => Real.exp (-a 0))
      (fun x a => Matrix.of fun _ _ => -(x 0 * Real.exp (-a 0))) (toVec 1 [0]) (toVec 1 [1]) x s = x := by
    intro x s
    have hu : IsUnit (Matrix.of fun (_ _ : Fin 1) => Real.exp (-s)).det := by
      rw [Matrix.det_fin_one]
      exact (Real.exp_pos _).ne'.isUnit
    unfold direction
    rw [hpath]
    apply mulVec_inj_of_isUnit _ hu
    rw [Matrix.mulVec_neg, Matrix.mulVec_mulVec, Matrix.mul_nonsing_inv _ hu, Matrix.one_mulVec]
    funext i
    have hi : i = 0 := Subsingleton.elim _ _
    subst hi
    simp [Matrix.mulVec, dotProduct, toVec, mul_comm]
  refine
    { solution := ?_, jacobian := ?_, derivative := ?_, smooth := ?_, radius := one_pos,
      lipschitz_nonneg := zero_le_one, smooth_nonneg := (Real.exp_pos 1).le, invertible := ?_,
      lipschitz := ?_ }
  · intro s _
    funext i
    rw [hpath]
    simp [← Real.exp_add]
  · intro s _
    let p1 : (Fin 1 → ℝ) × (Fin 1 → ℝ) →L[ℝ] ℝ :=
      (ContinuousLinearMap.proj 0).comp (ContinuousLinearMap.fst ℝ _ _)
    let p2 : (Fin 1 → ℝ) × (Fin 1 → ℝ) →L[ℝ] ℝ :=
      (ContinuousLinearMap.proj 0).comp (ContinuousLinearMap.snd ℝ _ _)
    rw [hpath]
    have h1 : HasFDerivAt (fun p : (Fin 1 → ℝ) × (Fin 1 → ℝ) => p.1 0) p1
        ((fun _ => Real.exp s), fun _ => s) := p1.hasFDerivAt
    have h2 : HasFDerivAt (fun p : (Fin 1 → ℝ) × (Fin 1 → ℝ) => p.2 0) p2
        ((fun _ => Real.exp s), fun _ => s) := p2.hasFDerivAt
    have h3 := (h1.mul (HasFDerivAt.exp h2.neg)).sub_const 1
    refine ⟨ContinuousLinearMap.pi fun _ => _, hasFDerivAt_pi.2 fun _ => h3, ?_⟩
    intro u v
    funext i
    have hi : i = 0 := Subsingleton.elim _ _
    subst hi
    simp [Matrix.mulVec, dotProduct, p1, p2]
    ring
  · intro s _
    exact (hasDerivAt_pi.2 fun _ => Real.hasDerivAt_exp s).hasDerivWithinAt
  · intro s hs u hu
    have hb : ∀ v ∈ Icc (0 : ℝ) 1, ‖Real.exp v‖ ≤ Real.exp 1 := by
      intro v hv
      rw [Real.norm_of_nonneg (Real.exp_pos v).le]
      exact Real.exp_le_exp.2 hv.2
    have := (convex_Icc (0 : ℝ) 1).norm_image_sub_le_of_norm_hasDerivWithin_le
      (fun v _ => (Real.hasDerivAt_exp v).hasDerivWithinAt) hb hs hu
    rw [pi_norm_le_iff_of_nonneg (by positivity)]
    intro i
    exact this
  · intro s _ x _
    rw [Matrix.det_fin_one]
    exact (Real.exp_pos _).ne'.isUnit
  · intro s _ x _
    rw [hdir, hdir, one_mul]

/-- The number of steps needed for the bound in this instance is at least `e²`. -/
example (n : Nat) (hn : Real.exp 1 * Real.exp 1 ≤ n) (h1 : 1 ≤ n) : ∃ outs,
    runEuler .numba (vecJac (nx := 1) (np := 1) (fun _ a => Matrix.of fun _ _ => Real.exp (-a 0))
      (fun x a => Matrix.of fun _ _ => -(x 0 * Real.exp (-a 0)))).solve exVarsR exParamsR [] [1] n exDataR
      = .ok outs ∧ ∀ t, t ≤ n →
        ‖toVec 1 (EulerBackend.numba.stateAfter exVarsR exParamsR exDataR outs t)
          - (fun _ => Real.exp (t * (1 / n)))‖ ≤ Real.exp 1 * Real.exp 1 / n :=
  C22_error_bound .numba rfl [] exVarsR exParamsR exDataR [1] exEulerCallR _ _ _ _ _ 1 1 (Real.exp 1)
    exSmoothPath (by funext i; have hi : i = (0 : Fin 1) := Subsingleton.elim _ _; subst hi; simp [toVec, flatOf]; rfl)
    n h1 (by rw [div_le_one (by exact_mod_cast h1)]; exact hn)

end Verif
