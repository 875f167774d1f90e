import Mathlib.Analysis.Calculus.MeanValue
import Mathlib.Analysis.Calculus.Deriv.Add
import Mathlib.Analysis.Calculus.Deriv.Mul
import Mathlib.Analysis.Calculus.Deriv.Pow
import Mathlib.Analysis.Calculus.Deriv.Comp
import Mathlib.Analysis.SpecialFunctions.Exp
import Mathlib.Analysis.Asymptotics.Lemmas
import Mathlib.Analysis.Normed.Operator.BoundedLinearMaps
import Mathlib.Analysis.Normed.Operator.Bilinear
import Mathlib.Analysis.Normed.Operator.NormedSpace
import Mathlib.Tactic.Module

/-!
# The order of the classical Runge-Kutta step

For a field `f` with a third-order expansion along a solution curve `y` of `y' = f y`, the step of the
classical Runge-Kutta method started on the curve misses the curve by `O(h⁵)`, uniformly along the curve.
-/

set_option maxSynthPendingDepth 3

namespace Verif

open Set Filter Topology Asymptotics

variable {V : Type _} [NormedAddCommGroup V] [NormedSpace ℝ V]

/-- One classical Runge-Kutta step. -/
noncomputable def rkStep (f : V → V) (h : ℝ) (x : V) : V :=
  let k1 := f x
  let k2 := f (x + (h / 2) • k1)
  let k3 := f (x + (h / 2) • k2)
  let k4 := f (x + h • k3)
  x + (h / 6) • (k1 + (2 : ℝ) • k2 + (2 : ℝ) • k3 + k4)

/-- Starting time and step length, both in the time interval, step length tending to 0. -/
def stepSet : Set (ℝ × ℝ) := {p | 0 ≤ p.1 ∧ 0 ≤ p.2 ∧ p.1 + p.2 ≤ 1}

def stepFilter : Filter (ℝ × ℝ) := 𝓟 stepSet ⊓ comap Prod.snd (𝓝 0)

theorem eventually_mem_stepSet : ∀ᶠ p in stepFilter, p ∈ stepSet :=
  mem_inf_of_left (mem_principal_self _)

theorem tendsto_step : Tendsto Prod.snd stepFilter (𝓝 (0 : ℝ)) :=
  tendsto_comap.mono_left inf_le_right

theorem eventually_small {δ : ℝ} (hδ : 0 < δ) : ∀ᶠ p in stepFilter, |p.2| < δ := by
  have := tendsto_step.eventually (Metric.ball_mem_nhds (0 : ℝ) hδ)
  filter_upwards [this] with p hp
  simpa [Real.dist_eq] using hp

/-- What holds eventually holds for all sufficiently small steps, wherever they start. -/
theorem eventually_stepFilter {P : ℝ × ℝ → Prop} (h : ∀ᶠ p in stepFilter, P p) :
    ∃ δ > 0, ∀ s t, 0 ≤ s → 0 ≤ t → s + t ≤ 1 → t < δ → P (s, t) := by
  unfold stepFilter at h
  rw [inf_comm, eventually_inf_principal, eventually_comap] at h
  obtain ⟨δ, hδ, hb⟩ := Metric.eventually_nhds_iff.1 h
  refine ⟨δ, hδ, fun s t hs ht hst htd => ?_⟩
  exact hb (y := t) (by simpa [Real.dist_eq, abs_of_nonneg ht] using htd) (s, t) rfl ⟨hs, ht, hst⟩

/-- `g = O(h^k)` along the curve. -/
def Ord (k : ℕ) (g : ℝ × ℝ → V) : Prop := g =O[stepFilter] fun p => p.2 ^ k

omit [NormedSpace ℝ V] in
theorem Ord.mono {j k : ℕ} (h : j ≤ k) {g : ℝ × ℝ → V} (hg : Ord k g) : Ord j g := by
  refine IsBigO.trans hg ?_
  rw [isBigO_iff]
  refine ⟨1, ?_⟩
  filter_upwards [eventually_small one_pos] with p hp
  rw [one_mul, norm_pow, norm_pow, Real.norm_eq_abs]
  exact pow_le_pow_of_le_one (abs_nonneg _) hp.le h

omit [NormedSpace ℝ V] in
theorem Ord.add {k : ℕ} {g g' : ℝ × ℝ → V} (hg : Ord k g) (hg' : Ord k g') :
    Ord k fun p => g p + g' p := IsBigO.add hg hg'

omit [NormedSpace ℝ V] in
theorem Ord.sub {k : ℕ} {g g' : ℝ × ℝ → V} (hg : Ord k g) (hg' : Ord k g') :
    Ord k fun p => g p - g' p := IsBigO.sub hg hg'

theorem Ord.const_smul {k : ℕ} (c : ℝ) {g : ℝ × ℝ → V} (hg : Ord k g) : Ord k fun p => c • g p :=
  IsBigO.const_smul_left hg c

theorem Ord.pow_smul {k : ℕ} (j : ℕ) {g : ℝ × ℝ → V} (hg : Ord k g) :
    Ord (j + k) fun p => p.2 ^ j • g p := by
  have h1 : (fun p : ℝ × ℝ => p.2 ^ j) =O[stepFilter] fun p => p.2 ^ j := isBigO_refl _ _
  have h2 := h1.smul hg
  simpa only [Ord, pow_add, smul_eq_mul] using h2

theorem Ord.smul {k : ℕ} {g : ℝ × ℝ → V} (hg : Ord k g) : Ord (k + 1) fun p => p.2 • g p := by
  have h := hg.pow_smul 1
  simp only [pow_one] at h
  rwa [Nat.add_comm] at h

omit [NormedSpace ℝ V] in
theorem Ord.congr {k : ℕ} {g g' : ℝ × ℝ → V} (h : ∀ p, g p = g' p) (hg : Ord k g) : Ord k g' := by
  rwa [show g' = g from funext fun p => (h p).symm]

/-- Functions of the starting time that are bounded along the curve. -/
theorem ord_zero {W : Type _} [NormedAddCommGroup W] [NormedSpace ℝ W] {a : ℝ → W} {K : ℝ}
    (h : ∀ s ∈ Icc (0 : ℝ) 1, ‖a s‖ ≤ K) : Ord 0 fun p => a p.1 := by
  unfold Ord
  rw [isBigO_iff]
  refine ⟨K, ?_⟩
  filter_upwards [eventually_mem_stepSet] with p hp
  simpa using h p.1 ⟨hp.1, by linarith [hp.2.1, hp.2.2]⟩

theorem Ord.apply {W : Type _} [NormedAddCommGroup W] [NormedSpace ℝ W] {i j : ℕ}
    {A : ℝ × ℝ → V →L[ℝ] W} {a : ℝ × ℝ → V} (hA : Ord i A) (ha : Ord j a) :
    Ord (i + j) fun p => A p (a p) := by
  have h1 : (fun p => A p (a p)) =O[stepFilter] fun p => ‖A p‖ * ‖a p‖ :=
    IsBigO.of_bound 1 (Eventually.of_forall fun p => by
      rw [one_mul, norm_mul, norm_norm, norm_norm]; exact (A p).le_opNorm _)
  have h2 := h1.trans (hA.norm_left.mul ha.norm_left)
  simpa only [Ord, pow_add] using h2

/-- A third-order expansion of the field `f` along the curve `y`. -/
structure FieldExpansion (f : V → V) (y : ℝ → V) (f1 : ℝ → V →L[ℝ] V)
    (f2 : ℝ → V →L[ℝ] V →L[ℝ] V) (f3 : ℝ → V →L[ℝ] V →L[ℝ] V →L[ℝ] V) (r K : ℝ) : Prop where
  radius : 0 < r
  bound0 : ∀ s ∈ Icc (0 : ℝ) 1, ‖f (y s)‖ ≤ K
  bound1 : ∀ s ∈ Icc (0 : ℝ) 1, ‖f1 s‖ ≤ K
  bound2 : ∀ s ∈ Icc (0 : ℝ) 1, ‖f2 s‖ ≤ K
  bound3 : ∀ s ∈ Icc (0 : ℝ) 1, ‖f3 s‖ ≤ K
  remainder : ∀ s ∈ Icc (0 : ℝ) 1, ∀ u, ‖u‖ ≤ r →
    ‖f (y s + u) - (f (y s) + f1 s u + (1 / 2 : ℝ) • f2 s u u + (1 / 6 : ℝ) • f3 s u u u)‖
      ≤ K * ‖u‖ ^ 4

section
variable {f : V → V} {y : ℝ → V} {f1 : ℝ → V →L[ℝ] V} {f2 : ℝ → V →L[ℝ] V →L[ℝ] V}
  {f3 : ℝ → V →L[ℝ] V →L[ℝ] V →L[ℝ] V} {r K : ℝ}

/-- The field at a point `y s + u` with `u = h a₁ + h² a₂ + h³ a₃ + O(h^j)`. -/
theorem FieldExpansion.expand (E : FieldExpansion f y f1 f2 f3 r K) {j : ℕ} (hj1 : 1 ≤ j) (hj4 : j ≤ 4)
    {u a1 a2 a3 : ℝ × ℝ → V} (ha1 : Ord 0 a1) (ha2 : Ord 0 a2) (ha3 : Ord 0 a3)
    (hu : Ord j fun p => u p - (p.2 • a1 p + p.2 ^ 2 • a2 p + p.2 ^ 3 • a3 p)) :
    Ord j fun p => f (y p.1 + u p) - (f (y p.1) + p.2 • f1 p.1 (a1 p)
      + p.2 ^ 2 • (f1 p.1 (a2 p) + (1 / 2 : ℝ) • f2 p.1 (a1 p) (a1 p))
      + p.2 ^ 3 • (f1 p.1 (a3 p) + (1 / 2 : ℝ) • (f2 p.1 (a1 p) (a2 p) + f2 p.1 (a2 p) (a1 p))
          + (1 / 6 : ℝ) • f3 p.1 (a1 p) (a1 p) (a1 p))) := by
  have o1 := ord_zero E.bound1
  have o2 := ord_zero E.bound2
  have o3 := ord_zero E.bound3
  have ha1' : Ord 1 fun p => p.2 • a1 p := ha1.smul
  have ha2' : Ord 2 fun p => p.2 ^ 2 • a2 p := ha2.pow_smul 2
  have ha3' : Ord 3 fun p => p.2 ^ 3 • a3 p := ha3.pow_smul 3
  -- `u = O(h)`, `u - h a₁ = O(h^min(2,j))`, `u - h a₁ - h² a₂ = O(h^min(3,j))`
  have u3 : Ord (min 3 j) fun p => u p - (p.2 • a1 p + p.2 ^ 2 • a2 p) :=
    ((hu.mono (min_le_right 3 j)).add (ha3'.mono (min_le_left 3 j))).congr fun p => by abel
  have u2 : Ord (min 2 j) fun p => u p - p.2 • a1 p :=
    ((u3.mono (by omega)).add (ha2'.mono (min_le_left 2 j))).congr fun p => by abel
  have u1 : Ord 1 u := ((u2.mono (by omega)).add ha1').congr fun p => by abel
  have w2 : Ord 1 fun p => p.2 • a1 p + p.2 ^ 2 • a2 p := ha1'.add (ha2'.mono (by omega))
  -- the remainder
  have hR : Ord 4 fun p => f (y p.1 + u p) - (f (y p.1) + f1 p.1 (u p) + (1 / 2 : ℝ) • f2 p.1 (u p) (u p)
      + (1 / 6 : ℝ) • f3 p.1 (u p) (u p) (u p)) := by
    have hsmall : ∀ᶠ p in stepFilter, ‖u p‖ ≤ r := by
      have : Tendsto u stepFilter (𝓝 0) := by
        refine u1.trans_tendsto ?_
        simpa using tendsto_step
      filter_upwards [this.eventually (Metric.ball_mem_nhds 0 E.radius)] with p hp
      have : ‖u p‖ < r := by simpa using hp
      exact this.le
    have h4 : (fun p => ‖u p‖ ^ 4) =O[stepFilter] fun p : ℝ × ℝ => p.2 ^ 4 := by
      have := (u1.norm_left).pow 4
      simpa only [pow_one] using this
    refine IsBigO.trans (IsBigO.of_bound K ?_) h4
    filter_upwards [hsmall, eventually_mem_stepSet] with p hp hm
    rw [norm_pow, norm_norm]
    exact E.remainder p.1 ⟨hm.1, by linarith [hm.2.1, hm.2.2]⟩ _ hp
  have e1 := ((o1.apply hu).mono (j := j) (by omega))
  have e2 := ((o2.apply u3).apply u1).mono (j := j) (by omega)
  have e3 := ((o2.apply w2).apply u3).mono (j := j) (by omega)
  have e4 := (((o2.apply ha2).apply ha2).pow_smul 4).mono (j := j) (by omega)
  have e5 := (((o3.apply u2).apply u1).apply u1).mono (j := j) (by omega)
  have e6 := (((o3.apply ha1').apply u2).apply u1).mono (j := j) (by omega)
  have e7 := (((o3.apply ha1').apply ha1').apply u2).mono (j := j) (by omega)
  refine ((((hR.mono hj4).add e1).add (((e2.add e3).add e4).const_smul (1 / 2 : ℝ))).add
    (((e5.add e6).add e7).const_smul (1 / 6 : ℝ))).congr fun p => ?_
  simp only [map_sub, map_add, map_smul, sub_apply, add_apply,
    smul_apply]
  module

omit [NormedSpace ℝ V] in
/-- Functions bounded by a power of the step length for small steps. -/
theorem ord_of_bound {k : ℕ} {g : ℝ × ℝ → V} {C δ : ℝ} (hδ : 0 < δ)
    (h : ∀ s t, 0 ≤ s → 0 ≤ t → s + t ≤ 1 → t < δ → ‖g (s, t)‖ ≤ C * t ^ k) : Ord k g := by
  refine IsBigO.of_bound C ?_
  filter_upwards [eventually_mem_stepSet, eventually_small hδ] with p hp hs
  rw [norm_pow, Real.norm_of_nonneg hp.2.1]
  rw [abs_of_nonneg hp.2.1] at hs
  exact h p.1 p.2 hp.1 hp.2.1 hp.2.2 hs

omit [NormedSpace ℝ V] in
theorem Ord.bound {k : ℕ} {g : ℝ × ℝ → V} (h : Ord k g) : ∃ C δ : ℝ, 0 ≤ C ∧ 0 < δ ∧
    ∀ s t, 0 ≤ s → 0 ≤ t → s + t ≤ 1 → t < δ → ‖g (s, t)‖ ≤ C * t ^ k := by
  obtain ⟨C, hC, hb⟩ := IsBigO.exists_nonneg h
  obtain ⟨δ, hδ, hd⟩ := eventually_stepFilter hb.bound
  refine ⟨C, δ, hC, hδ, fun s t hs ht hst htd => ?_⟩
  have := hd s t hs ht hst htd
  rwa [norm_pow, Real.norm_of_nonneg ht] at this

/-- Integrating along the curve gains one order. -/
theorem ord_integrate {f : V → V} {y : ℝ → V}
    (hy : ∀ s ∈ Icc (0 : ℝ) 1, HasDerivWithinAt y (f (y s)) (Icc 0 1) s) {j : ℕ} (c1 c2 c3 c4 : ℝ → V)
    (hD : Ord j fun p => f (y (p.1 + p.2)) - (c1 p.1 + p.2 • (2 : ℝ) • c2 p.1
      + p.2 ^ 2 • (3 : ℝ) • c3 p.1 + p.2 ^ 3 • (4 : ℝ) • c4 p.1)) :
    Ord (j + 1) fun p => (y (p.1 + p.2) - y p.1) - (p.2 • c1 p.1 + p.2 ^ 2 • c2 p.1
      + p.2 ^ 3 • c3 p.1 + p.2 ^ 4 • c4 p.1) := by
  obtain ⟨C, δ, hC, hδ, hb⟩ := hD.bound
  refine ord_of_bound (C := C) hδ fun s h hs hh hsh hhd => ?_
  have hder : ∀ t ∈ Icc (0 : ℝ) h, HasDerivWithinAt (fun t => (y (s + t) - y s) - (t • c1 s + t ^ 2 • c2 s
      + t ^ 3 • c3 s + t ^ 4 • c4 s)) (f (y (s + t)) - (c1 s + t • (2 : ℝ) • c2 s
      + t ^ 2 • (3 : ℝ) • c3 s + t ^ 3 • (4 : ℝ) • c4 s)) (Icc 0 h) t := by
    intro t ht
    have h1 : HasDerivWithinAt (fun t => y (s + t)) (f (y (s + t))) (Icc 0 h) t := by
      have h2 := hy (s + t) ⟨by linarith [ht.1], by linarith [ht.2]⟩
      have h3 : HasDerivWithinAt (fun t : ℝ => s + t) 1 (Icc 0 h) t :=
        (hasDerivWithinAt_id t _).const_add s
      have h4 := h2.scomp t h3 (fun u hu => ⟨by linarith [hu.1], by linarith [hu.2]⟩)
      rw [one_smul] at h4
      exact h4
    have p1 : HasDerivWithinAt (fun t : ℝ => t • c1 s) (c1 s) (Icc 0 h) t := by
      simpa using (hasDerivWithinAt_id t (Icc 0 h)).smul_const (c1 s)
    have pk : ∀ (k : ℕ) (c : V), HasDerivWithinAt (fun t : ℝ => t ^ (k + 1) • c)
        (t ^ k • ((k + 1 : ℕ) : ℝ) • c) (Icc 0 h) t := by
      intro k c
      have h5 := ((hasDerivAt_pow (k + 1) t).hasDerivWithinAt (s := Icc 0 h)).smul_const c
      rw [smul_smul]
      convert h5 using 2
      simp [mul_comm]
    have h6 := (h1.sub_const (y s)).sub (((p1.add (pk 1 (c2 s))).add (pk 2 (c3 s))).add (pk 3 (c4 s)))
    refine h6.congr_deriv ?_
    rw [pow_one]
    norm_num
  have hbound : ∀ t ∈ Icc (0 : ℝ) h, ‖f (y (s + t)) - (c1 s + t • (2 : ℝ) • c2 s
      + t ^ 2 • (3 : ℝ) • c3 s + t ^ 3 • (4 : ℝ) • c4 s)‖ ≤ C * h ^ j := by
    intro t ht
    refine (hb s t hs ht.1 (by linarith [ht.2]) (by linarith [ht.2])).trans ?_
    exact mul_le_mul_of_nonneg_left (pow_le_pow_left₀ ht.1 ht.2 j) hC
  have := (convex_Icc (0 : ℝ) h).norm_image_sub_le_of_norm_hasDerivWithin_le hder hbound
    (left_mem_Icc.2 hh) (right_mem_Icc.2 hh)
  simp only [add_zero, sub_self, zero_smul, ne_eq, OfNat.ofNat_ne_zero, not_false_eq_true, zero_pow,
    sub_zero, Real.norm_of_nonneg hh] at this
  calc _ ≤ _ := this
    _ = C * h ^ (j + 1) := by ring

variable {f : V → V} {y : ℝ → V} {f1 : ℝ → V →L[ℝ] V} {f2 : ℝ → V →L[ℝ] V →L[ℝ] V}
  {f3 : ℝ → V →L[ℝ] V →L[ℝ] V →L[ℝ] V} {r K : ℝ}

/-- The fourth-order expansion of the solution curve. -/
theorem FieldExpansion.curve (E : FieldExpansion f y f1 f2 f3 r K)
    (hy : ∀ s ∈ Icc (0 : ℝ) 1, HasDerivWithinAt y (f (y s)) (Icc 0 1) s)
    (T1 T2 T3 T4 : ℝ → V) (h1 : ∀ s, T1 s = f (y s)) (h2 : ∀ s, T2 s = (1 / 2 : ℝ) • f1 s (T1 s))
    (h3 : ∀ s, T3 s = (1 / 3 : ℝ) • (f1 s (T2 s) + (1 / 2 : ℝ) • f2 s (T1 s) (T1 s)))
    (h4 : ∀ s, T4 s = (1 / 4 : ℝ) • (f1 s (T3 s)
      + (1 / 2 : ℝ) • (f2 s (T1 s) (T2 s) + f2 s (T2 s) (T1 s)) + (1 / 6 : ℝ) • f3 s (T1 s) (T1 s) (T1 s))) :
    Ord 5 fun p => (y (p.1 + p.2) - y p.1) - (p.2 • T1 p.1 + p.2 ^ 2 • T2 p.1
      + p.2 ^ 3 • T3 p.1 + p.2 ^ 4 • T4 p.1) := by
  have o1 := ord_zero E.bound1
  have o2 := ord_zero E.bound2
  have o3 := ord_zero E.bound3
  have t1 : Ord 0 fun p => T1 p.1 := by
    simp only [h1]
    exact ord_zero E.bound0
  have t2 : Ord 0 fun p => T2 p.1 := by
    simp only [h2]
    exact (o1.apply t1).const_smul _
  have t3 : Ord 0 fun p => T3 p.1 := by
    simp only [h3]
    exact ((o1.apply t2).add (((o2.apply t1).apply t1).const_smul _)).const_smul _
  have t4 : Ord 0 fun p => T4 p.1 := by
    simp only [h4]
    exact (((o1.apply t3).add ((((o2.apply t1).apply t2).add ((o2.apply t2).apply t1)).const_smul _)).add
      ((((o3.apply t1).apply t1).apply t1).const_smul _)).const_smul _
  -- one round: order `j` of the curve gives order `j + 1`
  have round : ∀ j, 1 ≤ j → j ≤ 4 →
      (Ord j fun p => (y (p.1 + p.2) - y p.1) - (p.2 • T1 p.1 + p.2 ^ 2 • T2 p.1 + p.2 ^ 3 • T3 p.1)) →
      Ord (j + 1) fun p => (y (p.1 + p.2) - y p.1) - (p.2 • T1 p.1 + p.2 ^ 2 • T2 p.1
        + p.2 ^ 3 • T3 p.1 + p.2 ^ 4 • T4 p.1) := by
    intro j hj1 hj4 hj
    have hx := E.expand hj1 hj4 t1 t2 t3 hj
    apply ord_integrate hy
    refine hx.congr fun p => ?_
    rw [h4 p.1, h3 p.1, h2 p.1, h1 p.1]
    rw [show y p.1 + (y (p.1 + p.2) - y p.1) = y (p.1 + p.2) by abel]
    module
  -- start: the curve moves by `O(h)`
  have start : Ord 1 fun p => (y (p.1 + p.2) - y p.1) := by
    refine ord_of_bound (C := K) one_pos fun s h hs hh hsh _ => ?_
    have hder : ∀ t ∈ Icc (0 : ℝ) 1, HasDerivWithinAt y (f (y t)) (Icc 0 1) t := hy
    have := (convex_Icc (0 : ℝ) 1).norm_image_sub_le_of_norm_hasDerivWithin_le hder
      (C := K) (fun t ht => E.bound0 t ht) (x := s) (y := s + h) ⟨hs, by linarith⟩ ⟨by linarith, hsh⟩
    rw [add_sub_cancel_left, Real.norm_of_nonneg hh] at this
    rw [pow_one]
    exact this
  have drop : ∀ j, j ≤ 4 → (Ord j fun p => (y (p.1 + p.2) - y p.1) - (p.2 • T1 p.1 + p.2 ^ 2 • T2 p.1
        + p.2 ^ 3 • T3 p.1 + p.2 ^ 4 • T4 p.1)) →
      Ord j fun p => (y (p.1 + p.2) - y p.1) - (p.2 • T1 p.1 + p.2 ^ 2 • T2 p.1 + p.2 ^ 3 • T3 p.1) := by
    intro j hj h
    exact (h.add ((t4.pow_smul 4).mono hj)).congr fun p => by abel
  have s1 : Ord 1 fun p => (y (p.1 + p.2) - y p.1)
      - (p.2 • T1 p.1 + p.2 ^ 2 • T2 p.1 + p.2 ^ 3 • T3 p.1) :=
    start.sub ((t1.smul.add ((t2.pow_smul 2).mono (by omega))).add ((t3.pow_smul 3).mono (by omega)))
  exact round 4 (by omega) (by omega) (drop 4 (by omega) (round 3 (by omega) (by omega)
    (drop 3 (by omega) (round 2 (by omega) (by omega) (drop 2 (by omega)
      (round 1 (by omega) (by omega) s1))))))

/-- The same expansion of the Runge-Kutta step. -/
theorem FieldExpansion.step (E : FieldExpansion f y f1 f2 f3 r K)
    (T1 T2 T3 T4 : ℝ → V) (h1 : ∀ s, T1 s = f (y s)) (h2 : ∀ s, T2 s = (1 / 2 : ℝ) • f1 s (T1 s))
    (h3 : ∀ s, T3 s = (1 / 3 : ℝ) • (f1 s (T2 s) + (1 / 2 : ℝ) • f2 s (T1 s) (T1 s)))
    (h4 : ∀ s, T4 s = (1 / 4 : ℝ) • (f1 s (T3 s)
      + (1 / 2 : ℝ) • (f2 s (T1 s) (T2 s) + f2 s (T2 s) (T1 s)) + (1 / 6 : ℝ) • f3 s (T1 s) (T1 s) (T1 s))) :
    Ord 5 fun p => (rkStep f p.2 (y p.1) - y p.1) - (p.2 • T1 p.1 + p.2 ^ 2 • T2 p.1
      + p.2 ^ 3 • T3 p.1 + p.2 ^ 4 • T4 p.1) := by
  have o1 := ord_zero E.bound1
  have o2 := ord_zero E.bound2
  have o3 := ord_zero E.bound3
  have t1 : Ord 0 fun p => T1 p.1 := by
    simp only [h1]
    exact ord_zero E.bound0
  have z : Ord 0 fun _ : ℝ × ℝ => (0 : V) := isBigO_zero _ _
  let D2 : ℝ → V := fun s => f1 s (T1 s)
  let D3 : ℝ → V := fun s => f2 s (T1 s) (T1 s)
  let D3' : ℝ → V := fun s => f1 s (D2 s)
  let D4 : ℝ → V := fun s => f3 s (T1 s) (T1 s) (T1 s)
  let B : ℝ → V := fun s => f2 s (T1 s) (D2 s) + f2 s (D2 s) (T1 s)
  have d2 : Ord 0 fun p => D2 p.1 := o1.apply t1
  have d3 : Ord 0 fun p => D3 p.1 := (o2.apply t1).apply t1
  have d3' : Ord 0 fun p => D3' p.1 := o1.apply d2
  have d4 : Ord 0 fun p => D4 p.1 := ((o3.apply t1).apply t1).apply t1
  have b : Ord 0 fun p => B p.1 := ((o2.apply t1).apply d2).add ((o2.apply d2).apply t1)
  have d13 : Ord 0 fun p => f1 p.1 (D3 p.1) := o1.apply d3
  have d13' : Ord 0 fun p => f1 p.1 (D3' p.1) := o1.apply d3'
  obtain ⟨k2, hk2⟩ : ∃ k2 : ℝ × ℝ → V, k2 = fun p => f (y p.1 + (p.2 / 2) • T1 p.1) := ⟨_, rfl⟩
  obtain ⟨k3, hk3⟩ : ∃ k3 : ℝ × ℝ → V, k3 = fun p => f (y p.1 + (p.2 / 2) • k2 p) := ⟨_, rfl⟩
  obtain ⟨k4, hk4⟩ : ∃ k4 : ℝ × ℝ → V, k4 = fun p => f (y p.1 + p.2 • k3 p) := ⟨_, rfl⟩
  have e2 : Ord 4 fun p => k2 p - (T1 p.1 + p.2 • (1 / 2 : ℝ) • D2 p.1 + p.2 ^ 2 • (1 / 8 : ℝ) • D3 p.1
      + p.2 ^ 3 • (1 / 48 : ℝ) • D4 p.1) := by
    have := E.expand (j := 4) (by omega) (by omega) (u := fun p => (p.2 / 2) • T1 p.1)
      (t1.const_smul (1 / 2 : ℝ)) z z
      (Ord.congr (g := fun _ => (0 : V)) (fun p => by module) (isBigO_zero _ _))
    refine this.congr fun p => ?_
    simp only [hk2, map_smul, map_zero, smul_apply, zero_apply, h1, D2, D3, D4]
    module
  have e3 : Ord 4 fun p => k3 p - (T1 p.1 + p.2 • (1 / 2 : ℝ) • D2 p.1
      + p.2 ^ 2 • ((1 / 4 : ℝ) • D3' p.1 + (1 / 8 : ℝ) • D3 p.1)
      + p.2 ^ 3 • ((1 / 16 : ℝ) • f1 p.1 (D3 p.1) + (1 / 16 : ℝ) • B p.1 + (1 / 48 : ℝ) • D4 p.1)) := by
    have hu : Ord 4 fun p => (p.2 / 2) • k2 p - (p.2 • (1 / 2 : ℝ) • T1 p.1
        + p.2 ^ 2 • (1 / 4 : ℝ) • D2 p.1 + p.2 ^ 3 • (1 / 16 : ℝ) • D3 p.1) :=
      (((e2.smul.const_smul (1 / 2 : ℝ)).mono (by omega)).add
        ((d4.const_smul (1 / 96 : ℝ)).pow_smul 4)).congr fun p => by module
    have := E.expand (j := 4) (by omega) (by omega) (t1.const_smul (1 / 2 : ℝ))
      (d2.const_smul (1 / 4 : ℝ)) (d3.const_smul (1 / 16 : ℝ)) hu
    refine this.congr fun p => ?_
    simp only [hk3, map_smul, smul_apply, h1, D2, D3, D4, D3', B, smul_add]
    module
  have e4 : Ord 4 fun p => k4 p - (T1 p.1 + p.2 • D2 p.1
      + p.2 ^ 2 • ((1 / 2 : ℝ) • D3' p.1 + (1 / 2 : ℝ) • D3 p.1)
      + p.2 ^ 3 • ((1 / 4 : ℝ) • f1 p.1 (D3' p.1) + (1 / 8 : ℝ) • f1 p.1 (D3 p.1) + (1 / 4 : ℝ) • B p.1
        + (1 / 6 : ℝ) • D4 p.1)) := by
    have hu : Ord 4 fun p => p.2 • k3 p - (p.2 • T1 p.1
        + p.2 ^ 2 • (1 / 2 : ℝ) • D2 p.1 + p.2 ^ 3 • ((1 / 4 : ℝ) • D3' p.1 + (1 / 8 : ℝ) • D3 p.1)) :=
      ((e3.smul.mono (by omega)).add ((((d13.const_smul (1 / 16 : ℝ)).add (b.const_smul (1 / 16 : ℝ))).add
        (d4.const_smul (1 / 48 : ℝ))).pow_smul 4)).congr fun p => by module
    have := E.expand (j := 4) (by omega) (by omega) t1
      (d2.const_smul (1 / 2 : ℝ)) ((d3'.const_smul (1 / 4 : ℝ)).add (d3.const_smul (1 / 8 : ℝ))) hu
    refine this.congr fun p => ?_
    simp only [hk4, map_smul, map_add, smul_apply, h1, D2, D3, D4, D3', B, smul_add]
    module
  have hsum := (((e2.const_smul (2 : ℝ)).add (e3.const_smul (2 : ℝ))).add e4).const_smul (1 / 6 : ℝ)
  refine hsum.smul.congr fun p => ?_
  have hstep : rkStep f p.2 (y p.1) = y p.1 + (p.2 / 6) • (T1 p.1 + (2 : ℝ) • k2 p + (2 : ℝ) • k3 p + k4 p) := by
    simp only [rkStep, hk4, hk3, hk2, h1]
  rw [hstep, h4, h3, h2]
  simp only [map_smul, map_add, smul_apply, D2, D3, D4, D3', B, smul_add]
  module

/-- **Local error.**  Started on the curve, one Runge-Kutta step of length `h` misses the curve by at most
`C h⁵`, with the same `C` everywhere on the curve. -/
theorem FieldExpansion.local_error (E : FieldExpansion f y f1 f2 f3 r K)
    (hy : ∀ s ∈ Icc (0 : ℝ) 1, HasDerivWithinAt y (f (y s)) (Icc 0 1) s) :
    ∃ C δ : ℝ, 0 ≤ C ∧ 0 < δ ∧ ∀ s h, 0 ≤ s → 0 ≤ h → s + h ≤ 1 → h < δ →
      ‖rkStep f h (y s) - y (s + h)‖ ≤ C * h ^ 5 := by
  let T1 : ℝ → V := fun s => f (y s)
  let T2 : ℝ → V := fun s => (1 / 2 : ℝ) • f1 s (T1 s)
  let T3 : ℝ → V := fun s => (1 / 3 : ℝ) • (f1 s (T2 s) + (1 / 2 : ℝ) • f2 s (T1 s) (T1 s))
  let T4 : ℝ → V := fun s => (1 / 4 : ℝ) • (f1 s (T3 s)
      + (1 / 2 : ℝ) • (f2 s (T1 s) (T2 s) + f2 s (T2 s) (T1 s)) + (1 / 6 : ℝ) • f3 s (T1 s) (T1 s) (T1 s))
  have a := E.step T1 T2 T3 T4 (fun _ => rfl) (fun _ => rfl) (fun _ => rfl) (fun _ => rfl)
  have b := E.curve hy T1 T2 T3 T4 (fun _ => rfl) (fun _ => rfl) (fun _ => rfl) (fun _ => rfl)
  have c : Ord 5 fun p => rkStep f p.2 (y p.1) - y (p.1 + p.2) := (a.sub b).congr fun p => by abel
  exact c.bound

/-! ## Stability and the global error -/

/-- The field is bounded by `M` and `L`-Lipschitz in the tube of radius `r` around the curve. -/
structure FieldTube (f : V → V) (y : ℝ → V) (r L M : ℝ) : Prop where
  radius : 0 < r
  lip_nonneg : 0 ≤ L
  bound : ∀ s ∈ Icc (0 : ℝ) 1, ∀ x, ‖x - y s‖ ≤ r → ‖f x‖ ≤ M
  lipschitz : ∀ s ∈ Icc (0 : ℝ) 1, ∀ x x', ‖x - y s‖ ≤ r → ‖x' - y s‖ ≤ r →
    ‖f x - f x'‖ ≤ L * ‖x - x'‖

/-- The intermediate points of a Runge-Kutta step started near the curve stay in the tube. -/
theorem FieldTube.stages {L M : ℝ} (T : FieldTube f y r L M) {s h : ℝ} (hs : s ∈ Icc (0 : ℝ) 1)
    (hh : 0 ≤ h) (hM : h * M ≤ r / 2) {x : V} (hx : ‖x - y s‖ ≤ r / 2) {k : V} (hk : ‖k‖ ≤ M) {a : ℝ}
    (ha : 0 ≤ a) (ha1 : a ≤ h) : ‖x + a • k - y s‖ ≤ r := by
  have hM0 : 0 ≤ M := (norm_nonneg k).trans hk
  calc ‖x + a • k - y s‖ = ‖(x - y s) + a • k‖ := by congr 1; abel
    _ ≤ ‖x - y s‖ + ‖a • k‖ := norm_add_le _ _
    _ ≤ r / 2 + h * M := by
        rw [norm_smul, Real.norm_of_nonneg ha]
        exact add_le_add hx (mul_le_mul ha1 hk (norm_nonneg _) hh)
    _ ≤ r := by linarith

/-- One Runge-Kutta step started near the curve stretches the distance by at most `1 + 2 L h`. -/
theorem FieldTube.stretch {L M : ℝ} (T : FieldTube f y r L M) {s h : ℝ} (hs : s ∈ Icc (0 : ℝ) 1)
    (hh : 0 ≤ h) (hM : h * M ≤ r / 2) (hL : h * L ≤ 1) {x x' : V} (hx : ‖x - y s‖ ≤ r / 2)
    (hx' : ‖x' - y s‖ ≤ r / 2) : ‖rkStep f h x - rkStep f h x'‖ ≤ (1 + 2 * L * h) * ‖x - x'‖ := by
  have hr := T.radius
  have key : ∀ {k k' : V} {a : ℝ}, ‖k‖ ≤ M → ‖k'‖ ≤ M → 0 ≤ a → a ≤ h → ∀ c, ‖k - k'‖ ≤ c * ‖x - x'‖ →
      ‖f (x + a • k)‖ ≤ M ∧ ‖f (x' + a • k')‖ ≤ M ∧
      ‖f (x + a • k) - f (x' + a • k')‖ ≤ L * (1 + a * c) * ‖x - x'‖ := by
    intro k k' a hk hk' ha ha1 c hc
    have p1 := T.stages hs hh hM hx hk ha ha1
    have p2 := T.stages hs hh hM hx' hk' ha ha1
    refine ⟨T.bound s hs _ p1, T.bound s hs _ p2, (T.lipschitz s hs _ _ p1 p2).trans ?_⟩
    rw [mul_assoc]
    apply mul_le_mul_of_nonneg_left _ T.lip_nonneg
    calc ‖x + a • k - (x' + a • k')‖ = ‖(x - x') + a • (k - k')‖ := by congr 1; module
      _ ≤ ‖x - x'‖ + a * ‖k - k'‖ := by
          refine (norm_add_le _ _).trans ?_
          rw [norm_smul, Real.norm_of_nonneg ha]
      _ ≤ ‖x - x'‖ + a * (c * ‖x - x'‖) := by gcongr
      _ = (1 + a * c) * ‖x - x'‖ := by ring
  have b1 := T.bound s hs x (by linarith)
  have b1' := T.bound s hs x' (by linarith)
  have e1 := T.lipschitz s hs x x' (by linarith) (by linarith)
  obtain ⟨b2, b2', e2⟩ := key (a := h / 2) b1 b1' (by linarith) (by linarith) L e1
  obtain ⟨b3, b3', e3⟩ := key (a := h / 2) b2 b2' (by linarith) (by linarith) _ e2
  obtain ⟨b4, b4', e4⟩ := key (a := h) b3 b3' hh le_rfl _ e3
  have hD := norm_nonneg (x - x')
  have hL0 := T.lip_nonneg
  have hLh : 0 ≤ h * L := mul_nonneg hh hL0
  have c2 : L * (1 + h / 2 * L) ≤ 3 / 2 * L := by nlinarith
  have c3 : L * (1 + h / 2 * (L * (1 + h / 2 * L))) ≤ 7 / 4 * L := by
    have : h / 2 * (L * (1 + h / 2 * L)) ≤ h / 2 * (3 / 2 * L) := mul_le_mul_of_nonneg_left c2 (by linarith)
    nlinarith
  have c4 : L * (1 + h * (L * (1 + h / 2 * (L * (1 + h / 2 * L))))) ≤ 11 / 4 * L := by
    have : h * (L * (1 + h / 2 * (L * (1 + h / 2 * L)))) ≤ h * (7 / 4 * L) := mul_le_mul_of_nonneg_left c3 hh
    nlinarith
  have e2' := e2.trans (mul_le_mul_of_nonneg_right c2 hD)
  have e3' := e3.trans (mul_le_mul_of_nonneg_right c3 hD)
  have e4' := e4.trans (mul_le_mul_of_nonneg_right c4 hD)
  unfold rkStep
  dsimp only
  generalize f x = k1 at *
  generalize f x' = l1 at *
  generalize f (x + (h / 2) • k1) = k2 at *
  generalize f (x' + (h / 2) • l1) = l2 at *
  generalize f (x + (h / 2) • k2) = k3 at *
  generalize f (x' + (h / 2) • l2) = l3 at *
  generalize f (x + h • k3) = k4 at *
  generalize f (x' + h • l3) = l4 at *
  calc ‖x + (h / 6) • (k1 + (2 : ℝ) • k2 + (2 : ℝ) • k3 + k4)
        - (x' + (h / 6) • (l1 + (2 : ℝ) • l2 + (2 : ℝ) • l3 + l4))‖
      = ‖(x - x') + (h / 6) • ((k1 - l1) + (2 : ℝ) • (k2 - l2) + (2 : ℝ) • (k3 - l3) + (k4 - l4))‖ := by
        congr 1; module
    _ ≤ ‖x - x'‖ + h / 6 * (‖k1 - l1‖ + 2 * ‖k2 - l2‖ + 2 * ‖k3 - l3‖ + ‖k4 - l4‖) := by
        refine (norm_add_le _ _).trans ?_
        rw [norm_smul, Real.norm_of_nonneg (by linarith : 0 ≤ h / 6)]
        gcongr
        refine (norm_add_le _ _).trans ?_
        gcongr
        refine (norm_add_le _ _).trans ?_
        rw [norm_smul (2 : ℝ), Real.norm_of_nonneg (by norm_num : (0 : ℝ) ≤ 2)]
        gcongr
        refine (norm_add_le _ _).trans ?_
        rw [norm_smul (2 : ℝ), Real.norm_of_nonneg (by norm_num : (0 : ℝ) ≤ 2)]
    _ ≤ ‖x - x'‖ + h / 6 * (L * ‖x - x'‖ + 2 * (3 / 2 * L * ‖x - x'‖) + 2 * (7 / 4 * L * ‖x - x'‖)
          + 11 / 4 * L * ‖x - x'‖) := by gcongr
    _ ≤ (1 + 2 * L * h) * ‖x - x'‖ := by
        have : 0 ≤ h * L * ‖x - x'‖ := mul_nonneg hLh hD
        nlinarith

/-- The bound on the error after `j` Runge-Kutta steps of length `h`. -/
noncomputable def rkBound (L C h : ℝ) (j : ℕ) : ℝ := j * (C * h ^ 5) * (1 + 2 * L * h) ^ j

theorem rkBound_succ (L C h : ℝ) (hL : 0 ≤ L) (hC : 0 ≤ C) (hh : 0 ≤ h) (j : ℕ) :
    (1 + 2 * L * h) * rkBound L C h j + C * h ^ 5 ≤ rkBound L C h (j + 1) := by
  unfold rkBound
  have hq : 1 ≤ 1 + 2 * L * h := by nlinarith [mul_nonneg hL hh]
  have hp : 1 ≤ (1 + 2 * L * h) ^ (j + 1) := one_le_pow₀ hq
  have hmd : 0 ≤ C * h ^ 5 := by positivity
  have h1 : C * h ^ 5 * 1 ≤ C * h ^ 5 * (1 + 2 * L * h) ^ (j + 1) := mul_le_mul_of_nonneg_left hp hmd
  have h2 : ((j + 1 : ℕ) : ℝ) * (C * h ^ 5) * (1 + 2 * L * h) ^ (j + 1)
      = (1 + 2 * L * h) * (j * (C * h ^ 5) * (1 + 2 * L * h) ^ j)
        + C * h ^ 5 * (1 + 2 * L * h) ^ (j + 1) := by
    push_cast
    ring
  rw [h2]
  linarith

theorem rkBound_le (L C : ℝ) (hL : 0 ≤ L) (hC : 0 ≤ C) (n : ℕ) (hn : 1 ≤ n) (j : ℕ) (hj : j ≤ n) :
    rkBound L C (1 / n) j ≤ C * Real.exp (2 * L) / n ^ 4 := by
  have hn0 : (0 : ℝ) < n := by exact_mod_cast hn
  unfold rkBound
  have h1 : (1 + 2 * L * (1 / (n : ℝ))) ^ j ≤ Real.exp (2 * L) := by
    calc (1 + 2 * L * (1 / (n : ℝ))) ^ j ≤ (1 + 2 * L * (1 / (n : ℝ))) ^ n :=
          pow_le_pow_right₀ (by
            have : 0 ≤ 2 * L * (1 / (n : ℝ)) := by positivity
            linarith) hj
      _ ≤ (Real.exp (2 * L * (1 / (n : ℝ)))) ^ n := by
          apply pow_le_pow_left₀ (by positivity)
          linarith [Real.add_one_le_exp (2 * L * (1 / (n : ℝ)))]
      _ = Real.exp (2 * L) := by
          rw [← Real.exp_nat_mul]
          congr 1
          field_simp
  have hjn : (j : ℝ) ≤ n := by exact_mod_cast hj
  have h2 : (j : ℝ) * (C * (1 / (n : ℝ)) ^ 5) ≤ C / n ^ 4 := by
    have : (n : ℝ) * (C * (1 / (n : ℝ)) ^ 5) = C / n ^ 4 := by field_simp
    rw [← this]
    exact mul_le_mul_of_nonneg_right hjn (by positivity)
  calc (j : ℝ) * (C * (1 / (n : ℝ)) ^ 5) * (1 + 2 * L * (1 / (n : ℝ))) ^ j
      ≤ C / n ^ 4 * Real.exp (2 * L) := mul_le_mul h2 h1 (by positivity) (by positivity)
    _ = C * Real.exp (2 * L) / n ^ 4 := by ring

/-- One step of the error recursion. -/
theorem rk_error_step {L M C h : ℝ} (T : FieldTube f y r L M) {s : ℝ} (hs : 0 ≤ s) (hh : 0 ≤ h)
    (hsh : s + h ≤ 1) (hM : h * M ≤ r / 2) (hL : h * L ≤ 1)
    (hloc : ‖rkStep f h (y s) - y (s + h)‖ ≤ C * h ^ 5) (hC : 0 ≤ C) {j : ℕ} {x : V}
    (hx : ‖x - y s‖ ≤ rkBound L C h j) (hr : rkBound L C h j ≤ r / 2) :
    ‖rkStep f h x - y (s + h)‖ ≤ rkBound L C h (j + 1) := by
  have hstr := T.stretch (x := x) (x' := y s) (s := s) ⟨hs, by linarith⟩ hh hM hL (hx.trans hr)
    (by rw [sub_self, norm_zero]; linarith [T.radius])
  have hq : 0 ≤ 1 + 2 * L * h := by nlinarith [mul_nonneg T.lip_nonneg hh]
  calc ‖rkStep f h x - y (s + h)‖
      = ‖(rkStep f h x - rkStep f h (y s)) + (rkStep f h (y s) - y (s + h))‖ := by congr 1; abel
    _ ≤ (1 + 2 * L * h) * ‖x - y s‖ + C * h ^ 5 := (norm_add_le _ _).trans (add_le_add hstr hloc)
    _ ≤ (1 + 2 * L * h) * rkBound L C h j + C * h ^ 5 := by gcongr
    _ ≤ rkBound L C h (j + 1) := rkBound_succ L C h T.lip_nonneg hC hh j

end

end Verif
