import Verif.Spec.Optimum
import Verif.Lemmas.ProductionMath
import Mathlib.Analysis.Convex.SpecificFunctions.Basic
import Mathlib.Analysis.SpecialFunctions.Pow.Deriv
import Mathlib.Analysis.Calculus.LocalExtr.Basic
import Mathlib.Analysis.MeanInequalities

/-! Inequalities behind the optimality of the factor demands. -/

namespace Verif

/-! ## Other bundles as lists of pairs -/

/-- The factors of a list of pairs, with the second component as amount. -/
def otherOf (q : FactorVal × ℝ) : FactorVal := ⟨q.2, q.1.p, q.1.a⟩

theorem OtherBundle.pairs {fs gs : List FactorVal} (h : OtherBundle fs gs) :
    ∃ ps : List (FactorVal × ℝ), fs = ps.map Prod.fst ∧ gs = ps.map otherOf ∧ ∀ q ∈ ps, 0 < q.2 := by
  unfold OtherBundle at h
  induction h with
  | nil => exact ⟨[], rfl, rfl, by simp⟩
  | @cons f g fs gs hfg _ ih =>
    obtain ⟨ps, h1, h2, h3⟩ := ih
    refine ⟨(f, g.X) :: ps, by rw [h1]; rfl, ?_, ?_⟩
    · rw [h2, List.map_cons]
      congr 1
      unfold otherOf
      rw [← hfg.1, ← hfg.2.1]
    · intro q hq
      rcases List.mem_cons.1 hq with rfl | hq
      · exact hfg.2.2
      · exact h3 q hq

theorem OtherBundle.update (pre post : List FactorVal) (f : FactorVal) (s : ℝ) (hs : 0 < s)
    (h : ∀ g ∈ pre ++ f :: post, 0 < g.X) :
    OtherBundle (pre ++ f :: post) (pre ++ ⟨s, f.p, f.a⟩ :: post) := by
  have hrefl : ∀ l : List FactorVal, (∀ g ∈ l, 0 < g.X) → OtherBundle l l := by
    intro l hl
    induction l with
    | nil => exact .nil
    | cons a l ih => exact .cons ⟨rfl, rfl, hl a (by simp)⟩ (ih fun g hg => hl g (by simp [hg]))
  unfold OtherBundle
  refine List.rel_append (hrefl pre fun g hg => h g (by simp [hg])) (.cons ⟨rfl, rfl, hs⟩ ?_)
  exact hrefl post fun g hg => h g (by simp [hg])

/-! ## Powers and their tangents -/

theorem tangent_neg {ρ t : ℝ} (hρ : ρ ≤ 0) (ht : 0 < t) : 1 + ρ * (t - 1) ≤ t ^ ρ := by
  rw [Real.rpow_def_of_pos ht]
  have h1 := Real.add_one_le_exp (Real.log t * ρ)
  have h2 := Real.log_le_sub_one_of_pos ht
  nlinarith

theorem tangent_mid {ρ t : ℝ} (h0 : 0 ≤ ρ) (h1 : ρ ≤ 1) (ht : 0 < t) : t ^ ρ ≤ 1 + ρ * (t - 1) := by
  have := rpow_one_add_le_one_add_mul_self (s := t - 1) (p := ρ) (by linarith) h0 h1
  rwa [add_sub_cancel] at this

theorem tangent_big {ρ t : ℝ} (h1 : 1 ≤ ρ) (ht : 0 < t) : 1 + ρ * (t - 1) ≤ t ^ ρ := by
  have := one_add_mul_self_le_rpow_one_add (s := t - 1) (p := ρ) (by linarith) h1
  rwa [add_sub_cancel] at this

theorem sum_tangent {β : Type} (ρ : ℝ) (l : List β) (w t : β → ℝ) :
    (l.map fun q => w q * (1 + ρ * (t q - 1))).sum =
      (l.map w).sum + ρ * ((l.map fun q => w q * t q).sum - (l.map w).sum) := by
  induction l with
  | nil => simp
  | cons a l ih => simp only [List.map_cons, List.sum_cons, ih]; ring

/-- Weights that add up to one, and numbers whose mean of powers is one: their mean is at least one. -/
theorem one_le_mean {β : Type} (ρ : ℝ) (h0 : ρ ≠ 0) (h1 : ρ < 1) (l : List β) (w t : β → ℝ)
    (hw : ∀ q ∈ l, 0 ≤ w q) (ht : ∀ q ∈ l, 0 < t q) (hsum : (l.map w).sum = 1)
    (hpow : (l.map fun q => w q * t q ^ ρ).sum = 1) : 1 ≤ (l.map fun q => w q * t q).sum := by
  have hs := sum_tangent ρ l w t
  rw [hsum] at hs
  rcases lt_or_gt_of_ne h0 with hneg | hpos
  · have h : (l.map fun q => w q * (1 + ρ * (t q - 1))).sum ≤ (l.map fun q => w q * t q ^ ρ).sum :=
      List.sum_le_sum fun q hq => mul_le_mul_of_nonneg_left (tangent_neg hneg.le (ht q hq)) (hw q hq)
    rw [hs, hpow] at h
    nlinarith
  · have h : (l.map fun q => w q * t q ^ ρ).sum ≤ (l.map fun q => w q * (1 + ρ * (t q - 1))).sum :=
      List.sum_le_sum fun q hq => mul_le_mul_of_nonneg_left (tangent_mid hpos.le h1.le (ht q hq)) (hw q hq)
    rw [hs, hpow] at h
    nlinarith

theorem mean_le_one {β : Type} (ρ : ℝ) (h1 : 1 < ρ) (l : List β) (w t : β → ℝ)
    (hw : ∀ q ∈ l, 0 ≤ w q) (ht : ∀ q ∈ l, 0 < t q) (hsum : (l.map w).sum = 1)
    (hpow : (l.map fun q => w q * t q ^ ρ).sum = 1) : (l.map fun q => w q * t q).sum ≤ 1 := by
  have hs := sum_tangent ρ l w t
  rw [hsum] at hs
  have h : (l.map fun q => w q * (1 + ρ * (t q - 1))).sum ≤ (l.map fun q => w q * t q ^ ρ).sum :=
    List.sum_le_sum fun q hq => mul_le_mul_of_nonneg_left (tangent_big h1.le (ht q hq)) (hw q hq)
  rw [hs, hpow] at h
  nlinarith

/-- A product of powers is at most the weighted mean, with what is missing of the weights on the number one. -/
theorem prod_le_mean {β : Type} (l : List β) (w t : β → ℝ) (hw : ∀ q ∈ l, 0 ≤ w q) (ht : ∀ q ∈ l, 0 < t q)
    (hsum : (l.map w).sum ≤ 1) :
    (l.map fun q => t q ^ w q).prod ≤ (l.map fun q => w q * t q).sum + (1 - (l.map w).sum) := by
  -- the logarithm of the product
  have hlog : ∀ l : List β, (∀ q ∈ l, 0 < t q) →
      (l.map fun q => t q ^ w q).prod = Real.exp (l.map fun q => w q * Real.log (t q)).sum := by
    intro l
    induction l with
    | nil => simp
    | cons a l ih =>
      intro h
      rw [List.map_cons, List.prod_cons, ih fun q hq => h q (by simp [hq]), List.map_cons, List.sum_cons,
        Real.exp_add, Real.rpow_def_of_pos (h a (by simp)), mul_comm (Real.log _)]
  set G := (l.map fun q => t q ^ w q).prod with hG
  have hGl := hlog l ht
  rw [← hG] at hGl
  have hGpos : 0 < G := by rw [hGl]; exact Real.exp_pos _
  have hlogG : (l.map fun q => w q * Real.log (t q)).sum = Real.log G := by rw [hGl, Real.log_exp]
  -- tangent at `G`
  have hterm : ∀ x : ℝ, 0 < x → G * (1 + Real.log x - Real.log G) ≤ x := by
    intro x hx
    have h := Real.log_le_sub_one_of_pos (div_pos hx hGpos)
    rw [Real.log_div hx.ne' hGpos.ne'] at h
    have h2 : 1 + Real.log x - Real.log G ≤ x / G := by linarith
    calc G * (1 + Real.log x - Real.log G) ≤ G * (x / G) := mul_le_mul_of_nonneg_left h2 hGpos.le
      _ = x := by field_simp
  have h1 : (l.map fun q => w q * (G * (1 + Real.log (t q) - Real.log G))).sum ≤
      (l.map fun q => w q * t q).sum :=
    List.sum_le_sum fun q hq => mul_le_mul_of_nonneg_left (hterm _ (ht q hq)) (hw q hq)
  have h2 : ∀ l : List β, (l.map fun q => w q * (G * (1 + Real.log (t q) - Real.log G))).sum =
      G * ((1 - Real.log G) * (l.map w).sum + (l.map fun q => w q * Real.log (t q)).sum) := by
    intro l
    induction l with
    | nil => simp
    | cons a l ih => simp only [List.map_cons, List.sum_cons, ih]; ring
  rw [h2, hlogG] at h1
  have h3 := hterm 1 one_pos
  rw [Real.log_one] at h3
  have h4 : G * (1 + 0 - Real.log G) * (1 - (l.map w).sum) ≤ 1 * (1 - (l.map w).sum) :=
    mul_le_mul_of_nonneg_right h3 (by linarith)
  nlinarith

/-! ## CES -/

/-- The demand, solved for the price. -/
theorem ces_price {Y A P ε : ℝ} (hY : 0 < Y) (hA : 0 < A) (hP : 0 < P) (hε : ε ≠ 0) {f : FactorVal}
    (hf : f.Pos) (hX : 0 < f.X) :
    CESDemand Y A P ε f ↔ f.p = f.a * P * A * (Y / A / f.X) ^ (1 / ε) := by
  obtain ⟨hp, ha⟩ := hf
  have hu : 0 < f.a * P * A / f.p := by positivity
  have hk : 0 < Y / A := by positivity
  have hkX : 0 < Y / A / f.X := by positivity
  unfold CESDemand
  constructor
  · intro h
    have h1 : Y / A / f.X = (f.p / (f.a * P * A)) ^ ε := by
      have h2 : f.p / (f.a * P * A) = (f.a * P * A / f.p)⁻¹ := by rw [inv_div]
      rw [h2, Real.inv_rpow hu.le, h]
      have := Real.rpow_pos_of_pos hu ε
      field_simp
    rw [h1, ← Real.rpow_mul (by positivity), mul_one_div_cancel hε, Real.rpow_one]
    field_simp
  · intro h
    have h1 : f.a * P * A / f.p = (Y / A / f.X) ^ (-(1 / ε)) := by
      rw [Real.rpow_neg hkX.le]
      have := Real.rpow_pos_of_pos hkX (1 / ε)
      rw [h]
      field_simp
    rw [h1, ← Real.rpow_mul hkX.le]
    have : -(1 / ε) * ε = -1 := by field_simp
    rw [this, Real.rpow_neg_one]
    field_simp

/-- Total of the CES kernel when the production function holds. -/
theorem ces_kernel_sum {Y A ε : ℝ} (hA : 0 < A) (hε : ε ≠ 0) (hε1 : ε ≠ 1) {fs : List FactorVal}
    (hpos : ∀ f ∈ fs, 0 < f.a ∧ 0 < f.X) (h : CESProduction Y A ε fs) :
    (fs.map fun f => f.a * f.X ^ ((ε - 1) / ε)).sum = (Y / A) ^ ((ε - 1) / ε) := by
  have hS : 0 ≤ (fs.map fun f => f.a * f.X ^ ((ε - 1) / ε)).sum := by
    apply List.sum_nonneg
    intro x hx
    obtain ⟨f, hf, rfl⟩ := List.mem_map.1 hx
    exact mul_nonneg (hpos f hf).1.le (Real.rpow_nonneg (hpos f hf).2.le _)
  unfold CESProduction at h
  generalize (fs.map fun f => f.a * f.X ^ ((ε - 1) / ε)).sum = S at *
  have hne : ε - 1 ≠ 0 := sub_ne_zero.2 hε1
  have hk : Y / A = S ^ (ε / (ε - 1)) := by rw [h]; field_simp
  rw [hk, ← Real.rpow_mul hS]
  have : ε / (ε - 1) * ((ε - 1) / ε) = 1 := by field_simp
  rw [this, Real.rpow_one]

/-- An output that can be produced from positive amounts is positive. -/
theorem ces_output_pos {y A ε : ℝ} (hA : 0 < A) {fs : List FactorVal} (hne : fs ≠ [])
    (hpos : ∀ f ∈ fs, 0 < f.a ∧ 0 < f.X) (h : CESProduction y A ε fs) : 0 < y := by
  unfold CESProduction at h
  rw [h]
  refine mul_pos hA (Real.rpow_pos_of_pos ?_ _)
  apply List.sum_pos
  · intro x hx
    obtain ⟨f, hf, rfl⟩ := List.mem_map.1 hx
    exact mul_pos (hpos f hf).1 (Real.rpow_pos_of_pos (hpos f hf).2 _)
  · simpa using hne

/-- What another bundle costs, compared with the value of the output that is made from it. -/
theorem ces_cost {Y A P ε : ℝ} (hY : 0 < Y) (hA : 0 < A) (hP : 0 < P) (hε : ε ≠ 0) (hε1 : ε ≠ 1)
    {fs gs : List FactorVal} (hpos : ∀ f ∈ fs, f.Pos ∧ 0 < f.X) (hd : ∀ f ∈ fs, CESDemand Y A P ε f)
    (hF : CESProduction Y A ε fs) (hg : OtherBundle fs gs) {y : ℝ} (hy : CESProduction y A ε gs) (hne : gs ≠ []) :
    ((ε - 1) / ε < 1 → P * y ≤ factorCost gs) ∧ (1 < (ε - 1) / ε → factorCost gs ≤ P * y) := by
  obtain ⟨ps, rfl, rfl, hz⟩ := hg.pairs
  have hposf : ∀ q ∈ ps, (0 < q.1.p ∧ 0 < q.1.a) ∧ 0 < q.1.X := fun q hq =>
    hpos q.1 (List.mem_map.2 ⟨q, hq, rfl⟩)
  have hposg : ∀ g ∈ ps.map otherOf, 0 < g.a ∧ 0 < g.X := by
    intro g hg
    obtain ⟨q, hq, rfl⟩ := List.mem_map.1 hg
    exact ⟨(hposf q hq).1.2, hz q hq⟩
  have hyp := ces_output_pos hA hne hposg hy
  have e1 := ces_kernel_sum hA hε hε1 (fun f hf => ⟨(hpos f hf).1.2, (hpos f hf).2⟩) hF
  have e2 := ces_kernel_sum hA hε hε1 hposg hy
  rw [List.map_map] at e1 e2
  set ρ := (ε - 1) / ε with hρ
  have hρ0 : ρ ≠ 0 := div_ne_zero (sub_ne_zero.2 hε1) hε
  have hρe : 1 / ε = 1 - ρ := by rw [hρ]; field_simp; ring
  set k := Y / A with hk
  set z := y / A with hzz
  have hkp : 0 < k := div_pos hY hA
  have hzp : 0 < z := div_pos hyp hA
  let w : FactorVal × ℝ → ℝ := fun q => q.1.a * (q.1.X / k) ^ ρ
  let t : FactorVal × ℝ → ℝ := fun q => q.2 / z / (q.1.X / k)
  have hw : ∀ q ∈ ps, 0 ≤ w q := fun q hq => by
    obtain ⟨⟨hp, ha⟩, hX⟩ := hposf q hq
    exact mul_nonneg ha.le (Real.rpow_nonneg (by positivity) _)
  have ht : ∀ q ∈ ps, 0 < t q := fun q hq => by
    obtain ⟨⟨hp, ha⟩, hX⟩ := hposf q hq
    have := hz q hq
    positivity
  have scale : ∀ (c : ℝ) (l : List (FactorVal × ℝ)) (g : FactorVal × ℝ → ℝ),
      (l.map fun q => c * g q).sum = c * (l.map g).sum := by
    intro c l g
    induction l with
    | nil => simp
    | cons a l ih => simp only [List.map_cons, List.sum_cons, ih]; ring
  have hsum : (ps.map w).sum = 1 := by
    have : ps.map w = ps.map fun q => (k ^ ρ)⁻¹ * (q.1.a * q.1.X ^ ρ) := by
      apply List.map_congr_left
      intro q hq
      obtain ⟨⟨hp, ha⟩, hX⟩ := hposf q hq
      show q.1.a * (q.1.X / k) ^ ρ = _
      rw [Real.div_rpow hX.le hkp.le]
      field_simp
    rw [this, scale]
    have h2 : (ps.map fun q => q.1.a * q.1.X ^ ρ).sum = k ^ ρ := e1
    rw [h2, inv_mul_cancel₀ (Real.rpow_pos_of_pos hkp _).ne']
  have hpow : (ps.map fun q => w q * t q ^ ρ).sum = 1 := by
    have : (ps.map fun q => w q * t q ^ ρ) = ps.map fun q => (z ^ ρ)⁻¹ * (q.1.a * q.2 ^ ρ) := by
      apply List.map_congr_left
      intro q hq
      obtain ⟨⟨hp, ha⟩, hX⟩ := hposf q hq
      have hq2 := hz q hq
      show q.1.a * (q.1.X / k) ^ ρ * (q.2 / z / (q.1.X / k)) ^ ρ = _
      have hXk : 0 < q.1.X / k := by positivity
      rw [Real.div_rpow (by positivity) hXk.le, Real.div_rpow hq2.le hzp.le]
      have := Real.rpow_pos_of_pos hXk ρ
      field_simp
    rw [this, scale]
    have h2 : (ps.map fun q => q.1.a * q.2 ^ ρ).sum = z ^ ρ := e2
    rw [h2, inv_mul_cancel₀ (Real.rpow_pos_of_pos hzp _).ne']
  have hcost : factorCost (ps.map otherOf) = P * y * (ps.map fun q => w q * t q).sum := by
    unfold factorCost
    rw [List.map_map, ← scale]
    congr 1
    apply List.map_congr_left
    intro q hq
    obtain ⟨⟨hp, ha⟩, hX⟩ := hposf q hq
    have hdem := (ces_price hY hA hP hε (hposf q hq).1 hX).1 (hd q.1 (List.mem_map.2 ⟨q, hq, rfl⟩))
    show q.1.p * q.2 = P * y * (q.1.a * (q.1.X / k) ^ ρ * (q.2 / z / (q.1.X / k)))
    have hXk : 0 < q.1.X / k := by positivity
    have h3 : (k / q.1.X) ^ (1 - ρ) = (q.1.X / k) ^ ρ / (q.1.X / k) := by
      rw [← inv_div q.1.X k, Real.inv_rpow hXk.le, ← Real.rpow_neg hXk.le, neg_sub, Real.rpow_sub_one hXk.ne']
    rw [hdem, ← hk, hρe, h3]
    have hyA : y = A * z := by rw [hzz]; field_simp
    rw [hyA]
    have hz0 := hzp.ne'
    field_simp
  have hPy : 0 < P * y := mul_pos hP hyp
  constructor
  · intro h1
    have := one_le_mean ρ hρ0 h1 ps w t hw ht hsum hpow
    rw [hcost]
    nlinarith
  · intro h1
    have := mean_le_one ρ h1 ps w t hw ht hsum hpow
    rw [hcost]
    nlinarith

/-- Without a change of the bundle the cost is the value of the output. -/
theorem ces_zero_profit {Y A P ε : ℝ} (hY : 0 < Y) (hA : 0 < A) (hP : 0 < P) (hε : ε ≠ 0) (hε1 : ε ≠ 1)
    {fs : List FactorVal} (hpos : ∀ f ∈ fs, f.Pos ∧ 0 < f.X) (hd : ∀ f ∈ fs, CESDemand Y A P ε f)
    (hF : CESProduction Y A ε fs) : factorCost fs = P * Y := by
  have h := (ces_value_iff Y A P ε hY hA hP fs (fun f hf => (hpos f hf).1) hd).2
    ((ces_production_iff Y A P ε hY hA hP hε hε1 fs (fun f hf => (hpos f hf).1) hd).1 hF)
  unfold ValueDefinition at h
  unfold factorCost
  rw [← h, mul_comm]

/-- The first-order condition. -/
theorem ces_foc {Y A P ε c : ℝ} (hY : 0 < Y) (hA : 0 < A) (hP : 0 < P) (hε : ε ≠ 0) (hε1 : ε ≠ 1)
    {f : FactorVal} (hf : f.Pos) (hX : 0 < f.X) (hc : 0 ≤ c) (C : ℝ)
    (hF : c + f.a * f.X ^ ((ε - 1) / ε) = (Y / A) ^ ((ε - 1) / ε))
    (hext : IsLocalExtr (fun s : ℝ => P * (A * (c + f.a * s ^ ((ε - 1) / ε)) ^ (ε / (ε - 1))) - (f.p * s + C)) f.X) :
    CESDemand Y A P ε f := by
  rw [ces_price hY hA hP hε hf hX]
  obtain ⟨hp, ha⟩ := hf
  have hk : 0 < Y / A := by positivity
  have hne : ε - 1 ≠ 0 := sub_ne_zero.2 hε1
  set ρ := (ε - 1) / ε with hρ
  have hinv : ε / (ε - 1) = 1 / ρ := by rw [hρ, one_div_div]
  have hρ0 : ρ ≠ 0 := div_ne_zero hne hε
  have hρe : 1 / ε = 1 - ρ := by rw [hρ]; field_simp; ring
  rw [hinv] at hext
  have hS : 0 < c + f.a * f.X ^ ρ := by
    have := Real.rpow_pos_of_pos hX ρ
    positivity
  have d1 : HasDerivAt (fun s : ℝ => c + f.a * s ^ ρ) (f.a * (ρ * f.X ^ (ρ - 1))) f.X :=
    ((Real.hasDerivAt_rpow_const (Or.inl hX.ne')).const_mul f.a).const_add c
  have d2 := d1.rpow_const (p := 1 / ρ) (Or.inl hS.ne')
  have d3 := ((d2.const_mul A).const_mul P).sub (((hasDerivAt_id f.X).const_mul f.p).add_const C)
  have hz := hext.hasDerivAt_eq_zero d3
  have h1 : (c + f.a * f.X ^ ρ) ^ (1 / ρ - 1) = (Y / A) ^ (1 - ρ) := by
    rw [hF, ← Real.rpow_mul hk.le]
    congr 1
    field_simp
  rw [h1] at hz
  rw [hρe, Real.div_rpow hk.le hX.le]
  have h2 : f.X ^ (ρ - 1) = (f.X ^ (1 - ρ))⁻¹ := by rw [← Real.rpow_neg hX.le, neg_sub]
  rw [h2] at hz
  have hXp := Real.rpow_pos_of_pos hX (1 - ρ)
  field_simp at hz ⊢
  linarith

/-! ## Cobb-Douglas -/

theorem cobb_foc {Y A P b : ℝ} {f : FactorVal} (hf : f.Pos) (hX : 0 < f.X) (C : ℝ)
    (hF : Y = A * (f.X ^ f.a * b))
    (hext : IsLocalExtr (fun s : ℝ => P * (A * (s ^ f.a * b)) - (f.p * s + C)) f.X) :
    CobbDouglasDemand Y P f := by
  obtain ⟨hp, ha⟩ := hf
  have d1 := (Real.hasDerivAt_rpow_const (p := f.a) (Or.inl hX.ne')).mul_const b
  have d3 := ((d1.const_mul A).const_mul P).sub (((hasDerivAt_id f.X).const_mul f.p).add_const C)
  have hz := hext.hasDerivAt_eq_zero d3
  rw [Real.rpow_sub_one hX.ne'] at hz
  unfold CobbDouglasDemand
  rw [hF]
  field_simp at hz ⊢
  linarith

/-- Profits of another bundle under the Cobb-Douglas demands, shares adding up to at most one. -/
theorem cobb_best {Y A P : ℝ} (hY : 0 < Y) (hP : 0 < P) {fs gs : List FactorVal}
    (hpos : ∀ f ∈ fs, f.Pos ∧ 0 < f.X) (hsum : (fs.map (·.a)).sum ≤ 1) (hd : ∀ f ∈ fs, CobbDouglasDemand Y P f)
    (hF : CobbDouglasProduction Y A fs) (hg : OtherBundle fs gs) {y : ℝ} (hy : CobbDouglasProduction y A gs) :
    P * y - factorCost gs ≤ P * Y - factorCost fs := by
  obtain ⟨ps, rfl, rfl, hz⟩ := hg.pairs
  have hposf : ∀ q ∈ ps, (0 < q.1.p ∧ 0 < q.1.a) ∧ 0 < q.1.X := fun q hq =>
    hpos q.1 (List.mem_map.2 ⟨q, hq, rfl⟩)
  have hdf : ∀ q ∈ ps, q.1.X = q.1.a * Y * P / q.1.p := fun q hq => hd q.1 (List.mem_map.2 ⟨q, hq, rfl⟩)
  unfold CobbDouglasProduction at hF hy
  rw [List.map_map] at hF hy hsum
  let r : FactorVal × ℝ → ℝ := fun q => q.2 / q.1.X
  have hr : ∀ q ∈ ps, 0 < r q := fun q hq => div_pos (hz q hq) (hposf q hq).2
  have hmean := prod_le_mean ps (fun q => q.1.a) r (fun q hq => (hposf q hq).1.2.le) hr hsum
  have scale : ∀ (c : ℝ) (l : List (FactorVal × ℝ)) (g : FactorVal × ℝ → ℝ),
      (l.map fun q => c * g q).sum = c * (l.map g).sum := by
    intro c l g
    induction l with
    | nil => simp
    | cons a l ih => simp only [List.map_cons, List.sum_cons, ih]; ring
  have hprod : ∀ l : List (FactorVal × ℝ), (∀ q ∈ l, 0 < q.1.X ∧ 0 < q.2) →
      (l.map fun q => q.2 ^ q.1.a).prod = (l.map fun q => q.1.X ^ q.1.a).prod * (l.map fun q => r q ^ q.1.a).prod := by
    intro l
    induction l with
    | nil => simp
    | cons a l ih =>
      intro h
      obtain ⟨h1, h2⟩ := h a (by simp)
      simp only [List.map_cons, List.prod_cons, ih fun q hq => h q (by simp [hq])]
      have : r a ^ a.1.a = a.2 ^ a.1.a / a.1.X ^ a.1.a := Real.div_rpow h2.le h1.le _
      rw [this]
      have := (Real.rpow_pos_of_pos h1 a.1.a).ne'
      field_simp
  have hyY : y = Y * (ps.map fun q => r q ^ q.1.a).prod := by
    rw [hF, hy, mul_assoc]
    congr 1
    exact hprod ps fun q hq => ⟨(hposf q hq).2, hz q hq⟩
  have hc1 : factorCost (ps.map otherOf) = P * Y * (ps.map fun q => q.1.a * r q).sum := by
    unfold factorCost
    rw [List.map_map, ← scale]
    congr 1
    apply List.map_congr_left
    intro q hq
    obtain ⟨⟨hp, ha⟩, hX⟩ := hposf q hq
    show q.1.p * q.2 = P * Y * (q.1.a * (q.2 / q.1.X))
    rw [hdf q hq]
    field_simp
  have hc2 : factorCost (ps.map Prod.fst) = P * Y * (ps.map fun q => q.1.a).sum := by
    unfold factorCost
    rw [List.map_map, ← scale]
    congr 1
    apply List.map_congr_left
    intro q hq
    obtain ⟨⟨hp, ha⟩, hX⟩ := hposf q hq
    show q.1.p * q.1.X = P * Y * q.1.a
    rw [hdf q hq]
    field_simp
  rw [hc1, hc2, hyY]
  have hPY : 0 < P * Y := mul_pos hP hY
  nlinarith

/-! ## Equations and optima -/

theorem factorCost_split (pre post : List FactorVal) (f : FactorVal) :
    factorCost (pre ++ f :: post) = f.p * f.X + (factorCost pre + factorCost post) := by
  unfold factorCost
  simp only [List.map_append, List.map_cons, List.sum_append, List.sum_cons]
  ring

theorem cesProduction_split (y A ε : ℝ) (pre post : List FactorVal) (f : FactorVal) :
    CESProduction y A ε (pre ++ f :: post) ↔
      y = A * (((pre.map fun f => f.a * f.X ^ ((ε - 1) / ε)).sum + (post.map fun f => f.a * f.X ^ ((ε - 1) / ε)).sum) +
        f.a * f.X ^ ((ε - 1) / ε)) ^ (ε / (ε - 1)) := by
  unfold CESProduction
  simp only [List.map_append, List.map_cons, List.sum_append, List.sum_cons]
  rw [show ∀ a b c : ℝ, a + (b + c) = a + c + b by intros; ring]

/-- The profit as a function of the amount of one factor has an extremum where the factor is demanded. -/
theorem ces_extremum {Y A P ε : ℝ} (hY : 0 < Y) (hA : 0 < A) (hP : 0 < P) (hε : ε ≠ 0) (hε1 : ε ≠ 1)
    {fs : List FactorVal} (hpos : ∀ f ∈ fs, f.Pos ∧ 0 < f.X) (hF : CESProduction Y A ε fs)
    (hext : (∀ gs, OtherBundle fs gs → ∀ y, CESProduction y A ε gs → P * y - factorCost gs ≤ P * Y - factorCost fs) ∨
      (∀ gs, OtherBundle fs gs → ∀ y, CESProduction y A ε gs → factorCost gs - P * y ≤ factorCost fs - P * Y)) :
    ∀ f ∈ fs, CESDemand Y A P ε f := by
  intro f hf
  obtain ⟨pre, post, rfl⟩ := List.append_of_mem hf
  have hS := ces_kernel_sum hA hε hε1 (fun f hf => ⟨(hpos f hf).1.2, (hpos f hf).2⟩) hF
  simp only [List.map_append, List.map_cons, List.sum_append, List.sum_cons] at hS
  have hnn : ∀ l : List FactorVal, (∀ g ∈ l, g ∈ pre ++ f :: post) →
      0 ≤ (l.map fun f => f.a * f.X ^ ((ε - 1) / ε)).sum := by
    intro l hl
    apply List.sum_nonneg
    intro x hx
    obtain ⟨g, hg, rfl⟩ := List.mem_map.1 hx
    obtain ⟨⟨-, ha⟩, hX⟩ := hpos g (hl g hg)
    exact mul_nonneg ha.le (Real.rpow_nonneg hX.le _)
  have hX := (hpos f hf).2
  have h1 := hnn pre (by intro g hg; simp [hg])
  have h2 := hnn post (by intro g hg; simp [hg])
  refine ces_foc (c := (pre.map fun f => f.a * f.X ^ ((ε - 1) / ε)).sum +
    (post.map fun f => f.a * f.X ^ ((ε - 1) / ε)).sum) hY hA hP hε hε1 (hpos f hf).1 hX (add_nonneg h1 h2)
    (factorCost pre + factorCost post) (by linarith) ?_
  rw [cesProduction_split] at hF
  rcases hext with hmax | hmin
  · refine Or.inr ?_
    filter_upwards [lt_mem_nhds hX] with s hs
    have := hmax _ (OtherBundle.update pre post f s hs fun g hg => (hpos g hg).2) _
      ((cesProduction_split _ _ _ _ _ _).2 rfl)
    rw [factorCost_split, factorCost_split] at this
    dsimp only at this
    rw [hF] at this
    exact this
  · refine Or.inl ?_
    filter_upwards [lt_mem_nhds hX] with s hs
    have := hmin _ (OtherBundle.update pre post f s hs fun g hg => (hpos g hg).2) _
      ((cesProduction_split _ _ _ _ _ _).2 rfl)
    rw [factorCost_split, factorCost_split] at this
    dsimp only at this
    rw [hF] at this
    linarith

theorem OtherBundle.ne_nil {fs gs : List FactorVal} (h : OtherBundle fs gs) (hne : fs ≠ []) : gs ≠ [] := by
  rintro rfl
  exact hne (List.forall₂_nil_right_iff.1 h)

theorem ces_optimum {Y A P ε : ℝ} (hY : 0 < Y) (hA : 0 < A) (hP : 0 < P) (hε : 0 < ε) (hε1 : ε ≠ 1)
    {fs : List FactorVal} (hne : fs ≠ []) (hpos : ∀ f ∈ fs, f.Pos ∧ 0 < f.X) :
    (CESProduction Y A ε fs ∧ ∀ f ∈ fs, CESDemand Y A P ε f) ↔
      ProfitMaximum (fun y gs => CESProduction y A ε gs) Y P fs := by
  have hρ : (ε - 1) / ε < 1 := by rw [div_lt_one hε]; linarith
  constructor
  · rintro ⟨hF, hd⟩
    refine ⟨hF, fun gs hg y hy => ?_⟩
    have h1 := (ces_cost hY hA hP hε.ne' hε1 hpos hd hF hg hy (hg.ne_nil hne)).1 hρ
    have h2 := ces_zero_profit hY hA hP hε.ne' hε1 hpos hd hF
    linarith
  · intro h
    exact ⟨h.feasible, ces_extremum hY hA hP hε.ne' hε1 hpos h.feasible (Or.inl h.best)⟩

theorem cet_optimum {Y A P ε : ℝ} (hY : 0 < Y) (hA : 0 < A) (hP : 0 < P) (hε : ε < 0)
    {fs : List FactorVal} (hne : fs ≠ []) (hpos : ∀ f ∈ fs, f.Pos ∧ 0 < f.X) :
    (CESProduction Y A ε fs ∧ ∀ f ∈ fs, CESDemand Y A P ε f) ↔
      RevenueMaximum (fun y gs => CESProduction y A ε gs) Y P fs := by
  have hε1 : ε ≠ 1 := by linarith
  have hρ : 1 < (ε - 1) / ε := by rw [lt_div_iff_of_neg hε]; linarith
  constructor
  · rintro ⟨hF, hd⟩
    refine ⟨hF, fun gs hg y hy => ?_⟩
    have h1 := (ces_cost hY hA hP hε.ne hε1 hpos hd hF hg hy (hg.ne_nil hne)).2 hρ
    have h2 := ces_zero_profit hY hA hP hε.ne hε1 hpos hd hF
    linarith
  · intro h
    exact ⟨h.feasible, ces_extremum hY hA hP hε.ne hε1 hpos h.feasible (Or.inr h.best)⟩

theorem cobbProduction_split (y A : ℝ) (pre post : List FactorVal) (f : FactorVal) :
    CobbDouglasProduction y A (pre ++ f :: post) ↔
      y = A * (f.X ^ f.a * ((pre.map fun f => f.X ^ f.a).prod * (post.map fun f => f.X ^ f.a).prod)) := by
  unfold CobbDouglasProduction
  simp only [List.map_append, List.map_cons, List.prod_append, List.prod_cons]
  rw [mul_left_comm (List.prod _) (f.X ^ f.a)]

theorem cobb_optimum {Y A P : ℝ} (hY : 0 < Y) (hP : 0 < P) {fs : List FactorVal}
    (hpos : ∀ f ∈ fs, f.Pos ∧ 0 < f.X) (hsum : (fs.map (·.a)).sum ≤ 1) :
    (CobbDouglasProduction Y A fs ∧ ∀ f ∈ fs, CobbDouglasDemand Y P f) ↔
      ProfitMaximum (fun y gs => CobbDouglasProduction y A gs) Y P fs := by
  constructor
  · rintro ⟨hF, hd⟩
    exact ⟨hF, fun gs hg y hy => cobb_best hY hP hpos hsum hd hF hg hy⟩
  · intro h
    refine ⟨h.feasible, fun f hf => ?_⟩
    obtain ⟨pre, post, rfl⟩ := List.append_of_mem hf
    have hX := (hpos f hf).2
    have hF := (cobbProduction_split _ _ _ _ _).1 h.feasible
    refine cobb_foc (hpos f hf).1 hX (factorCost pre + factorCost post) hF (Or.inr ?_)
    filter_upwards [lt_mem_nhds hX] with s hs
    have := h.best _ (OtherBundle.update pre post f s hs fun g hg => (hpos g hg).2) _
      ((cobbProduction_split _ _ _ _ _).2 rfl)
    rw [factorCost_split, factorCost_split] at this
    dsimp only at this
    rw [hF] at this
    exact this

/-- With shares that add up to more than one the demands do not give a profit maximum: scaling up all factors
brings more. -/
theorem cobb_no_optimum {Y A P : ℝ} (hY : 0 < Y) (hP : 0 < P) {fs : List FactorVal}
    (hpos : ∀ f ∈ fs, f.Pos ∧ 0 < f.X) (hsum : 1 < (fs.map (·.a)).sum)
    (hF : CobbDouglasProduction Y A fs) :
    ¬ ProfitMaximum (fun y gs => CobbDouglasProduction y A gs) Y P fs := by
  intro h
  have hd : ∀ f ∈ fs, CobbDouglasDemand Y P f := by
    intro f hf
    obtain ⟨pre, post, rfl⟩ := List.append_of_mem hf
    have hX := (hpos f hf).2
    have hF := (cobbProduction_split _ _ _ _ _).1 h.feasible
    refine cobb_foc (hpos f hf).1 hX (factorCost pre + factorCost post) hF (Or.inr ?_)
    filter_upwards [lt_mem_nhds hX] with s hs
    have := h.best _ (OtherBundle.update pre post f s hs fun g hg => (hpos g hg).2) _
      ((cobbProduction_split _ _ _ _ _).2 rfl)
    rw [factorCost_split, factorCost_split] at this
    dsimp only at this
    rw [hF] at this
    exact this
  -- twice the factors
  set σ := (fs.map (·.a)).sum with hσ
  have hcost : factorCost fs = P * Y * σ := by
    unfold factorCost
    rw [hσ, ← list_sum_map_mul]
    congr 1
    apply list_map_congr
    intro f hf
    obtain ⟨⟨hp, ha⟩, hX⟩ := hpos f hf
    have := hd f hf
    unfold CobbDouglasDemand at this
    rw [this]
    field_simp
  have hother : OtherBundle fs (fs.map fun f => ⟨2 * f.X, f.p, f.a⟩) := by
    unfold OtherBundle
    rw [List.forall₂_map_right_iff, List.forall₂_same]
    intro f hf
    exact ⟨rfl, rfl, by have := (hpos f hf).2; dsimp only; linarith⟩
  have hprod : ∀ l : List FactorVal, (∀ f ∈ l, 0 < f.X) →
      ((l.map fun f => (⟨2 * f.X, f.p, f.a⟩ : FactorVal)).map fun f => f.X ^ f.a).prod =
        2 ^ (l.map (·.a)).sum * (l.map fun f => f.X ^ f.a).prod := by
    intro l
    induction l with
    | nil => simp
    | cons f l ih =>
      intro hl
      simp only [List.map_cons, List.prod_cons, List.sum_cons] at ih ⊢
      rw [ih fun g hg => hl g (by simp [hg]), Real.mul_rpow (by norm_num) (hl f (by simp)).le,
        Real.rpow_add (by norm_num)]
      ring
  have hy : CobbDouglasProduction (2 ^ σ * Y) A (fs.map fun f => ⟨2 * f.X, f.p, f.a⟩) := by
    unfold CobbDouglasProduction at hF ⊢
    rw [hprod fs fun f hf => (hpos f hf).2, hF]
    ring
  have hb := h.best _ hother _ hy
  have hc2 : factorCost (fs.map fun f => (⟨2 * f.X, f.p, f.a⟩ : FactorVal)) = 2 * (P * Y * σ) := by
    rw [← hcost]
    unfold factorCost
    rw [← list_sum_map_mul, List.map_map]
    congr 1
    apply list_map_congr
    intro f _
    simp only [Function.comp_apply]
    ring
  rw [hc2, hcost] at hb
  have hPY : 0 < P * Y := mul_pos hP hY
  -- `2 ^ σ > 1 + σ` for `σ > 1`
  have hb2 : (1 : ℝ) + σ * 1 < (1 + 1) ^ σ := one_add_mul_self_lt_rpow_one_add (by norm_num) (by norm_num) hsum
  norm_num at hb2
  nlinarith

theorem leontief_optimum {Y P : ℝ} (hY : 0 < Y) (hP : 0 < P) {fs : List FactorVal}
    (hpos : ∀ f ∈ fs, f.Pos ∧ 0 < f.X) :
    (Y = factorCost fs / P ∧ ∀ f ∈ fs, LeontiefDemand Y f) ↔ ProfitMaximum LeontiefFeasible Y P fs := by
  have low : ∀ ps : List (FactorVal × ℝ), (∀ q ∈ ps, 0 < q.1.p) → ∀ y, LeontiefFeasible y (ps.map otherOf) →
      (ps.map fun q => q.1.p * q.1.a).sum * y ≤ factorCost (ps.map otherOf) := by
    intro ps
    induction ps with
    | nil => intro _ y _; simp [factorCost]
    | cons q ps ih =>
      intro hq y hy
      have h1 := ih (fun r hr => hq r (by simp [hr])) y (fun f hf => hy f (by
        rw [List.map_cons]; exact List.mem_cons_of_mem _ hf))
      have h2 : q.1.a * y ≤ q.2 := hy (otherOf q) (by simp)
      have h3 := mul_le_mul_of_nonneg_left h2 (hq q (by simp)).le
      unfold factorCost at h1 ⊢
      simp only [List.map_cons, List.sum_cons] at h1 ⊢
      show _ ≤ q.1.p * q.2 + _
      linarith
  constructor
  · rintro ⟨hz, hd⟩
    refine ⟨fun f hf => (hd f hf).ge, fun gs hg y hy => ?_⟩
    obtain ⟨ps, rfl, rfl, hz'⟩ := hg.pairs
    have hl := low ps (fun q hq => (hpos q.1 (List.mem_map.2 ⟨q, hq, rfl⟩)).1.1) y hy
    have hc : factorCost (ps.map Prod.fst) = (ps.map fun q => q.1.p * q.1.a).sum * Y := by
      unfold factorCost
      rw [List.map_map, ← List.sum_map_mul_right]
      congr 1
      apply List.map_congr_left
      intro q hq
      have := hd q.1 (List.mem_map.2 ⟨q, hq, rfl⟩)
      unfold LeontiefDemand at this
      simp only [Function.comp_apply]
      rw [this]; ring
    have hPu : P = (ps.map fun q => q.1.p * q.1.a).sum := by
      rw [hc] at hz
      have : Y * P = (ps.map fun q => q.1.p * q.1.a).sum * Y := by
        conv_lhs => rw [hz]
        field_simp
      have h2 : P * Y = (ps.map fun q => q.1.p * q.1.a).sum * Y := by linarith
      exact mul_right_cancel₀ hY.ne' h2
    rw [hc, ← hPu]
    rw [← hPu] at hl
    linarith
  · intro h
    -- no factor is bought in excess
    have hd : ∀ f ∈ fs, LeontiefDemand Y f := by
      intro f hf
      obtain ⟨pre, post, rfl⟩ := List.append_of_mem hf
      obtain ⟨⟨hp, ha⟩, hX⟩ := hpos f hf
      have hs : 0 < f.a * Y := mul_pos ha hY
      have := h.best _ (OtherBundle.update pre post f (f.a * Y) hs fun g hg => (hpos g hg).2) Y (by
        intro g hg
        have hg' : g ∈ pre ∨ g = ⟨f.a * Y, f.p, f.a⟩ ∨ g ∈ post := by simpa using hg
        rcases hg' with hg' | rfl | hg'
        · exact h.feasible g (by simp [hg'])
        · exact le_refl _
        · exact h.feasible g (by simp [hg']))
      rw [factorCost_split, factorCost_split] at this
      dsimp only at this
      have h1 := h.feasible f hf
      unfold LeontiefDemand
      refine le_antisymm ?_ h1
      have h2 : f.p * f.X ≤ f.p * (f.a * Y) := by linarith
      exact le_of_mul_le_mul_left h2 hp
    refine ⟨?_, hd⟩
    -- profits cannot be scaled
    have hsc : ∀ c : ℝ, 0 < c → P * (c * Y) - c * factorCost fs ≤ P * Y - factorCost fs := by
      intro c hc
      have hother : OtherBundle fs (fs.map fun f => ⟨c * f.X, f.p, f.a⟩) := by
        unfold OtherBundle
        rw [List.forall₂_map_right_iff, List.forall₂_same]
        intro f hf
        exact ⟨rfl, rfl, mul_pos hc (hpos f hf).2⟩
      have := h.best _ hother (c * Y) (by
        intro g hg
        obtain ⟨f, hf, rfl⟩ := List.mem_map.1 hg
        have := mul_le_mul_of_nonneg_left (h.feasible f hf) hc.le
        dsimp only
        linarith)
      have hcc : factorCost (fs.map fun f => (⟨c * f.X, f.p, f.a⟩ : FactorVal)) = c * factorCost fs := by
        unfold factorCost
        rw [← list_sum_map_mul, List.map_map]
        congr 1
        apply list_map_congr
        intro f _
        simp only [Function.comp_apply]
        ring
      rwa [hcc] at this
    have h1 := hsc 2 (by norm_num)
    have h2 := hsc (1 / 2) (by norm_num)
    have : factorCost fs = P * Y := by linarith
    rw [this]
    field_simp

end Verif
