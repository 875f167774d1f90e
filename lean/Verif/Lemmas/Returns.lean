import Verif.Lemmas.ProductionMath

/-! How the production equations behave when quantities and prices are rescaled, and how demands respond to
prices. -/

namespace Verif

/-- Quantity times `c`, price times `m`. -/
noncomputable def FactorVal.scaled (c m : ℝ) (f : FactorVal) : FactorVal := ⟨c * f.X, m * f.p, f.a⟩

theorem cobb_prod_scaled (c : ℝ) (hc : 0 < c) (m : ℝ) (fs : List FactorVal) (hX : ∀ f ∈ fs, 0 ≤ f.X) :
    ((fs.map (FactorVal.scaled c m)).map fun f => f.X ^ f.a).prod =
      c ^ (fs.map (·.a)).sum * (fs.map fun f => f.X ^ f.a).prod := by
  induction fs with
  | nil => simp
  | cons f fs ih =>
    simp only [List.map_cons, List.prod_cons, List.sum_cons]
    rw [ih fun g hg => hX g (List.mem_cons_of_mem _ hg), Real.rpow_add hc]
    unfold FactorVal.scaled
    dsimp only
    rw [Real.mul_rpow hc.le (hX f List.mem_cons_self)]
    ring

theorem cobb_production_scaled (c : ℝ) (hc : 0 < c) (m Y A : ℝ) (fs : List FactorVal)
    (hX : ∀ f ∈ fs, 0 ≤ f.X) (hsum : (fs.map (·.a)).sum = 1) :
    CobbDouglasProduction (c * Y) A (fs.map (FactorVal.scaled c m)) ↔ CobbDouglasProduction Y A fs := by
  unfold CobbDouglasProduction
  rw [cobb_prod_scaled c hc m fs hX, hsum, Real.rpow_one, mul_left_comm]
  exact mul_right_inj' hc.ne'

theorem value_scaled (c m : ℝ) (hc : 0 < c) (hm : 0 < m) (Y P : ℝ) (fs : List FactorVal) :
    ValueDefinition (c * Y) (m * P) (fs.map (FactorVal.scaled c m)) ↔ ValueDefinition Y P fs := by
  unfold ValueDefinition
  have h : ((fs.map (FactorVal.scaled c m)).map fun f => f.p * f.X).sum =
      (c * m) * (fs.map fun f => f.p * f.X).sum := by
    rw [← list_sum_map_mul, List.map_map]
    congr 1
    apply list_map_congr
    intro f _
    simp only [Function.comp_apply, FactorVal.scaled]
    ring
  rw [h]
  have e : c * Y * (m * P) = c * m * (Y * P) := by ring
  rw [e]
  exact mul_right_inj' (mul_pos hc hm).ne'

theorem cobb_demand_scaled (c m : ℝ) (hc : 0 < c) (hm : 0 < m) (Y P : ℝ) (f : FactorVal) :
    CobbDouglasDemand (c * Y) (m * P) (f.scaled c m) ↔ CobbDouglasDemand Y P f := by
  unfold CobbDouglasDemand FactorVal.scaled
  dsimp only
  have e : f.a * (c * Y) * (m * P) / (m * f.p) = c * (f.a * Y * P / f.p) := by
    rw [show f.a * (c * Y) * (m * P) = m * (c * (f.a * Y * P)) by ring, mul_div_mul_left _ _ hm.ne',
      mul_div_assoc]
  rw [e]
  exact mul_right_inj' hc.ne'

theorem ces_production_scaled (c : ℝ) (hc : 0 < c) (m Y A ε : ℝ) (hε : ε ≠ 0) (hε1 : ε ≠ 1)
    (fs : List FactorVal) (hX : ∀ f ∈ fs, 0 ≤ f.X ∧ 0 ≤ f.a) :
    CESProduction (c * Y) A ε (fs.map (FactorVal.scaled c m)) ↔ CESProduction Y A ε fs := by
  unfold CESProduction
  have h : ((fs.map (FactorVal.scaled c m)).map fun f => f.a * f.X ^ ((ε - 1) / ε)).sum =
      c ^ ((ε - 1) / ε) * (fs.map fun f => f.a * f.X ^ ((ε - 1) / ε)).sum := by
    rw [← list_sum_map_mul, List.map_map]
    congr 1
    apply list_map_congr
    intro f hf
    simp only [Function.comp_apply, FactorVal.scaled]
    rw [Real.mul_rpow hc.le (hX f hf).1]
    ring
  have hS : 0 ≤ (fs.map fun f => f.a * f.X ^ ((ε - 1) / ε)).sum := by
    apply List.sum_nonneg
    intro x hx
    obtain ⟨f, hf, rfl⟩ := List.mem_map.1 hx
    exact mul_nonneg (hX f hf).2 (Real.rpow_nonneg (hX f hf).1 _)
  have hne : ε - 1 ≠ 0 := sub_ne_zero.2 hε1
  have hk : (ε - 1) / ε * (ε / (ε - 1)) = 1 := by field_simp
  rw [h, Real.mul_rpow (Real.rpow_nonneg hc.le _) hS, ← Real.rpow_mul hc.le, hk, Real.rpow_one,
    mul_left_comm]
  exact mul_right_inj' hc.ne'

theorem ces_demand_scaled (c m : ℝ) (hc : 0 < c) (hm : 0 < m) (Y A P ε : ℝ) (f : FactorVal) :
    CESDemand (c * Y) A (m * P) ε (f.scaled c m) ↔ CESDemand Y A P ε f := by
  unfold CESDemand FactorVal.scaled
  dsimp only
  have e : f.a * (m * P) * A / (m * f.p) = f.a * P * A / f.p := by
    rw [show f.a * (m * P) * A = m * (f.a * P * A) by ring, mul_div_mul_left _ _ hm.ne']
  rw [e, mul_div_assoc, mul_assoc]
  exact mul_right_inj' hc.ne'

theorem leontief_demand_scaled (c m : ℝ) (hc : 0 < c) (Y : ℝ) (f : FactorVal) :
    LeontiefDemand (c * Y) (f.scaled c m) ↔ LeontiefDemand Y f := by
  unfold LeontiefDemand FactorVal.scaled
  dsimp only
  rw [mul_left_comm]
  exact mul_right_inj' hc.ne'

/-- The log of the ratio of two CES demands. -/
theorem ces_ratio (Y A P ε : ℝ) (hY : 0 < Y) (hA : 0 < A) (hP : 0 < P) (f g : FactorVal) (hf : f.Pos)
    (hg : g.Pos) (df : CESDemand Y A P ε f) (dg : CESDemand Y A P ε g) :
    Real.log (f.X / g.X) = ε * (Real.log (g.p / f.p) + Real.log (f.a / g.a)) := by
  unfold CESDemand at df dg
  have h : ∀ x : FactorVal, x.Pos → x.X = Y / A * (x.a * P * A / x.p) ^ ε →
      0 < x.X ∧ Real.log x.X = Real.log (Y / A) + ε * (Real.log x.a + Real.log P + Real.log A - Real.log x.p) := by
    intro x hx dx
    obtain ⟨hp, ha⟩ := hx
    have hu : 0 < x.a * P * A / x.p := by positivity
    have hYA : 0 < Y / A := by positivity
    refine ⟨by rw [dx]; positivity, ?_⟩
    rw [dx, Real.log_mul hYA.ne' (Real.rpow_pos_of_pos hu _).ne', Real.log_rpow hu,
      Real.log_div (by positivity) hp.ne', Real.log_mul (by positivity) hA.ne',
      Real.log_mul ha.ne' hP.ne']
  obtain ⟨f1, f2⟩ := h f hf df
  obtain ⟨g1, g2⟩ := h g hg dg
  rw [Real.log_div f1.ne' g1.ne', f2, g2, Real.log_div hg.1.ne' hf.1.ne', Real.log_div hf.2.ne' hg.2.ne']
  ring

/-- Cobb-Douglas is the case of elasticity one. -/
theorem cobb_ratio (Y P : ℝ) (hY : 0 < Y) (hP : 0 < P) (f g : FactorVal) (hf : f.Pos) (hg : g.Pos)
    (df : CobbDouglasDemand Y P f) (dg : CobbDouglasDemand Y P g) :
    Real.log (f.X / g.X) = Real.log (g.p / f.p) + Real.log (f.a / g.a) := by
  have h : ∀ x : FactorVal, CobbDouglasDemand Y P x → CESDemand Y 1 P 1 x := by
    intro x dx
    unfold CobbDouglasDemand at dx
    unfold CESDemand
    rw [dx, Real.rpow_one]
    ring
  have := ces_ratio Y 1 P 1 hY one_pos hP f g hf hg (h f df) (h g dg)
  rwa [one_mul] at this

end Verif
