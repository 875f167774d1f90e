import Verif.Spec.Production
import Mathlib.Tactic.FieldSimp
import Mathlib.Tactic.Ring
import Mathlib.Tactic.Linarith
import Mathlib.Tactic.Positivity

/-! The algebra behind the production functions. -/

namespace Verif

/-- Positive price and share. -/
def FactorVal.Pos (f : FactorVal) : Prop := 0 < f.p ∧ 0 < f.a

/-- The cost share of a factor in the CES case. -/
noncomputable def cesWeight (A P ε : ℝ) (f : FactorVal) : ℝ := f.a * (f.a * P * A / f.p) ^ (ε - 1)

theorem list_sum_map_mul (c : ℝ) (fs : List FactorVal) (g : FactorVal → ℝ) :
    (fs.map fun f => c * g f).sum = c * (fs.map g).sum := by
  induction fs with
  | nil => simp
  | cons f fs ih => rw [List.map_cons, List.sum_cons, ih, List.map_cons, List.sum_cons]; ring

theorem list_map_congr {β : Type} (fs : List FactorVal) (g h : FactorVal → β) (H : ∀ f ∈ fs, g f = h f) :
    fs.map g = fs.map h := List.map_congr_left H

theorem ces_value_iff (Y A P ε : ℝ) (hY : 0 < Y) (hA : 0 < A) (hP : 0 < P) (fs : List FactorVal)
    (hpos : ∀ f ∈ fs, f.Pos) (hd : ∀ f ∈ fs, CESDemand Y A P ε f) :
    ValueDefinition Y P fs ↔ (fs.map (cesWeight A P ε)).sum = 1 := by
  unfold ValueDefinition
  have h : (fs.map fun f => f.p * f.X) = fs.map fun f => (Y * P) * cesWeight A P ε f := by
    apply list_map_congr
    intro f hf
    obtain ⟨hp, ha⟩ := hpos f hf
    have hx := hd f hf
    unfold CESDemand at hx
    have hu : 0 < f.a * P * A / f.p := by positivity
    rw [hx, cesWeight, Real.rpow_sub hu, Real.rpow_one]
    field_simp
  rw [h, list_sum_map_mul]
  have hYP : Y * P ≠ 0 := by positivity
  constructor
  · intro e
    have : Y * P * (fs.map (cesWeight A P ε)).sum = Y * P * 1 := by rw [← e, mul_one]
    exact mul_left_cancel₀ hYP this
  · intro e
    rw [e, mul_one]

theorem ces_production_iff (Y A P ε : ℝ) (hY : 0 < Y) (hA : 0 < A) (hP : 0 < P) (hε : ε ≠ 0) (hε1 : ε ≠ 1)
    (fs : List FactorVal) (hpos : ∀ f ∈ fs, f.Pos) (hd : ∀ f ∈ fs, CESDemand Y A P ε f) :
    CESProduction Y A ε fs ↔ (fs.map (cesWeight A P ε)).sum = 1 := by
  unfold CESProduction
  have hne : ε - 1 ≠ 0 := sub_ne_zero.2 hε1
  have h : (fs.map fun f => f.a * f.X ^ ((ε - 1) / ε)) =
      fs.map fun f => (Y / A) ^ ((ε - 1) / ε) * cesWeight A P ε f := by
    apply list_map_congr
    intro f hf
    obtain ⟨hp, ha⟩ := hpos f hf
    have hx := hd f hf
    unfold CESDemand at hx
    have hu : 0 ≤ f.a * P * A / f.p := by positivity
    have hYA : 0 ≤ Y / A := by positivity
    rw [hx, Real.mul_rpow hYA (Real.rpow_nonneg hu _), ← Real.rpow_mul hu, cesWeight]
    have : ε * ((ε - 1) / ε) = ε - 1 := by field_simp
    rw [this]
    ring
  have hS : 0 ≤ (fs.map (cesWeight A P ε)).sum := by
    apply List.sum_nonneg
    intro x hx
    obtain ⟨f, hf, rfl⟩ := List.mem_map.1 hx
    obtain ⟨hp, ha⟩ := hpos f hf
    unfold cesWeight
    positivity
  rw [h, list_sum_map_mul]
  have hYA : 0 < Y / A := by positivity
  rw [Real.mul_rpow (Real.rpow_nonneg hYA.le _) hS, ← Real.rpow_mul hYA.le]
  have hk : (ε - 1) / ε * (ε / (ε - 1)) = 1 := by field_simp
  rw [hk, Real.rpow_one]
  have hk0 : ε / (ε - 1) ≠ 0 := div_ne_zero hε hne
  constructor
  · intro e
    have e1 : (fs.map (cesWeight A P ε)).sum ^ (ε / (ε - 1)) = 1 := by
      have : Y * (fs.map (cesWeight A P ε)).sum ^ (ε / (ε - 1)) = Y * 1 := by
        rw [mul_one]
        conv_rhs => rw [e]
        field_simp
      exact mul_left_cancel₀ hY.ne' this
    have e2 := Real.rpow_rpow_inv hS hk0
    rw [e1, Real.one_rpow] at e2
    exact e2.symm
  · intro e
    rw [e, Real.one_rpow]
    field_simp

/-- Cobb-Douglas: the demands alone give the value equation when the shares add up to one. -/
theorem cobb_value (Y P : ℝ) (fs : List FactorVal) (hpos : ∀ f ∈ fs, f.Pos)
    (hsum : (fs.map (·.a)).sum = 1) (hd : ∀ f ∈ fs, CobbDouglasDemand Y P f) : ValueDefinition Y P fs := by
  unfold ValueDefinition
  have h : (fs.map fun f => f.p * f.X) = fs.map fun f => (Y * P) * f.a := by
    apply list_map_congr
    intro f hf
    obtain ⟨hp, ha⟩ := hpos f hf
    have hx := hd f hf
    unfold CobbDouglasDemand at hx
    rw [hx]
    field_simp
  rw [h, list_sum_map_mul, hsum, mul_one]

theorem cobb_prod_aux (c : ℝ) (hc : 0 < c) (fs : List FactorVal) (hpos : ∀ f ∈ fs, f.Pos) :
    (fs.map fun f => (c * (f.a / f.p)) ^ f.a).prod =
      c ^ (fs.map (·.a)).sum * (fs.map fun f => (f.a / f.p) ^ f.a).prod := by
  induction fs with
  | nil => simp
  | cons f fs ih =>
    obtain ⟨hp, ha⟩ := hpos f List.mem_cons_self
    simp only [List.map_cons, List.prod_cons, List.sum_cons]
    rw [ih fun g hg => hpos g (List.mem_cons_of_mem _ hg), Real.rpow_add hc,
      Real.mul_rpow hc.le (by positivity)]
    ring

/-- Cobb-Douglas: given the demands, the production function holds iff the output price is the unit
cost. -/
theorem cobb_production_iff (Y A P : ℝ) (hY : 0 < Y) (hP : 0 < P) (fs : List FactorVal)
    (hpos : ∀ f ∈ fs, f.Pos) (hsum : (fs.map (·.a)).sum = 1) (hd : ∀ f ∈ fs, CobbDouglasDemand Y P f) :
    CobbDouglasProduction Y A fs ↔ P * (A * (fs.map fun f => (f.a / f.p) ^ f.a).prod) = 1 := by
  unfold CobbDouglasProduction
  have h : (fs.map fun f => f.X ^ f.a) = fs.map fun f => ((Y * P) * (f.a / f.p)) ^ f.a := by
    apply list_map_congr
    intro f hf
    have hx := hd f hf
    unfold CobbDouglasDemand at hx
    rw [hx]
    congr 1
    ring
  rw [h, cobb_prod_aux (Y * P) (by positivity) fs hpos, hsum, Real.rpow_one]
  generalize (fs.map fun f => (f.a / f.p) ^ f.a).prod = q
  constructor
  · intro e
    have : Y * (P * (A * q)) = Y * 1 := by rw [mul_one]; linarith [e]
    exact mul_left_cancel₀ hY.ne' this
  · intro e
    have : A * (Y * P * q) = Y * (P * (A * q)) := by ring
    rw [this, e, mul_one]

/-- Leontief: given the demands, zero profit holds iff the output price is the unit cost. -/
theorem leontief_zero_profit_iff (Y P : ℝ) (hY : 0 < Y) (hP : 0 < P) (fs : List FactorVal)
    (hd : ∀ f ∈ fs, LeontiefDemand Y f) :
    Y = (fs.map fun f => f.p * f.X).sum / P ↔ P = (fs.map fun f => f.p * f.a).sum := by
  have h : (fs.map fun f => f.p * f.X) = fs.map fun f => Y * (f.p * f.a) := by
    apply list_map_congr
    intro f hf
    have hx := hd f hf
    unfold LeontiefDemand at hx
    rw [hx]
    ring
  rw [h, list_sum_map_mul, eq_div_iff hP.ne']
  exact ⟨fun e => mul_left_cancel₀ hY.ne' e, fun e => by rw [← e]⟩

end Verif
