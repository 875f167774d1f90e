import Verif.Props.Optimum
import Mathlib.Analysis.SpecialFunctions.Log.Deriv

/-!
# C85: Cobb-Douglas as the case of unit elasticity of CES

"A Cobb-Douglas can be shown to be a special case of the CES production function, when the elasticity of
substitution between input factors is 1" (production_functions.py:122-126).
-/

namespace Verif

open scoped BigOperators Topology
open Filter

/-! ## The limit -/

theorem kernel_hasDerivAt (fs : List FactorVal) (hX : ∀ f ∈ fs, 0 < f.X) :
    HasDerivAt (fun ρ : ℝ => (fs.map fun f => f.a * f.X ^ ρ).sum)
      (fs.map fun f => f.a * Real.log f.X).sum 0 := by
  induction fs with
  | nil => simpa using hasDerivAt_const (0 : ℝ) (0 : ℝ)
  | cons f fs ih =>
    simp only [List.map_cons, List.sum_cons]
    have h1 := ((Real.hasStrictDerivAt_const_rpow (hX f (by simp)) 0).hasDerivAt).const_mul f.a
    rw [Real.rpow_zero, one_mul] at h1
    exact h1.add (ih fun g hg => hX g (by simp [hg]))

theorem prod_rpow_eq_exp (fs : List FactorVal) (hX : ∀ f ∈ fs, 0 < f.X) :
    (fs.map fun f => f.X ^ f.a).prod = Real.exp (fs.map fun f => f.a * Real.log f.X).sum := by
  induction fs with
  | nil => simp
  | cons f fs ih =>
    rw [List.map_cons, List.prod_cons, ih fun g hg => hX g (by simp [hg]), List.map_cons, List.sum_cons,
      Real.exp_add, Real.rpow_def_of_pos (hX f (by simp)), mul_comm (Real.log _)]

theorem ces_tendsto_cobb (A : ℝ) (fs : List FactorVal) (hX : ∀ f ∈ fs, 0 < f.X) (ha : ∀ f ∈ fs, 0 < f.a)
    (hsum : (fs.map (·.a)).sum = 1) :
    Tendsto (fun ε : ℝ => A * (fs.map fun f => f.a * f.X ^ ((ε - 1) / ε)).sum ^ (ε / (ε - 1))) (𝓝[≠] 1)
      (𝓝 (A * (fs.map fun f => f.X ^ f.a).prod)) := by
  have hne : fs ≠ [] := by rintro rfl; simp at hsum
  have hS : ∀ ρ : ℝ, 0 < (fs.map fun f => f.a * f.X ^ ρ).sum := by
    intro ρ
    apply List.sum_pos
    · intro x hx
      obtain ⟨f, hf, rfl⟩ := List.mem_map.1 hx
      exact mul_pos (ha f hf) (Real.rpow_pos_of_pos (hX f hf) _)
    · simpa using hne
  have h0 : (fs.map fun f => f.a * f.X ^ (0 : ℝ)).sum = 1 := by
    simpa only [Real.rpow_zero, mul_one] using hsum
  -- the logarithm of the kernel, divided by the exponent
  have hd := (kernel_hasDerivAt fs hX).log (hS 0).ne'
  rw [h0, div_one, hasDerivAt_iff_tendsto_slope] at hd
  have hslope : Tendsto (fun ρ : ℝ => 1 / ρ * Real.log (fs.map fun f => f.a * f.X ^ ρ).sum) (𝓝[≠] 0)
      (𝓝 (fs.map fun f => f.a * Real.log f.X).sum) := by
    refine hd.congr fun ρ => ?_
    rw [slope_def_field, h0, Real.log_one]
    ring
  have hρ : Tendsto (fun ε : ℝ => (ε - 1) / ε) (𝓝[≠] 1) (𝓝[≠] 0) := by
    refine tendsto_nhdsWithin_iff.2 ⟨?_, ?_⟩
    · have h : Tendsto (fun ε : ℝ => (ε - 1) / ε) (𝓝 1) (𝓝 ((1 - 1) / 1)) :=
        ((tendsto_id.sub_const 1).div tendsto_id one_ne_zero)
      rw [sub_self, zero_div] at h
      exact h.mono_left nhdsWithin_le_nhds
    · have h2 : ∀ᶠ ε : ℝ in 𝓝[≠] 1, ε ≠ 0 :=
        nhdsWithin_le_nhds (isOpen_ne.mem_nhds one_ne_zero)
      filter_upwards [h2, self_mem_nhdsWithin] with ε he h1
      exact div_ne_zero (sub_ne_zero.2 h1) he
  rw [prod_rpow_eq_exp fs hX]
  have hexp := (Real.continuous_exp.tendsto _).comp (hslope.comp hρ)
  refine (hexp.const_mul A).congr fun ε => ?_
  simp only [Function.comp_apply]
  rw [one_div_div, Real.rpow_def_of_pos (hS _), mul_comm (Real.log _)]

/-! ## The generated equations -/

/-- **C85 (demands).**  At elasticity one the demands generated by `CES` hold exactly when those generated by
`cobb_douglass` hold; with the value definition the two blocks then are the same. -/
theorem C85_unit_elasticity (xs : List FactorArg) (hok : ∀ f ∈ xs, f.Ok)
    (o op tfp e : Str) (Y P A E : PExpr) (hY : Phrase .atom o Y) (hP : Phrase .atom op P)
    (hA : Phrase .atom tfp A) (hE : Phrase .atom e E) (v w : Bool) :
    ∃ ces1 cesD cd1 cdD,
      (ces (.list (xs.map (·.name))) (.list (xs.map (·.price))) o op tfp
        (.list (xs.map (·.share))) e .no v).eqs = .ok (ces1 :: cesD) ∧
      (cobbDouglass (.list (xs.map (·.name))) (.list (xs.map (·.price))) o op
        (.list (xs.map (·.share))) tfp w).eqs = .ok (cd1 :: cdD) ∧
      ∀ (ι : Type) [Fintype ι] (env : Str → ι → ℝ) (i : ι), E.value env i = 1 → A.value env i ≠ 0 →
        (HoldsAll cesD env i ↔ HoldsAll cdD env i) ∧
        (v = true → w = true → (HoldsAll (ces1 :: cesD) env i ↔ HoldsAll (cd1 :: cdD) env i)) := by
  refine ⟨_, _, _, _, ces_lists xs o op tfp e v, cobb_lists xs o op tfp w, ?_⟩
  intro ι _ env i hE1 hA0
  have key : HoldsAll (xs.map fun f => cesDemand f.name f.price f.share o op tfp e) env i ↔
      HoldsAll (xs.map fun f => cobbDemand f.name f.price f.share o op tfp) env i := by
    unfold HoldsAll
    simp only [List.forall_mem_map]
    refine forall₂_congr fun f hf => ?_
    rw [(says_cesDemand f (hok f hf) o op tfp e Y P A E hY hP hA hE).holdsAt_iff env i,
      (says_cobbDemand f (hok f hf) o op tfp Y P hY hP.s).holdsAt_iff env i]
    unfold CESDemand CobbDouglasDemand
    rw [hE1, Real.rpow_one]
    have : Y.value env i / A.value env i * ((f.val env i).a * P.value env i * A.value env i / (f.val env i).p) =
        (f.val env i).a * Y.value env i * P.value env i / (f.val env i).p := by
      field_simp
    rw [this]
  refine ⟨key, ?_⟩
  rintro rfl rfl
  rw [holdsAll_cons, holdsAll_cons, if_pos rfl, if_pos rfl, key]

/-- **C85 (limit, `_partial`: not at elasticity one itself).**  Take states with fixed factors, shares adding up to
one and technology in which the production function generated by `CES` holds, with elasticities other than one
that tend to one.  Then the output tends to the output for which the production function generated by
`cobb_douglass` holds. -/
theorem C85_limit_partial (xs : List FactorArg) (hok : ∀ f ∈ xs, f.Ok)
    (o op tfp e : Str) (Y A E : PExpr) (hY : Phrase .atom o Y)
    (hA : Phrase .atom tfp A) (hE : Phrase .atom e E) :
    ∃ ces1 cesD cd1 cdD,
      (ces (.list (xs.map (·.name))) (.list (xs.map (·.price))) o op tfp
        (.list (xs.map (·.share))) e .no false).eqs = .ok (ces1 :: cesD) ∧
      (cobbDouglass (.list (xs.map (·.name))) (.list (xs.map (·.price))) o op
        (.list (xs.map (·.share))) tfp false).eqs = .ok (cd1 :: cdD) ∧
      ∀ (ι : Type) [Fintype ι] (env : ℕ → Str → ι → ℝ) (limit : Str → ι → ℝ) (i : ι),
        (∀ f ∈ xs, 0 < f.X.value limit i ∧ 0 < f.a.value limit i) →
        (xs.map fun f => f.a.value limit i).sum = 1 →
        (∀ n, ∀ f ∈ xs, f.X.value (env n) i = f.X.value limit i ∧ f.a.value (env n) i = f.a.value limit i) →
        (∀ n, A.value (env n) i = A.value limit i) →
        (∀ n, E.value (env n) i ≠ 1) → Tendsto (fun n => E.value (env n) i) atTop (𝓝 1) →
        (∀ n, HoldsAt ces1 (env n) i) → HoldsAt cd1 limit i →
        Tendsto (fun n => Y.value (env n) i) atTop (𝓝 (Y.value limit i)) := by
  refine ⟨_, _, _, _, ces_lists xs o op tfp e false, cobb_lists xs o op tfp false, ?_⟩
  intro ι _ env limit i hpos hsum hsame hAs hE1 hEt hces hcd
  have hne : xs ≠ [] := by rintro rfl; simp at hsum
  rw [if_neg (by decide), (says_cobbProduction xs hne hok o tfp Y A hY hA).holdsAt_iff] at hcd
  unfold CobbDouglasProduction at hcd
  have hlim := ces_tendsto_cobb (A.value limit i) (xs.map (·.val limit i))
    (by
      intro g hg
      obtain ⟨f, hf, rfl⟩ := List.mem_map.1 hg
      exact (hpos f hf).1)
    (by
      intro g hg
      obtain ⟨f, hf, rfl⟩ := List.mem_map.1 hg
      exact (hpos f hf).2)
    (by rw [List.map_map]; exact hsum)
  rw [hcd]
  refine (hlim.comp (tendsto_nhdsWithin_iff.2 ⟨hEt, Eventually.of_forall hE1⟩)).congr fun n => ?_
  have h := hces n
  rw [if_neg (by decide), (says_cesProduction xs hne hok o tfp e Y A E hY hA hE).holdsAt_iff] at h
  unfold CESProduction at h
  rw [h, hAs n]
  simp only [Function.comp_apply]
  congr 2
  rw [List.map_map, List.map_map]
  congr 1
  apply List.map_congr_left
  intro f hf
  obtain ⟨h1, h2⟩ := hsame n f hf
  simp only [Function.comp_apply, FactorArg.val, h1, h2]

/-- C85 is false of the production function at elasticity one itself: there the text of `CES` divides by zero
(the value of `x / 0` is zero here; with IEEE numbers the exponent is infinite, and the power of a sum of shares
equal to one is one as well), and the equation says that the output is the technology parameter, whatever the
factors are. -/
theorem C85_production_at_one (xs : List FactorArg) (hne : xs ≠ []) (hok : ∀ f ∈ xs, f.Ok)
    (o op tfp e : Str) (Y A E : PExpr) (hY : Phrase .atom o Y)
    (hA : Phrase .atom tfp A) (hE : Phrase .atom e E) :
    ∃ ces1 cesD, (ces (.list (xs.map (·.name))) (.list (xs.map (·.price))) o op tfp
        (.list (xs.map (·.share))) e .no false).eqs = .ok (ces1 :: cesD) ∧
      ∀ (ι : Type) [Fintype ι] (env : Str → ι → ℝ) (i : ι), E.value env i = 1 →
        (HoldsAt ces1 env i ↔ Y.value env i = A.value env i) := by
  refine ⟨_, _, ces_lists xs o op tfp e false, ?_⟩
  intro ι _ env i hE1
  rw [if_neg (by decide), (says_cesProduction xs hne hok o tfp e Y A E hY hA hE).holdsAt_iff]
  unfold CESProduction
  rw [hE1, sub_self, div_zero, Real.rpow_zero, mul_one]

/-- **C85 (value shares).**  In a Cobb-Douglas block every factor gets its share of the value of the output. -/
theorem C85_value_shares (xs : List FactorArg) (hok : ∀ f ∈ xs, f.Ok)
    (o op tfp : Str) (Y P : PExpr) (hY : Phrase .atom o Y) (hP : Phrase .atom op P) (v : Bool) :
    ∃ cd1 cdD, (cobbDouglass (.list (xs.map (·.name))) (.list (xs.map (·.price))) o op
        (.list (xs.map (·.share))) tfp v).eqs = .ok (cd1 :: cdD) ∧
      ∀ (ι : Type) [Fintype ι] (env : Str → ι → ℝ) (i : ι), (∀ f ∈ xs, f.p.value env i ≠ 0) →
        (HoldsAll cdD env i ↔
          ∀ f ∈ xs, f.p.value env i * f.X.value env i = f.a.value env i * (P.value env i * Y.value env i)) := by
  refine ⟨_, _, cobb_lists xs o op tfp v, ?_⟩
  intro ι _ env i hp
  unfold HoldsAll
  simp only [List.forall_mem_map]
  refine forall₂_congr fun f hf => ?_
  rw [(says_cobbDemand f (hok f hf) o op tfp Y P hY hP.s).holdsAt_iff env i]
  unfold CobbDouglasDemand
  have h0 := hp f hf
  change f.X.value env i = f.a.value env i * Y.value env i * P.value env i / f.p.value env i ↔ _
  rw [eq_div_iff h0, mul_comm (f.p.value env i)]
  constructor <;> intro h <;> linarith

/-- The docstring's sentence that in this case "the ratio of factor inputs is always equal to the ratio of factor
prices" is false: the block with two factors of equal share holds with four units of labour at wage 1, one unit
of capital at rent 4. -/
theorem C85_ratio_counterexample :
    ∃ eqs, (cobbDouglass (.list ["L".toList, "K".toList]) (.list ["w".toList, "r".toList]) "Y".toList "P".toList
        (.list ["a".toList, "a".toList]) "A".toList false).eqs = .ok eqs ∧
      ∃ env : Str → Unit → ℝ, HoldsAll eqs env () ∧
        env "L".toList () / env "K".toList () ≠ env "w".toList () / env "r".toList () := by
  have hn : ∀ x : Str, isIdent x = true → Phrase .atom x (.var x) := fun x h => Phrase.name h
  let n : Str → PExpr := .var
  let xs : List FactorArg := [⟨"L".toList, "w".toList, "a".toList, n "L".toList, n "w".toList, n "a".toList⟩,
    ⟨"K".toList, "r".toList, "a".toList, n "K".toList, n "r".toList, n "a".toList⟩]
  let env : Str → Unit → ℝ := fun x _ => if x = "P".toList then 4 else if x = "a".toList then 1 / 2 else
      if x = "L".toList then 4 else if x = "r".toList then 4 else if x = "Y".toList then 2 else 1
  have hok : ∀ f ∈ xs, f.Ok := by
    intro f hf
    simp only [xs, List.mem_cons, List.not_mem_nil, or_false] at hf
    rcases hf with rfl | rfl
    · exact ⟨hn _ rfl, (hn _ rfl).t, (hn _ rfl).s⟩
    · exact ⟨hn _ rfl, (hn _ rfl).t, (hn _ rfl).s⟩
  refine ⟨_, cobb_lists xs "Y".toList "P".toList "A".toList false, env, ?_, ?_⟩
  · rw [holdsAll_cons, if_neg (by decide),
      (says_cobbProduction xs (by simp [xs]) hok "Y".toList "A".toList _ _ (hn _ rfl) (hn _ rfl)).holdsAt_iff env ()]
    constructor
    · have h4 : (4 : ℝ) ^ (2⁻¹ : ℝ) = 2 := by
        rw [← one_div, ← Real.sqrt_eq_rpow, show (4 : ℝ) = 2 ^ 2 by norm_num, Real.sqrt_sq (by norm_num)]
      simp [CobbDouglasProduction, FactorArg.val, PExpr.value, h4, xs, n, env]
    · unfold HoldsAll
      simp only [List.forall_mem_map]
      intro f hf
      rw [(says_cobbDemand f (hok f hf) "Y".toList "P".toList "A".toList _ _ (hn _ rfl) (hn _ rfl).s).holdsAt_iff
        env ()]
      simp only [xs, List.mem_cons, List.not_mem_nil, or_false] at hf
      rcases hf with rfl | rfl <;> simp [CobbDouglasDemand, FactorArg.val, PExpr.value, n, env] <;> norm_num
  · simp [env]
    norm_num

/-- The hypotheses of `C85_limit_partial` are met, at the level of the formulas: one factor of four units (the sum
of one share, one), elasticities `1 + 1/(n+1)`, where both production functions give four. -/
example : (∀ n : ℕ, CESProduction 4 1 (1 + 1 / ((n : ℝ) + 1)) [⟨4, 1, 1⟩]) ∧ CobbDouglasProduction 4 1 [⟨4, 1, 1⟩] ∧
    (∀ n : ℕ, 1 + 1 / ((n : ℝ) + 1) ≠ 1) ∧ Tendsto (fun n : ℕ => 1 + 1 / ((n : ℝ) + 1)) atTop (𝓝 1) := by
  have hne : ∀ n : ℕ, (1 : ℝ) + 1 / ((n : ℝ) + 1) ≠ 1 := by
    intro n h
    have : (0 : ℝ) < 1 / ((n : ℝ) + 1) := by positivity
    linarith
  refine ⟨fun n => ?_, ?_, hne, ?_⟩
  · simp only [CESProduction, List.map_cons, List.map_nil, List.sum_cons, List.sum_nil, one_mul, add_zero]
    rw [← Real.rpow_mul (by norm_num)]
    have h1 := sub_ne_zero.2 (hne n)
    have h0 : (1 : ℝ) + 1 / ((n : ℝ) + 1) ≠ 0 := by positivity
    rw [div_mul_div_comm, mul_comm, div_self (mul_ne_zero h0 h1), Real.rpow_one]
  · simp [CobbDouglasProduction]
  · simpa using (tendsto_one_div_add_atTop_nhds_zero_nat (𝕜 := ℝ)).const_add 1

end Verif
