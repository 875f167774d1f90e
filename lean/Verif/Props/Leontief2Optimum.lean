import Verif.Props.Leontief2
import Verif.Props.Optimum

/-!
# C81, C84 for two-dimensional Leontief

The matrix form of `leontief` (`cge_modeling/production_functions.py`, two dims): one producer for
each label of the second dimension.
-/

namespace Verif

open scoped BigOperators

/-- The inputs of producer `t`: quantity `X s t`, price `P s t` and requirement `φ s t` of each input. -/
def producerInputs (n : Nat) (P X φ : Nat → Nat → ℝ) (t : Nat) : List FactorVal :=
  (List.range n).map fun s => ⟨X s t, P s t, φ s t⟩

theorem factorCost_producerInputs (n : Nat) (P X φ : Nat → Nat → ℝ) (t : Nat) :
    factorCost (producerInputs n P X φ t) = ∑ s ∈ Finset.range n, P s t * X s t := by
  rw [factorCost, producerInputs, List.map_map]
  induction n with
  | zero => simp
  | succ n ih => rw [List.range_succ, List.map_append, List.sum_append, ih, Finset.sum_range_succ]; simp

/-- The two systems of equations in one: each producer maximises profits. -/
theorem leontief2_optimum (n m : Nat) (P X φ : Nat → Nat → ℝ) (Y PY : Nat → ℝ)
    (hY : ∀ t < m, 0 < Y t) (hPY : ∀ t < m, 0 < PY t)
    (hpos : ∀ s < n, ∀ t < m, 0 < P s t ∧ 0 < φ s t ∧ 0 < X s t) :
    (ZeroProfit2 n m P X Y PY ∧ LeontiefDemand2 n m φ X Y) ↔
      ∀ t < m, ProfitMaximum LeontiefFeasible (Y t) (PY t) (producerInputs n P X φ t) := by
  have hin : ∀ t < m, ∀ f ∈ producerInputs n P X φ t, f.Pos ∧ 0 < f.X := by
    intro t ht f hf
    obtain ⟨s, hs, rfl⟩ := List.mem_map.1 hf
    obtain ⟨h1, h2, h3⟩ := hpos s (List.mem_range.1 hs) t ht
    exact ⟨⟨h1, h2⟩, h3⟩
  constructor
  · rintro ⟨hz, hd⟩ t ht
    rw [← leontief_optimum (hY t ht) (hPY t ht) (hin t ht), factorCost_producerInputs]
    refine ⟨?_, ?_⟩
    · rw [← hz t ht, mul_div_cancel_right₀ _ (hPY t ht).ne']
    · intro f hf
      obtain ⟨s, hs, rfl⟩ := List.mem_map.1 hf
      exact hd s (List.mem_range.1 hs) t ht
  · intro h
    have h' := fun t ht => (leontief_optimum (hY t ht) (hPY t ht) (hin t ht)).2 (h t ht)
    constructor
    · intro t ht
      have := (h' t ht).1
      rw [factorCost_producerInputs] at this
      rw [this, div_mul_cancel₀ _ (hPY t ht).ne']
    · intro s hs t ht
      exact (h' t ht).2 ⟨X s t, P s t, φ s t⟩
        (List.mem_map.2 ⟨s, List.mem_range.2 hs, rfl⟩)

/-- **C84 (two-dimensional Leontief, numba).**  For positive data, the two equations generated by `leontief`
over two dims hold exactly when every producer – one for each label of the second dim – maximises
profits. -/
theorem C84_leontief2_numba {F p Y PY φ i j : Str} (h : Names2 F p Y PY φ i j)
    (coords : Dict Str (List Str)) (li lj : List Str) (hi : dget coords i = some li)
    (hj : dget coords j = some lj) (hne : li ≠ []) (expand transpose vec : Bool)
    (dims : Str → List Str) (arr : Str → List Nat → ℝ)
    (dF : dims F = [i, j]) (dφ : dims φ = [i, j]) (dp : dims p = if vec then [i] else [i, j])
    (dY : dims Y = [j]) (dPY : dims PY = [j])
    (hY : ∀ t < lj.length, 0 < arr Y [t]) (hPY : ∀ t < lj.length, 0 < arr PY [t])
    (hpos : ∀ s < li.length, ∀ t < lj.length, 0 < priceAt vec (arr p) s t ∧ 0 < arr φ [s, t] ∧
      0 < arr F [s, t]) :
    ∃ zp dem,
      leontief (.str F) (.str p) Y PY (.str φ) (.list [i, j]) coords (some i) expand transpose .numba =
        .ok [zp, dem] ∧
      ((SymHolds dims arr i j li.length lj.length zp ∧ SymHolds dims arr i j li.length lj.length dem) ↔
        ∀ t < lj.length, ProfitMaximum LeontiefFeasible (arr Y [t]) (arr PY [t])
          (producerInputs li.length (priceAt vec (arr p)) (fun s t => arr F [s, t])
            (fun s t => arr φ [s, t]) t)) := by
  obtain ⟨zp, dem, h1, h2, h3⟩ := C69_numba_partial h coords li lj hi hj hne expand transpose vec dims arr
    dF dφ dp dY dPY fun t ht => (hPY t ht).ne'
  refine ⟨zp, dem, h1, ?_⟩
  rw [h2, h3]
  exact leontief2_optimum _ _ _ _ _ (fun t => arr Y [t]) (fun t => arr PY [t]) hY hPY hpos

/-- **C84 (two-dimensional Leontief, pytensor).**  The same for the array texts of the pytensor back-end. -/
theorem C84_leontief2_pytensor {F p Y PY φ i j : Str} (h : Names2 F p Y PY φ i j)
    (coords : Dict Str (List Str)) (n m : Nat) (expand transpose : Bool) (env : Str → Arr)
    (sF : (env F).shape = [n, m]) (sφ : (env φ).shape = [n, m])
    (sp : (env p).shape = if expand then [n] else [n, m])
    (sY : (env Y).shape = [m]) (sPY : (env PY).shape = [m])
    (hY : ∀ t < m, 0 < (env Y).get [t]) (hPY : ∀ t < m, 0 < (env PY).get [t])
    (hpos : ∀ s < n, ∀ t < m, 0 < priceAt expand (env p).get s t ∧ 0 < (env φ).get [s, t] ∧
      0 < (env F).get [s, t]) :
    ∃ zp dem,
      leontief (.str F) (.str p) Y PY (.str φ) (.list [i, j]) coords (some i) expand transpose .pytensor =
        .ok [zp, dem] ∧
      ((ArrHolds env zp ∧ ArrHolds env dem) ↔
        ∀ t < m, ProfitMaximum LeontiefFeasible ((env Y).get [t]) ((env PY).get [t])
          (producerInputs n (priceAt expand (env p).get) (fun s t => (env F).get [s, t])
            (fun s t => (env φ).get [s, t]) t)) := by
  obtain ⟨zp, dem, h1, h2, h3⟩ := C69_pytensor_partial h coords n m expand transpose env sF sφ sp sY sPY
    fun t ht => (hPY t ht).ne'
  refine ⟨zp, dem, h1, ?_⟩
  rw [h2, h3]
  exact leontief2_optimum _ _ _ _ _ (fun t => (env Y).get [t]) (fun t => (env PY).get [t]) hY hPY hpos

/-! ## Returns to scale and money illusion -/

/-- The same economy with all prices times `μ` and the activity of producer `t` times `c t`. -/
structure Rescaled2 (n m : Nat) (c : Nat → ℝ) (μ : ℝ) (P X φ P' X' φ' : Nat → Nat → ℝ)
    (Y PY Y' PY' : Nat → ℝ) : Prop where
  prices : ∀ s < n, ∀ t < m, P' s t = μ * P s t
  quantities : ∀ s < n, ∀ t < m, X' s t = c t * X s t
  requirements : ∀ s < n, ∀ t < m, φ' s t = φ s t
  output : ∀ t < m, Y' t = c t * Y t
  outputPrice : ∀ t < m, PY' t = μ * PY t

theorem leontief2_rescaled {n m : Nat} {c : Nat → ℝ} {μ : ℝ} {P X φ P' X' φ' : Nat → Nat → ℝ}
    {Y PY Y' PY' : Nat → ℝ} (h : Rescaled2 n m c μ P X φ P' X' φ' Y PY Y' PY')
    (hc : ∀ t < m, 0 < c t) (hμ : 0 < μ) :
    (ZeroProfit2 n m P' X' Y' PY' ↔ ZeroProfit2 n m P X Y PY) ∧
    (LeontiefDemand2 n m φ' X' Y' ↔ LeontiefDemand2 n m φ X Y) := by
  constructor
  · refine forall₂_congr fun t ht => ?_
    have e : ∑ s ∈ Finset.range n, P' s t * X' s t
        = (c t * μ) * ∑ s ∈ Finset.range n, P s t * X s t := by
      rw [Finset.mul_sum]
      apply Finset.sum_congr rfl
      intro s hs
      rw [h.prices s (Finset.mem_range.1 hs) t ht, h.quantities s (Finset.mem_range.1 hs) t ht]
      ring
    rw [e, h.output t ht, h.outputPrice t ht,
      show c t * Y t * (μ * PY t) = (c t * μ) * (Y t * PY t) by ring]
    exact mul_right_inj' (mul_pos (hc t ht) hμ).ne'
  · refine forall₂_congr fun s hs => forall₂_congr fun t ht => ?_
    rw [h.quantities s hs t ht, h.requirements s hs t ht, h.output t ht,
      show φ s t * (c t * Y t) = c t * (φ s t * Y t) by ring]
    exact mul_right_inj' (hc t ht).ne'

/-- **C81 (two-dimensional Leontief, numba).**  Multiplying all prices by one positive number and the
quantities of each producer by a positive number of its own changes neither equation. -/
theorem C81_leontief2_numba {F p Y PY φ i j : Str} (h : Names2 F p Y PY φ i j)
    (coords : Dict Str (List Str)) (li lj : List Str) (hi : dget coords i = some li)
    (hj : dget coords j = some lj) (hne : li ≠ []) (expand transpose vec : Bool)
    (dims : Str → List Str) (arr arr' : Str → List Nat → ℝ)
    (dF : dims F = [i, j]) (dφ : dims φ = [i, j]) (dp : dims p = if vec then [i] else [i, j])
    (dY : dims Y = [j]) (dPY : dims PY = [j]) (hPY : ∀ t < lj.length, arr PY [t] ≠ 0)
    (c : Nat → ℝ) (μ : ℝ) (hc : ∀ t < lj.length, 0 < c t) (hμ : 0 < μ)
    (hr : Rescaled2 li.length lj.length c μ (priceAt vec (arr p)) (fun s t => arr F [s, t])
      (fun s t => arr φ [s, t]) (priceAt vec (arr' p)) (fun s t => arr' F [s, t])
      (fun s t => arr' φ [s, t]) (fun t => arr Y [t]) (fun t => arr PY [t]) (fun t => arr' Y [t])
      (fun t => arr' PY [t])) :
    ∃ zp dem,
      leontief (.str F) (.str p) Y PY (.str φ) (.list [i, j]) coords (some i) expand transpose .numba =
        .ok [zp, dem] ∧
      (SymHolds dims arr' i j li.length lj.length zp ↔ SymHolds dims arr i j li.length lj.length zp) ∧
      (SymHolds dims arr' i j li.length lj.length dem ↔
        SymHolds dims arr i j li.length lj.length dem) := by
  obtain ⟨zp, dem, h1, h2, h3⟩ := C69_numba_partial h coords li lj hi hj hne expand transpose vec dims arr
    dF dφ dp dY dPY hPY
  obtain ⟨zp', dem', h1', h2', h3'⟩ := C69_numba_partial h coords li lj hi hj hne expand transpose vec dims
    arr' dF dφ dp dY dPY fun t ht => by
      have := hr.outputPrice t ht
      rw [this]
      exact mul_ne_zero hμ.ne' (hPY t ht)
  rw [h1] at h1'
  cases h1'
  refine ⟨zp, dem, h1, ?_, ?_⟩
  · rw [h2, h2']; exact (leontief2_rescaled hr hc hμ).1
  · rw [h3, h3']; exact (leontief2_rescaled hr hc hμ).2

/-- **C81 (two-dimensional Leontief, pytensor).**  The same for the array texts. -/
theorem C81_leontief2_pytensor {F p Y PY φ i j : Str} (h : Names2 F p Y PY φ i j)
    (coords : Dict Str (List Str)) (n m : Nat) (expand transpose : Bool) (env env' : Str → Arr)
    (sF : (env F).shape = [n, m]) (sφ : (env φ).shape = [n, m])
    (sp : (env p).shape = if expand then [n] else [n, m])
    (sY : (env Y).shape = [m]) (sPY : (env PY).shape = [m])
    (hsh : ∀ x, (env' x).shape = (env x).shape) (hPY : ∀ t < m, (env PY).get [t] ≠ 0)
    (c : Nat → ℝ) (μ : ℝ) (hc : ∀ t < m, 0 < c t) (hμ : 0 < μ)
    (hr : Rescaled2 n m c μ (priceAt expand (env p).get) (fun s t => (env F).get [s, t])
      (fun s t => (env φ).get [s, t]) (priceAt expand (env' p).get) (fun s t => (env' F).get [s, t])
      (fun s t => (env' φ).get [s, t]) (fun t => (env Y).get [t]) (fun t => (env PY).get [t])
      (fun t => (env' Y).get [t]) (fun t => (env' PY).get [t])) :
    ∃ zp dem,
      leontief (.str F) (.str p) Y PY (.str φ) (.list [i, j]) coords (some i) expand transpose .pytensor =
        .ok [zp, dem] ∧
      (ArrHolds env' zp ↔ ArrHolds env zp) ∧ (ArrHolds env' dem ↔ ArrHolds env dem) := by
  obtain ⟨zp, dem, h1, h2, h3⟩ := C69_pytensor_partial h coords n m expand transpose env sF sφ sp sY sPY hPY
  obtain ⟨zp', dem', h1', h2', h3'⟩ := C69_pytensor_partial h coords n m expand transpose env'
    ((hsh F).trans sF) ((hsh φ).trans sφ) ((hsh p).trans sp) ((hsh Y).trans sY) ((hsh PY).trans sPY)
    fun t ht => by
      have := hr.outputPrice t ht
      rw [this]
      exact mul_ne_zero hμ.ne' (hPY t ht)
  rw [h1] at h1'
  cases h1'
  refine ⟨zp, dem, h1, ?_, ?_⟩
  · rw [h2, h2']; exact (leontief2_rescaled hr hc hμ).1
  · rw [h3, h3']; exact (leontief2_rescaled hr hc hμ).2

/-- The hypotheses are met, with both equations true: the economy of the examples of C69 (two producers). -/
example : (∀ s < 2, ∀ t < 2, 0 < priceAt true (ex2Env "P".toList).get s t ∧
      0 < (ex2Env "phi".toList).get [s, t] ∧ 0 < (ex2Env "X".toList).get [s, t]) ∧
    (∀ t < 2, 0 < (ex2Env "Y".toList).get [t]) ∧ (∀ t < 2, 0 < (ex2Env "PY".toList).get [t]) ∧
    ∀ t < 2, ProfitMaximum LeontiefFeasible ((ex2Env "Y".toList).get [t]) ((ex2Env "PY".toList).get [t])
      (producerInputs 2 (priceAt true (ex2Env "P".toList).get) (fun s t => (ex2Env "X".toList).get [s, t])
        (fun s t => (ex2Env "phi".toList).get [s, t]) t) := by
  obtain ⟨h1, h2, h3, h4, h5⟩ := ex2_env
  have hp : ∀ s < 2, ∀ t < 2, 0 < priceAt true (ex2Env "P".toList).get s t ∧
      0 < (ex2Env "phi".toList).get [s, t] ∧ 0 < (ex2Env "X".toList).get [s, t] := by
    intro s _ t _
    rw [h1, h2, h4]
    simp only [priceAt, if_true]
    refine ⟨by norm_num, ?_, ?_⟩ <;> positivity
  have hy : ∀ t < 2, 0 < (ex2Env "Y".toList).get [t] := by
    intro t _; rw [h5]; norm_num
  have hpy : ∀ t < 2, 0 < (ex2Env "PY".toList).get [t] := by
    intro t _; rw [h3]; simp only; positivity
  refine ⟨hp, hy, hpy, ?_⟩
  exact (leontief2_optimum 2 2 _ _ _ _ _ hy hpy hp).1 ex2_documented

end Verif
