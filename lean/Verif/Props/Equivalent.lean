import Verif.Props.Numeraire

/-!
# C102: equivalent systems of equations give the same results

The same model can be written down in many ways: an equation can be multiplied by something that is not zero, one
equation can be added to another, and by Walras' law one equation can be left out, or the Walrasian residual put into
another one (`tests/utilities/models.py:22,44`: `L_s = L_d + resid`).
-/

namespace Verif

open Filter Topology Set

/-! ## Specification -/

/-- Near the state `x` the imbalances of the equations `eqsB` are combinations of those of the equations `eqsA`; the
combination varies continuously and can be undone at `x`. -/
def EquivalentNear (coords : Coords) (vars params : List ModelObject) (numeraire : Option ModelObject)
    (eqsA eqsB : List IndexedEq) (x : Fin (totalSize coords (solvedVars numeraire vars)) → ℝ)
    (t : Fin (totalSize coords params) → ℝ) : Prop :=
  ∃ M : (Fin (totalSize coords (solvedVars numeraire vars)) → ℝ) →
      Matrix (Fin (totalSize coords (solvedVars numeraire vars))) (Fin (totalSize coords (solvedVars numeraire vars))) ℝ,
    (∀ i k, ContinuousAt (fun y => M y i k) x) ∧ (M x).det ≠ 0 ∧
    ∀ᶠ y in 𝓝 x, ∀ i : Fin (totalSize coords (solvedVars numeraire vars)),
      (imbalances coords vars params numeraire eqsB (List.ofFn y ++ List.ofFn t)).getD i 0 =
        ∑ k, M y i k * (imbalances coords vars params numeraire eqsA (List.ofFn y ++ List.ofFn t)).getD k 0

/-- An equation with the variable `S` added to its right side. -/
def withSlack (q : IndexedEq) (S : Str) : IndexedEq := ⟨q.name, q.lhs, .add q.rhs (.sym S)⟩

/-- Walras' law for the equations `eqs` at the state `y`: the imbalances, weighted with `w`, add up to zero. -/
def WalrasAt (coords : Coords) (vars params : List ModelObject) (numeraire : Option ModelObject)
    (eqs : List IndexedEq) (w : Nat → ℝ) (y : Fin (totalSize coords (solvedVars numeraire vars)) → ℝ)
    (t : Fin (totalSize coords params) → ℝ) : Prop :=
  ∑ i ∈ Finset.range (imbalances coords vars params numeraire eqs (List.ofFn y ++ List.ofFn t)).length,
    w i * (imbalances coords vars params numeraire eqs (List.ofFn y ++ List.ofFn t)).getD i 0 = 0

/-! ## Derivatives -/

variable {coords : Coords} {vars params : List ModelObject} {numeraire : Option ModelObject}
  {core eqsA eqsB : List IndexedEq}

theorem hasDerivAt_mul_zero {m g : ℝ → ℝ} {d u : ℝ} (hm : ContinuousAt m u) (hg : HasDerivAt g d u) (h0 : g u = 0) :
    HasDerivAt (fun v => m v * g v) (m u * d) u := by
  rw [hasDerivAt_iff_tendsto_slope] at hg ⊢
  have h1 : slope (fun v => m v * g v) u = fun v => m v * slope g u v := by
    funext v
    simp only [slope_def_field, h0, mul_zero, sub_zero]
    ring
  rw [h1]
  exact (hm.tendsto.mono_left nhdsWithin_le_nhds).mul hg

theorem equivalent_invertible {n : Nat} (F G : (Fin n → ℝ) → Fin n → ℝ) (x : Fin n → ℝ)
    (M : (Fin n → ℝ) → Matrix (Fin n) (Fin n) ℝ) (hM : ∀ i k, ContinuousAt (fun y => M y i k) x)
    (hdet : (M x).det ≠ 0) (hrel : ∀ᶠ y in 𝓝 x, ∀ i, G y i = ∑ k, M y i k * F y k) (h0 : ∀ i, F x i = 0)
    (hF : DifferentiableAt ℝ F x)
    (hinv : ∀ D : Matrix (Fin n) (Fin n) ℝ,
      (∀ i j, HasDerivAt (fun u => F (Function.update x j u) i) (D i j) (x j)) → D.det ≠ 0)
    (D : Matrix (Fin n) (Fin n) ℝ)
    (hD : ∀ i j, HasDerivAt (fun u => G (Function.update x j u) i) (D i j) (x j)) : D.det ≠ 0 := by
  obtain ⟨E, hE⟩ : ∃ E : Matrix (Fin n) (Fin n) ℝ, ∀ i j, HasDerivAt (fun u => F (Function.update x j u) i)
      (E i j) (x j) := by
    refine ⟨fun i j => fderiv ℝ F x (Pi.single j 1) i, fun i j => ?_⟩
    have h2 : HasFDerivAt F (fderiv ℝ F x) (Function.update x j (x j)) := by
      rw [Function.update_eq_self]; exact hF.hasFDerivAt
    have h3 := h2.comp_hasDerivAt (x j) (hasDerivAt_update x j (x j))
    rw [hasDerivAt_pi] at h3
    exact h3 i
  have hDE : D = M x * E := by
    ext i j
    have htend : Tendsto (fun u => Function.update x j u) (𝓝 (x j)) (𝓝 x) := by
      have := (continuous_const.update j continuous_id : Continuous fun u => Function.update x j u).tendsto (x j)
      rwa [Function.update_eq_self] at this
    have h1 : HasDerivAt (fun u => ∑ k, M (Function.update x j u) i k * F (Function.update x j u) k)
        (∑ k, M x i k * E k j) (x j) := by
      refine HasDerivAt.fun_sum fun k _ => ?_
      have hm : ContinuousAt (fun u => M (Function.update x j u) i k) (x j) := by
        have : Tendsto (fun u => M (Function.update x j u) i k) (𝓝 (x j)) (𝓝 (M x i k)) := (hM i k).tendsto.comp htend
        unfold ContinuousAt
        dsimp only
        rwa [Function.update_eq_self]
      have := hasDerivAt_mul_zero hm (hE k j) (by rw [Function.update_eq_self]; exact h0 k)
      rwa [Function.update_eq_self] at this
    have h2 : HasDerivAt (fun u => G (Function.update x j u) i) (∑ k, M x i k * E k j) (x j) := by
      refine h1.congr_of_eventuallyEq ?_
      filter_upwards [htend.eventually hrel] with u hu
      exact hu i
    rw [Matrix.mul_apply]
    exact (hD i j).unique h2
  rw [hDE, Matrix.det_mul]
  exact mul_ne_zero hdet (hinv E hE)

/-! ## Theorems -/

/-- **C102, solutions.**  Equivalent equations have the same solutions. -/
theorem C102_solutions (x : Fin (totalSize coords (solvedVars numeraire vars)) → ℝ)
    (t : Fin (totalSize coords params) → ℝ)
    (hA : ∀ flat, (imbalances coords vars params numeraire eqsA flat).length =
      totalSize coords (solvedVars numeraire vars))
    (hB : ∀ flat, (imbalances coords vars params numeraire eqsB flat).length =
      totalSize coords (solvedVars numeraire vars))
    (heq : EquivalentNear coords vars params numeraire eqsA eqsB x t) :
    (∀ y ∈ imbalances coords vars params numeraire eqsB (List.ofFn x ++ List.ofFn t), y = 0) ↔
      ∀ y ∈ imbalances coords vars params numeraire eqsA (List.ofFn x ++ List.ofFn t), y = 0 := by
  obtain ⟨M, -, hdet, hrel⟩ := heq
  have hrel := hrel.self_of_nhds
  have fin : ∀ l : List ℝ, l.length = totalSize coords (solvedVars numeraire vars) →
      ((∀ y ∈ l, y = 0) ↔ ∀ i : Fin (totalSize coords (solvedVars numeraire vars)), l.getD i 0 = 0) := by
    intro l hl
    rw [zeros_iff]
    refine ⟨fun h i => h i, fun h i => ?_⟩
    by_cases hi : i < totalSize coords (solvedVars numeraire vars)
    · exact h ⟨i, hi⟩
    · rw [List.getD_eq_getElem?_getD, List.getElem?_eq_none (by omega)]
      rfl
  rw [fin _ (hB _), fin _ (hA _)]
  constructor
  · intro h
    by_contra hne
    push Not at hne
    obtain ⟨i, hi⟩ := hne
    refine hdet (Matrix.exists_mulVec_eq_zero_iff.1 ⟨fun k : Fin (totalSize coords (solvedVars numeraire vars)) =>
      (imbalances coords vars params numeraire eqsA (List.ofFn x ++ List.ofFn t)).getD k 0, ?_, ?_⟩)
    · intro h0
      exact hi (congrFun h0 i)
    · funext i
      exact (hrel i).symm.trans (h i)
  · intro h i
    rw [hrel i]
    exact Finset.sum_eq_zero fun k _ => by rw [h k, mul_zero]

/-- **C102, simulations.**  Take two models with the same variables and parameters on a back-end that differentiates the
residual graph.  Let the first satisfy the assumptions of C74 on a continuous path of solutions, near which the equations
of the second are equivalent to those of the first, and let both calls start from the same state with the same initial
and requested parameters.  Then both calls of `simulate` with `n` steps return, with the same parameters, and up to
`C / n` (`C / n⁴` with Runge-Kutta steps) the same variables. -/
theorem C102_simulate (b : EulerBackend) (esA esB : List (SymExpr Str))
    (AA AB : (Fin (totalSize coords (solvedVars numeraire vars)) → ℝ) → (Fin (totalSize coords params) → ℝ) →
      Matrix (Fin (totalSize coords (solvedVars numeraire vars))) (Fin (totalSize coords (solvedVars numeraire vars))) ℝ)
    (BA BB : (Fin (totalSize coords (solvedVars numeraire vars)) → ℝ) → (Fin (totalSize coords params) → ℝ) →
      Matrix (Fin (totalSize coords (solvedVars numeraire vars))) (Fin (totalSize coords params)) ℝ)
    (envA envB : SamEnv ℝ (List (NDArray ℝ)))
    (hmA : EulerOnGraphs coords vars params numeraire eqsA esA b AA BA envA)
    (hmB : EulerOnGraphs coords vars params numeraire eqsB esB b AB BB envB)
    (hsqA : esA.length = totalSize coords (solvedVars numeraire vars))
    (hsqB : esB.length = totalSize coords (solvedVars numeraire vars))
    (fl : SimFlags) (add mul : NDArray ℝ → NDArray ℝ → NDArray ℝ) (heapA heapB : Heap (NDArray ℝ))
    (cA cB : SimCall ℝ) (hrA : RequestOK coords (solvedVars numeraire vars) params add mul heapA cA)
    (hrB : RequestOK coords (solvedVars numeraire vars) params add mul heapB cB)
    (heulA : cA.useEuler = true) (hoptA : cA.useOptimizer = false)
    (heulB : cB.useEuler = true) (hoptB : cB.useOptimizer = false)
    (hinit : initialFlat heapB cB params = initialFlat heapA cA params)
    (hwant : wantedFlat add mul heapB cB params = wantedFlat add mul heapA cA params)
    (hinitV : initialFlat heapB cB (solvedVars numeraire vars) = initialFlat heapA cA (solvedVars numeraire vars))
    (φ : ℝ → Fin (totalSize coords (solvedVars numeraire vars)) → ℝ) (θ : ℝ → Fin (totalSize coords params) → ℝ)
    (hθ : ∀ s k, θ s k = (1 - s) * (initialFlat heapA cA params).getD k 0 +
      s * (wantedFlat add mul heapA cA params).getD k 0)
    (hcont : ContinuousOn φ (Icc 0 1))
    (hstart : List.ofFn (φ 0) = initialFlat heapA cA (solvedVars numeraire vars))
    (hsol : ∀ s ∈ Icc (0 : ℝ) 1, ∀ y ∈ imbalances coords vars params numeraire eqsA
      (List.ofFn (φ s) ++ List.ofFn (θ s)), y = 0)
    (heq : ∀ s ∈ Icc (0 : ℝ) 1, EquivalentNear coords vars params numeraire eqsA eqsB (φ s) (θ s))
    (hregA : ∀ s ∈ Icc (0 : ℝ) 1, ∀ e ∈ esA, Regular (flatPoint (scalarNames coords
      (solvedVars numeraire vars ++ params)) (List.ofFn (φ s) ++ List.ofFn (θ s))) e)
    (hregB : ∀ s ∈ Icc (0 : ℝ) 1, ∀ e ∈ esB, Regular (flatPoint (scalarNames coords
      (solvedVars numeraire vars ++ params)) (List.ofFn (φ s) ++ List.ofFn (θ s))) e)
    (hinv : ∀ s ∈ Icc (0 : ℝ) 1, ∀ D : Matrix (Fin (totalSize coords (solvedVars numeraire vars)))
        (Fin (totalSize coords (solvedVars numeraire vars))) ℝ,
      (∀ i j : Fin (totalSize coords (solvedVars numeraire vars)), HasDerivAt (fun u =>
        (imbalances coords vars params numeraire eqsA
          ((List.ofFn (φ s) ++ List.ofFn (θ s)).set j u)).getD i 0) (D i j) (φ s j)) → D.det ≠ 0) :
    ∃ (C : ℝ) (M : ℕ), ∀ n, M ≤ n → 1 ≤ n → ∃ eA eB,
      simulateCompute (simEnvOf envA (fun _ => false) fl add mul) heapA { cA with nIterEuler := n } =
        .ok ⟨some eA, none, none, false⟩ ∧
      simulateCompute (simEnvOf envB (fun _ => false) fl add mul) heapB { cB with nIterEuler := n } =
        .ok ⟨some eB, none, none, false⟩ ∧
      flatOf eB.start params = flatOf eA.start params ∧
      ∀ j : Fin (totalSize coords (solvedVars numeraire vars)),
        |(flatOf eB.start (solvedVars numeraire vars)).getD j 0 -
          (flatOf eA.start (solvedVars numeraire vars)).getD j 0| ≤ C / n ^ b.order := by
  obtain ⟨FA, vnA, hFA, -⟩ := hmA.system
  obtain ⟨FB, vnB, hFB, -⟩ := hmB.system
  obtain ⟨CA, MA, hCA⟩ := C74_simulate_converges esA b AA BA envA hmA hsqA fl add mul heapA cA hrA heulA hoptA
    φ θ hθ hcont hstart hsol hregA hinv
  obtain ⟨CB, MB, hCB⟩ := C74_simulate_converges esB b AB BB envB hmB hsqB fl add mul heapB cB hrB heulB hoptB
    φ θ (by rw [hinit, hwant]; exact hθ) hcont (by rw [hstart, hinitV])
    (fun s hs => (C102_solutions (φ s) (θ s) (fun flat => by rw [hFA.length hmA.model, hsqA])
      (fun flat => by rw [hFB.length hmB.model, hsqB]) (heq s hs)).2 (hsol s hs)) hregB (by
      intro s hs D hD
      obtain ⟨M, hM, hdet, hrel⟩ := heq s hs
      refine equivalent_invertible (imbalanceAt coords vars params numeraire eqsA (θ s))
        (imbalanceAt coords vars params numeraire eqsB (θ s)) (φ s) M hM hdet hrel
        (fun i => zeros_iff.1 (hsol s hs) i)
        (imbalanceAt_differentiable hFA hmA.model hsqA _ _ (hregA s hs)) ?_ D ?_
      · intro D hD
        refine hinv s hs D fun i j => ?_
        simp only [ofFn_set]
        exact hD i j
      · intro i j
        have := hD i j
        simp only [ofFn_set] at this
        exact this)
  refine ⟨|CA| + |CB|, max MA MB, fun n hMn h1 => ?_⟩
  obtain ⟨eA, a1, -, a2, -, a3⟩ := hCA n (le_trans (le_max_left _ _) hMn) h1
  obtain ⟨eB, b1, -, b2, -, b3⟩ := hCB n (le_trans (le_max_right _ _) hMn) h1
  refine ⟨eA, eB, a1, b1, by rw [a2, b2, hwant], fun j => ?_⟩
  have hK0 : (0 : ℝ) < (n : ℝ) ^ b.order := by
    have : (1 : ℝ) ≤ (n : ℝ) ^ b.order := one_le_pow₀ (by exact_mod_cast h1)
    linarith
  have ga := (a3 j).trans (div_le_div_of_nonneg_right (le_abs_self CA) hK0.le)
  have gb := (b3 j).trans (div_le_div_of_nonneg_right (le_abs_self CB) hK0.le)
  obtain ⟨xA, hxA⟩ : ∃ xA, xA = (flatOf eA.start (solvedVars numeraire vars)).getD j.val 0 := ⟨_, rfl⟩
  obtain ⟨xB, hxB⟩ : ∃ xB, xB = (flatOf eB.start (solvedVars numeraire vars)).getD j.val 0 := ⟨_, rfl⟩
  rw [← hxA] at ga ⊢
  rw [← hxB] at gb ⊢
  calc |xB - xA| = |(xB - φ 1 j) - (xA - φ 1 j)| := by ring_nf
    _ ≤ |xB - φ 1 j| + |xA - φ 1 j| := abs_sub _ _
    _ ≤ |CB| / n ^ b.order + |CA| / n ^ b.order := add_le_add gb ga
    _ = (|CA| + |CB|) / n ^ b.order := by ring

/-! ## Walras' law -/

theorem imbalances_append (eqs₁ eqs₂ : List IndexedEq) (flat : List ℝ) :
    imbalances coords vars params numeraire (eqs₁ ++ eqs₂) flat =
      imbalances coords vars params numeraire eqs₁ flat ++ imbalances coords vars params numeraire eqs₂ flat := by
  unfold imbalances
  rw [List.flatMap_append]

theorem imbalances_slack (q : IndexedEq) (S : Str)
    (h : ∃ o ∈ solvedVars numeraire vars, o.name = S ∧ o.dims = []) (flat : List ℝ) :
    imbalances coords vars params numeraire [withSlack q S] flat =
      (imbalances coords vars params numeraire [q] flat).map fun z =>
        z - flat.getD (positionOf coords (solvedVars numeraire vars) S) 0 := by
  have hf : S ∉ numeraire.toList.map ModelObject.name := by
    obtain ⟨o, ho, rfl, -⟩ := h
    have := List.of_mem_filter ho
    simpa using this
  have hfd : freeDims coords (numeraire.toList.map ModelObject.name) (withSlack q S).lhs (withSlack q S).rhs =
      freeDims coords (numeraire.toList.map ModelObject.name) q.lhs q.rhs := by
    simp [freeDims, withSlack, hasFree]
  unfold imbalances
  rw [List.flatMap_singleton, List.flatMap_singleton]
  unfold demanded
  rw [hfd]
  dsimp only
  rw [List.map_map]
  apply List.map_congr_left
  intro ls _
  simp only [withSlack, RExpr.value, Function.comp_apply]
  have : entryFixing coords (numeraire.toList.map ModelObject.name) (solvedVars numeraire vars ++ params) flat S [] =
      flat.getD (positionOf coords (solvedVars numeraire vars) S) 0 := by
    rw [entryFixing, if_neg hf, arrayEntry_scalar coords _ _ S flat h]
  rw [this]
  ring

/-- An equation without free indices. -/
theorem imbalances_single (q : IndexedEq)
    (h : freeDims coords (numeraire.toList.map ModelObject.name) q.lhs q.rhs = []) (flat : List ℝ) :
    ∃ d, imbalances coords vars params numeraire [q] flat = [d] := by
  unfold imbalances
  rw [List.flatMap_singleton]
  unfold demanded
  rw [h]
  exact ⟨_, rfl⟩

/-- **C102, the Walrasian residual.**  Let Walras' law hold at a state for a system of equations, and let the variable `S`
be added to one of them that has a weight other than zero.  Then the state is a solution of the system with `S` if and
only if `S` is zero and the state is a solution of the system without `S`. -/
theorem C102_residual (pre post : List IndexedEq) (q : IndexedEq) (S : Str) (hs : ScalarModel coords vars params)
    (hS : ∃ o ∈ solvedVars numeraire vars, o.name = S ∧ o.dims = [])
    (hq : freeDims coords (numeraire.toList.map ModelObject.name) q.lhs q.rhs = []) (w : Nat → ℝ)
    (x : Fin (totalSize coords (solvedVars numeraire vars)) → ℝ) (t : Fin (totalSize coords params) → ℝ)
    (hwalras : WalrasAt coords vars params numeraire (pre ++ q :: post) w x t)
    (hw : w (imbalances coords vars params numeraire pre (List.ofFn x ++ List.ofFn t)).length ≠ 0) :
    (∀ y ∈ imbalances coords vars params numeraire (pre ++ withSlack q S :: post) (List.ofFn x ++ List.ofFn t),
        y = 0) ↔
      scalarLevel coords (solvedVars numeraire vars) S x = 0 ∧
      ∀ y ∈ imbalances coords vars params numeraire (pre ++ q :: post) (List.ofFn x ++ List.ofFn t), y = 0 := by
  have hpos := positionOf_lt coords _ S (solvedNames (numeraire := numeraire) hs) hS
  obtain ⟨d, hd⟩ := imbalances_single (vars := vars) (params := params) q hq (List.ofFn x ++ List.ofFn t)
  have hlev := level_append x (List.ofFn t) hpos
  unfold WalrasAt at hwalras
  rw [← List.singleton_append (x := q), imbalances_append, imbalances_append, hd] at hwalras
  rw [← List.singleton_append (x := withSlack q S), ← List.singleton_append (x := q), imbalances_append,
    imbalances_append, imbalances_append, imbalances_append, imbalances_slack q S hS, hd, hlev]
  generalize imbalances coords vars params numeraire pre (List.ofFn x ++ List.ofFn t) = a at *
  generalize imbalances coords vars params numeraire post (List.ofFn x ++ List.ofFn t) = b at *
  generalize scalarLevel coords (solvedVars numeraire vars) S x = s at *
  simp only [List.map_cons, List.map_nil, List.mem_append, List.mem_singleton, or_imp, forall_and, forall_eq]
  constructor
  · rintro ⟨h1, h2, h3⟩
    have hsum : ∑ i ∈ Finset.range (a ++ ([d] ++ b)).length, w i * (a ++ ([d] ++ b)).getD i 0 = w a.length * d := by
      rw [Finset.sum_eq_single_of_mem a.length (by simp)]
      · simp
      · intro i _ hi
        have : (a ++ ([d] ++ b)).getD i 0 = 0 := by
          rw [List.getD_eq_getElem?_getD]
          rcases Nat.lt_or_ge i a.length with h | h
          · rw [List.getElem?_append_left h, ← List.getD_eq_getElem?_getD]
            exact zeros_iff.1 h1 i
          · rw [List.getElem?_append_right h, List.getElem?_append_right (by simp; omega),
              ← List.getD_eq_getElem?_getD]
            exact zeros_iff.1 h3 _
        rw [this, mul_zero]
    rw [hsum] at hwalras
    have hd0 : d = 0 := (mul_eq_zero.1 hwalras).resolve_left hw
    subst hd0
    exact ⟨by linarith, h1, rfl, h3⟩
  · rintro ⟨rfl, h1, h2, h3⟩
    exact ⟨h1, by rw [h2, sub_zero], h3⟩

theorem sum_range_list (l : List ℝ) (n : Nat) (hl : l.length = n) (w : Nat → ℝ) :
    ∑ i ∈ Finset.range l.length, w i * l.getD i 0 = ∑ i : Fin n, w i * l.getD i 0 := by
  rw [hl, Finset.sum_range]

/-- **C102, the place of the Walrasian residual.**  Let Walras' law hold near a state, with continuous weights, and let
the weights of two equations not be zero there.  Then it makes no difference to which of the two the residual `S` is
added. -/
theorem C102_residual_moved (qA qB : IndexedEq) (S : Str) (hs : ScalarModel coords vars params)
    (hS : ∃ o ∈ solvedVars numeraire vars, o.name = S ∧ o.dims = [])
    (hqA : freeDims coords (numeraire.toList.map ModelObject.name) qA.lhs qA.rhs = [])
    (hqB : freeDims coords (numeraire.toList.map ModelObject.name) qB.lhs qB.rhs = [])
    (w : (Fin (totalSize coords (solvedVars numeraire vars)) → ℝ) → Nat → ℝ) (m : Nat)
    (hm : ∀ flat, (imbalances coords vars params numeraire core flat).length = m)
    (hmn : m + 2 = totalSize coords (solvedVars numeraire vars))
    (x : Fin (totalSize coords (solvedVars numeraire vars)) → ℝ) (t : Fin (totalSize coords params) → ℝ)
    (hwc : ∀ i, ContinuousAt (fun y => w y i) x)
    (hwalras : ∀ᶠ y in 𝓝 x, WalrasAt coords vars params numeraire (core ++ [qA, qB]) (w y) y t)
    (hwA : w x m ≠ 0) (hwB : w x (m + 1) ≠ 0) :
    EquivalentNear coords vars params numeraire (core ++ [withSlack qA S, qB]) (core ++ [qA, withSlack qB S]) x t := by
  have hpos := positionOf_lt coords _ S (solvedNames (numeraire := numeraire) hs) hS
  obtain ⟨a, ha⟩ : ∃ a : Fin (totalSize coords (solvedVars numeraire vars)), a.val = m := ⟨⟨m, by omega⟩, rfl⟩
  obtain ⟨b, hb⟩ : ∃ b : Fin (totalSize coords (solvedVars numeraire vars)), b.val = m + 1 := ⟨⟨m + 1, by omega⟩, rfl⟩
  have hab : a ≠ b := by
    intro h
    rw [h] at ha
    omega
  refine ⟨fun y => (1 : Matrix (Fin (totalSize coords (solvedVars numeraire vars))) (Fin (totalSize coords (solvedVars numeraire vars))) ℝ) +
    Matrix.of fun i (k : Fin (totalSize coords (solvedVars numeraire vars))) => ((Pi.single b 1 - Pi.single a 1 : Fin _ → ℝ) i) * (w y k / w y m),
    fun i k => ?_, ?_, ?_⟩
  · simp only [Matrix.add_apply, Matrix.of_apply]
    exact continuousAt_const.add (continuousAt_const.mul ((hwc k).div (hwc m) hwA))
  · intro hdet
    obtain ⟨v, hv, h0⟩ := Matrix.exists_mulVec_eq_zero_iff.2 hdet
    obtain ⟨c, hc⟩ : ∃ c, c = ∑ k : Fin (totalSize coords (solvedVars numeraire vars)), w x k / w x m * v k := ⟨_, rfl⟩
    have hvi : ∀ i, v i = -((Pi.single b 1 - Pi.single a 1 : Fin _ → ℝ) i * c) := by
      intro i
      have := congrFun h0 i
      rw [Matrix.add_mulVec, Matrix.one_mulVec, Pi.add_apply, Pi.zero_apply] at this
      have h2 : (Matrix.of fun i k : Fin (totalSize coords (solvedVars numeraire vars)) =>
          ((Pi.single b 1 - Pi.single a 1 : Fin _ → ℝ) i) * (w x k / w x m)).mulVec v i =
          (Pi.single b 1 - Pi.single a 1 : Fin _ → ℝ) i * c := by
        rw [hc, Finset.mul_sum]
        simp only [Matrix.mulVec, dotProduct, Matrix.of_apply]
        exact Finset.sum_congr rfl fun k _ => by ring
      rw [h2] at this
      linarith
    have hcc : c = c - c * (w x (m + 1) / w x m) := by
      have e : ∀ k : Fin (totalSize coords (solvedVars numeraire vars)), w x k / w x m * v k =
          (Pi.single a (c * (w x a / w x m)) : Fin _ → ℝ) k - (Pi.single b (c * (w x b / w x m)) : Fin _ → ℝ) k := by
        intro k
        rw [hvi k]
        by_cases hka : k = a
        · subst hka
          simp [Pi.single_eq_of_ne hab]
          ring
        · by_cases hkb : k = b
          · subst hkb
            simp [Pi.single_eq_of_ne (Ne.symm hab)]
            ring
          · simp [Pi.single_eq_of_ne hka, Pi.single_eq_of_ne hkb]
      have h3 : c = c * (w x a / w x m) - c * (w x b / w x m) := by
        conv_lhs => rw [hc]
        rw [Finset.sum_congr rfl fun k _ => e k, Finset.sum_sub_distrib, Finset.sum_pi_single', Finset.sum_pi_single']
        simp
      rw [ha, hb, div_self hwA, mul_one] at h3
      exact h3
    have hc0 : c = 0 := by
      have h4 : c * (w x (m + 1) / w x m) = 0 := by linarith
      exact (mul_eq_zero.1 h4).resolve_right (div_ne_zero hwB hwA)
    apply hv
    funext i
    rw [hvi i, hc0, mul_zero, neg_zero]
    rfl
  · filter_upwards [hwalras, (hwc m).eventually_ne hwA] with y hy hwm
    unfold WalrasAt at hy
    obtain ⟨dA, hdA⟩ := imbalances_single (vars := vars) (params := params) qA hqA (List.ofFn y ++ List.ofFn t)
    obtain ⟨dB, hdB⟩ := imbalances_single (vars := vars) (params := params) qB hqB (List.ofFn y ++ List.ofFn t)
    have hlev := level_append y (List.ofFn t) hpos
    have split : ∀ q₁ q₂ : IndexedEq, imbalances coords vars params numeraire (core ++ [q₁, q₂])
        (List.ofFn y ++ List.ofFn t) = imbalances coords vars params numeraire core (List.ofFn y ++ List.ofFn t) ++
          (imbalances coords vars params numeraire [q₁] (List.ofFn y ++ List.ofFn t) ++
            imbalances coords vars params numeraire [q₂] (List.ofFn y ++ List.ofFn t)) := by
      intro q₁ q₂
      rw [← imbalances_append, ← imbalances_append]
      rfl
    have hlen := hm (List.ofFn y ++ List.ofFn t)
    rw [split, hdA, hdB] at hy
    rw [split, split, imbalances_slack qA S hS, imbalances_slack qB S hS, hdA, hdB, hlev]
    generalize imbalances coords vars params numeraire core (List.ofFn y ++ List.ofFn t) = l at *
    generalize scalarLevel coords (solvedVars numeraire vars) S y = s at *
    simp only [List.map_cons, List.map_nil, List.cons_append, List.nil_append] at hy ⊢
    rw [sum_range_list _ (totalSize coords (solvedVars numeraire vars)) (by simp; omega)] at hy
    -- the three lists, entry by entry
    have g1 : ∀ i : Fin (totalSize coords (solvedVars numeraire vars)), (l ++ [dA - s, dB]).getD i 0 =
        (l ++ [dA, dB]).getD i 0 - (Pi.single a s : Fin _ → ℝ) i := by
      intro i
      rcases lt_trichotomy i.val m with h | h | h
      · rw [Pi.single_eq_of_ne (fun e => by rw [e] at h; omega), sub_zero, List.getD_eq_getElem?_getD,
          List.getD_eq_getElem?_getD, List.getElem?_append_left (by omega), List.getElem?_append_left (by omega)]
      · have : i = a := Fin.ext (by omega)
        subst this
        rw [Pi.single_eq_same, h, ← hlen]
        simp
      · have hi : i.val = m + 1 := by have := i.isLt; omega
        rw [Pi.single_eq_of_ne (fun e => by rw [e] at h; omega), sub_zero, hi, ← hlen]
        simp
    have g2 : ∀ i : Fin (totalSize coords (solvedVars numeraire vars)), (l ++ [dA, dB - s]).getD i 0 =
        (l ++ [dA, dB]).getD i 0 - (Pi.single b s : Fin _ → ℝ) i := by
      intro i
      rcases lt_trichotomy i.val m with h | h | h
      · rw [Pi.single_eq_of_ne (fun e => by rw [e] at h; omega), sub_zero, List.getD_eq_getElem?_getD,
          List.getD_eq_getElem?_getD, List.getElem?_append_left (by omega), List.getElem?_append_left (by omega)]
      · rw [Pi.single_eq_of_ne (fun e => by rw [e] at h; omega), sub_zero, h, ← hlen]
        simp
      · have hi : i = b := Fin.ext (by have := i.isLt; omega)
        subst hi
        rw [Pi.single_eq_same, hb, ← hlen]
        simp
    intro i
    have hsum : ∑ k : Fin (totalSize coords (solvedVars numeraire vars)), w y k / w y m * (l ++ [dA - s, dB]).getD k.val 0 = -s := by
      have e : ∀ k : Fin (totalSize coords (solvedVars numeraire vars)),
          w y k / w y m * (l ++ [dA - s, dB]).getD k.val 0 =
            w y k * (l ++ [dA, dB]).getD k.val 0 / w y m - (Pi.single a (w y a / w y m * s) : Fin _ → ℝ) k := by
        intro k
        rw [g1]
        by_cases hk : k = a
        · subst hk
          simp
          ring
        · rw [Pi.single_eq_of_ne hk, Pi.single_eq_of_ne hk]
          ring
      rw [Finset.sum_congr rfl fun k _ => e k, Finset.sum_sub_distrib, ← Finset.sum_div, hy, Finset.sum_pi_single', ha,
        div_self hwm]
      simp
    have hrow : ∑ k, ((1 : Matrix (Fin (totalSize coords (solvedVars numeraire vars))) (Fin (totalSize coords (solvedVars numeraire vars))) ℝ) + Matrix.of fun i k : Fin (totalSize coords (solvedVars numeraire vars)) =>
          ((Pi.single b 1 - Pi.single a 1 : Fin _ → ℝ) i) * (w y k / w y m)) i k * (l ++ [dA - s, dB]).getD k.val 0 =
        (l ++ [dA - s, dB]).getD i.val 0 + (Pi.single b 1 - Pi.single a 1 : Fin _ → ℝ) i * -s := by
      simp only [Matrix.add_apply, Matrix.of_apply, add_mul, Finset.sum_add_distrib, Matrix.one_apply, ite_mul, one_mul,
        zero_mul, Finset.sum_ite_eq, Finset.mem_univ, if_true]
      rw [← hsum, Finset.mul_sum]
      congr 1
      exact Finset.sum_congr rfl fun k _ => by ring
    rw [hrow, g1, g2, Pi.sub_apply]
    by_cases hia : i = a
    · subst hia
      rw [Pi.single_eq_same, Pi.single_eq_same, Pi.single_eq_of_ne hab, Pi.single_eq_of_ne hab]
      ring
    · rw [Pi.single_eq_of_ne hia, Pi.single_eq_of_ne hia]
      by_cases hib : i = b
      · subst hib
        rw [Pi.single_eq_same, Pi.single_eq_same]
        ring
      · rw [Pi.single_eq_of_ne hib, Pi.single_eq_of_ne hib]
        ring

/-- **C102, the equation left out.**  Let Walras' law hold near a state, with continuous weights, for a system with one
equation more than there are unknowns, and let the weights of two equations not be zero there.  Then it makes no
difference which of the two is left out. -/
theorem C102_left_out (qA qB : IndexedEq)
    (hqA : freeDims coords (numeraire.toList.map ModelObject.name) qA.lhs qA.rhs = [])
    (hqB : freeDims coords (numeraire.toList.map ModelObject.name) qB.lhs qB.rhs = [])
    (w : (Fin (totalSize coords (solvedVars numeraire vars)) → ℝ) → Nat → ℝ) (m : Nat)
    (hm : ∀ flat, (imbalances coords vars params numeraire core flat).length = m)
    (hmn : m + 1 = totalSize coords (solvedVars numeraire vars))
    (x : Fin (totalSize coords (solvedVars numeraire vars)) → ℝ) (t : Fin (totalSize coords params) → ℝ)
    (hwc : ∀ i, ContinuousAt (fun y => w y i) x)
    (hwalras : ∀ᶠ y in 𝓝 x, WalrasAt coords vars params numeraire (core ++ [qA, qB]) (w y) y t)
    (hwA : w x m ≠ 0) (hwB : w x (m + 1) ≠ 0) :
    EquivalentNear coords vars params numeraire (core ++ [qA]) (core ++ [qB]) x t := by
  obtain ⟨a, ha⟩ : ∃ a : Fin (totalSize coords (solvedVars numeraire vars)), a.val = m := ⟨⟨m, by omega⟩, rfl⟩
  refine ⟨fun y => Matrix.of fun i k : Fin (totalSize coords (solvedVars numeraire vars)) =>
    if i = a then -(w y k / w y (m + 1)) else if i = k then 1 else 0, fun i k => ?_, ?_, ?_⟩
  · simp only [Matrix.of_apply]
    by_cases h : i = a
    · simp only [if_pos h]
      exact ((hwc k).div (hwc (m + 1)) hwB).neg
    · simp only [if_neg h]
      exact continuousAt_const
  · intro hdet
    obtain ⟨v, hv, h0⟩ := Matrix.exists_mulVec_eq_zero_iff.2 hdet
    have hvi : ∀ i, i ≠ a → v i = 0 := by
      intro i hi
      have := congrFun h0 i
      simpa [Matrix.mulVec, dotProduct, hi] using this
    have hva : v a = 0 := by
      have := congrFun h0 a
      simp only [Matrix.mulVec, dotProduct, Matrix.of_apply, if_true, Pi.zero_apply] at this
      rw [Finset.sum_eq_single a (fun k _ hk => by rw [hvi k hk, mul_zero]) (fun h => absurd (Finset.mem_univ a) h),
        ha] at this
      exact (mul_eq_zero.1 this).resolve_left (neg_ne_zero.2 (div_ne_zero hwA hwB))
    apply hv
    funext i
    by_cases h : i = a
    · rw [h]
      exact hva
    · exact hvi i h
  · filter_upwards [hwalras, (hwc (m + 1)).eventually_ne hwB] with y hy hwm
    unfold WalrasAt at hy
    obtain ⟨dA, hdA⟩ := imbalances_single (vars := vars) (params := params) qA hqA (List.ofFn y ++ List.ofFn t)
    obtain ⟨dB, hdB⟩ := imbalances_single (vars := vars) (params := params) qB hqB (List.ofFn y ++ List.ofFn t)
    have hlen := hm (List.ofFn y ++ List.ofFn t)
    have split : core ++ [qA, qB] = (core ++ [qA]) ++ [qB] := by simp
    rw [split, imbalances_append, imbalances_append, hdA, hdB] at hy
    rw [imbalances_append, imbalances_append, hdA, hdB]
    generalize imbalances coords vars params numeraire core (List.ofFn y ++ List.ofFn t) = l at *
    have hsum : ∑ k : Fin (totalSize coords (solvedVars numeraire vars)), w y k * (l ++ [dA]).getD k.val 0 +
        w y (m + 1) * dB = 0 := by
      have hl2 : (l ++ [dA] ++ [dB]).length = m + 1 + 1 := by simp; omega
      rw [hl2, Finset.sum_range_succ] at hy
      refine Eq.trans ?_ hy
      congr 1
      · rw [← Fin.sum_univ_eq_sum_range (fun i => w y i * (l ++ [dA] ++ [dB]).getD i 0)]
        rw [← Equiv.sum_comp (finCongr hmn)]
        refine Finset.sum_congr rfl fun k _ => ?_
        have hk := k.isLt
        simp only [finCongr_apply, Fin.val_cast]
        have e : (l ++ [dA] ++ [dB])[k.val]? = (l ++ [dA])[k.val]? :=
          List.getElem?_append_left (by rw [List.length_append, List.length_singleton]; omega)
        rw [List.getD_eq_getElem?_getD, List.getD_eq_getElem?_getD, e]
      · rw [← hlen]
        simp
    intro i
    by_cases h : i = a
    · simp only [Matrix.of_apply, if_pos h]
      rw [h, ha, ← hlen]
      have e : (l ++ [dB]).getD l.length 0 = dB := by simp
      rw [e, hlen]
      have : ∑ k : Fin (totalSize coords (solvedVars numeraire vars)),
          -(w y k / w y (m + 1)) * (l ++ [dA]).getD k.val 0 =
          -((∑ k : Fin (totalSize coords (solvedVars numeraire vars)), w y k * (l ++ [dA]).getD k.val 0) /
            w y (m + 1)) := by
        rw [Finset.sum_div, ← Finset.sum_neg_distrib]
        exact Finset.sum_congr rfl fun k _ => by ring
      rw [this]
      field_simp
      linarith
    · have hi : i.val < l.length := by
        have := i.isLt
        have h2 : i.val ≠ m := fun e => h (Fin.ext (by omega))
        omega
      simp only [Matrix.of_apply, if_neg h, ite_mul, one_mul, zero_mul, Finset.sum_ite_eq, Finset.mem_univ, if_true]
      rw [List.getD_eq_getElem?_getD, List.getD_eq_getElem?_getD, List.getElem?_append_left hi,
        List.getElem?_append_left hi]

/-! ## Examples -/

/-- The equations of C101's example with `Y * P = a * P` in place of `Y * P = Q`: the first equation is added to the
second one. -/
def addedCore : List IndexedEq :=
  [⟨[.lit "ratio".toList], .sym "Q".toList, .mul (.sym "a".toList) (.sym "P".toList)⟩,
   ⟨[.lit "budget".toList], .mul (.sym "Y".toList) (.sym "P".toList), .mul (.sym "a".toList) (.sym "P".toList)⟩]

theorem addedFixed (P Q Y a : ℝ) : imbalances [] twoPrices twoParams none
    (addedCore ++ [fixedAtOne [.lit "numeraire".toList] "P".toList]) [P, Q, Y, a] =
      [Q - a * P, Y * P - a * P, P - 1] := by
  rw [imbalances_fixed _ _ _ (twoNominal _ (.inl rfl)).2]
  rfl

theorem addedModel : IndexedModel [] twoPrices twoParams none
    (addedCore ++ [fixedAtOne [.lit "numeraire".toList] "P".toList]) where
  scalar := (twoModel _ (.inl rfl)).scalar
  coords_nodup := by decide +kernel
  dim_names := by decide +kernel
  label_names := by intro i ls h; cases h
  numeraire_mem := by rintro o ⟨⟩
  sides := by
    have hsym : ∀ s : Str, s = "P".toList ∨ s = "Q".toList ∨ s = "Y".toList ∨ s = "a".toList →
        ∃ o ∈ solvedVars none twoPrices ++ twoParams ++ (none : Option ModelObject).toList,
          o.name = s ∧ o.dims = [] := by
      rintro s hs
      rcases hs with rfl | rfl | rfl | rfl <;> decide +kernel
    intro q hq
    simp only [addedCore, List.cons_append, List.nil_append, List.mem_cons, List.not_mem_nil, or_false] at hq
    rcases hq with rfl | rfl | rfl
    · refine ⟨⟨trivial, ⟨fun x hx => ?_, fun v hv => (nomatch hv)⟩, fun o ho => (nomatch ho),
        fun o ho => (nomatch ho)⟩, ⟨⟨trivial, trivial⟩, ⟨fun x hx => ?_, fun v hv => ?_⟩,
        fun o ho => (nomatch ho), fun o ho => (nomatch ho)⟩⟩
      · simp only [RExpr.syms, List.mem_singleton] at hx
        exact hsym x (by tauto)
      · simp only [RExpr.syms, List.mem_append, List.mem_singleton] at hx
        exact hsym x (by tauto)
      · simp [RExpr.indexeds] at hv
    · refine ⟨⟨⟨trivial, trivial⟩, ⟨fun x hx => ?_, fun v hv => ?_⟩, fun o ho => (nomatch ho),
        fun o ho => (nomatch ho)⟩, ⟨⟨trivial, trivial⟩, ⟨fun x hx => ?_, fun v hv => ?_⟩,
        fun o ho => (nomatch ho), fun o ho => (nomatch ho)⟩⟩
      · simp only [RExpr.syms, List.mem_append, List.mem_singleton] at hx
        exact hsym x (by tauto)
      · simp [RExpr.indexeds] at hv
      · simp only [RExpr.syms, List.mem_append, List.mem_singleton] at hx
        exact hsym x (by tauto)
      · simp [RExpr.indexeds] at hv
    · refine ⟨⟨trivial, ⟨fun x hx => ?_, fun v hv => (nomatch hv)⟩, fun o ho => (nomatch ho),
        fun o ho => (nomatch ho)⟩, ⟨trivial, ⟨fun x hx => (nomatch hx), fun v hv => (nomatch hv)⟩,
        fun o ho => (nomatch ho), fun o ho => (nomatch ho)⟩⟩
      have : x = "P".toList := by simpa [fixedAtOne, RExpr.syms] using hx
      exact hsym x (.inl this)
  clean := by
    intro q hq
    simp only [addedCore, List.cons_append, List.nil_append, List.mem_cons, List.not_mem_nil, or_false] at hq
    rcases hq with rfl | rfl | rfl
    · decide +kernel
    · decide +kernel
    · show Template.Clean [.lit "numeraire".toList]
      decide +kernel
  markers := by decide +kernel
  names := by decide +kernel

def addedEs : List (SymExpr Str) :=
  [.add (.sym "Q".toList) (.mul (.num (-1)) (.mul (.sym "a".toList) (.sym "P".toList))),
   .add (.mul (.sym "Y".toList) (.sym "P".toList)) (.mul (.num (-1)) (.mul (.sym "a".toList) (.sym "P".toList))),
   .add (.sym "P".toList) (.mul (.num (-1)) (.num 1))]

theorem addedBuilt : ∃ F, BuiltFrom [] twoPrices twoParams none
    (addedCore ++ [fixedAtOne [.lit "numeraire".toList] "P".toList]) addedEs F :=
  ⟨_, id, id, id, id, _, _, _, fun _ _ => Iff.rfl, fun _ _ => Iff.rfl, fun _ _ => Iff.rfl, rfl, rfl, rfl, rfl, rfl⟩

theorem addedRegular (v : Str → ℝ) : ∀ e ∈ addedEs, Regular v e := by
  intro e he
  simp only [addedEs, List.mem_cons, List.not_mem_nil, or_false] at he
  rcases he with rfl | rfl | rfl
  · exact ⟨trivial, trivial, trivial, trivial⟩
  · exact ⟨⟨trivial, trivial⟩, trivial, trivial, trivial⟩
  · exact ⟨trivial, trivial, trivial⟩

theorem addedEquivalent (x : Fin (totalSize [] (solvedVars none twoPrices)) → ℝ)
    (t : Fin (totalSize [] twoParams) → ℝ) :
    EquivalentNear [] twoPrices twoParams none (twoCore ++ [fixedAtOne [.lit "numeraire".toList] "P".toList])
      (addedCore ++ [fixedAtOne [.lit "numeraire".toList] "P".toList]) x t := by
  refine ⟨fun _ => (!![1, 0, 0; 1, 1, 0; 0, 0, 1] : Matrix (Fin 3) (Fin 3) ℝ), fun _ _ => continuousAt_const, ?_,
    Eventually.of_forall fun y i => ?_⟩
  · have : (!![1, 0, 0; 1, 1, 0; 0, 0, 1] : Matrix (Fin 3) (Fin 3) ℝ).det = 1 := by
      rw [Matrix.det_fin_three]
      simp
    exact fun h => one_ne_zero (this.symm.trans h)
  · rw [two_flat, twoFixed, addedFixed]
    have h3 : ∀ f : Fin (totalSize [] (solvedVars none twoPrices)) → ℝ,
        ∑ k, f k = f ⟨0, by decide⟩ + f ⟨1, by decide⟩ + f ⟨2, by decide⟩ := fun f => Fin.sum_univ_three (M := ℝ) f
    rw [h3]
    obtain ⟨i, hi⟩ := i
    have hi' : i < 3 := hi
    rcases i with _ | _ | _ | i
    · show y _ - t _ * y _ = 1 * (y _ - t _ * y _) + 0 * _ + 0 * _
      ring
    · show y _ * y _ - t _ * y _ = 1 * (y _ - t _ * y _) + 1 * (y _ * y _ - y _) + 0 * _
      ring
    · show y _ - 1 = 0 * _ + 0 * _ + 1 * (y _ - 1)
      ring
    · omega

/-- Both forms of the model have the solution at the end of the path. -/
example : (∀ y ∈ imbalances [] twoPrices twoParams none (addedCore ++ [fixedAtOne [.lit "numeraire".toList] "P".toList])
        (List.ofFn (twoPath 1) ++ List.ofFn (twoTheta 1)), y = 0) ↔
      ∀ y ∈ imbalances [] twoPrices twoParams none (twoCore ++ [fixedAtOne [.lit "numeraire".toList] "P".toList])
        (List.ofFn (twoPath 1) ++ List.ofFn (twoTheta 1)), y = 0 :=
  C102_solutions _ _ (fun _ => rfl) (fun _ => rfl) (addedEquivalent _ _)

/-- Both forms of the model give the same simulated variables in the limit. -/
example (b : EulerBackend) (hb : b ≠ .numba) (fl : SimFlags) (add mul : NDArray ℝ → NDArray ℝ → NDArray ℝ) :
    ∃ envA envB, ∃ (C : ℝ) (M : ℕ), ∀ n, M ≤ n → 1 ≤ n → ∃ eA eB,
      simulateCompute (simEnvOf envA (fun _ => false) fl add mul) [] { twoCall with nIterEuler := n } =
        .ok ⟨some eA, none, none, false⟩ ∧
      simulateCompute (simEnvOf envB (fun _ => false) fl add mul) [] { twoCall with nIterEuler := n } =
        .ok ⟨some eB, none, none, false⟩ ∧
      |(flatOf eB.start twoPrices).getD 2 0 - (flatOf eA.start twoPrices).getD 2 0| ≤ C / n ^ b.order := by
  obtain ⟨FA, hFA⟩ := twoBuilt _ (.inl rfl)
  obtain ⟨FB, hFB⟩ := addedBuilt
  refine ⟨symEnv [] (solvedVars none twoPrices) twoParams (twoEs "P".toList) b FA,
    symEnv [] (solvedVars none twoPrices) twoParams addedEs b FB, ?_⟩
  obtain ⟨C, M, h⟩ := C102_simulate b (twoEs "P".toList) addedEs
    _ _ _ _ _ _ (symEnv_onGraphs b hb hFA (twoModel _ (.inl rfl)) twoEuler rfl)
    (symEnv_onGraphs b hb hFB addedModel twoEuler rfl) rfl rfl fl add mul [] [] twoCall twoCall
    (twoRequest add mul) (twoRequest add mul) rfl rfl rfl rfl rfl rfl rfl
    twoPath twoTheta (two_theta add mul) two_cont two_start
    (fun s _ => two_sol s) (fun s _ => addedEquivalent _ _)
    (fun _ _ => twoRegular _ _) (fun _ _ => addedRegular _) (fun s _ => two_inv s)
  refine ⟨C, M, fun n hn h1 => ?_⟩
  obtain ⟨eA, eB, g1, g2, -, g3⟩ := h n hn h1
  exact ⟨eA, eB, g1, g2, g3 ⟨2, by decide⟩⟩

/-! ### Model 1 of the tests (`tests/utilities/models.py:6-46`) -/

def oneVars : List ModelObject :=
  [{ name := "Y" }, { name := "L_d" }, { name := "K_d" }, { name := "C" }, { name := "income" }, { name := "r" },
   { name := "P" }]
def oneResid : ModelObject := { name := "resid" }
def oneParams : List ModelObject :=
  [{ name := "alpha" }, { name := "A" }, { name := "L_s" }, { name := "K_s" }, { name := "w" }]

/-- The equations other than the clearing of the factor markets. -/
def oneFirst : List IndexedEq :=
  [⟨[.lit "Final good production ".toList], .sym "Y".toList,
      .mul (.mul (.sym "A".toList) (.pow (.sym "K_d".toList) (.sym "alpha".toList)))
        (.pow (.sym "L_d".toList) (.add (.num 1) (.mul (.num (-1)) (.sym "alpha".toList))))⟩,
   ⟨[.lit "Firm demand for capital".toList], .mul (.sym "r".toList) (.sym "K_d".toList),
      .mul (.mul (.sym "alpha".toList) (.sym "Y".toList)) (.sym "P".toList)⟩,
   ⟨[.lit "Firm demand for labor".toList], .mul (.sym "w".toList) (.sym "L_d".toList),
      .mul (.mul (.add (.num 1) (.mul (.num (-1)) (.sym "alpha".toList))) (.sym "Y".toList)) (.sym "P".toList)⟩,
   ⟨[.lit "Household income".toList], .sym "income".toList,
      .add (.mul (.sym "w".toList) (.sym "L_s".toList)) (.mul (.sym "r".toList) (.sym "K_s".toList))⟩,
   ⟨[.lit "Household budget constraint".toList], .mul (.sym "C".toList) (.sym "P".toList), .sym "income".toList⟩]
def oneLabor : IndexedEq := ⟨[.lit "Labor market clearing".toList], .sym "L_s".toList, .sym "L_d".toList⟩
def oneCapital : IndexedEq := ⟨[.lit "Capital market clearing".toList], .sym "K_s".toList, .sym "K_d".toList⟩
def oneGoods : IndexedEq := ⟨[.lit "goods market clearing".toList], .sym "Y".toList, .sym "C".toList⟩

theorem oneScalar : ScalarModel [] (oneVars ++ [oneResid]) oneParams where
  known := by decide +kernel
  dims := by decide +kernel
  fresh := by decide +kernel
  labels := by decide +kernel
  names := by decide +kernel
  scalars := by decide +kernel

theorem one_resid : ∃ o ∈ solvedVars none (oneVars ++ [oneResid]), o.name = "resid".toList ∧ o.dims = [] :=
  ⟨oneResid, by decide +kernel, rfl, rfl⟩

theorem one_flat (x : Fin (totalSize [] (solvedVars none (oneVars ++ [oneResid]))) → ℝ)
    (t : Fin (totalSize [] oneParams) → ℝ) :
    List.ofFn x ++ List.ofFn t =
      [x ⟨0, by decide⟩, x ⟨1, by decide⟩, x ⟨2, by decide⟩, x ⟨3, by decide⟩, x ⟨4, by decide⟩, x ⟨5, by decide⟩,
       x ⟨6, by decide⟩, x ⟨7, by decide⟩, t ⟨0, by decide⟩, t ⟨1, by decide⟩, t ⟨2, by decide⟩, t ⟨3, by decide⟩,
       t ⟨4, by decide⟩] := rfl

theorem one_imbalances (Y Ld Kd C inc r P resid al A Ls Ks w : ℝ) :
    imbalances [] (oneVars ++ [oneResid]) oneParams none (oneFirst ++ oneLabor :: [oneCapital, oneGoods])
      [Y, Ld, Kd, C, inc, r, P, resid, al, A, Ls, Ks, w] =
    [Y - A * Kd ^ al * Ld ^ (((1 : ℚ) : ℝ) + ((-1 : ℚ) : ℝ) * al), r * Kd - al * Y * P,
     w * Ld - (((1 : ℚ) : ℝ) + ((-1 : ℚ) : ℝ) * al) * Y * P, inc - (w * Ls + r * Ks), C * P - inc, Ls - Ld, Ks - Kd,
     Y - C] := rfl

/-- The weights of Walras' law in model 1: the wage for labor, the rental rate for capital and the price for the good. -/
theorem one_walras (x : Fin (totalSize [] (solvedVars none (oneVars ++ [oneResid]))) → ℝ)
    (t : Fin (totalSize [] oneParams) → ℝ) :
    WalrasAt [] (oneVars ++ [oneResid]) oneParams none (oneFirst ++ oneLabor :: [oneCapital, oneGoods])
      (fun i => [0, 1, 1, 1, 1, t ⟨4, by decide⟩, x ⟨5, by decide⟩, x ⟨6, by decide⟩].getD i 0) x t := by
  unfold WalrasAt
  rw [one_flat, one_imbalances]
  simp [Finset.sum_range_succ]
  ring

/-- In every solution of model 1 with a wage other than zero the Walrasian residual is zero. -/
example (x : Fin (totalSize [] (solvedVars none (oneVars ++ [oneResid]))) → ℝ)
    (t : Fin (totalSize [] oneParams) → ℝ) (hw : t ⟨4, by decide⟩ ≠ 0)
    (hx : ∀ y ∈ imbalances [] (oneVars ++ [oneResid]) oneParams none
      (oneFirst ++ withSlack oneLabor "resid".toList :: [oneCapital, oneGoods]) (List.ofFn x ++ List.ofFn t), y = 0) :
    x ⟨7, by decide⟩ = 0 :=
  ((C102_residual oneFirst [oneCapital, oneGoods] oneLabor "resid".toList oneScalar one_resid (by decide +kernel) _ x t
    (one_walras x t) hw).1 hx).1

theorem one_imbalances_last (Y Ld Kd C inc r P resid al A Ls Ks w : ℝ) :
    imbalances [] (oneVars ++ [oneResid]) oneParams none ((oneFirst ++ [oneGoods]) ++ [oneLabor, oneCapital])
      [Y, Ld, Kd, C, inc, r, P, resid, al, A, Ls, Ks, w] =
    [Y - A * Kd ^ al * Ld ^ (((1 : ℚ) : ℝ) + ((-1 : ℚ) : ℝ) * al), r * Kd - al * Y * P,
     w * Ld - (((1 : ℚ) : ℝ) + ((-1 : ℚ) : ℝ) * al) * Y * P, inc - (w * Ls + r * Ks), C * P - inc, Y - C, Ls - Ld,
     Ks - Kd] := rfl

/-- The residual of model 1 can be put into the capital market: both models are equivalent where wage and rental rate are
not zero. -/
example (x : Fin (totalSize [] (solvedVars none (oneVars ++ [oneResid]))) → ℝ)
    (t : Fin (totalSize [] oneParams) → ℝ) (hw : t ⟨4, by decide⟩ ≠ 0) (hr : x ⟨5, by decide⟩ ≠ 0) :
    EquivalentNear [] (oneVars ++ [oneResid]) oneParams none
      ((oneFirst ++ [oneGoods]) ++ [withSlack oneLabor "resid".toList, oneCapital])
      ((oneFirst ++ [oneGoods]) ++ [oneLabor, withSlack oneCapital "resid".toList]) x t := by
  refine C102_residual_moved oneLabor oneCapital "resid".toList oneScalar one_resid (by decide +kernel)
    (by decide +kernel)
    (fun y i => [0, 1, 1, 1, 1, y ⟨6, by decide⟩, t ⟨4, by decide⟩, y ⟨5, by decide⟩].getD i 0) 6 (fun _ => rfl) rfl x t
    ?_ (Eventually.of_forall fun y => ?_) hw hr
  · intro i
    rcases i with _ | _ | _ | _ | _ | _ | _ | _ | i
    · exact continuousAt_const
    · exact continuousAt_const
    · exact continuousAt_const
    · exact continuousAt_const
    · exact continuousAt_const
    · exact continuousAt_apply _ _
    · exact continuousAt_const
    · exact continuousAt_apply _ _
    · exact continuousAt_const
  · unfold WalrasAt
    rw [one_flat, one_imbalances_last]
    simp [Finset.sum_range_succ]
    ring

theorem one_flat_without (x : Fin (totalSize [] (solvedVars none oneVars)) → ℝ)
    (t : Fin (totalSize [] oneParams) → ℝ) :
    List.ofFn x ++ List.ofFn t =
      [x ⟨0, by decide⟩, x ⟨1, by decide⟩, x ⟨2, by decide⟩, x ⟨3, by decide⟩, x ⟨4, by decide⟩, x ⟨5, by decide⟩,
       x ⟨6, by decide⟩, t ⟨0, by decide⟩, t ⟨1, by decide⟩, t ⟨2, by decide⟩, t ⟨3, by decide⟩,
       t ⟨4, by decide⟩] := rfl

theorem one_imbalances_without (Y Ld Kd C inc r P al A Ls Ks w : ℝ) :
    imbalances [] oneVars oneParams none ((oneFirst ++ [oneGoods]) ++ [oneLabor, oneCapital])
      [Y, Ld, Kd, C, inc, r, P, al, A, Ls, Ks, w] =
    [Y - A * Kd ^ al * Ld ^ (((1 : ℚ) : ℝ) + ((-1 : ℚ) : ℝ) * al), r * Kd - al * Y * P,
     w * Ld - (((1 : ℚ) : ℝ) + ((-1 : ℚ) : ℝ) * al) * Y * P, inc - (w * Ls + r * Ks), C * P - inc, Y - C, Ls - Ld,
     Ks - Kd] := rfl

/-- Without the residual, either of the two factor markets of model 1 can be left out. -/
example (x : Fin (totalSize [] (solvedVars none oneVars)) → ℝ)
    (t : Fin (totalSize [] oneParams) → ℝ) (hw : t ⟨4, by decide⟩ ≠ 0) (hr : x ⟨5, by decide⟩ ≠ 0) :
    EquivalentNear [] oneVars oneParams none ((oneFirst ++ [oneGoods]) ++ [oneLabor])
      ((oneFirst ++ [oneGoods]) ++ [oneCapital]) x t := by
  refine C102_left_out oneLabor oneCapital (by decide +kernel) (by decide +kernel)
    (fun y i => [0, 1, 1, 1, 1, y ⟨6, by decide⟩, t ⟨4, by decide⟩, y ⟨5, by decide⟩].getD i 0) 6 (fun _ => rfl) rfl x t
    ?_ (Eventually.of_forall fun y => ?_) hw hr
  · intro i
    rcases i with _ | _ | _ | _ | _ | _ | _ | _ | i
    · exact continuousAt_const
    · exact continuousAt_const
    · exact continuousAt_const
    · exact continuousAt_const
    · exact continuousAt_const
    · exact continuousAt_apply _ _
    · exact continuousAt_const
    · exact continuousAt_apply _ _
    · exact continuousAt_const
  · unfold WalrasAt
    rw [one_flat_without, one_imbalances_without]
    simp [Finset.sum_range_succ]
    ring

end Verif
