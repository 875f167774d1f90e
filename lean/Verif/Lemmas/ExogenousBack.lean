import Verif.Lemmas.Exogenous
import Verif.Lemmas.Lift
import Verif.Props.ReorderModels

/-!
# One step when a parameter is a number, or a variable fixed by an equation: the model with more objects
-/

namespace Verif

/-- If the model with the number has a direction, so has the model with the parameter. -/
theorem solve_number_back {n np p r : Nat} (hnp : np = p + r) (G₁ G₂ : List ℝ → List ℝ) (ok₁ ok₂ : List ℝ → Prop)
    (A₁ : (Fin n → ℝ) → (Fin np → ℝ) → Matrix (Fin n) (Fin n) ℝ)
    (B₁ : (Fin n → ℝ) → (Fin np → ℝ) → Matrix (Fin n) (Fin np) ℝ)
    (A₂ : (Fin n → ℝ) → (Fin p → ℝ) → Matrix (Fin n) (Fin n) ℝ)
    (B₂ : (Fin n → ℝ) → (Fin p → ℝ) → Matrix (Fin n) (Fin p) ℝ)
    (D₁ : DerivativesOf G₁ ok₁ A₁ B₁) (D₂ : DerivativesOf G₂ ok₂ A₂ B₂) (u : List ℝ) (hu : u.length = r)
    (hG : ∀ x t : List ℝ, x.length = n → t.length = p → G₂ (x ++ t) = G₁ (x ++ (t ++ u)))
    (x t h h' e : List ℝ) (hx : x.length = n) (ht : t.length = p)
    (h₁ : ok₁ (x ++ (t ++ u))) (h₂ : ok₂ (x ++ t))
    (he : (vecJac A₂ B₂).solve x t h = .ok e) : ∃ d, (vecJac A₁ B₁).solve x (t ++ u) h' = .ok d := by
  subst hnp
  have ltu : (t ++ u).length = p + r := by rw [List.length_append, ht, hu]
  obtain ⟨hdet, -⟩ := (vecJac A₂ B₂).solve_spec _ _ _ e he
  have ex := ofFn_toVec n x hx
  have et := ofFn_toVec (p + r) _ ltu
  have et2 := ofFn_toVec p t ht
  obtain ⟨a1, -⟩ := D₁ (toVec n x) (toVec (p + r) (t ++ u)) (by rw [ex, et]; exact h₁)
  obtain ⟨a2, -⟩ := D₂ (toVec n x) (toVec p t) (by rw [ex, et2]; exact h₂)
  rw [ex, et] at a1
  rw [ex, et2] at a2
  have hA : A₁ (toVec n x) (toVec (p + r) (t ++ u)) = A₂ (toVec n x) (toVec p t) := by
    ext i j
    refine (a1 i j).unique ((a2 i j).congr_of_eventuallyEq (Filter.Eventually.of_forall fun v => ?_))
    dsimp only
    rw [List.set_append_left _ _ (by rw [hx]; exact j.isLt), List.set_append_left _ _ (by rw [hx]; exact j.isLt),
      hG _ _ (by rw [List.length_set, hx]) ht]
  refine ⟨_, (vecJac A₁ B₁).solve_of_isUnit x (t ++ u) h' ?_⟩
  show IsUnit (A₁ (toVec n x) (toVec (p + r) (t ++ u))).det
  rw [hA]
  exact hdet

/-- If the model with the parameter has a direction, so has the model with the fixed variable. -/
theorem solve_fixed_back {nx np n m p : Nat} (hnx : nx = n + m) (hnp : np = p + m) (G₁ G₂ : List ℝ → List ℝ)
    (ok₁ ok₂ : List ℝ → Prop)
    (A₁ : (Fin nx → ℝ) → (Fin np → ℝ) → Matrix (Fin nx) (Fin nx) ℝ)
    (B₁ : (Fin nx → ℝ) → (Fin np → ℝ) → Matrix (Fin nx) (Fin np) ℝ)
    (A₂ : (Fin n → ℝ) → (Fin np → ℝ) → Matrix (Fin n) (Fin n) ℝ)
    (B₂ : (Fin n → ℝ) → (Fin np → ℝ) → Matrix (Fin n) (Fin np) ℝ)
    (D₁ : DerivativesOf G₁ ok₁ A₁ B₁) (D₂ : DerivativesOf G₂ ok₂ A₂ B₂)
    (hG : ∀ x z t u : List ℝ, x.length = n → z.length = m → t.length = p → u.length = m → ∀ i : Nat, i < n →
      (G₁ ((x ++ z) ++ (t ++ u))).getD i 0 = (G₂ (x ++ (t ++ z))).getD i 0)
    (hF : ∀ x z t u : List ℝ, x.length = n → z.length = m → t.length = p → u.length = m → ∀ i : Nat, i < m →
      (G₁ ((x ++ z) ++ (t ++ u))).getD (n + i) 0 = z.getD i 0 - u.getD i 0)
    (x z t h h' e : List ℝ) (hx : x.length = n) (hz : z.length = m) (ht : t.length = p)
    (h₁ : ok₁ ((x ++ z) ++ (t ++ z))) (h₂ : ok₂ (x ++ (t ++ z)))
    (he : (vecJac A₂ B₂).solve x (t ++ z) h = .ok e) :
    ∃ d, (vecJac A₁ B₁).solve (x ++ z) (t ++ z) h' = .ok d := by
  subst hnx hnp
  have lxz : (x ++ z).length = n + m := by rw [List.length_append, hx, hz]
  have ltu : (t ++ z).length = p + m := by rw [List.length_append, ht, hz]
  obtain ⟨hdet, -⟩ := (vecJac A₂ B₂).solve_spec _ _ _ e he
  obtain ⟨c1, c2, -, -⟩ := fixed_lower G₁ ok₁ A₁ B₁ D₁ hF x z t z hx hz ht hz h₁
  have ex := ofFn_toVec (n + m) _ lxz
  have et := ofFn_toVec (p + m) _ ltu
  have ex2 := ofFn_toVec n _ hx
  obtain ⟨a1, -⟩ := D₁ (toVec (n + m) (x ++ z)) (toVec (p + m) (t ++ z)) (by rw [ex, et]; exact h₁)
  obtain ⟨a2, -⟩ := D₂ (toVec n x) (toVec (p + m) (t ++ z)) (by rw [ex2, et]; exact h₂)
  rw [ex, et] at a1
  rw [ex2, et] at a2
  have hA : ∀ (i j : Fin n), A₁ (toVec (n + m) (x ++ z)) (toVec (p + m) (t ++ z)) (Fin.castAdd m i) (Fin.castAdd m j) =
      A₂ (toVec n x) (toVec (p + m) (t ++ z)) i j := by
    intro i j
    have e1 := a1 (Fin.castAdd m i) (Fin.castAdd m j)
    rw [toVec_append_left _ _ hx] at e1
    refine e1.unique ((a2 i j).congr_of_eventuallyEq (Filter.Eventually.of_forall fun v => ?_))
    dsimp only
    rw [List.set_append_left _ _ (by rw [lxz]; exact (Fin.castAdd m j).isLt), List.set_append_left _ _
      (by rw [hx]; exact j.isLt), List.set_append_left _ _ (by rw [hx]; exact j.isLt)]
    exact hG _ z t z (by rw [List.length_set, hx]) hz ht hz i i.isLt
  have hblock : (A₁ (toVec (n + m) (x ++ z)) (toVec (p + m) (t ++ z))).submatrix finSumFinEquiv finSumFinEquiv =
      Matrix.fromBlocks (A₂ (toVec n x) (toVec (p + m) (t ++ z)))
        (Matrix.of fun (i : Fin n) (j : Fin m) => A₁ (toVec (n + m) (x ++ z)) (toVec (p + m) (t ++ z)) (Fin.castAdd m i)
          (Fin.natAdd n j)) 0 1 := by
    ext i j
    rcases i with i | i <;> rcases j with j | j
    · simpa using hA i j
    · simp
    · simpa using c1 i j
    · simpa [Matrix.one_apply] using c2 i j
  refine ⟨_, (vecJac A₁ B₁).solve_of_isUnit (x ++ z) (t ++ z) h' ?_⟩
  show IsUnit (A₁ (toVec (n + m) (x ++ z)) (toVec (p + m) (t ++ z))).det
  rw [← Matrix.det_submatrix_equiv_self finSumFinEquiv, hblock, Matrix.det_fromBlocks_zero₂₁, Matrix.det_one,
    mul_one]
  exact hdet

/-- The Euler function of the larger model returns. -/
theorem simulate_liftKeep {coords : Coords} {vs zs ps us : List ModelObject} {G₁ G₂ : List ℝ → List ℝ}
    {ok₁ ok₂ : List ℝ → Prop}
    {b₁ b₂ : EulerBackend} {dx₁ dx₂ : StepSolve ℝ} {env₁ env₂ : SamEnv ℝ (List (NDArray ℝ))} {A₁ B₁ A₂ B₂}
    (hs₁ : StepsFrom coords (vs ++ zs) (ps ++ us) G₁ ok₁ b₁ env₁ dx₁ A₁ B₁)
    (hs₂ : StepsFrom coords vs ps G₂ ok₂ b₂ env₂ dx₂ A₂ B₂) (hb : b₂.rk4 = b₁.rk4)
    (fl : SimFlags) (add mul : NDArray ℝ → NDArray ℝ → NDArray ℝ) (heap₁ heap₂ : Heap (NDArray ℝ)) (c₁ c₂ : SimCall ℝ)
    (hr₁ : RequestOK coords (vs ++ zs) (ps ++ us) add mul heap₁ c₁)
    (hr₂ : RequestOK coords vs ps add mul heap₂ c₂)
    (heul₁ : c₁.useEuler = true) (hopt₁ : c₁.useOptimizer = false)
    (heul₂ : c₂.useEuler = true) (hopt₂ : c₂.useOptimizer = false)
    (h1 : 1 ≤ c₁.nIterEuler) (hn : c₂.nIterEuler = c₁.nIterEuler)
    (hinit : ∀ o ∈ vs ++ ps, seen heap₂ c₂.initial o.name = seen heap₁ c₁.initial o.name)
    (hwant : ∀ o ∈ ps, wantedValue add mul heap₂ c₂ o.name = wantedValue add mul heap₁ c₁ o.name)
    (outs₂ : List (NDArray ℝ))
    (hrun : env₂.euler (derefDict heap₂ c₂.initial) (wantedFlat add mul heap₂ c₂ ps) c₂.nIterEuler = .ok outs₂)
    (φ : List ℝ → List ℝ → Prop) (δ : List ℝ → Prop) (R : List ℝ → Prop) (h : List ℝ)
    (hh : h = stepVec c₁.nIterEuler (wantedFlat add mul heap₁ c₁ (ps ++ us)) (initialFlat heap₁ c₁ (ps ++ us)))
    (fill : List ℝ) (hfl : fill.length = totalSize coords zs)
    (hfill : ∀ d : List ℝ, d.length = totalSize coords vs → δ (d ++ fill))
    (h0 : φ (initialFlat heap₁ c₁ (vs ++ zs)) (initialFlat heap₁ c₁ (ps ++ us)))
    (hmid : ∀ x t d : List ℝ, x.length = totalSize coords (vs ++ zs) → t.length = totalSize coords (ps ++ us) →
      d.length = totalSize coords (vs ++ zs) → φ x t → δ d →
      φ (List.zipWith (fun a b => a + 2⁻¹ * b) x d) (List.zipWith (fun a b => a + 2⁻¹ * b) t h))
    (hend : ∀ x t d : List ℝ, x.length = totalSize coords (vs ++ zs) → t.length = totalSize coords (ps ++ us) →
      d.length = totalSize coords (vs ++ zs) → φ x t → δ d →
      φ (List.zipWith (· + ·) x d) (List.zipWith (· + ·) t h))
    (hrk : ∀ d1 d2 d3 d4 d : List ℝ, δ d1 → δ d2 → δ d3 → δ d4 → vrk4 d1 d2 d3 d4 = .ok d → δ d)
    (hop : ∀ x t : List ℝ, x.length = totalSize coords (vs ++ zs) → t.length = totalSize coords (ps ++ us) →
      h.length = totalSize coords (ps ++ us) → R (x.take (totalSize coords vs) ++ t.take (totalSize coords ps)) → φ x t →
      (∀ d, (vecJac A₁ B₁).solve x t h = .ok d →
        (vecJac A₂ B₂).solve (x.take (totalSize coords vs)) (t.take (totalSize coords ps)) (h.take (totalSize coords ps)) =
          .ok (d.take (totalSize coords vs)) ∧ δ d) ∧
      ∀ e, (vecJac A₂ B₂).solve (x.take (totalSize coords vs)) (t.take (totalSize coords ps))
        (h.take (totalSize coords ps)) = .ok e → ∃ d, (vecJac A₁ B₁).solve x t h = .ok d)
    (hreg : ∀ t, t < c₂.nIterEuler → ∀ s₂ ∈ b₂.points dx₂ (totalSize coords vs)
        (b₂.stateAfter vs ps (derefDict heap₂ c₂.initial) outs₂ t)
        (stepVec c₂.nIterEuler (wantedFlat add mul heap₂ c₂ ps) (initialFlat heap₂ c₂ ps)), R s₂) :
    ∃ outs, env₁.euler (derefDict heap₁ c₁.initial) (wantedFlat add mul heap₁ c₁ (ps ++ us)) c₁.nIterEuler = .ok outs ∧
      ∀ t, t < c₁.nIterEuler → ∀ s ∈ b₁.points dx₁ (totalSize coords (vs ++ zs))
        (b₁.stateAfter (vs ++ zs) (ps ++ us) (derefDict heap₁ c₁.initial) outs t) h,
        ∃ x' t' : List ℝ, x'.length = totalSize coords (vs ++ zs) ∧ t'.length = totalSize coords (ps ++ us) ∧ s = x' ++ t' ∧
          φ x' t' ∧ R (x'.take (totalSize coords vs) ++ t'.take (totalSize coords ps)) := by
  obtain ⟨hem₁, hce₁, hve₁, hpe₁, hcomp₁, hsteps₁, hsolve₁, hder₁⟩ := id hs₁
  obtain ⟨hem₂, hce₂, hve₂, hpe₂, hcomp₂, hsteps₂, hsolve₂, hder₂⟩ := id hs₂
  have hl₁ := hs₁.lenOK
  have hl₂ := hs₂.lenOK
  obtain ⟨hcall₁, hini₁, -⟩ := simulate_euler_only env₁ b₁ dx₁ hsteps₁ (by rw [hce₁, hve₁, hpe₁]; exact hem₁)
    (by rw [hce₁, hve₁, hpe₁]; exact hl₁) hcomp₁ fl add mul heap₁ c₁ (by rw [hce₁, hve₁, hpe₁]; exact hr₁) heul₁ hopt₁ h1
  obtain ⟨hcall₂, hini₂, -⟩ := simulate_euler_only env₂ b₂ dx₂ hsteps₂ (by rw [hce₂, hve₂, hpe₂]; exact hem₂)
    (by rw [hce₂, hve₂, hpe₂]; exact hl₂) hcomp₂ fl add mul heap₂ c₂ (by rw [hce₂, hve₂, hpe₂]; exact hr₂) heul₂ hopt₂
    (by rw [hn]; exact h1)
  rw [hce₁, hve₁, hpe₁] at hcall₁
  rw [hve₁, hpe₁] at hini₁
  rw [hce₂, hve₂, hpe₂] at hcall₂
  rw [hve₂, hpe₂] at hini₂
  rw [hsteps₂] at hrun
  dsimp only at hrun
  rw [hce₂, hve₂, hpe₂, hn] at hrun
  rw [hn, ← hini₂ ps (fun o ho => List.mem_append_right _ ho)] at hreg
  have hsub : ∀ o ∈ vs ++ ps, o ∈ vs ++ zs ++ (ps ++ us) := by
    intro o ho
    rcases List.mem_append.1 ho with ho | ho
    · exact List.mem_append_left _ (List.mem_append_left _ ho)
    · exact List.mem_append_right _ (List.mem_append_left _ ho)
  have hflat : ∀ objs, (∀ o ∈ objs, o ∈ vs ++ ps) →
      flatOf (derefDict heap₂ c₂.initial) objs = flatOf (derefDict heap₁ c₁.initial) objs := by
    intro objs ho
    rw [hini₂ objs ho, hini₁ objs fun o h => hsub o (ho o h)]
    unfold initialFlat
    apply List.flatMap_congr
    intro o h
    rw [hinit o (ho o h)]
  have hwf : wantedFlat add mul heap₂ c₂ ps = (wantedFlat add mul heap₁ c₁ (ps ++ us)).take (totalSize coords ps) := by
    have e : wantedFlat add mul heap₂ c₂ ps = wantedFlat add mul heap₁ c₁ ps := by
      unfold wantedFlat
      apply List.flatMap_congr
      intro o ho
      rw [hwant o ho]
    have e' : wantedFlat add mul heap₁ c₁ (ps ++ us) =
        wantedFlat add mul heap₁ c₁ ps ++ wantedFlat add mul heap₁ c₁ us := by
      unfold wantedFlat; rw [List.flatMap_append]
    rw [e', List.take_left' (by rw [← e]; exact hcall₂.final), e]
  rw [← hini₁ (ps ++ us) (fun o ho => List.mem_append_right _ ho)] at hh h0
  rw [← hini₁ (vs ++ zs) (fun o ho => List.mem_append_left _ ho)] at h0
  have hlh : h.length = totalSize coords (ps ++ us) := by
    rw [hh, stepVec, List.length_zipWith, hcall₁.final,
      (flatOf_spec coords _ _ fun o ho => hcall₁.shaped o (List.mem_append_right _ ho)).1, min_self]
  subst hh
  have sv := totalSize_append coords vs zs
  have sp := totalSize_append coords ps us
  obtain ⟨outs, hrun₁, hst⟩ := runs_liftKeep coords b₁ b₂ hb dx₁ dx₂ hl₁ hl₂ _ _ _ _ c₁.nIterEuler hcall₁ hcall₂
    (hflat _ fun o ho => List.mem_append_left _ ho) (hflat _ fun o ho => List.mem_append_right _ ho) hwf outs₂ hrun φ δ
    fill hfl hfill h0 hmid hend hrk
    (by
      intro j hj s₂ hs₂ x t hx ht hsx hφ
      rw [hsolve₁ _ _ _ hx ht hlh, hsolve₂ _ _ _ (by rw [List.length_take]; omega) (by rw [List.length_take]; omega)
        (by rw [List.length_take]; omega)]
      exact hop x t hx ht hlh (hsx ▸ hreg j hj s₂ hs₂) hφ)
  refine ⟨outs, ?_, fun t ht s hs => ?_⟩
  · rw [hsteps₁]
    dsimp only
    rw [hce₁, hve₁, hpe₁]
    exact hrun₁
  · obtain ⟨x', t', l1, l2, l3, l4, l5⟩ := hst t ht s hs
    exact ⟨x', t', l1, l2, l3, l4, hreg t ht _ l5⟩

end Verif
