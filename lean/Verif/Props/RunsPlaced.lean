import Verif.Props.Reorder

/-!
# Two models whose states are laid out differently
-/

namespace Verif

open SymExpr

/-- Two models with as many variables and parameters, whose equations at states laid out by `ix` and `it` are fixed
invertible combinations of each other: the run of the one gives that of the other. -/
theorem runs_placed {coords coords₂ : Coords} {vs ps vs₂ ps₂ : List ModelObject}
    (svx : totalSize coords₂ vs₂ = totalSize coords vs) (svp : totalSize coords₂ ps₂ = totalSize coords ps)
    {ix it : List Nat} (px : ix.Perm (List.range (totalSize coords vs)))
    (pt : it.Perm (List.range (totalSize coords ps))) (b₁ b₂ : EulerBackend) (hb : b₂.rk4 = b₁.rk4)
    (dx₁ dx₂ : StepSolve ℝ) (G₁ G₂ : List ℝ → List ℝ) (ok₁ ok₂ : List ℝ → Prop)
    (A₁ : (Fin (totalSize coords vs) → ℝ) → (Fin (totalSize coords ps) → ℝ) →
      Matrix (Fin (totalSize coords vs)) (Fin (totalSize coords vs)) ℝ)
    (B₁ : (Fin (totalSize coords vs) → ℝ) → (Fin (totalSize coords ps) → ℝ) →
      Matrix (Fin (totalSize coords vs)) (Fin (totalSize coords ps)) ℝ)
    (A₂ : (Fin (totalSize coords₂ vs₂) → ℝ) → (Fin (totalSize coords₂ ps₂) → ℝ) →
      Matrix (Fin (totalSize coords₂ vs₂)) (Fin (totalSize coords₂ vs₂)) ℝ)
    (B₂ : (Fin (totalSize coords₂ vs₂) → ℝ) → (Fin (totalSize coords₂ ps₂) → ℝ) →
      Matrix (Fin (totalSize coords₂ vs₂)) (Fin (totalSize coords₂ ps₂)) ℝ)
    (e₁ : ∀ x t h, x.length = totalSize coords vs → t.length = totalSize coords ps →
      h.length = totalSize coords ps → dx₁ x t h = (vecJac A₁ B₁).solve x t h)
    (e₂ : ∀ x t h, x.length = totalSize coords₂ vs₂ → t.length = totalSize coords₂ ps₂ →
      h.length = totalSize coords₂ ps₂ → dx₂ x t h = (vecJac A₂ B₂).solve x t h)
    (D₁ : DerivativesOf G₁ ok₁ A₁ B₁) (D₂ : DerivativesOf G₂ ok₂ A₂ B₂)
    (hG : ∃ M : Matrix (Fin (totalSize coords vs)) (Fin (totalSize coords vs)) ℝ, IsUnit M.det ∧
      ∀ x t : List ℝ, x.length = totalSize coords vs → t.length = totalSize coords ps →
        toVec (totalSize coords vs) (G₂ (pickAt 0 ix x ++ pickAt 0 it t)) =
          M.mulVec (toVec (totalSize coords vs) (G₁ (x ++ t))))
    (data data₂ : Dict Str (NDArray ℝ)) (tf₁ tf₂ : List ℝ) (n : Nat)
    (hc₁ : EulerCall coords vs ps data tf₁) (hc₂ : EulerCall coords₂ vs₂ ps₂ data₂ tf₂)
    (fx : flatOf data₂ vs₂ = pickAt 0 ix (flatOf data vs)) (ft : flatOf data₂ ps₂ = pickAt 0 it (flatOf data ps))
    (ht : tf₂ = pickAt 0 it tf₁)
    (outs₁ : List (NDArray ℝ)) (hrun : runEuler b₁ dx₁ vs ps coords tf₁ n data = .ok outs₁)
    (hP : ∀ t, t < n → ∀ s ∈ b₁.points dx₁ (totalSize coords vs) (b₁.stateAfter vs ps data outs₁ t)
      (stepVec n tf₁ (flatOf data ps)), ok₁ s ∧ ∀ x t : List ℝ, s = x ++ t → x.length = totalSize coords vs →
        t.length = totalSize coords ps → ok₂ (pickAt 0 ix x ++ pickAt 0 it t)) :
    ∃ outs₂, runEuler b₂ dx₂ vs₂ ps₂ coords₂ tf₂ n data₂ = .ok outs₂ ∧
      ∀ t, t ≤ n → ∃ x y : List ℝ, x.length = totalSize coords vs ∧ y.length = totalSize coords ps ∧
        b₁.stateAfter vs ps data outs₁ t = x ++ y ∧
        b₂.stateAfter vs₂ ps₂ data₂ outs₂ t = pickAt 0 ix x ++ pickAt 0 it y := by
  have hdx₁ : LenOK dx₁ (totalSize coords vs) (totalSize coords ps) := by
    intro x t h d hx ht hh hd
    rw [e₁ x t h hx ht hh] at hd
    exact (vecJac A₁ B₁).lenOK x t h d hx ht hh hd
  have hdx₂ : LenOK dx₂ (totalSize coords₂ vs₂) (totalSize coords₂ ps₂) := by
    intro x t h d hx ht hh hd
    rw [e₂ x t h hx ht hh] at hd
    exact (vecJac A₂ B₂).lenOK x t h d hx ht hh hd
  have sh1 : ∀ o ∈ vs, DataFor coords data o := fun o ho => hc₁.shaped o (by simp [ho])
  have sh2 : ∀ o ∈ ps, DataFor coords data o := fun o ho => hc₁.shaped o (by simp [ho])
  have lx := (flatOf_spec coords data vs sh1).1
  have lt := (flatOf_spec coords data ps sh2).1
  have hlx : ∀ k ∈ ix, k < totalSize coords vs := fun k hk => List.mem_range.1 (px.mem_iff.1 hk)
  have hlt : ∀ k ∈ it, k < totalSize coords ps := fun k hk => List.mem_range.1 (pt.mem_iff.1 hk)
  have lix : ix.length = totalSize coords vs := by rw [px.length_eq, List.length_range]
  have lit : it.length = totalSize coords ps := by rw [pt.length_eq, List.length_range]
  have hs : (stepVec n tf₁ (flatOf data ps)).length = totalSize coords ps := by
    simp [stepVec, lt, hc₁.final]
  have hstep : stepVec n tf₂ (flatOf data₂ ps₂) = pickAt 0 it (stepVec n tf₁ (flatOf data ps)) := by
    unfold stepVec
    rw [pickAt_zipWith 0 it _ _ _ (fun k hk => by rw [hc₁.final]; exact hlt k hk)
      (fun k hk => by rw [lt]; exact hlt k hk), ← ft, ht]
  -- the rows of the first run
  have hrun' := hrun
  rw [runEuler_eq b₁ dx₁ coords vs ps data tf₁ n hc₁ hdx₁] at hrun'
  cases hR : eulerRows (jaxIncrement dx₁ b₁.rk4) (stepVec n tf₁ (flatOf data ps)) n (flatOf data vs)
      (flatOf data ps) with
  | error e => rw [hR] at hrun'; cases hrun'
  | ok R =>
  have hrows₁ := stateAfter_rows b₁ dx₁ coords vs ps data tf₁ n hc₁ hdx₁ outs₁ hrun R hR
  obtain ⟨M, hM, hMG⟩ := hG
  have hR₂ := eulerRows_pick (jaxIncrement dx₁ b₁.rk4) (jaxIncrement dx₂ b₁.rk4) _ _
    (jaxIncrement_len dx₁ _ _ hdx₁ _) ix it hlx hlt _ hs
    (fun x t => ∀ p ∈ solvedAt dx₁ b₁.rk4 x t (stepVec n tf₁ (flatOf data ps)),
      ok₁ (p.1 ++ p.2) ∧ ok₂ (pickAt 0 ix p.1 ++ pickAt 0 it p.2))
    (by
      intro x t d hx ht hok hd
      refine jaxIncrement_map dx₁ dx₂ _ _ _ _ hdx₁ _ _ (pickAt_combines hlx) (pickAt_combines hlt) _ x t _ d
        hx ht hs (fun p hp d hd => ?_) hd
      obtain ⟨hx, ht⟩ := solvedAt_len dx₁ _ _ hdx₁ _ x t _ hx ht hs p hp
      have hok := hok p hp
      rw [e₁ _ _ _ hx ht hs] at hd
      rw [e₂ _ _ _ (by rw [length_pickAt, lix, svx]) (by rw [length_pickAt, lit, svp])
        (by rw [length_pickAt, lit, svp])]
      revert A₂ B₂ D₂
      rw [svx, svp]
      intro A₂ B₂ _ D₂
      exact solve_pick px pt G₁ G₂ ok₁ ok₂ A₁ A₂ B₁ B₂ D₁ D₂ M hM
        hMG _ _ _ d hx ht hs hok.1 hok.2 hd)
    n _ _ lx lt R hR
    (by
      intro j s hj hsj p hp
      obtain ⟨s', k1, k2, k3, k4⟩ := hrows₁ j (by omega)
      rw [hsj, Option.some.injEq] at k1
      subst k1
      obtain ⟨l1, l2⟩ := solvedAt_len dx₁ _ _ hdx₁ _ _ _ _ k3 k4 hs p hp
      have hin : p.1 ++ p.2 ∈ b₁.points dx₁ (totalSize coords vs) (b₁.stateAfter vs ps data outs₁ j)
          (stepVec n tf₁ (flatOf data ps)) := by
        unfold EulerBackend.points
        rw [k2, List.take_left' k3, List.drop_left' k3]
        exact List.mem_map.2 ⟨p, hp, rfl⟩
      obtain ⟨o1, o2⟩ := hP j hj _ hin
      exact ⟨o1, o2 _ _ rfl l1 l2⟩)
  rw [← hstep, ← fx, ← ft] at hR₂
  rw [← hb] at hR₂
  obtain ⟨outs₂, hrun₂⟩ := runEuler_ok_of_rows b₂ dx₂ coords₂ vs₂ ps₂ data₂ tf₂ n hc₂ hdx₂ _ hR₂
  have hrows₂ := stateAfter_rows b₂ dx₂ coords₂ vs₂ ps₂ data₂ tf₂ n hc₂ hdx₂ outs₂ hrun₂ _ hR₂
  refine ⟨outs₂, hrun₂, fun t ht => ?_⟩
  obtain ⟨s₁, k1, k2, k3, k4⟩ := hrows₁ t ht
  obtain ⟨s₂, m1, m2, -, -⟩ := hrows₂ t ht
  have hs₂ : s₂ = (pickAt 0 ix s₁.1, pickAt 0 it s₁.2) := by
    rw [fx, ft] at m1
    have : ((pickAt 0 ix (flatOf data vs), pickAt 0 it (flatOf data ps)) ::
        R.map fun r => (pickAt 0 ix r.1, pickAt 0 it r.2)) =
        ((flatOf data vs, flatOf data ps) :: R).map fun r => (pickAt 0 ix r.1, pickAt 0 it r.2) := rfl
    rw [this, List.getElem?_map, k1, Option.map_some, Option.some.injEq] at m1
    exact m1.symm
  exact ⟨s₁.1, s₁.2, k3, k4, k2, by rw [m2, hs₂]⟩

end Verif
