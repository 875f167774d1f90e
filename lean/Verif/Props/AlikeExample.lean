import Verif.Props.Alike
import Verif.Props.RelabelExample
import Mathlib.Logic.Equiv.Basic

/-!
# C106 applied: the two sectors of the model of the shares exchanged
-/

namespace Verif

open SymExpr

/-- `a` and `b` are exchanged. -/
def swapAB : Str → Str := Equiv.swap "a".toList "b".toList

theorem swapAB_inj : Function.Injective swapAB := (Equiv.swap _ _).injective

theorem swapAB_labels : ∀ d, ((labelsOf abCoords d).map swapAB).Perm (labelsOf abCoords d) := by
  intro d
  by_cases h : d = "i".toList
  · subst h
    have : (labelsOf abCoords "i".toList).map swapAB = ["b".toList, "a".toList] := by decide +kernel
    rw [this]
    exact List.Perm.swap _ _ _
  · have e : labelsOf abCoords d = [] := by
      simp only [abCoords, labelsOf, dget, if_neg (Ne.symm h), Option.getD]
    rw [e]
    exact .nil

theorem share_picks : ∀ q ∈ shareEqs, PicksFixed swapAB q.lhs ∧ PicksFixed swapAB q.rhs := by
  intro q hq
  simp only [shareEqs, List.mem_cons, List.not_mem_nil, or_false] at hq
  have key : ∀ n : Str, ∀ v ∈ [(n, [SIdx.idx "i".toList])], ∀ s ∈ v.2,
      (∃ i, s = .idx i) ∨ ∃ l, s = sympifyLabel l ∧ ReadsBack l ∧ swapAB l = l := by
    intro n v hv s hs
    rw [List.mem_singleton] at hv
    subst hv
    rw [List.mem_singleton] at hs
    exact .inl ⟨_, hs⟩
  rcases hq with rfl | rfl
  · exact ⟨key _, key _⟩
  · exact ⟨fun v hv => (nomatch hv), key _⟩

theorem share_mirrored (T u v : ℝ) : Mirrored swapAB abCoords (solvedVars none shareVars ++ shareParams)
    [T, u, v, u, v] [T, v, u, v, u] := by
  refine ⟨rfl, rfl, fun o ho ls hls => ?_⟩
  have : o = { name := "T" } ∨ o = { name := "X", dims := ["i".toList] } ∨ o = { name := "w", dims := ["i".toList] } := by
    simpa [shareVars, shareParams, solvedVars] using ho
  have ea : (["a".toList].map swapAB) = ["b".toList] := by decide +kernel
  have eb : (["b".toList].map swapAB) = ["a".toList] := by decide +kernel
  rcases this with rfl | rfl | rfl
  · have : ls = [] := by simpa [product] using hls
    subst this
    rfl
  · have : ls = ["a".toList] ∨ ls = ["b".toList] := by simpa [product, labelsOf, abCoords, dget] using hls
    rcases this with rfl | rfl
    · rw [ea]; rfl
    · rw [eb]; rfl
  · have : ls = ["a".toList] ∨ ls = ["b".toList] := by simpa [product, labelsOf, abCoords, dget] using hls
    rcases this with rfl | rfl
    · rw [ea]; rfl
    · rw [eb]; rfl

theorem share_mirrored_final (p q : ℝ) : Mirrored swapAB abCoords shareParams [p, q] [q, p] := by
  refine ⟨rfl, rfl, fun o ho ls hls => ?_⟩
  have : o = { name := "w", dims := ["i".toList] } := by simpa [shareParams] using ho
  subst this
  have ea : (["a".toList].map swapAB) = ["b".toList] := by decide +kernel
  have eb : (["b".toList].map swapAB) = ["a".toList] := by decide +kernel
  have : ls = ["a".toList] ∨ ls = ["b".toList] := by simpa [product, labelsOf, abCoords, dget] using hls
  rcases this with rfl | rfl
  · rw [ea]; rfl
  · rw [eb]; rfl

/-- The hypotheses of `C106_equations`. -/
example (T u v : ℝ) : (∀ r ∈ imbalances abCoords shareVars shareParams none shareEqs [T, v, u, v, u], r = 0) ↔
    ∀ r ∈ imbalances abCoords shareVars shareParams none shareEqs [T, u, v, u, v], r = 0 :=
  (C106_equations swapAB_inj swapAB_labels share_picks share_whole shareAB _ _ (share_mirrored T u v)).2

/-- Sector `a` grows from 1 to 5 and sector `b` from 2 to 3, and the other way round. -/
example (fl : SimFlags) (add mul : NDArray ℝ → NDArray ℝ → NDArray ℝ) :
    ∃ env e e₂,
      simulateCompute (simEnvOf env (fun _ => false) fl add mul) [] (shareCall 1 2 5 3) =
        .ok ⟨some e, none, none, false⟩ ∧
      simulateCompute (simEnvOf env (fun _ => false) fl add mul) [] (shareCall 2 1 3 5) =
        .ok ⟨some e₂, none, none, false⟩ ∧
      env.coords = abCoords ∧
      Mirrored swapAB abCoords (shareVars ++ shareParams) (flatOf e.start (shareVars ++ shareParams))
        (flatOf e₂.start (shareVars ++ shareParams)) := by
  obtain ⟨uv, up, K, hK, k1, k2⟩ := shareNumbaAB
  obtain ⟨outs, hrun⟩ := share_runs hK k1 k2 1 2 5 3 fl add mul
  have hini : Mirrored swapAB abCoords (solvedVars none shareVars ++ shareParams)
      (initialFlat [] (shareCall 1 2 5 3) (solvedVars none shareVars ++ shareParams))
      (initialFlat [] (shareCall 2 1 3 5) (solvedVars none shareVars ++ shareParams)) := by
    have := share_mirrored (1 + 2) 1 2
    rw [solvedVars_none] at this ⊢
    have e : initialFlat [] (shareCall 2 1 3 5) (shareVars ++ shareParams) = [2 + 1, 2, 1, 2, 1] := rfl
    rw [e, add_comm (2 : ℝ) 1]
    exact this
  obtain ⟨e, e₂, outs₂, g1, g2, -, -, g5⟩ := C106_simulate swapAB_inj swapAB_labels share_picks share_whole
    (shareBuiltAB hK) rfl fl add mul [] [] (shareCall 1 2 5 3) (shareCall 2 1 3 5)
    (shareRequest _ (.inl rfl) _ _ _ _ add mul) (shareRequest _ (.inl rfl) _ _ _ _ add mul) hini
    (share_mirrored_final 5 3) rfl rfl (by decide) rfl rfl rfl outs hrun
    (fun _ _ _ _ e he => ⟨shareRegular _ _ _ e he, fun _ _ => shareRegular _ _ _ e he⟩)
  rw [solvedVars_none] at g5
  exact ⟨_, e, e₂, g1, g2, rfl, g5⟩

/-- Both sectors grow from 1 to 5. -/
example (fl : SimFlags) (add mul : NDArray ℝ → NDArray ℝ → NDArray ℝ) :
    ∃ env e,
      simulateCompute (simEnvOf env (fun _ => false) fl add mul) [] (shareCall 1 1 5 5) =
        .ok ⟨some e, none, none, false⟩ ∧
      env.coords = abCoords ∧
      Alike swapAB abCoords (shareVars ++ shareParams) (flatOf e.start (shareVars ++ shareParams)) := by
  obtain ⟨uv, up, K, hK, k1, k2⟩ := shareNumbaAB
  obtain ⟨outs, hrun⟩ := share_runs hK k1 k2 1 1 5 5 fl add mul
  obtain ⟨e, g1, -, g3⟩ := C106_alike swapAB_inj swapAB_labels share_picks share_whole
    (shareBuiltAB hK) rfl fl add mul [] (shareCall 1 1 5 5) (shareRequest _ (.inl rfl) _ _ _ _ add mul)
    (share_mirrored (1 + 1) 1 1) (share_mirrored_final 5 5) rfl rfl (by decide) outs hrun
    (fun _ _ _ _ e he => ⟨shareRegular _ _ _ e he, fun _ _ => shareRegular _ _ _ e he⟩)
  rw [solvedVars_none] at g3
  exact ⟨_, e, g1, rfl, g3⟩

/-! ### An equation that picks a label -/

/-- `X[i] = w[i]` and `T = X["a"]`. -/
def pickEqs : List IndexedEq :=
  [⟨[.lit "share ".toList, .dim "i".toList], .indexed "X".toList [.idx "i".toList],
      .indexed "w".toList [.idx "i".toList]⟩,
   ⟨[.lit "first".toList], .sym "T".toList, .indexed "X".toList [sympifyLabel "a".toList]⟩]

/-- **An equation that picks one of the labels makes them differ.**  With `T` equal to the share of sector `a`, the mirror
image of an equilibrium is no equilibrium. -/
theorem C106_picked_label_counterexample :
    Mirrored swapAB abCoords (solvedVars none shareVars ++ shareParams) [1, 1, 2, 1, 2] [1, 2, 1, 2, 1] ∧
    (∀ r ∈ imbalances abCoords shareVars shareParams none pickEqs [1, 1, 2, 1, 2], r = 0) ∧
    ¬ ∀ r ∈ imbalances abCoords shareVars shareParams none pickEqs [1, 2, 1, 2, 1], r = 0 := by
  have e : ∀ T u v p q : ℝ, imbalances abCoords shareVars shareParams none pickEqs [T, u, v, p, q] =
      [u - p, v - q, T - u] := fun _ _ _ _ _ => rfl
  refine ⟨share_mirrored 1 1 2, ?_, ?_⟩
  · rw [e]; simp
  · rw [e]
    intro h
    have := h (1 - 2) (by simp)
    norm_num at this

end Verif
