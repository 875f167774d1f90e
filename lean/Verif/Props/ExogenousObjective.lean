import Verif.Props.ExogenousExample

/-!
# Exogenous quantities: what the minimizer and the equilibrium check see (C107)
-/

namespace Verif

variable {coords : Coords} {vars params : List ModelObject} {numeraire : Option ModelObject} {eqs : List IndexedEq}
  {k z p : ModelObject}

/-- **C107, numbers (objective).**  The minimizer of the default back-end is given the same objective. -/
theorem C107_number_objective (hk : k.dims = []) {q : ℚ} {F F₂ : SympyTensorFns}
    (hF : BuiltFns coords vars (params ++ [k]) numeraire eqs F)
    (hF₂ : BuiltFns coords vars params numeraire (eqs.map (IndexedEq.withNumber k.name q)) F₂)
    (h : IndexedModel coords vars (params ++ [k]) numeraire eqs)
    (h₂ : IndexedModel coords vars params numeraire (eqs.map (IndexedEq.withNumber k.name q)))
    (vn vn₂ : List Str) (x t : List ℝ) (hx : x.length = totalSize coords (solvedVars numeraire vars))
    (ht : t.length = totalSize coords params) :
    wrapForScipy (callGraphs ((solvedVars numeraire vars ++ params).map ModelObject.name) vn₂ [F₂.loss])
        (solvedVars numeraire vars) params coords x t =
      wrapForScipy (callGraphs ((solvedVars numeraire vars ++ (params ++ [k])).map ModelObject.name) vn [F.loss])
        (solvedVars numeraire vars) (params ++ [k]) coords x (t ++ [(q : ℝ)]) := by
  rw [hF₂.loss h₂ vn₂ x t hx ht, hF.loss h vn x (t ++ [(q : ℝ)]) hx (by
    rw [totalSize_append, List.length_append, ht]
    simp [totalSize, specSize, specShape, hk]), imbalances_withNumber hk h q x t hx ht]

/-- **C107, fixed variables (objective).**  With the variable at `w` and the parameter at `u`, the objective of the model
with the fixed variable is that of the model with the parameter at `w`, plus half the squared distance from `w` to
`u`. -/
theorem C107_fixed_objective (hz : z.dims = p.dims) (hord : p.dims.Sublist (dkeys coords)) {name : Template}
    {F₁ F₂ : SympyTensorFns}
    (hF₁ : BuiltFns coords (vars ++ [z]) (params ++ [p]) numeraire
      (eqs.map (IndexedEq.instead p.name z.name) ++ [fixedAt name z p]) F₁)
    (hF₂ : BuiltFns coords vars (params ++ [p]) numeraire eqs F₂)
    (h₁ : IndexedModel coords (vars ++ [z]) (params ++ [p]) numeraire
      (eqs.map (IndexedEq.instead p.name z.name) ++ [fixedAt name z p]))
    (h₂ : IndexedModel coords vars (params ++ [p]) numeraire eqs) (vn₁ vn₂ : List Str) (x w t u : List ℝ)
    (hx : x.length = totalSize coords (solvedVars numeraire vars)) (hw : w.length = specSize coords p)
    (ht : t.length = totalSize coords params) (hu : u.length = specSize coords p) :
    ∃ a : ℝ,
      wrapForScipy (callGraphs ((solvedVars numeraire vars ++ (params ++ [p])).map ModelObject.name) vn₂ [F₂.loss])
        (solvedVars numeraire vars) (params ++ [p]) coords x (t ++ w) = .ok [a] ∧
      wrapForScipy (callGraphs ((solvedVars numeraire (vars ++ [z]) ++ (params ++ [p])).map ModelObject.name) vn₁
          [F₁.loss])
        (solvedVars numeraire (vars ++ [z])) (params ++ [p]) coords (x ++ w) (t ++ u) =
          .ok [a + (1 / 2) * (List.zipWith (fun a b => (a - b) ^ 2) w u).sum] := by
  obtain ⟨hsol, himb⟩ := imbalances_instead hz h₁ h₂ hord x w t u hx hw ht hu
  have hs1 : ∀ o : ModelObject, totalSize coords [o] = specSize coords o := fun o => by simp [totalSize]
  have hsz : specSize coords z = specSize coords p := by simp only [specSize, specShape, hz]
  have sp : ∀ v : List ℝ, v.length = specSize coords p → (t ++ v).length = totalSize coords (params ++ [p]) := by
    intro v hv
    rw [totalSize_append, List.length_append, ht, hs1, hv]
  refine ⟨_, hF₂.loss h₂ vn₂ x (t ++ w) hx (sp w hw), ?_⟩
  rw [hF₁.loss h₁ vn₁ (x ++ w) (t ++ u) (by
    rw [solvedVars_append, hsol, totalSize_append, List.length_append, hx, hs1, hsz, hw]) (sp u hu), himb,
    List.map_append, List.sum_append, mul_add, List.map_zipWith]

/-- The hypotheses of `C107_number_objective`. -/
example (vn : List Str) (x y p : ℝ) : ∃ F F₂, BuiltFns [] duoVars lagParams none lagEqs F ∧
    BuiltFns [] duoVars sqParams none lagNumberEqs F₂ ∧
    wrapForScipy (callGraphs ((solvedVars none duoVars ++ sqParams).map ModelObject.name) vn [F₂.loss])
        (solvedVars none duoVars) sqParams [] [x, y] [p] =
      wrapForScipy (callGraphs ((solvedVars none duoVars ++ lagParams).map ModelObject.name) vn [F.loss])
        (solvedVars none duoVars) lagParams [] [x, y] [p, ((1 : ℚ) : ℝ)] := by
  have b1 : ∃ F, BuiltFns [] duoVars lagParams none lagEqs F :=
    ⟨_, id, id, id, id, _, _, _, lagEs (.sym "k".toList), fun _ _ => Iff.rfl, fun _ _ => Iff.rfl,
      fun _ _ => Iff.rfl, rfl, rfl, rfl, rfl, rfl⟩
  have b2 : ∃ F, BuiltFns [] duoVars sqParams none lagNumberEqs F :=
    ⟨_, id, id, id, id, _, _, _, lagEs (.num 1), fun _ _ => Iff.rfl, fun _ _ => Iff.rfl,
      fun _ _ => Iff.rfl, rfl, rfl, rfl, rfl, rfl⟩
  obtain ⟨F, hF⟩ := b1
  obtain ⟨F₂, hF₂⟩ := b2
  exact ⟨F, F₂, hF, hF₂, C107_number_objective (k := lagParam) rfl hF hF₂ lagModel lagNumberModel vn vn [x, y] [p] rfl
    rfl⟩

def sectorEs : List (SymExpr Str) :=
  [.add (.sym "X_a".toList) (.mul (.num (-1)) (.sym "z_a".toList)),
   .add (.sym "X_b".toList) (.mul (.num (-1)) (.sym "z_b".toList)),
   .add (.sym "T".toList) (.mul (.num (-1)) (.add (.add (.num 0) (.sym "X_a".toList)) (.sym "X_b".toList))),
   .add (.sym "z_a".toList) (.mul (.num (-1)) (.sym "w_a".toList)),
   .add (.sym "z_b".toList) (.mul (.num (-1)) (.sym "w_b".toList))]

/-- The hypotheses of `C107_fixed_objective`: the shares are fixed at `z = (5, 3)`, and `w` is `(1, 2)`. -/
example (vn : List Str) (T u v : ℝ) : ∃ F F₂, ∃ a : ℝ,
    BuiltFns abCoords (shareVars ++ [sectorLink]) shareParams none sectorEqs F ∧
    BuiltFns abCoords shareVars shareParams none shareEqs F₂ ∧
    wrapForScipy (callGraphs ((solvedVars none shareVars ++ shareParams).map ModelObject.name) vn [F₂.loss])
        (solvedVars none shareVars) shareParams abCoords [T, u, v] [5, 3] = .ok [a] ∧
    wrapForScipy (callGraphs ((solvedVars none (shareVars ++ [sectorLink]) ++ shareParams).map ModelObject.name) vn
        [F.loss]) (solvedVars none (shareVars ++ [sectorLink])) shareParams abCoords [T, u, v, 5, 3] [1, 2] =
      .ok [a + 17 / 2] := by
  have b1 : ∃ F, BuiltFns abCoords (shareVars ++ [sectorLink]) shareParams none sectorEqs F :=
    ⟨_, id, id, id, id, _, _, _, sectorEs, fun _ _ => Iff.rfl, fun _ _ => Iff.rfl,
      fun _ _ => Iff.rfl, rfl, rfl, rfl, rfl, rfl⟩
  have b2 : ∃ F, BuiltFns abCoords shareVars shareParams none shareEqs F :=
    ⟨_, id, id, id, id, _, _, _, shareEs "a".toList "b".toList, fun _ _ => Iff.rfl, fun _ _ => Iff.rfl,
      fun _ _ => Iff.rfl, rfl, rfl, rfl, rfl, rfl⟩
  obtain ⟨F, hF⟩ := b1
  obtain ⟨F₂, hF₂⟩ := b2
  obtain ⟨a, h1, h2⟩ := C107_fixed_objective (vars := shareVars) (params := []) (eqs := shareEqs) (z := sectorLink)
    (p := { name := "w", dims := ["i".toList] }) (name := sectorName) rfl (by decide) hF hF₂ sectorModel shareAB vn vn
    [T, u, v] [5, 3] [] [1, 2] rfl rfl rfl rfl
  refine ⟨F, F₂, a, hF, hF₂, h1, ?_⟩
  have e : (1 / 2 : ℝ) * (List.zipWith (fun a b => (a - b) ^ 2) [5, 3] [1, 2]).sum = 17 / 2 := by
    simp only [List.zipWith_cons_cons, List.zipWith_nil_left, List.sum_cons, List.sum_nil]
    norm_num
  rw [e] at h2
  exact h2

end Verif
