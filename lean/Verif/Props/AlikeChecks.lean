import Verif.Props.AlikeExample

/-!
# Labels treated alike: the objective and the equilibrium check (C106)
-/

namespace Verif

variable {coords : Coords} {vars params : List ModelObject} {numeraire : Option ModelObject} {eqs : List IndexedEq}

/-- **C106 (objective).**  At a state and at its mirror image the minimizer of the default back-end sees the same
objective. -/
theorem C106_objective {π : Str → Str} (hπ : Function.Injective π)
    (hp : ∀ d, ((labelsOf coords d).map π).Perm (labelsOf coords d))
    (hpick : ∀ q ∈ eqs, PicksFixed π q.lhs ∧ PicksFixed π q.rhs)
    (hw : ∀ q ∈ eqs, WholeRange coords q.lhs ∧ WholeRange coords q.rhs)
    {F : SympyTensorFns} (hF : BuiltFns coords vars params numeraire eqs F)
    (h : IndexedModel coords vars params numeraire eqs) (vn : List Str) (x t x₂ t₂ : List ℝ)
    (hx : x.length = totalSize coords (solvedVars numeraire vars))
    (hx₂ : x₂.length = totalSize coords (solvedVars numeraire vars))
    (hs : Mirrored π coords (solvedVars numeraire vars ++ params) (x ++ t) (x₂ ++ t₂)) :
    wrapForScipy (callGraphs ((solvedVars numeraire vars ++ params).map ModelObject.name) vn [F.loss])
        (solvedVars numeraire vars) params coords x₂ t₂ =
      wrapForScipy (callGraphs ((solvedVars numeraire vars ++ params).map ModelObject.name) vn [F.loss])
        (solvedVars numeraire vars) params coords x t := by
  have l1 := hs.1
  have l2 := hs.2.1
  rw [List.length_append, totalSize_append] at l1 l2
  rw [hF.loss h vn _ _ hx (by omega), hF.loss h vn _ _ hx₂ (by omega),
    ((C106_equations hπ hp hpick hw h _ _ hs).1.map (· ^ 2)).sum_eq]

theorem flagged_values (names : List Str) (l : List ℝ) (h : names.length = l.length) (p : ℝ → Bool) :
    ((names.zip l).filter fun q => p q.2).map Prod.snd = l.filter p := by
  induction l generalizing names with
  | nil => simp
  | cons x l ih =>
    cases names with
    | nil => simp at h
    | cons n names =>
      have ih' := ih names (by simpa using h)
      simp only [List.zip_cons_cons, List.filter_cons]
      by_cases hp : p x
      · simp only [hp, if_true, List.map_cons, ih']
      · simp only [hp, Bool.false_eq_true, if_false, ih']

/-- **C106 (equilibrium check).**  `check_for_equilibrium` gives the same verdict at a state and at its mirror image, and
the errors it reports are the same up to their order. -/
theorem C106_check {π : Str → Str} (hπ : Function.Injective π)
    (hp : ∀ d, ((labelsOf coords d).map π).Perm (labelsOf coords d))
    (hpick : ∀ q ∈ eqs, PicksFixed π q.lhs ∧ PicksFixed π q.rhs)
    (hw : ∀ q ∈ eqs, WholeRange coords q.lhs ∧ WholeRange coords q.rhs)
    (h : IndexedModel coords vars params numeraire eqs) (byName : Bool)
    (hv0 : solvedVars numeraire vars ≠ []) (hp0 : params ≠ [])
    (ref ref₂ : Dict Str (NDArray ℝ)) (hs : ModelState coords (solvedVars numeraire vars) params ref)
    (hs₂ : ModelState coords (solvedVars numeraire vars) params ref₂)
    (hsame : Mirrored π coords (solvedVars numeraire vars ++ params)
      (flatOf ref (solvedVars numeraire vars ++ params)) (flatOf ref₂ (solvedVars numeraire vars ++ params)))
    (data data₂ : EqData ℝ) (hr : Represents (solvedVars numeraire vars) params ref data)
    (hr₂ : Represents (solvedVars numeraire vars) params ref₂ data₂) (tol : ℝ) :
    let check := fun data => checkForEquilibrium (fun x t => imbalances coords vars params numeraire eqs (x ++ t)) byName
      (solvedVars numeraire vars) params coords (eqs.flatMap (filledNames coords numeraire)) data tol
    (check data = .ok .found ∧ check data₂ = .ok .found) ∨
    (∃ l l₂, check data = .ok (.notFound l) ∧ check data₂ = .ok (.notFound l₂) ∧
      (l₂.map Prod.snd).Perm (l.map Prod.snd)) ∨
    (check data = .error .valueError ∧ check data₂ = .error .valueError) := by
  intro check
  have hsc := solvedModel (numeraire := numeraire) h.scalar
  have c1 : check data = _ := check_eq _ byName coords _ params _ ref data tol hsc.known hsc.names hv0 hp0 hs hr _ _
    (pack_flat coords ref _ _ hv0 hp0 hs.data)
  have c2 : check data₂ = _ := check_eq _ byName coords _ params _ ref₂ data₂ tol hsc.known hsc.names hv0 hp0
    hs₂ hr₂ _ _ (pack_flat coords ref₂ _ _ hv0 hp0 hs₂.data)
  rw [← flatOf_append] at c1 c2
  have perm := (C106_equations hπ hp hpick hw h _ _ hsame).1
  have hsum : sumSq (imbalances coords vars params numeraire eqs
      (flatOf ref₂ (solvedVars numeraire vars ++ params))) =
      sumSq (imbalances coords vars params numeraire eqs
        (flatOf ref (solvedVars numeraire vars ++ params))) := (perm.map _).sum_eq
  have hlen : ∀ s, (eqs.flatMap (filledNames coords numeraire)).length =
      (imbalances coords vars params numeraire eqs s).length := by
    intro s
    rw [names_choices, imbalances_choices, List.length_map, List.length_map]
  rw [c1, c2]
  unfold eqReport
  rw [hsum]
  by_cases hlt : sumSq (imbalances coords vars params numeraire eqs
      (flatOf ref (solvedVars numeraire vars ++ params))) < tol
  · exact Or.inl ⟨if_pos hlt, if_pos hlt⟩
  · rw [if_neg hlt, if_neg hlt]
    by_cases hn : eqs.flatMap (filledNames coords numeraire) = []
    · exact Or.inr (Or.inr ⟨if_pos hn, if_pos hn⟩)
    · rw [if_neg hn, if_neg hn]
      refine Or.inr (Or.inl ⟨_, _, rfl, rfl, ?_⟩)
      rw [flagged_values _ _ (hlen _) fun x => decide (tol < |x|), flagged_values _ _ (hlen _) fun x => decide (tol < |x|)]
      exact perm.filter _

/-- The hypotheses of `C106_objective`. -/
example (vn : List Str) (T u v : ℝ) : ∃ F, BuiltFns abCoords shareVars shareParams none shareEqs F ∧
    wrapForScipy (callGraphs ((solvedVars none shareVars ++ shareParams).map ModelObject.name) vn [F.loss])
        (solvedVars none shareVars) shareParams abCoords [T, v, u] [v, u] =
      wrapForScipy (callGraphs ((solvedVars none shareVars ++ shareParams).map ModelObject.name) vn [F.loss])
        (solvedVars none shareVars) shareParams abCoords [T, u, v] [u, v] := by
  have b1 : ∃ F, BuiltFns abCoords shareVars shareParams none shareEqs F :=
    ⟨_, id, id, id, id, _, _, _, shareEs "a".toList "b".toList, fun _ _ => Iff.rfl, fun _ _ => Iff.rfl,
      fun _ _ => Iff.rfl, rfl, rfl, rfl, rfl, rfl⟩
  obtain ⟨F, hF⟩ := b1
  exact ⟨F, hF, C106_objective swapAB_inj swapAB_labels share_picks share_whole hF shareAB vn _ _ _ _ rfl rfl
    (share_mirrored T u v)⟩

theorem share_state (T u v : ℝ) : ModelState abCoords (solvedVars none shareVars) shareParams
    [("T".toList, ⟨[], [T]⟩), ("X".toList, ⟨[2], [u, v]⟩), ("w".toList, ⟨[2], [u, v]⟩)] := by
  refine ⟨fun o ho => ?_, fun n hn => ?_⟩
  · have : o = { name := "T" } ∨ o = { name := "X", dims := ["i".toList] } ∨
        o = { name := "w", dims := ["i".toList] } := by
      simpa [shareVars, shareParams, solvedVars] using ho
    rcases this with rfl | rfl | rfl
    · exact ⟨⟨[], [T]⟩, rfl, rfl, rfl⟩
    · exact ⟨⟨[2], [u, v]⟩, rfl, rfl, rfl⟩
    · exact ⟨⟨[2], [u, v]⟩, rfl, rfl, rfl⟩
  · simpa [dkeys, shareVars, shareParams, solvedVars] using hn

/-- The hypotheses of `C106_check`. -/
example (T u v : ℝ) (tol : ℝ) :
    let check := fun data => checkForEquilibrium
      (fun x t => imbalances abCoords shareVars shareParams none shareEqs (x ++ t)) true
      (solvedVars none shareVars) shareParams abCoords (shareEqs.flatMap (filledNames abCoords none)) data tol
    check (.dict [("T".toList, ⟨[], [T]⟩), ("X".toList, ⟨[2], [u, v]⟩), ("w".toList, ⟨[2], [u, v]⟩)]) = .ok .found ↔
    check (.dict [("T".toList, ⟨[], [T]⟩), ("X".toList, ⟨[2], [v, u]⟩), ("w".toList, ⟨[2], [v, u]⟩)]) = .ok .found := by
  rcases C106_check swapAB_inj swapAB_labels share_picks share_whole shareAB true (by decide +kernel) (by decide +kernel) _ _
    (share_state T u v) (share_state T v u) (share_mirrored T u v)
    (.dict [("T".toList, ⟨[], [T]⟩), ("X".toList, ⟨[2], [u, v]⟩), ("w".toList, ⟨[2], [u, v]⟩)])
    (.dict [("T".toList, ⟨[], [T]⟩), ("X".toList, ⟨[2], [v, u]⟩), ("w".toList, ⟨[2], [v, u]⟩)]) rfl rfl tol
    with ⟨h1, h2⟩ | ⟨l, l₂, h1, h2, -⟩ | ⟨h1, h2⟩
  · exact iff_of_true h1 h2
  · exact iff_of_false (fun e => by cases h1.symm.trans e) (fun e => by cases h2.symm.trans e)
  · exact iff_of_false (fun e => by cases h1.symm.trans e) (fun e => by cases h2.symm.trans e)

end Verif
