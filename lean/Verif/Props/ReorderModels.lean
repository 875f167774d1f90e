import Verif.Props.Reorder
import Verif.Props.CheckSimulated

/-!
# C83: which models are the same model
-/

namespace Verif

open SymExpr

variable {coords : Coords} {vars params vars₂ params₂ : List ModelObject} {numeraire : Option ModelObject}
  {eqs eqs₂ : List IndexedEq}

/-! ### Declaring the objects and the equations in another order -/

theorem scalarNames_perm (coords : Coords) {l₁ l₂ : List ModelObject} (h : l₂.Perm l₁) :
    (scalarNames coords l₂).Perm (scalarNames coords l₁) := h.flatMap_right _

theorem SideOK.perm {objs objs₂ : List ModelObject} (ho : objs₂.Perm objs) {e : RExpr}
    (h : SideOK coords objs numeraire e) : SideOK coords objs₂ numeraire e := by
  have hm := ho.append_right numeraire.toList
  refine ⟨h.plain, ⟨fun x hx => ?_, fun v hv => ?_⟩, h.own, h.free⟩
  · obtain ⟨o, h1, h2⟩ := h.indexed.scalars x hx
    exact ⟨o, hm.mem_iff.2 h1, h2⟩
  · obtain ⟨o, h1, h2⟩ := h.indexed.arrays v hv
    exact ⟨o, hm.mem_iff.2 h1, h2⟩

theorem IndexedModel.perm (h : IndexedModel coords vars params numeraire eqs) (hv : vars₂.Perm vars)
    (hp : params₂.Perm params) (he : eqs₂.Perm eqs) :
    IndexedModel coords vars₂ params₂ numeraire eqs₂ := by
  have hvp := hv.append hp
  have hs := (solved_perm (numeraire := numeraire) hv).append hp
  exact
    { scalar :=
        { known := fun o ho => h.scalar.known o (hvp.mem_iff.1 ho)
          dims := fun o ho => h.scalar.dims o (hvp.mem_iff.1 ho)
          fresh := fun o ho => h.scalar.fresh o (hvp.mem_iff.1 ho)
          labels := fun o ho => h.scalar.labels o (hvp.mem_iff.1 ho)
          names := (hvp.map _).nodup_iff.2 h.scalar.names
          scalars := (scalarNames_perm coords hvp).nodup_iff.2 h.scalar.scalars }
      coords_nodup := h.coords_nodup
      dim_names := h.dim_names
      label_names := h.label_names
      numeraire_mem := fun o ho => hv.mem_iff.2 (h.numeraire_mem o ho)
      sides := fun q hq => ⟨(h.sides q (he.mem_iff.1 hq)).1.perm hs, (h.sides q (he.mem_iff.1 hq)).2.perm hs⟩
      clean := fun q hq => h.clean q (he.mem_iff.1 hq)
      markers := fun q hq => h.markers q (he.mem_iff.1 hq)
      names := (he.flatMap_right _).nodup_iff.2 h.names }

/-! ### Writing an equation differently -/

/-- `q'` is another way of writing `q`: it has the same free indices, and whatever the values of the objects,
the difference of its sides is the same nonzero multiple of the difference of the sides of `q`. -/
def Rewritten (coords : Coords) (numeraire : Option ModelObject) (q q' : IndexedEq) : Prop :=
  freeDims coords (numeraire.toList.map ModelObject.name) q'.lhs q'.rhs =
      freeDims coords (numeraire.toList.map ModelObject.name) q.lhs q.rhs ∧
    ∃ k : ℝ, k ≠ 0 ∧ ∀ (S : Str → ℝ) (V : Str → List SIdx → ℝ) (ρ : Str → SIdx),
      q'.lhs.value S V coords ρ - q'.rhs.value S V coords ρ =
        k * (q.lhs.value S V coords ρ - q.rhs.value S V coords ρ)

/-- The same equation. -/
theorem Rewritten.refl (q : IndexedEq) : Rewritten coords numeraire q q :=
  ⟨rfl, 1, one_ne_zero, fun _ _ _ => (one_mul _).symm⟩

/-- With another name. -/
theorem Rewritten.renamed (q : IndexedEq) (n : Template) :
    Rewritten coords numeraire q { q with name := n } :=
  ⟨rfl, 1, one_ne_zero, fun _ _ _ => (one_mul _).symm⟩

/-- With the sides swapped. -/
theorem Rewritten.swapped (q : IndexedEq) : Rewritten coords numeraire q ⟨q.name, q.rhs, q.lhs⟩ :=
  ⟨by simp only [freeDims, Bool.or_comm], -1, by norm_num, fun _ _ _ => by ring⟩

/-- With both sides multiplied by a number. -/
theorem Rewritten.scaled (q : IndexedEq) (c : ℚ) (hc : c ≠ 0) :
    Rewritten coords numeraire q ⟨q.name, .mul (.num c) q.lhs, .mul (.num c) q.rhs⟩ :=
  ⟨by simp only [freeDims, hasFree, Bool.false_or], c, by exact_mod_cast hc, fun _ _ _ => by
    simp only [RExpr.value]; ring⟩

/-- With everything on the left. -/
theorem Rewritten.moved (q : IndexedEq) :
    Rewritten coords numeraire q ⟨q.name, .add q.lhs (.mul (.num (-1)) q.rhs), .num 0⟩ :=
  ⟨by simp only [freeDims, hasFree, Bool.false_or, Bool.or_false], 1, one_ne_zero, fun _ _ _ => by
    simp only [RExpr.value]; push_cast; ring⟩

theorem Rewritten.trans {q₁ q₂ q₃ : IndexedEq} (h : Rewritten coords numeraire q₁ q₂)
    (h' : Rewritten coords numeraire q₂ q₃) : Rewritten coords numeraire q₁ q₃ := by
  obtain ⟨e, k, hk, g⟩ := h
  obtain ⟨e', k', hk', g'⟩ := h'
  exact ⟨e'.trans e, k' * k, mul_ne_zero hk' hk, fun S V ρ => by rw [g', g]; ring⟩

theorem Rewritten.demanded {q q' : IndexedEq} (h : Rewritten coords numeraire q q') :
    ∃ k : ℝ, k ≠ 0 ∧ ∀ objs flat, Verif.demanded coords (numeraire.toList.map ModelObject.name) objs flat q' =
      (Verif.demanded coords (numeraire.toList.map ModelObject.name) objs flat q).map (k * ·) := by
  obtain ⟨e, k, hk, g⟩ := h
  refine ⟨k, hk, fun objs flat => ?_⟩
  unfold Verif.demanded
  rw [e, List.map_map]
  apply List.map_congr_left
  intro ls _
  exact g _ _ _

/-- The equations of both models, up to their order, are the same or written differently. -/
def SameEquations (coords : Coords) (numeraire : Option ModelObject) (eqs eqs₂ : List IndexedEq) : Prop :=
  ∃ ordered : List IndexedEq, ordered.Perm eqs ∧ List.Forall₂ (Rewritten coords numeraire) ordered eqs₂

theorem SameEquations.of_perm (h : eqs₂.Perm eqs) : SameEquations coords numeraire eqs eqs₂ :=
  ⟨eqs₂, h, List.forall₂_same.2 fun q _ => Rewritten.refl q⟩

theorem rewritten_factors {ordered eqs₂ : List IndexedEq}
    (h : List.Forall₂ (Rewritten coords numeraire) ordered eqs₂) :
    ∃ ks : List ℝ, (∀ k ∈ ks, k ≠ 0) ∧ ks.length = (ordered.map (scalarCount coords numeraire)).sum ∧
      ∀ objs flat, eqs₂.flatMap (demanded coords (numeraire.toList.map ModelObject.name) objs flat) =
        List.zipWith (· * ·) ks
          (ordered.flatMap (demanded coords (numeraire.toList.map ModelObject.name) objs flat)) := by
  induction h with
  | nil => exact ⟨[], by simp, rfl, fun _ _ => rfl⟩
  | @cons q q' l l' hq _ ih =>
    obtain ⟨ks, h1, h2, h3⟩ := ih
    obtain ⟨k, hk, g⟩ := hq.demanded
    refine ⟨List.replicate (scalarCount coords numeraire q) k ++ ks, ?_, ?_, ?_⟩
    · intro c hc
      rcases List.mem_append.1 hc with hc | hc
      · rw [(List.mem_replicate.1 hc).2]; exact hk
      · exact h1 c hc
    · rw [List.length_append, List.length_replicate, h2, List.map_cons, List.sum_cons]
    · intro objs flat
      rw [List.flatMap_cons, List.flatMap_cons, h3, g, List.zipWith_append
        (by rw [List.length_replicate, length_demanded])]
      congr 1
      rw [← length_demanded coords numeraire objs flat q]
      generalize demanded coords (numeraire.toList.map ModelObject.name) objs flat q = v
      induction v with
      | nil => rfl
      | cons a v ihv => simp only [List.map_cons, List.length_cons, List.replicate_succ, List.zipWith_cons_cons, ihv]

theorem sameEquations_count (h : SameEquations coords numeraire eqs eqs₂) :
    (eqs₂.map (scalarCount coords numeraire)).sum = (eqs.map (scalarCount coords numeraire)).sum := by
  obtain ⟨ordered, ho, hf⟩ := h
  rw [← (ho.map _).sum_eq]
  congr 1
  clear ho
  induction hf with
  | nil => rfl
  | cons hq _ ih =>
    rw [List.map_cons, List.map_cons, ih]
    congr 1
    unfold scalarCount
    rw [hq.1]

theorem length_imbalances (coords : Coords) (vars params : List ModelObject)
    (numeraire : Option ModelObject) (eqs : List IndexedEq) (flat : List ℝ) :
    (imbalances coords vars params numeraire eqs flat).length = (eqs.map (scalarCount coords numeraire)).sum := by
  unfold imbalances
  rw [List.length_flatMap]
  congr 1
  exact List.map_congr_left fun q _ => length_demanded _ _ _ _ _

/-- The amounts by which the equations of the second model are off, in terms of those of the first. -/
theorem imbalances_same (h : IndexedModel coords vars params numeraire eqs) (hv : vars₂.Perm vars)
    (hp : params₂.Perm params) (he : SameEquations coords numeraire eqs eqs₂) :
    ∃ (ks : List ℝ) (idx : List Nat), (∀ k ∈ ks, k ≠ 0) ∧
      ks.length = (eqs.map (scalarCount coords numeraire)).sum ∧
      idx.Perm (List.range (eqs.map (scalarCount coords numeraire)).sum) ∧
      ∀ d : Dict Str (NDArray ℝ), (∀ o ∈ solvedVars numeraire vars ++ params, DataFor coords d o) →
        imbalances coords vars₂ params₂ numeraire eqs₂
            (flatOf d (solvedVars numeraire vars₂ ++ params₂)) =
          List.zipWith (· * ·) ks (pickAt 0 idx (imbalances coords vars params numeraire eqs
            (flatOf d (solvedVars numeraire vars ++ params)))) := by
  obtain ⟨ordered, ho, hf⟩ := he
  obtain ⟨ks, h1, h2, h3⟩ := rewritten_factors hf
  obtain ⟨idx, g1, g2⟩ := perm_blocks (α := ℝ) (scalarCount coords numeraire) 0 ho
  refine ⟨ks, idx, h1, by rw [h2]; exact (ho.map _).sum_eq, g1, fun d hd => ?_⟩
  unfold imbalances
  rw [h3, List.flatMap_def, List.flatMap_def,
    ← g2 _ fun q _ => length_demanded coords numeraire _ _ q]
  congr 2
  apply List.map_congr_left
  intro q hq
  exact demanded_perm h (h.perm hv hp ho) hv hp q (ho.mem_iff.1 hq) hq d hd

theorem sameEquations_recombined (h : IndexedModel coords vars params numeraire eqs)
    (hv : vars₂.Perm vars) (hp : params₂.Perm params) (he : SameEquations coords numeraire eqs eqs₂) :
    Recombined coords (solvedVars numeraire vars ++ params) (solvedVars numeraire vars₂ ++ params₂)
      (eqs.map (scalarCount coords numeraire)).sum (imbalances coords vars params numeraire eqs)
      (imbalances coords vars₂ params₂ numeraire eqs₂) := by
  obtain ⟨ks, idx, h1, h2, h3, h4⟩ := imbalances_same h hv hp he
  generalize hn : (eqs.map (scalarCount coords numeraire)).sum = n at *
  obtain ⟨σ, hσ⟩ := perm_equiv h3
  have hl : idx.length = n := by rw [h3.length_eq, List.length_range]
  refine ⟨Matrix.diagonal (toVec n ks) * (1 : Matrix (Fin n) (Fin n) ℝ).submatrix σ id, ?_, fun d hd => ?_⟩
  · rw [Matrix.det_mul, Matrix.det_diagonal, Matrix.det_permute]
    simp only [Matrix.det_one, mul_one]
    refine IsUnit.mul (isUnit_iff_ne_zero.2 (Finset.prod_ne_zero_iff.2 fun i _ => ?_)) ?_
    · unfold toVec
      rw [List.getElem?_eq_getElem (by rw [h2]; exact i.isLt), Option.getD_some]
      exact h1 _ (List.getElem_mem _)
    · exact_mod_cast (Units.isUnit (Equiv.Perm.sign σ)).map (Int.castRingHom ℝ)
  · rw [h4 d hd, toVec_zipWith _ n _ _ h2 (by rw [length_pickAt, hl]), toVec_pickAt hσ,
      ← Matrix.mulVec_mulVec]
    funext i
    rw [Matrix.mulVec_diagonal]
    congr 1
    show _ = ((1 : Matrix (Fin n) (Fin n) ℝ).submatrix σ id).mulVec _ i
    simp only [Matrix.mulVec, dotProduct, Matrix.submatrix_apply, Matrix.one_apply, id, Function.comp_apply]
    simp

theorem BuiltOn.count {es : List (SymExpr Str)} {b : EulerBackend} {dx : StepSolve ℝ}
    {env : SamEnv ℝ (List (NDArray ℝ))}
    (h : BuiltOn coords vars params numeraire eqs es b dx env) :
    es.length = (eqs.map (scalarCount coords numeraire)).sum := by
  rcases h with ⟨A, B, -, hm⟩ | ⟨-, rfl, order, hm⟩
  · obtain ⟨F, vn, hF, -⟩ := hm.system
    rw [← length_imbalances coords vars params numeraire eqs [], hF.values hm.model, List.length_map]
  · obtain ⟨uv, up, K, hK, -⟩ := hm.steps
    rw [← length_imbalances coords vars params none eqs [], (hK.values hm.model).2.2.2, List.length_map]

/-! ### The theorems -/

/-- **C83 (simulations of rewritten models).**  Two models with the same variables, parameters and equations,
in any order, where any equation may have its sides swapped, be multiplied by a number, or have its terms
moved; they may be built for different back-ends, but both with Euler or both with Runge-Kutta steps.  Let
the Euler function of the first, called as `simulate` calls it, return, and let the powers and logarithms of
both be defined at the points at which it solved for a direction.  Then `simulate` with Euler steps only returns for both, the states of the two
trajectories are the same arrays by name, and so are the final states. -/
theorem C83_rewritten {es es₂ : List (SymExpr Str)} {b b₂ : EulerBackend} {dx dx₂ : StepSolve ℝ}
    {env env₂ : SamEnv ℝ (List (NDArray ℝ))}
    (hm : BuiltOn coords vars params numeraire eqs es b dx env)
    (hm₂ : BuiltOn coords vars₂ params₂ numeraire eqs₂ es₂ b₂ dx₂ env₂) (hb : b₂.rk4 = b.rk4)
    (hsquare : es.length = totalSize coords (solvedVars numeraire vars))
    (hv : vars₂.Perm vars) (hp : params₂.Perm params) (heqs : SameEquations coords numeraire eqs eqs₂)
    (fl : SimFlags) (add mul : NDArray ℝ → NDArray ℝ → NDArray ℝ) (h : Heap (NDArray ℝ)) (c : SimCall ℝ)
    (hr : RequestOK coords (solvedVars numeraire vars) params add mul h c)
    (heul : c.useEuler = true) (hopt : c.useOptimizer = false) (h1 : 1 ≤ c.nIterEuler)
    (outs : List (NDArray ℝ))
    (hrun : env.euler (derefDict h c.initial) (wantedFlat add mul h c params) c.nIterEuler = .ok outs)
    (hreg : ∀ t, t < c.nIterEuler → ∀ s ∈ b.points dx (totalSize coords (solvedVars numeraire vars))
        (b.stateAfter (solvedVars numeraire vars) params (derefDict h c.initial) outs t)
        (stepVec c.nIterEuler (wantedFlat add mul h c params) (initialFlat h c params)),
      ∀ e ∈ es ++ es₂, Regular (flatPoint (scalarNames coords (solvedVars numeraire vars ++ params)) s) e) :
    ∃ e e₂ outs₂,
      simulateCompute (simEnvOf env (fun _ => false) fl add mul) h c = .ok ⟨some e, none, none, false⟩ ∧
      simulateCompute (simEnvOf env₂ (fun _ => false) fl add mul) h c = .ok ⟨some e₂, none, none, false⟩ ∧
      env₂.euler (derefDict h c.initial) (wantedFlat add mul h c params₂) c.nIterEuler = .ok outs₂ ∧
      (∀ t, t ≤ c.nIterEuler → SameArrays coords (solvedVars numeraire vars ++ params)
        (solvedVars numeraire vars₂ ++ params₂)
        (b.stateAfter (solvedVars numeraire vars) params (derefDict h c.initial) outs t)
        (b₂.stateAfter (solvedVars numeraire vars₂) params₂ (derefDict h c.initial) outs₂ t)) ∧
      ∀ o ∈ solvedVars numeraire vars ++ params, DataFor coords e.start o ∧
        dget e₂.start o.name = dget e.start o.name := by
  have hmod := (hm.stepsFrom hsquare).1
  have hsame : es₂.length = es.length := by
    rw [hm.count, hm₂.count]
    exact sameEquations_count heqs
  refine C83_simulate hm hm₂ hb hsquare hsame hv hp ?_ fl add mul h c hr heul hopt h1 outs hrun hreg
  rw [hm.count]
  exact sameEquations_recombined hmod hv hp heqs

/-- **C83 (solutions).**  Named arrays satisfy all equations of the one model exactly when they satisfy all
equations of the other. -/
theorem C83_solutions (h : IndexedModel coords vars params numeraire eqs) (hv : vars₂.Perm vars)
    (hp : params₂.Perm params) (he : SameEquations coords numeraire eqs eqs₂)
    (d : Dict Str (NDArray ℝ)) (hd : ∀ o ∈ solvedVars numeraire vars ++ params, DataFor coords d o) :
    (∀ r ∈ imbalances coords vars₂ params₂ numeraire eqs₂
        (flatOf d (solvedVars numeraire vars₂ ++ params₂)), r = 0) ↔
      ∀ r ∈ imbalances coords vars params numeraire eqs (flatOf d (solvedVars numeraire vars ++ params)),
        r = 0 := by
  obtain ⟨ordered, ho, hf⟩ := he
  have hper := fun q hq => demanded_perm h (h.perm hv hp ho) hv hp q (ho.mem_iff.1 hq) hq d hd
  unfold imbalances
  simp only [List.mem_flatMap]
  constructor
  · rintro H r ⟨q, hq, hr⟩
    have hq' := ho.mem_iff.2 hq
    obtain ⟨i, hi, rfl⟩ := List.getElem_of_mem hq'
    have hi₂ : i < eqs₂.length := by rw [← hf.length_eq]; exact hi
    obtain ⟨k, hk, g⟩ := (hf.get hi hi₂).demanded
    rw [← hper _ hq'] at hr
    have := H (k * r) ⟨_, List.getElem_mem hi₂, by rw [← List.get_eq_getElem (i := ⟨i, hi₂⟩), g]; exact List.mem_map_of_mem hr⟩
    exact (mul_eq_zero.1 this).resolve_left hk
  · rintro H r ⟨q, hq, hr⟩
    obtain ⟨i, hi₂, rfl⟩ := List.getElem_of_mem hq
    have hi : i < ordered.length := by rw [hf.length_eq]; exact hi₂
    obtain ⟨k, hk, g⟩ := (hf.get hi hi₂).demanded
    rw [← List.get_eq_getElem (i := ⟨i, hi₂⟩), g, List.mem_map] at hr
    obtain ⟨s, hs, rfl⟩ := hr
    have hq' : ordered[i] ∈ ordered := List.getElem_mem hi
    have := H s ⟨_, ho.mem_iff.1 hq', by rw [← hper _ hq']; exact hs⟩
    rw [this, mul_zero]

/-- The amounts by which the equations are off, together with their names, do not depend on any order. -/
theorem reports_perm (h : IndexedModel coords vars params numeraire eqs) (hv : vars₂.Perm vars)
    (hp : params₂.Perm params) (he : eqs₂.Perm eqs)
    (d : Dict Str (NDArray ℝ)) (hd : ∀ o ∈ solvedVars numeraire vars ++ params, DataFor coords d o) :
    (imbalances coords vars₂ params₂ numeraire eqs₂
        (flatOf d (solvedVars numeraire vars₂ ++ params₂))).Perm
      (imbalances coords vars params numeraire eqs (flatOf d (solvedVars numeraire vars ++ params))) ∧
    ((eqs₂.flatMap (filledNames coords numeraire)).zip (imbalances coords vars₂ params₂ numeraire eqs₂
        (flatOf d (solvedVars numeraire vars₂ ++ params₂)))).Perm
      ((eqs.flatMap (filledNames coords numeraire)).zip
        (imbalances coords vars params numeraire eqs
          (flatOf d (solvedVars numeraire vars ++ params)))) := by
  have hper := fun q hq => demanded_perm h (h.perm hv hp he) hv hp q (he.mem_iff.1 hq) hq d hd
  have e1 : imbalances coords vars₂ params₂ numeraire eqs₂
      (flatOf d (solvedVars numeraire vars₂ ++ params₂)) =
      eqs₂.flatMap (demanded coords (numeraire.toList.map ModelObject.name)
        (solvedVars numeraire vars ++ params) (flatOf d (solvedVars numeraire vars ++ params))) := by
    unfold imbalances
    rw [List.flatMap_def, List.flatMap_def]
    congr 1
    exact List.map_congr_left hper
  have zips : ∀ l : List IndexedEq, (l.flatMap (filledNames coords numeraire)).zip
      (l.flatMap (demanded coords (numeraire.toList.map ModelObject.name)
        (solvedVars numeraire vars ++ params) (flatOf d (solvedVars numeraire vars ++ params)))) =
      l.flatMap fun q => (filledNames coords numeraire q).zip
        (demanded coords (numeraire.toList.map ModelObject.name)
        (solvedVars numeraire vars ++ params) (flatOf d (solvedVars numeraire vars ++ params)) q) := by
    intro l
    induction l with
    | nil => rfl
    | cons q l ih =>
      rw [List.flatMap_cons, List.flatMap_cons, List.flatMap_cons, ← ih, List.zip_append]
      rw [length_demanded]
      simp [filledNames, scalarCount]
  rw [e1]
  refine ⟨he.flatMap_right _, ?_⟩
  unfold imbalances
  rw [zips, zips]
  exact he.flatMap_right _

/-- **C83 (objective).**  The objective that the minimizer of the default back-end is given has the same
value, at the same named arrays, in whatever order the model was declared. -/
theorem C83_objective {F F₂ : SympyTensorFns} (hF : BuiltFns coords vars params numeraire eqs F)
    (hF₂ : BuiltFns coords vars₂ params₂ numeraire eqs₂ F₂)
    (h : IndexedModel coords vars params numeraire eqs) (hv : vars₂.Perm vars)
    (hp : params₂.Perm params) (he : eqs₂.Perm eqs) (vn vn₂ : List Str)
    (d : Dict Str (NDArray ℝ)) (hd : ∀ o ∈ solvedVars numeraire vars ++ params, DataFor coords d o) :
    wrapForScipy (callGraphs ((solvedVars numeraire vars₂ ++ params₂).map ModelObject.name) vn₂ [F₂.loss])
        (solvedVars numeraire vars₂) params₂ coords (flatOf d (solvedVars numeraire vars₂))
        (flatOf d params₂) =
      wrapForScipy (callGraphs ((solvedVars numeraire vars ++ params).map ModelObject.name) vn [F.loss])
        (solvedVars numeraire vars) params coords (flatOf d (solvedVars numeraire vars))
        (flatOf d params) := by
  have hs := solved_perm (numeraire := numeraire) hv
  have len : ∀ objs : List ModelObject, (∀ o ∈ objs, o ∈ solvedVars numeraire vars ++ params) →
      (flatOf d objs).length = totalSize coords objs := fun objs ho =>
    (flatOf_spec coords d objs fun o hm => hd o (ho o hm)).1
  rw [hF.loss h vn _ _ (len _ fun o ho => by simp [ho]) (len _ fun o ho => by simp [ho]),
    hF₂.loss (h.perm hv hp he) vn₂ _ _ (len _ fun o ho => by simp [hs.mem_iff.1 ho])
      (len _ fun o ho => by simp [hp.mem_iff.1 ho]), ← flatOf_append, ← flatOf_append]
  have := (((reports_perm h hv hp he d hd).1.map (· ^ 2)).sum_eq)
  rw [this]

/-- **C83 (equilibrium check).**  `check_for_equilibrium` gives the same verdict in whatever order the model
was declared, and flags the same equations with the same errors. -/
theorem C83_check (h : IndexedModel coords vars params numeraire eqs) (hv : vars₂.Perm vars)
    (hp : params₂.Perm params) (he : eqs₂.Perm eqs) (byName byName₂ : Bool)
    (hv0 : solvedVars numeraire vars ≠ []) (hp0 : params ≠ [])
    (ref : Dict Str (NDArray ℝ)) (hs : ModelState coords (solvedVars numeraire vars) params ref)
    (data data₂ : EqData ℝ) (hr : Represents (solvedVars numeraire vars) params ref data)
    (hr₂ : Represents (solvedVars numeraire vars₂) params₂ ref data₂) (tol : ℝ) :
    let check := checkForEquilibrium (fun x t => imbalances coords vars params numeraire eqs (x ++ t)) byName
      (solvedVars numeraire vars) params coords (eqs.flatMap (filledNames coords numeraire)) data tol
    let check₂ := checkForEquilibrium (fun x t => imbalances coords vars₂ params₂ numeraire eqs₂ (x ++ t))
      byName₂ (solvedVars numeraire vars₂) params₂ coords (eqs₂.flatMap (filledNames coords numeraire)) data₂
      tol
    (check = .ok .found ∧ check₂ = .ok .found) ∨
    (∃ l l₂, check = .ok (.notFound l) ∧ check₂ = .ok (.notFound l₂) ∧ l₂.Perm l) ∨
    (check = .error .valueError ∧ check₂ = .error .valueError) := by
  intro check check₂
  have hsv := solved_perm (numeraire := numeraire) hv
  have hall := hsv.append hp
  have hsc := solvedModel (numeraire := numeraire) h.scalar
  have hsc₂ := solvedModel (numeraire := numeraire) (h.perm hv hp he).scalar
  have hs₂ : ModelState coords (solvedVars numeraire vars₂) params₂ ref :=
    ⟨fun o ho => hs.data o (hall.mem_iff.1 ho), fun n hn => ((hall.map _).mem_iff).2 (hs.only n hn)⟩
  have hv0₂ : solvedVars numeraire vars₂ ≠ [] := fun e => hv0 (by rw [e] at hsv; exact hsv.symm.eq_nil)
  have hp0₂ : params₂ ≠ [] := fun e => hp0 (by rw [e] at hp; exact hp.symm.eq_nil)
  have c1 : check = _ := check_eq _ byName coords _ params _ ref data tol hsc.known hsc.names hv0 hp0 hs hr _ _
    (pack_flat coords ref _ _ hv0 hp0 hs.data)
  have c2 : check₂ = _ := check_eq _ byName₂ coords _ params₂ _ ref data₂ tol hsc₂.known hsc₂.names hv0₂ hp0₂
    hs₂ hr₂ _ _ (pack_flat coords ref _ _ hv0₂ hp0₂ hs₂.data)
  rw [← flatOf_append] at c1 c2
  obtain ⟨p1, p2⟩ := reports_perm h hv hp he ref hs.data
  have hsum : sumSq (imbalances coords vars₂ params₂ numeraire eqs₂
      (flatOf ref (solvedVars numeraire vars₂ ++ params₂))) =
      sumSq (imbalances coords vars params numeraire eqs
        (flatOf ref (solvedVars numeraire vars ++ params))) := (p1.map _).sum_eq
  have hnames : eqs₂.flatMap (filledNames coords numeraire) = [] ↔
      eqs.flatMap (filledNames coords numeraire) = [] := by
    have := (he.flatMap_right (filledNames coords numeraire)).length_eq
    rw [← List.length_eq_zero_iff, ← List.length_eq_zero_iff, this]
  rw [c1, c2]
  unfold eqReport
  rw [hsum]
  by_cases hlt : sumSq (imbalances coords vars params numeraire eqs
      (flatOf ref (solvedVars numeraire vars ++ params))) < tol
  · exact Or.inl ⟨if_pos hlt, if_pos hlt⟩
  · rw [if_neg hlt, if_neg hlt]
    by_cases hn : eqs.flatMap (filledNames coords numeraire) = []
    · exact Or.inr (Or.inr ⟨if_pos hn, if_pos (hnames.2 hn)⟩)
    · rw [if_neg hn, if_neg fun e => hn (hnames.1 e)]
      exact Or.inr (Or.inl ⟨_, _, rfl, rfl, p2.filter _⟩)

/-! ### The theorems applied: `x + y = p`, `x = y`, on the numba back-end -/

def duoVars : List ModelObject := [{ name := "x" }, { name := "y" }]
def duoVars₂ : List ModelObject := [{ name := "y" }, { name := "x" }]

def duoEqs : List IndexedEq :=
  [⟨[.lit "total".toList], .add (.sym "x".toList) (.sym "y".toList), .sym "p".toList⟩,
   ⟨[.lit "even".toList], .sym "x".toList, .sym "y".toList⟩]

/-- The equations in the other order, the first one multiplied by 3 with its sides swapped. -/
def duoEqs₂ : List IndexedEq :=
  [⟨[.lit "even".toList], .mul (.num 3) (.sym "y".toList), .mul (.num 3) (.sym "x".toList)⟩,
   ⟨[.lit "total".toList], .add (.sym "x".toList) (.sym "y".toList), .sym "p".toList⟩]

def duoEs : List (SymExpr Str) :=
  [.add (.add (.sym "x".toList) (.sym "y".toList)) (.mul (.num (-1)) (.sym "p".toList)),
   .add (.sym "x".toList) (.mul (.num (-1)) (.sym "y".toList))]

def duoEs₂ : List (SymExpr Str) :=
  [.add (.mul (.num 3) (.sym "y".toList)) (.mul (.num (-1)) (.mul (.num 3) (.sym "x".toList))),
   .add (.add (.sym "x".toList) (.sym "y".toList)) (.mul (.num (-1)) (.sym "p".toList))]

theorem duo_same : SameEquations [] none duoEqs duoEqs₂ :=
  ⟨[⟨[.lit "even".toList], .sym "x".toList, .sym "y".toList⟩,
    ⟨[.lit "total".toList], .add (.sym "x".toList) (.sym "y".toList), .sym "p".toList⟩],
    List.Perm.swap _ _ _,
    .cons ((Rewritten.swapped _).trans (Rewritten.scaled _ 3 (by norm_num))) (.cons (Rewritten.refl _) .nil)⟩

theorem duo_side (e : RExpr) (h1 : AllPlain [] e) (h2 : e.indexeds = [])
    (h3 : ∀ x ∈ e.syms, x = "x".toList ∨ x = "y".toList ∨ x = "p".toList) :
    SideOK [] (solvedVars none duoVars ++ sqParams) none e := by
  refine ⟨h1, ⟨fun x hx => ?_, fun v hv => by rw [h2] at hv; cases hv⟩, fun o ho => (nomatch ho), fun o ho => (nomatch ho)⟩
  rcases h3 x hx with rfl | rfl | rfl <;> decide +kernel

theorem duoModel : IndexedModel [] duoVars sqParams none duoEqs where
  scalar :=
    { known := by decide +kernel
      dims := by decide +kernel
      fresh := by decide +kernel
      labels := by decide +kernel
      names := by decide +kernel
      scalars := by decide +kernel }
  coords_nodup := by decide +kernel
  dim_names := by decide +kernel
  label_names := by intro i ls h; cases h
  numeraire_mem := by rintro o ⟨⟩
  sides := by
    intro q hq
    simp only [duoEqs, List.mem_cons, List.not_mem_nil, or_false] at hq
    rcases hq with rfl | rfl
    · exact ⟨duo_side _ ⟨trivial, trivial⟩ rfl (by simp [RExpr.syms]), duo_side _ trivial rfl (by simp [RExpr.syms])⟩
    · exact ⟨duo_side _ trivial rfl (by simp [RExpr.syms]), duo_side _ trivial rfl (by simp [RExpr.syms])⟩
  clean := by
    intro q hq
    simp only [duoEqs, List.mem_cons, List.not_mem_nil, or_false] at hq
    rcases hq with rfl | rfl <;> decide +kernel
  markers := by decide +kernel
  names := by decide +kernel

theorem duoModel₂ : IndexedModel [] duoVars₂ sqParams none duoEqs₂ where
  scalar :=
    { known := by decide +kernel
      dims := by decide +kernel
      fresh := by decide +kernel
      labels := by decide +kernel
      names := by decide +kernel
      scalars := by decide +kernel }
  coords_nodup := by decide +kernel
  dim_names := by decide +kernel
  label_names := by intro i ls h; cases h
  numeraire_mem := by rintro o ⟨⟩
  sides := by
    have hper : (solvedVars none duoVars₂ ++ sqParams).Perm (solvedVars none duoVars ++ sqParams) := by
      decide +kernel
    intro q hq
    simp only [duoEqs₂, List.mem_cons, List.not_mem_nil, or_false] at hq
    rcases hq with rfl | rfl
    · exact ⟨SideOK.perm hper (duo_side _ ⟨trivial, trivial⟩ rfl (by simp [RExpr.syms])),
        SideOK.perm hper (duo_side _ ⟨trivial, trivial⟩ rfl (by simp [RExpr.syms]))⟩
    · exact ⟨SideOK.perm hper (duo_side _ ⟨trivial, trivial⟩ rfl (by simp [RExpr.syms])),
        SideOK.perm hper (duo_side _ trivial rfl (by simp [RExpr.syms]))⟩
  clean := by
    intro q hq
    simp only [duoEqs₂, List.mem_cons, List.not_mem_nil, or_false] at hq
    rcases hq with rfl | rfl <;> decide +kernel
  markers := by decide +kernel
  names := by decide +kernel

theorem duoNumba : ∃ uv up K, BuiltNumba [] duoVars sqParams duoEqs duoEs uv up K ∧
    dkeys uv = ["x".toList, "y".toList] ∧ dkeys up = ["p".toList] :=
  ⟨_, _, _, ⟨id, id, id, id, _, fun _ _ => Iff.rfl, fun _ _ => Iff.rfl, fun _ _ => Iff.rfl, rfl, rfl,
    rfl, rfl, rfl⟩, rfl, rfl⟩

theorem duoNumba₂ : ∃ uv up K, BuiltNumba [] duoVars₂ sqParams duoEqs₂ duoEs₂ uv up K ∧
    dkeys uv = ["y".toList, "x".toList] ∧ dkeys up = ["p".toList] :=
  ⟨_, _, _, ⟨id, id, id, id, _, fun _ _ => Iff.rfl, fun _ _ => Iff.rfl, fun _ _ => Iff.rfl, rfl, rfl,
    rfl, rfl, rfl⟩, rfl, rfl⟩

/-- A model on the numba back-end without an optimizer. -/
noncomputable def duoEnv (vars : List ModelObject) (es : List (SymExpr Str)) (uv up : Dict Str ModelObject)
    (K : NumbaFns) : SamEnv ℝ (List (NDArray ℝ)) :=
  ⟨vars, sqParams, [], ["euler".toList],
    .flat (callNumba (dkeys uv) (dkeys up) K.system),
    .flat fun x theta => (callNumba (dkeys uv) (dkeys up) [K.loss] x theta).map fun l => l.headD 0,
    [], fun _ _ _ _ => .error .valueError, fun _ _ _ _ => .error .valueError, fun x0 theta n => runEuler .numba
      (numbaDX ["p".toList, "x".toList, "y".toList] (dkeys uv) (dkeys up) es) vars sqParams [] theta n x0⟩

theorem duoEulerNames : EulerNames (scalarNames [] (duoVars ++ sqParams)) where
  nodup := by decide +kernel
  word := by decide +kernel
  noZero := by
    intro a ha b hb
    revert a b
    decide +kernel
  noExog := by decide +kernel
  noEndog := by decide +kernel
  noNumpy := by decide +kernel

theorem duoEulerNames₂ : EulerNames (scalarNames [] (duoVars₂ ++ sqParams)) where
  nodup := by decide +kernel
  word := by decide +kernel
  noZero := by
    intro a ha b hb
    revert a b
    decide +kernel
  noExog := by decide +kernel
  noEndog := by decide +kernel
  noNumpy := by decide +kernel

theorem duoEuler : EulerModel [] duoVars sqParams where
  labelled := ⟨by decide +kernel, by decide +kernel, by decide +kernel, by decide +kernel⟩
  nonempty := by decide +kernel
  someVar := by decide +kernel
  someParam := by decide +kernel
  keywords := by decide +kernel

theorem duoEuler₂ : EulerModel [] duoVars₂ sqParams where
  labelled := ⟨by decide +kernel, by decide +kernel, by decide +kernel, by decide +kernel⟩
  nonempty := by decide +kernel
  someVar := by decide +kernel
  someParam := by decide +kernel
  keywords := by decide +kernel

/-- `x = y = 1`, `p = 2`; `p` becomes 6. -/
def duoCall : SimCall ℝ where
  initial := [("x".toList, .num ⟨[], [1]⟩), ("y".toList, .num ⟨[], [1]⟩), ("p".toList, .num ⟨[], [2]⟩)]
  finalValues := some [("p".toList, .num ⟨[], [6]⟩)]
  useOptimizer := false

theorem duoRequest (add mul : NDArray ℝ → NDArray ℝ → NDArray ℝ) :
    RequestOK [] (solvedVars none duoVars) sqParams add mul [] duoCall where
  nodup := by simp [duoCall, dkeys]
  exact := by intro n; simp [duoCall, dkeys, duoVars, sqParams, solvedVars]
  distinct := by simp [duoCall, dkeys]
  some_change := by simp [duoCall, dkeys]
  known := by simp [duoCall, dkeys]
  valid := by simp [duoCall, ValidRefs, refsOf]
  unshared := by simp [duoCall, refsOf]
  shaped := by
    intro o ho
    have : o = { name := "x" } ∨ o = { name := "y" } ∨ o = { name := "p" } := by
      simpa [duoVars, sqParams, solvedVars] using ho
    rcases this with rfl | rfl | rfl
    · exact ⟨⟨[], [1]⟩, rfl, rfl, rfl⟩
    · exact ⟨⟨[], [1]⟩, rfl, rfl, rfl⟩
    · exact ⟨⟨[], [2]⟩, rfl, rfl, rfl⟩
  sized := by
    intro o ho
    have : o = { name := "p" } := by simpa [sqParams] using ho
    subst this
    exact ⟨⟨[], [6]⟩, rfl, rfl⟩

theorem duoRegular (v : Str → ℝ) : ∀ e ∈ duoEs ++ duoEs₂, Regular v e := by
  intro e he
  simp only [duoEs, duoEs₂, List.cons_append, List.nil_append, List.mem_cons, List.not_mem_nil, or_false] at he
  rcases he with rfl | rfl | rfl | rfl <;> simp [Regular]

theorem duo_regular_matrix (x : Fin 2 → ℝ) (t : Fin 1 → ℝ) :
    IsUnit (symA 2 1 ["x".toList, "y".toList] ["p".toList] duoEs x t).det := by
  rw [Matrix.det_fin_two]
  simp [symA, duoEs, diff, SymExpr.eval]
  norm_num

/-- The two models, simulated: same trajectories. -/
example (fl : SimFlags) (add mul : NDArray ℝ → NDArray ℝ → NDArray ℝ) :
    ∃ env env₂ outs outs₂ e e₂,
      simulateCompute (simEnvOf env (fun _ => false) fl add mul) [] duoCall =
        .ok ⟨some e, none, none, false⟩ ∧
      simulateCompute (simEnvOf env₂ (fun _ => false) fl add mul) [] duoCall =
        .ok ⟨some e₂, none, none, false⟩ ∧
      env.variables = duoVars ∧ env₂.variables = duoVars₂ ∧
      (∀ t, t ≤ 10000 → SameArrays [] (duoVars ++ sqParams) (duoVars₂ ++ sqParams)
        (EulerBackend.numba.stateAfter duoVars sqParams (derefDict [] duoCall.initial) outs t)
        (EulerBackend.numba.stateAfter duoVars₂ sqParams (derefDict [] duoCall.initial) outs₂ t)) ∧
      dget e₂.start "x".toList = dget e.start "x".toList := by
  obtain ⟨uv, up, K, hK, k1, k2⟩ := duoNumba
  obtain ⟨uv₂, up₂, K₂, hK₂, k3, k4⟩ := duoNumba₂
  have hN : scalarNames [] (duoVars ++ sqParams) = ["x".toList, "y".toList] ++ ["p".toList] := by decide +kernel
  have hN₂ : scalarNames [] (duoVars₂ ++ sqParams) = ["y".toList, "x".toList] ++ ["p".toList] := by
    decide +kernel
  have hm : BuiltOn [] duoVars sqParams none duoEqs duoEs .numba (fun _ _ _ => .ok [])
      (duoEnv duoVars duoEs uv up K) := by
    refine Or.inr ⟨rfl, rfl, ["p".toList, "x".toList, "y".toList], duoModel, duoEulerNames, duoEuler, ?_,
      rfl, rfl, rfl, List.cons_ne_nil _ _, uv, up, K, hK, rfl⟩
    intro a
    rw [hN]
    simp only [List.cons_append, List.nil_append, List.mem_cons, List.not_mem_nil, or_false]
    tauto
  have hm₂ : BuiltOn [] duoVars₂ sqParams none duoEqs₂ duoEs₂ .numba (fun _ _ _ => .ok [])
      (duoEnv duoVars₂ duoEs₂ uv₂ up₂ K₂) := by
    refine Or.inr ⟨rfl, rfl, ["p".toList, "x".toList, "y".toList], duoModel₂, duoEulerNames₂, duoEuler₂, ?_,
      rfl, rfl, rfl, List.cons_ne_nil _ _, uv₂, up₂, K₂, hK₂, rfl⟩
    intro a
    rw [hN₂]
    simp only [List.cons_append, List.nil_append, List.mem_cons, List.not_mem_nil, or_false]
    tauto
  have hcall : EulerCall [] duoVars sqParams (derefDict [] duoCall.initial)
      (wantedFlat add mul [] duoCall sqParams) := by
    obtain ⟨-, dx, A, B, -, hs⟩ := hm.stepsFrom rfl
    have hl := hs.lenOK
    exact (euler_setup .numba dx _ hs.steps hs.euler hl hs.coords_eq hs.variables_eq hs.parameters_eq
      hs.compiled fl add mul [] duoCall (duoRequest add mul) rfl rfl).1
  have hrun : ∃ outs, (duoEnv duoVars duoEs uv up K).euler (derefDict [] duoCall.initial)
      (wantedFlat add mul [] duoCall sqParams) duoCall.nIterEuler = .ok outs := by
    show ∃ outs, runEuler .numba (numbaDX _ (dkeys uv) (dkeys up) duoEs) duoVars sqParams [] _ _ _ = _
    rw [k1, k2, runEuler_numbaDX [] duoVars sqParams _ _ hcall _ _ _ duoEs (hN ▸ duoEulerNames)
      (by
        intro a
        simp only [List.cons_append, List.nil_append, List.mem_cons, List.not_mem_nil, or_false]
        tauto)
      (by
        intro e he a ha
        have := (hK.values duoModel).1 e he a ((mem_atoms_iff a e).2 ha)
        rwa [hN] at this) rfl rfl rfl]
    cases hc : runEuler .numba (vecJac (nx := totalSize [] duoVars) (np := totalSize [] sqParams)
        (symA _ _ ["x".toList, "y".toList] ["p".toList] duoEs)
        (symB _ _ ["x".toList, "y".toList] ["p".toList] duoEs)).solve duoVars sqParams []
        (wantedFlat add mul [] duoCall sqParams) duoCall.nIterEuler (derefDict [] duoCall.initial) with
    | ok outs => exact ⟨outs, rfl⟩
    | error e =>
      obtain ⟨-, x, t, -, -, hs⟩ := C20_fails_only_if_singular _ _ _ _ _ _ _ _ hcall e hc
      exact absurd (duo_regular_matrix _ _) hs
  obtain ⟨outs, hrun⟩ := hrun
  obtain ⟨e, e₂, outs₂, g1, g2, -, g4, g5⟩ := C83_rewritten hm hm₂ rfl rfl (List.Perm.swap _ _ _)
    (List.Perm.refl _) duo_same fl add mul [] duoCall (duoRequest add mul) rfl rfl (by decide) outs hrun
    (fun _ _ _ _ => duoRegular _)
  exact ⟨_, _, outs, outs₂, e, e₂, g1, g2, rfl, rfl, g4, (g5 { name := "x" } (by decide +kernel)).2⟩

/-- The hypotheses of `C83_solutions`. -/
example (d : Dict Str (NDArray ℝ)) (hd : ∀ o ∈ solvedVars none duoVars ++ sqParams, DataFor [] d o) :
    (∀ r ∈ imbalances [] duoVars₂ sqParams none duoEqs₂ (flatOf d (solvedVars none duoVars₂ ++ sqParams)),
      r = 0) ↔ ∀ r ∈ imbalances [] duoVars sqParams none duoEqs
        (flatOf d (solvedVars none duoVars ++ sqParams)), r = 0 :=
  C83_solutions duoModel (List.Perm.swap _ _ _) (List.Perm.refl _) duo_same d hd

/-- A state of the example. -/
def duoState (x y p : ℝ) : Dict Str (NDArray ℝ) :=
  [("x".toList, ⟨[], [x]⟩), ("y".toList, ⟨[], [y]⟩), ("p".toList, ⟨[], [p]⟩)]

theorem duoState_ok (x y p : ℝ) : ModelState [] (solvedVars none duoVars) sqParams (duoState x y p) where
  data := by
    intro o ho
    have : o = { name := "x" } ∨ o = { name := "y" } ∨ o = { name := "p" } := by
      simpa [duoVars, sqParams, solvedVars] using ho
    rcases this with rfl | rfl | rfl
    · exact ⟨⟨[], [x]⟩, rfl, rfl, rfl⟩
    · exact ⟨⟨[], [y]⟩, rfl, rfl, rfl⟩
    · exact ⟨⟨[], [p]⟩, rfl, rfl, rfl⟩
  only := by
    intro n hn
    simpa [duoState, dkeys, duoVars, sqParams, solvedVars] using hn

/-- The hypotheses of `C83_check`, with the objects and the equations of the example in the other order. -/
example (x y p tol : ℝ) :
    let check := checkForEquilibrium (fun v t => imbalances [] duoVars sqParams none duoEqs (v ++ t)) true
      (solvedVars none duoVars) sqParams [] (duoEqs.flatMap (filledNames [] none)) (.dict (duoState x y p)) tol
    let check₂ := checkForEquilibrium (fun v t => imbalances [] duoVars₂ sqParams none duoEqs.reverse (v ++ t))
      false (solvedVars none duoVars₂) sqParams [] (duoEqs.reverse.flatMap (filledNames [] none))
      (.dict (duoState x y p)) tol
    (check = .ok .found ∧ check₂ = .ok .found) ∨
    (∃ l l₂, check = .ok (.notFound l) ∧ check₂ = .ok (.notFound l₂) ∧ l₂.Perm l) ∨
    (check = .error .valueError ∧ check₂ = .error .valueError) :=
  C83_check duoModel (List.Perm.swap _ _ _) (List.Perm.refl _) (List.reverse_perm _) true false
    (List.cons_ne_nil _ _) (List.cons_ne_nil _ _) _ (duoState_ok x y p) (.dict (duoState x y p))
    (.dict (duoState x y p)) rfl rfl tol

/-- The hypotheses of `C83_objective`. -/
example : ∃ F F₂, BuiltFns [] duoVars sqParams none duoEqs F ∧
    BuiltFns [] duoVars₂ sqParams none duoEqs.reverse F₂ :=
  ⟨_, _, ⟨id, id, id, id, _, _, _, _, fun _ _ => Iff.rfl, fun _ _ => Iff.rfl, fun _ _ => Iff.rfl, rfl, rfl,
    rfl, rfl, rfl⟩, ⟨id, id, id, id, _, _, _, _, fun _ _ => Iff.rfl, fun _ _ => Iff.rfl, fun _ _ => Iff.rfl,
    rfl, rfl, rfl, rfl, rfl⟩⟩

/-! ### What multiplying an equation does change -/

/-- The second equation of the example multiplied by 1000. -/
def duoScaled : List IndexedEq :=
  [⟨[.lit "total".toList], .add (.sym "x".toList) (.sym "y".toList), .sym "p".toList⟩,
   ⟨[.lit "even".toList], .mul (.num 1000) (.sym "x".toList), .mul (.num 1000) (.sym "y".toList)⟩]

/-- **The verdict of the equilibrium check depends on how the equations are scaled**: the state `x = 1.001`,
`y = 1`, `p = 2.001` passes with the tolerance `0.0001`; with the equation `x = y` multiplied by 1000 it is
reported not to be an equilibrium, although the equations have the same solutions. -/
theorem C83_scaled_check_counterexample :
    SameEquations [] none duoEqs duoScaled ∧
    checkForEquilibrium (fun v t => imbalances [] duoVars sqParams none duoEqs (v ++ t)) true
      (solvedVars none duoVars) sqParams [] (duoEqs.flatMap (filledNames [] none))
      (.dict (duoState 1.001 1 2.001)) 0.0001 = .ok .found ∧
    ∃ l, checkForEquilibrium (fun v t => imbalances [] duoVars sqParams none duoScaled (v ++ t)) true
      (solvedVars none duoVars) sqParams [] (duoScaled.flatMap (filledNames [] none))
      (.dict (duoState 1.001 1 2.001)) 0.0001 = .ok (.notFound l) := by
  have hsc := solvedModel (numeraire := none) duoModel.scalar
  have hst := duoState_ok 1.001 1 2.001
  have hpk := pack_flat [] (duoState 1.001 1 2.001) (solvedVars none duoVars) sqParams (List.cons_ne_nil _ _)
    (List.cons_ne_nil _ _) hst.data
  refine ⟨⟨duoEqs, List.Perm.refl _, .cons (Rewritten.refl _) (.cons (Rewritten.scaled _ 1000 (by norm_num))
    .nil)⟩, ?_, ?_⟩
  · rw [check_eq _ true [] _ sqParams _ _ (.dict (duoState 1.001 1 2.001)) _ hsc.known hsc.names (List.cons_ne_nil _ _)
      (List.cons_ne_nil _ _) hst rfl _ _ hpk]
    have : imbalances [] duoVars sqParams none duoEqs (flatOf (duoState 1.001 1 2.001) (solvedVars none duoVars) ++
        flatOf (duoState 1.001 1 2.001) sqParams) = [(1.001 + 1 - 2.001 : ℝ), 1.001 - 1] := rfl
    rw [this]
    unfold eqReport
    rw [if_pos]
    simp only [sumSq, List.map_cons, List.map_nil, List.sum_cons, List.sum_nil]
    norm_num
  · rw [check_eq _ true [] _ sqParams _ _ (.dict (duoState 1.001 1 2.001)) _ hsc.known hsc.names (List.cons_ne_nil _ _)
      (List.cons_ne_nil _ _) hst rfl _ _ hpk]
    have : imbalances [] duoVars sqParams none duoScaled (flatOf (duoState 1.001 1 2.001) (solvedVars none duoVars) ++
        flatOf (duoState 1.001 1 2.001) sqParams) =
        [(1.001 + 1 - 2.001 : ℝ), ((1000 : ℚ) : ℝ) * 1.001 - ((1000 : ℚ) : ℝ) * 1] := rfl
    rw [this]
    unfold eqReport
    rw [if_neg, if_neg]
    · exact ⟨_, rfl⟩
    · exact List.cons_ne_nil _ _
    · simp only [sumSq, List.map_cons, List.map_nil, List.sum_cons, List.sum_nil]
      norm_num

end Verif
