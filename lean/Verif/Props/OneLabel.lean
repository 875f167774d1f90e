import Verif.Props.Rename
import Verif.Lemmas.OneLabel

/-!
# C108: dims with one label
-/

namespace Verif

open SymExpr

variable {coords : Coords} {vars params : List ModelObject} {numeraire : Option ModelObject} {eqs eqs₂ : List IndexedEq}

theorem scalars_of_flatOf (hone : OneLabel coords) {d d₂ : Dict Str (NDArray ℝ)} (objs : List ModelObject)
    (hk : ∀ o ∈ objs, KnownDims coords o)
    (hd : ∀ o ∈ objs, DataFor coords d o) (hd₂ : ∀ o ∈ objs, DataFor [] d₂ o.withoutDims)
    (h : flatOf d₂ (objs.map ModelObject.withoutDims) = flatOf d objs) : ∀ o ∈ objs, ∃ v : ℝ,
      dget d o.name = some ⟨o.dims.map fun _ => 1, [v]⟩ ∧ dget d₂ o.name = some ⟨[], [v]⟩ := by
  induction objs with
  | nil => intro o ho; cases ho
  | cons o objs ih =>
    obtain ⟨⟨as, ad⟩, a1, a2, a3⟩ := hd o (by simp)
    obtain ⟨⟨as', ad'⟩, b1, b2, b3⟩ := hd₂ o (by simp)
    have hshape : specShape coords o = o.dims.map fun _ => 1 :=
      List.map_congr_left fun d hd => by
        obtain ⟨l, hl⟩ := hone d (hk o (by simp) d hd)
        rw [hl]; rfl
    rw [hshape] at a2
    simp only at a2 b2
    subst a2 b2
    have l1 : ad.length = 1 := by
      have : ad.length = (o.dims.map fun _ => 1).prod := a3
      rw [this]; simp
    have l2 : ad'.length = 1 := b3
    have e1 : flatOf d (o :: objs) = ad ++ flatOf d objs := by
      unfold flatOf
      rw [List.map_cons, List.flatten_cons, a1]
      rfl
    have e2 : flatOf d₂ ((o :: objs).map ModelObject.withoutDims) =
        ad' ++ flatOf d₂ (objs.map ModelObject.withoutDims) := by
      unfold flatOf
      rw [List.map_cons, List.map_cons, List.flatten_cons, b1]
      rfl
    rw [e1, e2] at h
    obtain ⟨g1, g2⟩ := List.append_inj h (l2.trans l1.symm)
    subst g1
    obtain ⟨v, rfl⟩ := List.length_eq_one_iff.1 l1
    intro x hx
    rcases List.mem_cons.1 hx with rfl | hx
    · exact ⟨v, a1, b1⟩
    · exact ih (fun o ho => hk o (by simp [ho])) (fun o ho => hd o (by simp [ho])) (fun o ho => hd₂ o (by simp [ho]))
        g2 x hx

/-- **C108 (equations).**  Let every dim have one label, and let every sum and every product range over it.  The
equations without indices, on the objects without dims, are off by the same amounts, one by one; so the scalar model has
the same solutions. -/
theorem C108_equations (hone : OneLabel coords) (h : IndexedModel coords vars params numeraire eqs)
    (h₂ : IndexedModel [] (vars.map ModelObject.withoutDims) (params.map ModelObject.withoutDims)
      (numeraire.map ModelObject.withoutDims) eqs₂)
    (hover : ∀ q ∈ eqs, OverOne q.lhs ∧ OverOne q.rhs) (heqs : SameWithoutDims eqs eqs₂) (s : List ℝ) :
    imbalances [] (vars.map ModelObject.withoutDims) (params.map ModelObject.withoutDims)
        (numeraire.map ModelObject.withoutDims) eqs₂ s =
      imbalances coords vars params numeraire eqs s :=
  imbalances_withoutDims hone h hover heqs (by
    have := (solvedModel (numeraire := numeraire.map ModelObject.withoutDims) h₂.scalar).scalars
    rwa [solvedVars_withoutDims, ← List.map_append] at this) s

/-- **C108 (simulations).**  Let every dim have one label, and let every sum and every product range over it.  The model
and the scalar model without dims, with the equations without indices, are given the same request: the same number for
every object.  Let the Euler function of the first return, and let the powers and logarithms of both be defined at the
points at which it solved for a direction.  Then `simulate` with Euler steps only returns for both, all states are the
same, and the scalar model returns as a scalar the number that the model returns as an array with one entry. -/
theorem C108_simulate {es es₂ : List (SymExpr Str)} {b b₂ : EulerBackend} {dx dx₂ : StepSolve ℝ}
    {env env₂ : SamEnv ℝ (List (NDArray ℝ))}
    (hm : BuiltOn coords vars params numeraire eqs es b dx env)
    (hm₂ : BuiltOn [] (vars.map ModelObject.withoutDims) (params.map ModelObject.withoutDims) (numeraire.map ModelObject.withoutDims) eqs₂
      es₂ b₂ dx₂ env₂) (hb : b₂.rk4 = b.rk4)
    (hone : OneLabel coords) (hover : ∀ q ∈ eqs, OverOne q.lhs ∧ OverOne q.rhs) (heqs : SameWithoutDims eqs eqs₂)
    (hsquare : es.length = totalSize coords (solvedVars numeraire vars))
    (fl : SimFlags) (add mul : NDArray ℝ → NDArray ℝ → NDArray ℝ) (h h₂ : Heap (NDArray ℝ)) (c c₂ : SimCall ℝ)
    (hr : RequestOK coords (solvedVars numeraire vars) params add mul h c)
    (hr₂ : RequestOK [] ((solvedVars numeraire vars).map ModelObject.withoutDims) (params.map ModelObject.withoutDims) add mul h₂ c₂)
    (hinit : ∀ o ∈ solvedVars numeraire vars ++ params, 
      (seen h₂ c₂.initial o.name).map NDArray.data = (seen h c.initial o.name).map NDArray.data)
    (hwant : ∀ o ∈ params, (wantedValue add mul h₂ c₂ o.name).map NDArray.data =
      (wantedValue add mul h c o.name).map NDArray.data)
    (heul : c.useEuler = true) (hopt : c.useOptimizer = false) (h1 : 1 ≤ c.nIterEuler)
    (heul₂ : c₂.useEuler = true) (hopt₂ : c₂.useOptimizer = false) (hn₂ : c₂.nIterEuler = c.nIterEuler)
    (outs : List (NDArray ℝ))
    (hrun : env.euler (derefDict h c.initial) (wantedFlat add mul h c params) c.nIterEuler = .ok outs)
    (hreg : ∀ t, t < c.nIterEuler → ∀ s ∈ b.points dx (totalSize coords (solvedVars numeraire vars))
        (b.stateAfter (solvedVars numeraire vars) params (derefDict h c.initial) outs t)
        (stepVec c.nIterEuler (wantedFlat add mul h c params) (initialFlat h c params)),
      (∀ e ∈ es, Regular (flatPoint (scalarNames coords (solvedVars numeraire vars ++ params)) s) e) ∧
      ∀ e ∈ es₂, Regular (flatPoint (scalarNames []
        ((solvedVars numeraire vars ++ params).map ModelObject.withoutDims)) s) e) :
    ∃ e e₂ outs₂,
      simulateCompute (simEnvOf env (fun _ => false) fl add mul) h c = .ok ⟨some e, none, none, false⟩ ∧
      simulateCompute (simEnvOf env₂ (fun _ => false) fl add mul) h₂ c₂ = .ok ⟨some e₂, none, none, false⟩ ∧
      env₂.euler (derefDict h₂ c₂.initial) (wantedFlat add mul h₂ c₂ (params.map ModelObject.withoutDims)) c.nIterEuler = .ok outs₂ ∧
      (∀ t, t ≤ c.nIterEuler →
        b₂.stateAfter ((solvedVars numeraire vars).map ModelObject.withoutDims) (params.map ModelObject.withoutDims) (derefDict h₂ c₂.initial) outs₂ t =
          b.stateAfter (solvedVars numeraire vars) params (derefDict h c.initial) outs t) ∧
      ∀ o ∈ solvedVars numeraire vars ++ params, ∃ v : ℝ,
        dget e.start o.name = some ⟨o.dims.map fun _ => 1, [v]⟩ ∧ dget e₂.start o.name = some ⟨[], [v]⟩ := by
  have hcount := hm.count
  have hcount₂ := hm₂.count
  have hmod := (hm.stepsFrom hsquare).1
  have hknown := (solvedModel (numeraire := numeraire) hmod.scalar).known
  have hN₂ : (scalarNames [] ((solvedVars numeraire vars ++ params).map ModelObject.withoutDims)).Nodup := by
    have : ScalarModel [] (vars.map ModelObject.withoutDims) (params.map ModelObject.withoutDims) := by
      rcases hm₂ with ⟨A, B, -, hg⟩ | ⟨-, -, order, hg⟩
      · exact hg.model.scalar
      · exact hg.model.scalar
    have := (solvedModel (numeraire := numeraire.map ModelObject.withoutDims) this).scalars
    rwa [solvedVars_withoutDims, ← List.map_append] at this
  have himb := imbalances_withoutDims hone hmod hover heqs hN₂
  have size : ∀ objs, (∀ o ∈ objs, o ∈ solvedVars numeraire vars ++ params) →
      totalSize [] (objs.map ModelObject.withoutDims) = totalSize coords objs := fun objs ho => by
    rw [totalSize_withoutDims, totalSize_one hone objs fun o h => hknown o (ho o h)]
  have hsize := size (solvedVars numeraire vars) (by simp +contextual)
  have hsizep := size params (by simp +contextual)
  have hsame : es₂.length = es.length := by
    rw [hcount, hcount₂, ← length_imbalances [] (vars.map ModelObject.withoutDims) (params.map ModelObject.withoutDims) (numeraire.map ModelObject.withoutDims) _ [],
      himb, length_imbalances]
  obtain ⟨-, dx', A, B, hpts, hs⟩ := hm.stepsFrom hsquare
  simp only [← hpts] at hreg
  clear hm hpts dx
  rename' dx' => dx
  have hst₂ := hm₂.stepsFrom (by rw [hsame, hsquare, solvedVars_withoutDims, hsize])
  rw [solvedVars_withoutDims] at hst₂
  obtain ⟨-, dx₂', A₂, B₂, -, hs₂⟩ := hst₂
  clear hm₂ dx₂
  rename' dx₂' => dx₂
  obtain ⟨hem, hce, hve, hpe, hcomp, hsteps, hsolve, hder⟩ := id hs
  obtain ⟨hem₂, hce₂, hve₂, hpe₂, hcomp₂, hsteps₂, hsolve₂, hder₂⟩ := id hs₂
  have hlen := hs.lenOK
  have hlen₂ := hs₂.lenOK
  clear hs hs₂
  generalize solvedVars numeraire vars = vs at *
  subst hve hpe
  have hce' := hce
  subst hce'
  rw [← hce₂, ← hve₂, ← hpe₂] at hr₂
  rw [← hce₂, ← hve₂, ← hpe₂] at hem₂ hlen₂
  obtain ⟨hcall, hin, hsim⟩ := simulate_euler_only env b _ hsteps hem hlen hcomp fl add mul h c hr heul hopt h1
  obtain ⟨hcall₂, hin₂, hsim₂⟩ := simulate_euler_only env₂ b₂ _ hsteps₂ hem₂ hlen₂ hcomp₂ fl add mul h₂ c₂ hr₂
    heul₂ hopt₂ (by rw [hn₂]; exact h1)
  rw [hce₂, hve₂, hpe₂] at hcall₂ hsim₂
  rw [hve₂, hpe₂] at hin₂
  rw [hn₂] at hsim₂
  rw [← hin env.parameters (by simp +contextual)] at hreg
  rw [hsteps] at hrun
  dsimp only at hrun
  obtain ⟨e, g1, -, g3, g4⟩ := hsim outs hrun
  have hini : ∀ objs, (∀ o ∈ objs, o ∈ env.variables ++ env.parameters) →
      flatOf (derefDict h₂ c₂.initial) (objs.map ModelObject.withoutDims) = flatOf (derefDict h c.initial) objs := by
    intro objs ho
    rw [hin objs ho, hin₂ (objs.map ModelObject.withoutDims) (by
      intro o hm
      obtain ⟨o', ho', rfl⟩ := List.mem_map.1 hm
      rw [← List.map_append]
      exact List.mem_map_of_mem (ho o' ho'))]
    unfold initialFlat
    rw [List.flatMap_map, List.flatMap_def, List.flatMap_def]
    congr 1
    refine List.map_congr_left fun o hm => ?_
    show ((seen h₂ c₂.initial o.name).map NDArray.data).getD [] = _
    rw [hinit o (ho o hm)]
  have hwf : wantedFlat add mul h₂ c₂ (env.parameters.map ModelObject.withoutDims) = wantedFlat add mul h c env.parameters := by
    unfold wantedFlat
    rw [List.flatMap_map, List.flatMap_def, List.flatMap_def]
    congr 1
    refine List.map_congr_left fun o hm => ?_
    show ((wantedValue add mul h₂ c₂ o.name).map NDArray.data).getD [] = _
    rw [hwant o hm]
  have lx := (flatOf_spec env.coords (derefDict h c.initial) env.variables fun o ho => hcall.shaped o (by simp [ho])).1
  have lt := (flatOf_spec env.coords (derefDict h c.initial) env.parameters fun o ho => hcall.shaped o (by simp [ho])).1
  obtain ⟨outs₂, hrun₂, hst⟩ := runs_placed hsize hsizep
    (List.Perm.refl _) (List.Perm.refl _) b b₂ hb dx dx₂ _ _ _ _ A B A₂ B₂ hsolve hsolve₂ hder hder₂
    ⟨1, by simp, fun x t hx ht => by
      rw [pickAt_range_self _ x hx, pickAt_range_self _ t ht, himb, Matrix.one_mulVec]⟩
    (derefDict h c.initial) (derefDict h₂ c₂.initial) _ _ c.nIterEuler hcall hcall₂
    (by rw [hini _ (by simp +contextual), pickAt_range_self _ _ lx])
    (by rw [hini _ (by simp +contextual), pickAt_range_self _ _ lt])
    (by rw [hwf, pickAt_range_self _ _ hcall.final]) outs hrun
    (by
      intro t ht s hs
      refine ⟨(hreg t ht s hs).1, fun x y he hx hy => ?_⟩
      rw [pickAt_range_self _ x hx, pickAt_range_self _ y hy, ← he, ← List.map_append]
      exact (hreg t ht s hs).2)
  obtain ⟨e₂, k1, -, k3, k4⟩ := hsim₂ outs₂ hrun₂
  have hall : ∀ t, t ≤ c.nIterEuler →
      b₂.stateAfter (env.variables.map ModelObject.withoutDims) (env.parameters.map ModelObject.withoutDims) (derefDict h₂ c₂.initial) outs₂ t =
        b.stateAfter env.variables env.parameters (derefDict h c.initial) outs t := by
    intro t ht
    obtain ⟨x, y, hx, hy, e1, e2⟩ := hst t ht
    rw [e1, e2, pickAt_range_self _ x hx, pickAt_range_self _ y hy]
  refine ⟨e, e₂, outs₂, g1, k1, ?_, hall, ?_⟩
  · rw [hsteps₂, hce₂, hve₂, hpe₂]
    exact hrun₂
  · rw [hall _ le_rfl, ← g4, ← List.map_append] at k4
    exact scalars_of_flatOf hone _ hknown g3 (fun o ho => k3 _ (by
      rw [← List.map_append]; exact List.mem_map_of_mem ho)) k4

theorem flatOf_withoutDims {d d₂ : Dict Str (NDArray ℝ)} (objs : List ModelObject)
    (h : ∀ o ∈ objs, (dget d₂ o.name).map NDArray.data = (dget d o.name).map NDArray.data) :
    flatOf d₂ (objs.map ModelObject.withoutDims) = flatOf d objs := by
  unfold flatOf
  rw [List.map_map]
  congr 1
  refine List.map_congr_left fun o ho => ?_
  show ((dget d₂ o.name).map NDArray.data).getD [] = _
  rw [h o ho]

theorem filledNames_withoutDims (hone : OneLabel coords) (heqs : SameWithoutDims eqs eqs₂) :
    (eqs₂.flatMap (filledNames [] (numeraire.map ModelObject.withoutDims))).length =
      (eqs.flatMap (filledNames coords numeraire)).length := by
  induction heqs with
  | nil => rfl
  | @cons q q₂ l l₂ _ _ ih =>
    rw [List.flatMap_cons, List.flatMap_cons, List.length_append, List.length_append, ih]
    congr 1
    unfold filledNames
    rw [List.length_map, List.length_map]
    obtain ⟨ls, hls⟩ := product_single ((freeDims coords (numeraire.toList.map ModelObject.name) q.lhs q.rhs).map
      (labelsOf coords)) (by
        intro L hL
        obtain ⟨d, hd, rfl⟩ := List.mem_map.1 hL
        exact hone d (List.mem_filter.1 hd).1)
    rw [hls]
    rfl

/-- **C108 (objective).**  The objective that the minimizer of the default back-end is given is the same function. -/
theorem C108_objective (hone : OneLabel coords) {F F₂ : SympyTensorFns} (hF : BuiltFns coords vars params numeraire eqs F)
    (hF₂ : BuiltFns [] (vars.map ModelObject.withoutDims) (params.map ModelObject.withoutDims)
      (numeraire.map ModelObject.withoutDims) eqs₂ F₂)
    (h : IndexedModel coords vars params numeraire eqs)
    (h₂ : IndexedModel [] (vars.map ModelObject.withoutDims) (params.map ModelObject.withoutDims)
      (numeraire.map ModelObject.withoutDims) eqs₂)
    (hover : ∀ q ∈ eqs, OverOne q.lhs ∧ OverOne q.rhs) (heqs : SameWithoutDims eqs eqs₂) (vn vn₂ : List Str) (x t : List ℝ)
    (hx : x.length = totalSize coords (solvedVars numeraire vars)) (ht : t.length = totalSize coords params) :
    wrapForScipy (callGraphs (((solvedVars numeraire vars ++ params).map ModelObject.withoutDims).map ModelObject.name) vn₂ [F₂.loss])
        ((solvedVars numeraire vars).map ModelObject.withoutDims) (params.map ModelObject.withoutDims) [] x t =
      wrapForScipy (callGraphs ((solvedVars numeraire vars ++ params).map ModelObject.name) vn [F.loss])
        (solvedVars numeraire vars) params coords x t := by
  have hknown := (solvedModel (numeraire := numeraire) h.scalar).known
  rw [totalSize_one hone _ fun o ho => hknown o (by simp [ho])] at hx ht
  have e₂ := hF₂.loss h₂ vn₂ x t (by rw [solvedVars_withoutDims, totalSize_withoutDims, hx])
    (by rw [totalSize_withoutDims, ht])
  rw [solvedVars_withoutDims, ← List.map_append] at e₂
  rw [e₂, hF.loss h vn x t (by rw [hx, totalSize_one hone _ fun o ho => hknown o (by simp [ho])])
    (by rw [ht, totalSize_one hone _ fun o ho => hknown o (by simp [ho])]), C108_equations hone h h₂ hover heqs]

/-- **C108 (equilibrium check).**  `check_for_equilibrium` gives the same verdict at the same arrays, and flags as many
equations, with the same errors in the same order. -/
theorem C108_check (hone : OneLabel coords) (h : IndexedModel coords vars params numeraire eqs)
    (h₂ : IndexedModel [] (vars.map ModelObject.withoutDims) (params.map ModelObject.withoutDims)
      (numeraire.map ModelObject.withoutDims) eqs₂)
    (hover : ∀ q ∈ eqs, OverOne q.lhs ∧ OverOne q.rhs) (heqs : SameWithoutDims eqs eqs₂) (byName byName₂ : Bool)
    (hv0 : solvedVars numeraire vars ≠ []) (hp0 : params ≠ [])
    (ref ref₂ : Dict Str (NDArray ℝ)) (hs : ModelState coords (solvedVars numeraire vars) params ref)
    (hs₂ : ModelState [] ((solvedVars numeraire vars).map ModelObject.withoutDims) (params.map ModelObject.withoutDims) ref₂)
    (hsame : ∀ o ∈ solvedVars numeraire vars ++ params, 
      (dget ref₂ o.name).map NDArray.data = (dget ref o.name).map NDArray.data)
    (data data₂ : EqData ℝ) (hr : Represents (solvedVars numeraire vars) params ref data)
    (hr₂ : Represents ((solvedVars numeraire vars).map ModelObject.withoutDims) (params.map ModelObject.withoutDims) ref₂ data₂) (tol : ℝ) :
    let check := checkForEquilibrium (fun x t => imbalances coords vars params numeraire eqs (x ++ t)) byName
      (solvedVars numeraire vars) params coords (eqs.flatMap (filledNames coords numeraire)) data tol
    let check₂ := checkForEquilibrium (fun x t => imbalances [] (vars.map ModelObject.withoutDims) (params.map ModelObject.withoutDims)
        (numeraire.map ModelObject.withoutDims) eqs₂ (x ++ t))
      byName₂ ((solvedVars numeraire vars).map ModelObject.withoutDims) (params.map ModelObject.withoutDims) []
      (eqs₂.flatMap (filledNames [] (numeraire.map ModelObject.withoutDims))) data₂ tol
    (check = .ok .found ∧ check₂ = .ok .found) ∨
    (∃ l l₂, check = .ok (.notFound l) ∧ check₂ = .ok (.notFound l₂) ∧ l₂.map Prod.snd = l.map Prod.snd) ∨
    (check = .error .valueError ∧ check₂ = .error .valueError) := by
  intro check check₂
  have hsc := solvedModel (numeraire := numeraire) h.scalar
  have hsc₂ := solvedModel (numeraire := numeraire.map ModelObject.withoutDims) h₂.scalar
  rw [solvedVars_withoutDims] at hsc₂
  have c1 : check = _ := check_eq _ byName coords _ params _ ref data tol hsc.known hsc.names hv0 hp0 hs hr _ _
    (pack_flat coords ref _ _ hv0 hp0 hs.data)
  have hv0' : (solvedVars numeraire vars).map ModelObject.withoutDims ≠ [] := by simpa using hv0
  have hp0' : params.map ModelObject.withoutDims ≠ [] := by simpa using hp0
  have c2 : check₂ = _ := check_eq _ byName₂ [] _ _ _ ref₂ data₂ tol hsc₂.known hsc₂.names hv0'
    hp0' hs₂ hr₂ _ _ (pack_flat [] ref₂ _ _ hv0' hp0' hs₂.data)
  rw [← flatOf_append] at c1 c2
  rw [← List.map_append, flatOf_withoutDims _ hsame, C108_equations hone h h₂ hover heqs] at c2
  have hlen := filledNames_withoutDims (numeraire := numeraire) hone heqs
  have hnil : eqs₂.flatMap (filledNames [] (numeraire.map ModelObject.withoutDims)) = [] ↔
      eqs.flatMap (filledNames coords numeraire) = [] := by
    rw [← List.length_eq_zero_iff, ← List.length_eq_zero_iff, hlen]
  rw [c1, c2]
  unfold eqReport
  by_cases hlt : sumSq (imbalances coords vars params numeraire eqs
      (flatOf ref (solvedVars numeraire vars ++ params))) < tol
  · exact Or.inl ⟨if_pos hlt, if_pos hlt⟩
  · rw [if_neg hlt, if_neg hlt]
    by_cases hn : eqs.flatMap (filledNames coords numeraire) = []
    · exact Or.inr (Or.inr ⟨if_pos hn, if_pos (hnil.2 hn)⟩)
    · rw [if_neg hn, if_neg fun e => hn (hnil.1 e)]
      exact Or.inr (Or.inl ⟨_, _, rfl, rfl, flagged_rename _ _ _ hlen fun x => decide (tol < |x|)⟩)

end Verif
