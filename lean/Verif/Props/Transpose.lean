import Verif.Props.Rename
import Verif.Lemmas.Transpose

/-!
# C110: the order of the dims of an object does not matter
-/

namespace Verif

open SymExpr

variable {coords : Coords} {vars params : List ModelObject} {numeraire : Option ModelObject} {eqs : List IndexedEq}
  {old new : Str → List Str}

/-- **C110 (equations).**  Some objects are declared with their dims in another order, and the indices of the equations
are written in that order.  At arrays with the same entries for the same labels, the equations are off by the same
amounts, one by one. -/
theorem C110_equations (h : IndexedModel coords vars params numeraire eqs)
    (ht : Transposes old new (vars ++ params)) (s s₂ : List ℝ)
    (hs : SameTransposed coords new (solvedVars numeraire vars ++ params) s s₂) :
    imbalances coords (vars.map (ModelObject.transposed new)) (params.map (ModelObject.transposed new))
        (numeraire.map (ModelObject.transposed new)) (eqs.map (IndexedEq.transposed old new)) s₂ =
      imbalances coords vars params numeraire eqs s :=
  imbalances_transposed h ht s s₂ hs

/-- **C110 (simulations).**  Some objects are declared with their dims in another order, and the indices of the
equations are written in that order.  The two models are given the same request: the same initial and final values for
the same labels, each in the order of its own dims.  Let the Euler function of the first return, and let the powers and
logarithms of both be defined at the points at which it solved for a direction.  Then `simulate` with Euler steps only
returns for both, and all states, in particular the final ones, have the same entries for the same labels. -/
theorem C110_simulate {es es₂ : List (SymExpr Str)} {b b₂ : EulerBackend} {dx dx₂ : StepSolve ℝ}
    {env env₂ : SamEnv ℝ (List (NDArray ℝ))}
    (hm : BuiltOn coords vars params numeraire eqs es b dx env)
    (hm₂ : BuiltOn coords (vars.map (ModelObject.transposed new)) (params.map (ModelObject.transposed new))
      (numeraire.map (ModelObject.transposed new)) (eqs.map (IndexedEq.transposed old new)) es₂ b₂ dx₂ env₂)
    (hb : b₂.rk4 = b.rk4) (ht : Transposes old new (vars ++ params))
    (hsquare : es.length = totalSize coords (solvedVars numeraire vars))
    (fl : SimFlags) (add mul : NDArray ℝ → NDArray ℝ → NDArray ℝ) (h h₂ : Heap (NDArray ℝ)) (c c₂ : SimCall ℝ)
    (hr : RequestOK coords (solvedVars numeraire vars) params add mul h c)
    (hr₂ : RequestOK coords ((solvedVars numeraire vars).map (ModelObject.transposed new))
      (params.map (ModelObject.transposed new)) add mul h₂ c₂)
    (hini : SameTransposed coords new (solvedVars numeraire vars ++ params)
      (initialFlat h c (solvedVars numeraire vars ++ params))
      (initialFlat h₂ c₂ ((solvedVars numeraire vars ++ params).map (ModelObject.transposed new))))
    (hfin : SameTransposed coords new params (wantedFlat add mul h c params)
      (wantedFlat add mul h₂ c₂ (params.map (ModelObject.transposed new))))
    (heul : c.useEuler = true) (hopt : c.useOptimizer = false) (h1 : 1 ≤ c.nIterEuler)
    (heul₂ : c₂.useEuler = true) (hopt₂ : c₂.useOptimizer = false) (hn₂ : c₂.nIterEuler = c.nIterEuler)
    (outs : List (NDArray ℝ))
    (hrun : env.euler (derefDict h c.initial) (wantedFlat add mul h c params) c.nIterEuler = .ok outs)
    (hreg : ∀ t, t < c.nIterEuler → ∀ s ∈ b.points dx (totalSize coords (solvedVars numeraire vars))
        (b.stateAfter (solvedVars numeraire vars) params (derefDict h c.initial) outs t)
        (stepVec c.nIterEuler (wantedFlat add mul h c params) (initialFlat h c params)),
      (∀ e ∈ es, Regular (flatPoint (scalarNames coords (solvedVars numeraire vars ++ params)) s) e) ∧
      ∀ s₂, SameTransposed coords new (solvedVars numeraire vars ++ params) s s₂ → ∀ e ∈ es₂, Regular (flatPoint
        (scalarNames coords ((solvedVars numeraire vars ++ params).map (ModelObject.transposed new))) s₂) e) :
    ∃ e e₂ outs₂,
      simulateCompute (simEnvOf env (fun _ => false) fl add mul) h c = .ok ⟨some e, none, none, false⟩ ∧
      simulateCompute (simEnvOf env₂ (fun _ => false) fl add mul) h₂ c₂ = .ok ⟨some e₂, none, none, false⟩ ∧
      env₂.euler (derefDict h₂ c₂.initial) (wantedFlat add mul h₂ c₂ (params.map (ModelObject.transposed new)))
        c.nIterEuler = .ok outs₂ ∧
      (∀ t, t ≤ c.nIterEuler → SameTransposed coords new (solvedVars numeraire vars ++ params)
        (b.stateAfter (solvedVars numeraire vars) params (derefDict h c.initial) outs t)
        (b₂.stateAfter ((solvedVars numeraire vars).map (ModelObject.transposed new))
          (params.map (ModelObject.transposed new)) (derefDict h₂ c₂.initial) outs₂ t)) ∧
      SameTransposed coords new (solvedVars numeraire vars ++ params)
        (flatOf e.start (solvedVars numeraire vars ++ params))
        (flatOf e₂.start ((solvedVars numeraire vars ++ params).map (ModelObject.transposed new))) := by
  have hcount := hm.count
  have hcount₂ := hm₂.count
  have hmod := (hm.stepsFrom hsquare).1
  have hsm := solvedModel (numeraire := numeraire) hmod.scalar
  have hN := hsm.scalars
  have hN₂ : (scalarNames coords ((solvedVars numeraire vars ++ params).map (ModelObject.transposed new))).Nodup := by
    have : ScalarModel coords (vars.map (ModelObject.transposed new)) (params.map (ModelObject.transposed new)) := by
      rcases hm₂ with ⟨A, B, -, hg⟩ | ⟨-, -, order, hg⟩
      · exact hg.model.scalar
      · exact hg.model.scalar
    have := (solvedModel (numeraire := numeraire.map (ModelObject.transposed new)) this).scalars
    rwa [solvedVars_transposed, ← List.map_append] at this
  have hts : Transposes old new (solvedVars numeraire vars ++ params) := fun o ho => ht o (solved_mem ho)
  have hds := hsm.dims
  have hrd : ∀ d, ∀ l ∈ labelsOf coords d, ReadsBack l := fun d l hl => (labels_readBack hmod.label_names d l hl).1
  have iff := sameTransposed_iff hts hds hN hN₂ hsm.names hrd
  have hNp : (scalarNames coords params).Nodup := by
    rw [scalarNames_append] at hN; exact (List.nodup_append.1 hN).2.1
  have hNv : (scalarNames coords (solvedVars numeraire vars)).Nodup := by
    rw [scalarNames_append] at hN; exact (List.nodup_append.1 hN).1
  have iffp := sameTransposed_iff (objs := params) (fun o ho => hts o (by simp [ho])) (fun o ho => hds o (by simp [ho]))
    hNp (by
      rw [List.map_append, scalarNames_append] at hN₂; exact (List.nodup_append.1 hN₂).2.1)
    (by have := hsm.names; rw [List.map_append] at this; exact (List.nodup_append.1 this).2.1) hrd
  have himb := imbalances_transposed hmod ht
  have hsize := totalSize_transposed (coords := coords) (objs := solvedVars numeraire vars)
    (fun o ho => hts o (by simp [ho])) (fun o ho => hds o (by simp [ho]))
  have hsizep := totalSize_transposed (coords := coords) (objs := params)
    (fun o ho => hts o (by simp [ho])) (fun o ho => hds o (by simp [ho]))
  have hpv := placeOld_perm (coords := coords) (objs := solvedVars numeraire vars)
    (fun o ho => hts o (by simp [ho])) (fun o ho => hds o (by simp [ho])) hNv
  have hpp := placeOld_perm (coords := coords) (objs := params)
    (fun o ho => hts o (by simp [ho])) (fun o ho => hds o (by simp [ho])) hNp
  have split := fun x t hx => placeOld_append hts hds hN x t hx
  have lall : totalSize coords (solvedVars numeraire vars ++ params) =
      totalSize coords (solvedVars numeraire vars) + totalSize coords params := totalSize_append coords _ _
  have hsame : es₂.length = es.length := by
    obtain ⟨z, hz⟩ : ∃ z : List ℝ, z.length = totalSize coords (solvedVars numeraire vars ++ params) :=
      ⟨List.replicate _ 0, List.length_replicate ..⟩
    have := congrArg List.length (himb z _ ((iff z _).2 ⟨hz, rfl⟩))
    rw [length_imbalances, length_imbalances] at this
    rw [hcount, hcount₂, this]
  obtain ⟨-, dx', A, B, hpts, hs⟩ := hm.stepsFrom hsquare
  simp only [← hpts] at hreg
  clear hm hpts dx
  rename' dx' => dx
  have hst₂ := hm₂.stepsFrom (by rw [hsame, hsquare, solvedVars_transposed, hsize])
  rw [solvedVars_transposed] at hst₂
  obtain ⟨-, dx₂', A₂, B₂, -, hs₂⟩ := hst₂
  clear hm₂ dx₂
  rename' dx₂' => dx₂
  obtain ⟨hem, hce, hve, hpe, hcomp, hsteps, hsolve, hder⟩ := id hs
  obtain ⟨hem₂, hce₂, hve₂, hpe₂, hcomp₂, hsteps₂, hsolve₂, hder₂⟩ := id hs₂
  have hlen := hs.lenOK
  have hlen₂ := hs₂.lenOK
  clear hs hs₂
  have i1 := (iff _ _).1 hini
  have i2 := (iffp _ _).1 hfin
  clear hsm hini hfin iffp
  generalize solvedVars numeraire vars = vs at *
  subst hve hpe
  have hce' := hce
  subst hce'
  rw [← hce₂, ← hve₂, ← hpe₂] at hr₂ hem₂ hlen₂
  obtain ⟨hcall, hin, hsim⟩ := simulate_euler_only env b _ hsteps hem hlen hcomp fl add mul h c hr heul hopt h1
  obtain ⟨hcall₂, hin₂, hsim₂⟩ := simulate_euler_only env₂ b₂ _ hsteps₂ hem₂ hlen₂ hcomp₂ fl add mul h₂ c₂ hr₂
    heul₂ hopt₂ (by rw [hn₂]; exact h1)
  rw [hce₂, hve₂, hpe₂] at hcall₂ hsim₂
  rw [hve₂, hpe₂] at hin₂
  rw [hn₂] at hsim₂
  rw [← hin env.parameters (by simp +contextual)] at hreg
  rw [← hin _ (fun _ ho => ho), ← hin₂ _ (fun o ho => by rwa [List.map_append] at ho)] at i1
  rw [hsteps] at hrun
  dsimp only at hrun
  obtain ⟨e, g1, -, g3, g4⟩ := hsim outs hrun
  have lx := (flatOf_spec env.coords (derefDict h c.initial) env.variables fun o ho => hcall.shaped o (by simp [ho])).1
  have lx' := (flatOf_spec env.coords (derefDict h₂ c₂.initial) (env.variables.map (ModelObject.transposed new))
    fun o ho => hcall₂.shaped o (by simp [ho])).1
  have lix : (placeOld env.coords new env.variables).length = totalSize env.coords env.variables := by
    rw [hpv.length_eq, List.length_range]
  have hd := i1.2
  rw [List.map_append, flatOf_append, flatOf_append, split _ _ lx] at hd
  obtain ⟨fx, ft⟩ := List.append_inj hd (by rw [lx', length_pickAt, lix, hsize])
  have back : ∀ x y : List ℝ, x.length = totalSize env.coords env.variables →
      y.length = totalSize env.coords env.parameters → SameTransposed env.coords new (env.variables ++ env.parameters)
        (x ++ y) (pickAt 0 (placeOld env.coords new env.variables) x ++
          pickAt 0 (placeOld env.coords new env.parameters) y) := fun x y hx hy =>
    (iff _ _).2 ⟨by rw [List.length_append, hx, hy, lall], (split x y hx).symm⟩
  obtain ⟨outs₂, hrun₂, hst⟩ := runs_placed hsize hsizep hpv hpp b b₂ hb dx dx₂ _ _ _ _ A B A₂ B₂ hsolve hsolve₂ hder
    hder₂ ⟨1, by simp, fun x t hx ht => by rw [himb _ _ (back x t hx ht), Matrix.one_mulVec]⟩
    (derefDict h c.initial) (derefDict h₂ c₂.initial) _ _ c.nIterEuler hcall hcall₂ fx ft i2.2 outs hrun
    (by
      intro t ht s hs
      refine ⟨(hreg t ht s hs).1, fun x y he hx hy => ?_⟩
      have := (hreg t ht s hs).2 _ (by rw [he]; exact back x y hx hy)
      rwa [List.map_append] at this)
  obtain ⟨e₂, k1, -, k3, k4⟩ := hsim₂ outs₂ hrun₂
  have hall : ∀ t, t ≤ c.nIterEuler → SameTransposed env.coords new (env.variables ++ env.parameters)
      (b.stateAfter env.variables env.parameters (derefDict h c.initial) outs t)
      (b₂.stateAfter (env.variables.map (ModelObject.transposed new))
        (env.parameters.map (ModelObject.transposed new)) (derefDict h₂ c₂.initial) outs₂ t) := by
    intro t ht
    obtain ⟨x, y, hx, hy, e1, e2⟩ := hst t ht
    rw [e1, e2]
    exact back x y hx hy
  refine ⟨e, e₂, outs₂, g1, k1, ?_, hall, ?_⟩
  · rw [hsteps₂, hce₂, hve₂, hpe₂]
    exact hrun₂
  · rw [List.map_append, g4, k4]
    exact hall _ le_rfl

/-- **C110 (objective).**  At arrays with the same entries for the same labels, the objective that the minimizer of the
default back-end is given has the same value. -/
theorem C110_objective {F F₂ : SympyTensorFns} (hF : BuiltFns coords vars params numeraire eqs F)
    (hF₂ : BuiltFns coords (vars.map (ModelObject.transposed new)) (params.map (ModelObject.transposed new))
      (numeraire.map (ModelObject.transposed new)) (eqs.map (IndexedEq.transposed old new)) F₂)
    (h : IndexedModel coords vars params numeraire eqs)
    (h₂ : IndexedModel coords (vars.map (ModelObject.transposed new)) (params.map (ModelObject.transposed new))
      (numeraire.map (ModelObject.transposed new)) (eqs.map (IndexedEq.transposed old new)))
    (ht : Transposes old new (vars ++ params)) (vn vn₂ : List Str) (x t x₂ t₂ : List ℝ)
    (hx : x.length = totalSize coords (solvedVars numeraire vars)) (hxt : t.length = totalSize coords params)
    (hx₂ : x₂.length = totalSize coords (solvedVars numeraire vars)) (hxt₂ : t₂.length = totalSize coords params)
    (hs : SameTransposed coords new (solvedVars numeraire vars ++ params) (x ++ t) (x₂ ++ t₂)) :
    wrapForScipy (callGraphs ((solvedVars numeraire vars ++ params).map ModelObject.name) vn₂ [F₂.loss])
        ((solvedVars numeraire vars).map (ModelObject.transposed new)) (params.map (ModelObject.transposed new)) coords
        x₂ t₂ =
      wrapForScipy (callGraphs ((solvedVars numeraire vars ++ params).map ModelObject.name) vn [F.loss])
        (solvedVars numeraire vars) params coords x t := by
  have hds := (solvedModel (numeraire := numeraire) h.scalar).dims
  have hts : Transposes old new (solvedVars numeraire vars ++ params) := fun o ho => ht o (solved_mem ho)
  have e₂ := hF₂.loss h₂ vn₂ x₂ t₂
    (by rw [solvedVars_transposed, hx₂, totalSize_transposed (fun o ho => hts o (by simp [ho])) (fun o ho => hds o (by simp [ho]))])
    (by rw [hxt₂, totalSize_transposed (fun o ho => hts o (by simp [ho])) (fun o ho => hds o (by simp [ho]))])
  have hnames : ((solvedVars numeraire vars ++ params).map (ModelObject.transposed new)).map ModelObject.name =
      (solvedVars numeraire vars ++ params).map ModelObject.name := by
    rw [List.map_map]; rfl
  rw [solvedVars_transposed, ← List.map_append, hnames] at e₂
  rw [e₂, hF.loss h vn x t hx hxt, C110_equations h ht _ _ hs]

theorem filledNames_transposed (h : IndexedModel coords vars params numeraire eqs)
    (ht : Transposes old new (vars ++ params)) :
    (eqs.map (IndexedEq.transposed old new)).flatMap (filledNames coords (numeraire.map (ModelObject.transposed new))) =
      eqs.flatMap (filledNames coords numeraire) := by
  rw [List.flatMap_map, List.flatMap_def, List.flatMap_def]
  congr 1
  refine List.map_congr_left fun q hq => ?_
  obtain ⟨s1, s2⟩ := h.sides q hq
  have hds : freeDims coords (numeraire.toList.map ModelObject.name) (q.lhs.transposed old new) (q.rhs.transposed old new) =
      freeDims coords (numeraire.toList.map ModelObject.name) q.lhs q.rhs := by
    unfold freeDims
    refine List.filter_congr fun d _ => ?_
    rw [hasFree_transposed _ d _ (side_inOrder h ht s1), hasFree_transposed _ d _ (side_inOrder h ht s2)]
  unfold filledNames
  rw [names_transposed]
  simp only [IndexedEq.transposed]
  rw [hds]

/-- **C110 (equilibrium check).**  At arrays with the same entries for the same labels, `check_for_equilibrium` gives
the same report: the same verdict, and the same equations with the same errors. -/
theorem C110_check (h : IndexedModel coords vars params numeraire eqs)
    (h₂ : IndexedModel coords (vars.map (ModelObject.transposed new)) (params.map (ModelObject.transposed new))
      (numeraire.map (ModelObject.transposed new)) (eqs.map (IndexedEq.transposed old new)))
    (ht : Transposes old new (vars ++ params)) (byName byName₂ : Bool)
    (hv0 : solvedVars numeraire vars ≠ []) (hp0 : params ≠ [])
    (ref ref₂ : Dict Str (NDArray ℝ)) (hs : ModelState coords (solvedVars numeraire vars) params ref)
    (hs₂ : ModelState coords ((solvedVars numeraire vars).map (ModelObject.transposed new))
      (params.map (ModelObject.transposed new)) ref₂)
    (hsame : SameTransposed coords new (solvedVars numeraire vars ++ params)
      (flatOf ref (solvedVars numeraire vars ++ params))
      (flatOf ref₂ ((solvedVars numeraire vars ++ params).map (ModelObject.transposed new))))
    (data data₂ : EqData ℝ) (hr : Represents (solvedVars numeraire vars) params ref data)
    (hr₂ : Represents ((solvedVars numeraire vars).map (ModelObject.transposed new))
      (params.map (ModelObject.transposed new)) ref₂ data₂) (tol : ℝ) :
    checkForEquilibrium (fun x t => imbalances coords (vars.map (ModelObject.transposed new))
        (params.map (ModelObject.transposed new)) (numeraire.map (ModelObject.transposed new))
        (eqs.map (IndexedEq.transposed old new)) (x ++ t))
      byName₂ ((solvedVars numeraire vars).map (ModelObject.transposed new)) (params.map (ModelObject.transposed new))
      coords ((eqs.map (IndexedEq.transposed old new)).flatMap
        (filledNames coords (numeraire.map (ModelObject.transposed new)))) data₂ tol =
    checkForEquilibrium (fun x t => imbalances coords vars params numeraire eqs (x ++ t)) byName
      (solvedVars numeraire vars) params coords (eqs.flatMap (filledNames coords numeraire)) data tol := by
  have hsc := solvedModel (numeraire := numeraire) h.scalar
  have hsc₂ := solvedModel (numeraire := numeraire.map (ModelObject.transposed new)) h₂.scalar
  rw [solvedVars_transposed] at hsc₂
  have c1 := check_eq (fun x t => imbalances coords vars params numeraire eqs (x ++ t)) byName coords _ params
    (eqs.flatMap (filledNames coords numeraire)) ref data tol hsc.known hsc.names hv0 hp0 hs hr _ _
    (pack_flat coords ref _ _ hv0 hp0 hs.data)
  have hv0' : (solvedVars numeraire vars).map (ModelObject.transposed new) ≠ [] := by simpa using hv0
  have hp0' : params.map (ModelObject.transposed new) ≠ [] := by simpa using hp0
  have c2 := check_eq (fun x t => imbalances coords (vars.map (ModelObject.transposed new))
        (params.map (ModelObject.transposed new)) (numeraire.map (ModelObject.transposed new))
        (eqs.map (IndexedEq.transposed old new)) (x ++ t)) byName₂ coords _ _
    ((eqs.map (IndexedEq.transposed old new)).flatMap
        (filledNames coords (numeraire.map (ModelObject.transposed new)))) ref₂ data₂ tol hsc₂.known hsc₂.names hv0'
    hp0' hs₂ hr₂ _ _ (pack_flat coords ref₂ _ _ hv0' hp0' hs₂.data)
  rw [c1, c2, ← flatOf_append, ← flatOf_append, ← List.map_append, C110_equations h ht _ _ hsame,
    filledNames_transposed h ht]

end Verif
