import Verif.Props.Rename
import Verif.Lemmas.WrittenOut

/-!
# C109: a model written out label by label
-/

namespace Verif

open SymExpr

variable {coords : Coords} {vars params : List ModelObject} {numeraire : Option ModelObject} {eqs eqs₂ : List IndexedEq}

theorem scalars_data {d : Dict Str (NDArray ℝ)} (N : List Str) (hd : ∀ n ∈ N, DataFor [] d { name := n }) :
    (flatOf d (N.map fun n => { name := n })).map (fun v => some (⟨[], [v]⟩ : NDArray ℝ)) = N.map (dget d) := by
  induction N with
  | nil => rfl
  | cons n N ih =>
    obtain ⟨⟨as, ad⟩, a1, a2, a3⟩ := hd n (by simp)
    simp only at a2
    subst a2
    have l1 : ad.length = 1 := a3
    obtain ⟨v, rfl⟩ := List.length_eq_one_iff.1 l1
    have a1' : dget d n = some ⟨[], [v]⟩ := a1
    have e1 : flatOf d ((n :: N).map fun n => ({ name := n } : ModelObject)) =
        v :: flatOf d (N.map fun n => { name := n }) := by
      unfold flatOf
      rw [List.map_cons, List.map_cons, List.flatten_cons, a1']
      rfl
    rw [e1, List.map_cons, List.map_cons, ih fun n hn => hd n (by simp [hn]), a1']

theorem entries_of_flatOf {d d₂ : Dict Str (NDArray ℝ)} (objs : List ModelObject)
    (hd : ∀ o ∈ objs, DataFor coords d o) (hd₂ : ∀ o ∈ writtenOut coords objs, DataFor [] d₂ o)
    (h : flatOf d₂ (writtenOut coords objs) = flatOf d objs) : ∀ o ∈ objs, ∃ a : NDArray ℝ,
      dget d o.name = some a ∧ a.shape = specShape coords o ∧
      (scalarNames coords [o]).map (dget d₂) = a.data.map fun v => some ⟨[], [v]⟩ := by
  induction objs with
  | nil => intro o ho; cases ho
  | cons o objs ih =>
    have hcons : o :: objs = [o] ++ objs := rfl
    have e1 : writtenOut coords (o :: objs) = writtenOut coords [o] ++ writtenOut coords objs := by
      rw [hcons, writtenOut_append]
    rw [e1] at hd₂ h
    have key := scalars_data (d := d₂) (scalarNames coords [o]) fun n hn =>
      hd₂ _ (List.mem_append_left _ (List.mem_map.2 ⟨n, hn, rfl⟩))
    obtain ⟨a, a1, a2, a3⟩ := hd o (by simp)
    have e2 : flatOf d (o :: objs) = a.data ++ flatOf d objs := by
      unfold flatOf
      rw [List.map_cons, List.flatten_cons, a1]
      rfl
    rw [flatOf_append, e2] at h
    have l2 : (flatOf d₂ (writtenOut coords [o])).length = a.data.length := by
      have := congrArg List.length key
      rw [List.length_map, List.length_map, length_scalarNames] at this
      refine Eq.trans this ?_
      have l3 : a.data.length = a.shape.prod := a3
      rw [l3, a2]
      simp [totalSize, specSize]
    obtain ⟨g1, g2⟩ := List.append_inj h l2
    intro x hx
    rcases List.mem_cons.1 hx with rfl | hx
    · refine ⟨a, a1, a2, ?_⟩
      rw [← key, ← g1]
      rfl
    · exact ih (fun o ho => hd o (by simp [ho])) (fun o ho => hd₂ o (List.mem_append_right _ ho)) g2 x hx

/-- **C109 (equations).**  Let the model be written out: one scalar for every element of every array, under the name
that the model itself gives to it, one equation for every combination of labels, and the terms of every sum and product
one after the other.  The equations written out are off by the same amounts, one by one, so the two models have the same
solutions.  A numéraire has to be a scalar already. -/
theorem C109_equations (h : IndexedModel coords vars params numeraire eqs)
    (hdims : ∀ o, numeraire = some o → o.dims = []) (heqs : EqsWrittenOut coords numeraire eqs eqs₂) (s : List ℝ) :
    imbalances [] (writtenOut coords vars) (writtenOut coords params) numeraire eqs₂ s =
      imbalances coords vars params numeraire eqs s :=
  imbalances_writtenOut h hdims heqs s

/-- **C109 (simulations).**  The model and the model written out are given the same request: the same numbers for the
elements of the arrays and for the scalars.  Let the Euler function of the first return, and let the powers and
logarithms of both be defined at the points at which it solved for a direction.  Then `simulate` with Euler steps only
returns for both, all states are the same, and the model written out returns the elements of the arrays of the model,
each as a scalar. -/
theorem C109_simulate {es es₂ : List (SymExpr Str)} {b b₂ : EulerBackend} {dx dx₂ : StepSolve ℝ}
    {env env₂ : SamEnv ℝ (List (NDArray ℝ))}
    (hm : BuiltOn coords vars params numeraire eqs es b dx env)
    (hm₂ : BuiltOn [] (writtenOut coords vars) (writtenOut coords params) numeraire eqs₂
      es₂ b₂ dx₂ env₂) (hb : b₂.rk4 = b.rk4)
    (hdims : ∀ o, numeraire = some o → o.dims = []) (heqs : EqsWrittenOut coords numeraire eqs eqs₂)
    (hsquare : es.length = totalSize coords (solvedVars numeraire vars))
    (fl : SimFlags) (add mul : NDArray ℝ → NDArray ℝ → NDArray ℝ) (h h₂ : Heap (NDArray ℝ)) (c c₂ : SimCall ℝ)
    (hr : RequestOK coords (solvedVars numeraire vars) params add mul h c)
    (hr₂ : RequestOK [] (writtenOut coords (solvedVars numeraire vars)) (writtenOut coords params) add mul h₂ c₂)
    (hinitv : initialFlat h₂ c₂ (writtenOut coords (solvedVars numeraire vars)) =
      initialFlat h c (solvedVars numeraire vars))
    (hinitp : initialFlat h₂ c₂ (writtenOut coords params) = initialFlat h c params)
    (hwant : wantedFlat add mul h₂ c₂ (writtenOut coords params) = wantedFlat add mul h c params)
    (heul : c.useEuler = true) (hopt : c.useOptimizer = false) (h1 : 1 ≤ c.nIterEuler)
    (heul₂ : c₂.useEuler = true) (hopt₂ : c₂.useOptimizer = false) (hn₂ : c₂.nIterEuler = c.nIterEuler)
    (outs : List (NDArray ℝ))
    (hrun : env.euler (derefDict h c.initial) (wantedFlat add mul h c params) c.nIterEuler = .ok outs)
    (hreg : ∀ t, t < c.nIterEuler → ∀ s ∈ b.points dx (totalSize coords (solvedVars numeraire vars))
        (b.stateAfter (solvedVars numeraire vars) params (derefDict h c.initial) outs t)
        (stepVec c.nIterEuler (wantedFlat add mul h c params) (initialFlat h c params)),
      (∀ e ∈ es, Regular (flatPoint (scalarNames coords (solvedVars numeraire vars ++ params)) s) e) ∧
      ∀ e ∈ es₂, Regular (flatPoint (scalarNames []
        (writtenOut coords (solvedVars numeraire vars ++ params))) s) e) :
    ∃ e e₂ outs₂,
      simulateCompute (simEnvOf env (fun _ => false) fl add mul) h c = .ok ⟨some e, none, none, false⟩ ∧
      simulateCompute (simEnvOf env₂ (fun _ => false) fl add mul) h₂ c₂ = .ok ⟨some e₂, none, none, false⟩ ∧
      env₂.euler (derefDict h₂ c₂.initial) (wantedFlat add mul h₂ c₂ (writtenOut coords params)) c.nIterEuler = .ok outs₂ ∧
      (∀ t, t ≤ c.nIterEuler →
        b₂.stateAfter (writtenOut coords (solvedVars numeraire vars)) (writtenOut coords params) (derefDict h₂ c₂.initial) outs₂ t =
          b.stateAfter (solvedVars numeraire vars) params (derefDict h c.initial) outs t) ∧
      ∀ o ∈ solvedVars numeraire vars ++ params, ∃ a : NDArray ℝ,
        dget e.start o.name = some a ∧ a.shape = specShape coords o ∧
        (scalarNames coords [o]).map (dget e₂.start) = a.data.map fun v => some ⟨[], [v]⟩ := by
  have hcount := hm.count
  have hcount₂ := hm₂.count
  have hmod := (hm.stepsFrom hsquare).1
  have hsv := solvedVars_writtenOut hmod.scalar hmod.numeraire_mem hdims
  have himb := imbalances_writtenOut hmod hdims heqs
  have hsize := totalSize_writtenOut (coords := coords) (solvedVars numeraire vars)
  have hsizep := totalSize_writtenOut (coords := coords) params
  have hsame : es₂.length = es.length := by
    rw [hcount, hcount₂, ← length_imbalances [] (writtenOut coords vars) (writtenOut coords params) numeraire _ [],
      himb, length_imbalances]
  obtain ⟨-, dx', A, B, hpts, hs⟩ := hm.stepsFrom hsquare
  simp only [← hpts] at hreg
  clear hm hpts dx
  rename' dx' => dx
  have hst₂ := hm₂.stepsFrom (by rw [hsame, hsquare, hsv, hsize])
  rw [hsv] at hst₂
  obtain ⟨-, dx₂', A₂, B₂, -, hs₂⟩ := hst₂
  clear hm₂ dx₂
  rename' dx₂' => dx₂
  obtain ⟨hem, hce, hve, hpe, hcomp, hsteps, hsolve, hder⟩ := id hs
  obtain ⟨hem₂, hce₂, hve₂, hpe₂, hcomp₂, hsteps₂, hsolve₂, hder₂⟩ := id hs₂
  have hlen := hs.lenOK
  have hlen₂ := hs₂.lenOK
  clear hs hs₂
  clear hsv
  generalize solvedVars numeraire vars = vs at *
  subst hve hpe
  have hce' := hce
  subst hce'
  rw [← hce₂, ← hve₂, ← hpe₂] at hr₂
  rw [← hce₂, ← hve₂, ← hpe₂] at hem₂ hlen₂
  obtain ⟨hcall, hin, hsim⟩ := simulate_euler_only env b _ hsteps hem hlen hcomp fl add mul h c hr heul hopt h1
  obtain ⟨hcall₂, hin₂, hsim₂⟩ := simulate_euler_only env₂ b₂ _ hsteps₂ hem₂ hlen₂ hcomp₂ fl add mul h₂ c₂ hr₂
    heul₂ hopt₂ (by rw [hn₂]; exact h1)
  rw [hce₂, hve₂, hpe₂] at hcall₂ hsim₂
  rw [hve₂, hpe₂] at hin₂
  rw [hn₂] at hsim₂
  rw [← hin env.parameters (by simp +contextual)] at hreg
  rw [hsteps] at hrun
  dsimp only at hrun
  obtain ⟨e, g1, -, g3, g4⟩ := hsim outs hrun
  have hiv : flatOf (derefDict h₂ c₂.initial) (writtenOut env.coords env.variables) = flatOf (derefDict h c.initial) env.variables := by
    rw [hin _ (by simp +contextual), hin₂ _ (by simp +contextual)]
    exact hinitv
  have hip : flatOf (derefDict h₂ c₂.initial) (writtenOut env.coords env.parameters) = flatOf (derefDict h c.initial) env.parameters := by
    rw [hin _ (by simp +contextual), hin₂ _ (by simp +contextual)]
    exact hinitp
  have lx := (flatOf_spec env.coords (derefDict h c.initial) env.variables fun o ho => hcall.shaped o (by simp [ho])).1
  have lt := (flatOf_spec env.coords (derefDict h c.initial) env.parameters fun o ho => hcall.shaped o (by simp [ho])).1
  obtain ⟨outs₂, hrun₂, hst⟩ := runs_placed hsize hsizep
    (List.Perm.refl _) (List.Perm.refl _) b b₂ hb dx dx₂ _ _ _ _ A B A₂ B₂ hsolve hsolve₂ hder hder₂
    ⟨1, by simp, fun x t hx ht => by
      rw [pickAt_range_self _ x hx, pickAt_range_self _ t ht, himb, Matrix.one_mulVec]⟩
    (derefDict h c.initial) (derefDict h₂ c₂.initial) _ _ c.nIterEuler hcall hcall₂
    (by rw [hiv, pickAt_range_self _ _ lx])
    (by rw [hip, pickAt_range_self _ _ lt])
    (by rw [hwant, pickAt_range_self _ _ hcall.final]) outs hrun
    (by
      intro t ht s hs
      refine ⟨(hreg t ht s hs).1, fun x y he hx hy => ?_⟩
      rw [pickAt_range_self _ x hx, pickAt_range_self _ y hy, ← he, ← writtenOut_append]
      exact (hreg t ht s hs).2)
  obtain ⟨e₂, k1, -, k3, k4⟩ := hsim₂ outs₂ hrun₂
  have hall : ∀ t, t ≤ c.nIterEuler →
      b₂.stateAfter (writtenOut env.coords env.variables) (writtenOut env.coords env.parameters) (derefDict h₂ c₂.initial) outs₂ t =
        b.stateAfter env.variables env.parameters (derefDict h c.initial) outs t := by
    intro t ht
    obtain ⟨x, y, hx, hy, e1, e2⟩ := hst t ht
    rw [e1, e2, pickAt_range_self _ x hx, pickAt_range_self _ y hy]
  refine ⟨e, e₂, outs₂, g1, k1, ?_, hall, ?_⟩
  · rw [hsteps₂, hce₂, hve₂, hpe₂]
    exact hrun₂
  · rw [hall _ le_rfl, ← g4, ← writtenOut_append] at k4
    exact entries_of_flatOf _ g3 (fun o ho => k3 _ (by rwa [← writtenOut_append])) k4

theorem filledNames_writtenOut (heqs : EqsWrittenOut coords numeraire eqs eqs₂) :
    (eqs₂.flatMap (filledNames [] numeraire)).length = (eqs.flatMap (filledNames coords numeraire)).length := by
  have h1 : (eqs₂.flatMap (filledNames [] numeraire)).length = eqs₂.length := by
    clear heqs
    induction eqs₂ with
    | nil => rfl
    | cons q l ih => rw [List.flatMap_cons, List.length_append, ih]; exact Nat.add_comm 1 _
  have h2 : (eqs.flatMap (filledNames coords numeraire)).length = (instances coords numeraire eqs).length := by
    unfold instances filledNames
    simp only [List.length_flatMap, List.length_map]
  rw [h1, h2, heqs.length_eq]

/-- **C109 (objective).**  The objective that the minimizer of the default back-end is given is the same function. -/
theorem C109_objective {F F₂ : SympyTensorFns} (hF : BuiltFns coords vars params numeraire eqs F)
    (hF₂ : BuiltFns [] (writtenOut coords vars) (writtenOut coords params)
      numeraire eqs₂ F₂)
    (h : IndexedModel coords vars params numeraire eqs)
    (h₂ : IndexedModel [] (writtenOut coords vars) (writtenOut coords params)
      numeraire eqs₂)
    (hdims : ∀ o, numeraire = some o → o.dims = []) (heqs : EqsWrittenOut coords numeraire eqs eqs₂) (vn vn₂ : List Str) (x t : List ℝ)
    (hx : x.length = totalSize coords (solvedVars numeraire vars)) (ht : t.length = totalSize coords params) :
    wrapForScipy (callGraphs ((writtenOut coords (solvedVars numeraire vars ++ params)).map ModelObject.name) vn₂ [F₂.loss])
        (writtenOut coords (solvedVars numeraire vars)) (writtenOut coords params) [] x t =
      wrapForScipy (callGraphs ((solvedVars numeraire vars ++ params).map ModelObject.name) vn [F.loss])
        (solvedVars numeraire vars) params coords x t := by
  have e₂ := hF₂.loss h₂ vn₂ x t
    (by rw [solvedVars_writtenOut h.scalar h.numeraire_mem hdims, totalSize_writtenOut, hx])
    (by rw [totalSize_writtenOut, ht])
  rw [solvedVars_writtenOut h.scalar h.numeraire_mem hdims, ← writtenOut_append] at e₂
  rw [e₂, hF.loss h vn x t hx ht, C109_equations h hdims heqs]

/-- **C109 (equilibrium check).**  `check_for_equilibrium` gives the same verdict at the same arrays, and flags as many
equations, with the same errors in the same order. -/
theorem C109_check (h : IndexedModel coords vars params numeraire eqs)
    (h₂ : IndexedModel [] (writtenOut coords vars) (writtenOut coords params)
      numeraire eqs₂)
    (hdims : ∀ o, numeraire = some o → o.dims = []) (heqs : EqsWrittenOut coords numeraire eqs eqs₂) (byName byName₂ : Bool)
    (hv0 : solvedVars numeraire vars ≠ []) (hp0 : params ≠ [])
    (hv2 : writtenOut coords (solvedVars numeraire vars) ≠ []) (hp2 : writtenOut coords params ≠ [])
    (ref ref₂ : Dict Str (NDArray ℝ)) (hs : ModelState coords (solvedVars numeraire vars) params ref)
    (hs₂ : ModelState [] (writtenOut coords (solvedVars numeraire vars)) (writtenOut coords params) ref₂)
    (hsame : flatOf ref₂ (writtenOut coords (solvedVars numeraire vars ++ params)) =
      flatOf ref (solvedVars numeraire vars ++ params))
    (data data₂ : EqData ℝ) (hr : Represents (solvedVars numeraire vars) params ref data)
    (hr₂ : Represents (writtenOut coords (solvedVars numeraire vars)) (writtenOut coords params) ref₂ data₂) (tol : ℝ) :
    let check := checkForEquilibrium (fun x t => imbalances coords vars params numeraire eqs (x ++ t)) byName
      (solvedVars numeraire vars) params coords (eqs.flatMap (filledNames coords numeraire)) data tol
    let check₂ := checkForEquilibrium (fun x t => imbalances [] (writtenOut coords vars) (writtenOut coords params)
        numeraire eqs₂ (x ++ t))
      byName₂ (writtenOut coords (solvedVars numeraire vars)) (writtenOut coords params) []
      (eqs₂.flatMap (filledNames [] numeraire)) data₂ tol
    (check = .ok .found ∧ check₂ = .ok .found) ∨
    (∃ l l₂, check = .ok (.notFound l) ∧ check₂ = .ok (.notFound l₂) ∧ l₂.map Prod.snd = l.map Prod.snd) ∨
    (check = .error .valueError ∧ check₂ = .error .valueError) := by
  intro check check₂
  have hsc := solvedModel (numeraire := numeraire) h.scalar
  have hsc₂ := solvedModel (numeraire := numeraire) h₂.scalar
  rw [solvedVars_writtenOut h.scalar h.numeraire_mem hdims] at hsc₂
  have c1 : check = _ := check_eq _ byName coords _ params _ ref data tol hsc.known hsc.names hv0 hp0 hs hr _ _
    (pack_flat coords ref _ _ hv0 hp0 hs.data)
  have c2 : check₂ = _ := check_eq _ byName₂ [] _ _ _ ref₂ data₂ tol hsc₂.known hsc₂.names hv2
    hp2 hs₂ hr₂ _ _ (pack_flat [] ref₂ _ _ hv2 hp2 hs₂.data)
  rw [← flatOf_append] at c1 c2
  rw [← writtenOut_append, hsame, C109_equations h hdims heqs] at c2
  have hlen := filledNames_writtenOut heqs
  have hnil : eqs₂.flatMap (filledNames [] numeraire) = [] ↔
      eqs.flatMap (filledNames coords numeraire) = [] := by
    rw [← List.length_eq_zero_iff, ← List.length_eq_zero_iff, hlen]
  rw [c1, c2]
  unfold eqReport
  by_cases hlt : sumSq (imbalances coords vars params numeraire eqs
      (flatOf ref (solvedVars numeraire vars ++ params))) < tol
  · exact Or.inl ⟨if_pos hlt, if_pos hlt⟩
  · rw [if_neg hlt, if_neg hlt]
    by_cases hn : eqs.flatMap (filledNames coords numeraire) = []
    · exact Or.inr (Or.inr ⟨if_pos hn, if_pos (hnil.2 hn)⟩)
    · rw [if_neg hn, if_neg fun e => hn (hnil.1 e)]
      exact Or.inr (Or.inl ⟨_, _, rfl, rfl, flagged_rename _ _ _ hlen fun x => decide (tol < |x|)⟩)

end Verif
