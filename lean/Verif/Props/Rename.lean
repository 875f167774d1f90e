import Verif.Props.Relabel
import Verif.Lemmas.Rename

/-!
# C105: names do not matter
-/

namespace Verif

open SymExpr

theorem pickAt_range_self (n : Nat) (x : List ℝ) (hx : x.length = n) : pickAt 0 (List.range n) x = x := by
  subst hx
  apply List.ext_getElem?
  intro i
  rcases Nat.lt_or_ge i x.length with hi | hi
  · rw [getElem?_pickAt 0 _ x i i (by simp [hi]), List.getElem?_eq_getElem hi]
    simp [List.getD_eq_getElem?_getD, hi]
  · rw [List.getElem?_eq_none hi, List.getElem?_eq_none (by rw [length_pickAt, List.length_range]; exact hi)]

section
variable (r : Renaming) {coords : Coords}

theorem flatOf_rename {d d₂ : Dict Str (NDArray ℝ)} (objs : List ModelObject)
    (h : ∀ o ∈ objs, dget d₂ (r.object o.name) = dget d o.name) : flatOf d₂ (objs.map r.obj) = flatOf d objs := by
  unfold flatOf
  rw [List.map_map]
  congr 1
  refine List.map_congr_left fun o ho => ?_
  show ((dget d₂ (r.object o.name)).map NDArray.data).getD [] = _
  rw [h o ho]

theorem arrays_of_flatOf {d d₂ : Dict Str (NDArray ℝ)} (objs : List ModelObject)
    (hd : ∀ o ∈ objs, DataFor coords d o) (hd₂ : ∀ o ∈ objs, DataFor (r.coords coords) d₂ (r.obj o))
    (h : flatOf d₂ (objs.map r.obj) = flatOf d objs) : ∀ o ∈ objs, dget d₂ (r.object o.name) = dget d o.name := by
  induction objs with
  | nil => intro o ho; cases ho
  | cons o objs ih =>
    obtain ⟨a, a1, a2, a3⟩ := hd o (by simp)
    obtain ⟨a', b1, b2, b3⟩ := hd₂ o (by simp)
    rw [specShape_rename] at b2
    have b1' : dget d₂ (r.object o.name) = some a' := b1
    have e1 : flatOf d (o :: objs) = a.data ++ flatOf d objs := by
      unfold flatOf
      rw [List.map_cons, List.flatten_cons, a1]
      rfl
    have e2 : flatOf d₂ ((o :: objs).map r.obj) = a'.data ++ flatOf d₂ (objs.map r.obj) := by
      unfold flatOf
      rw [List.map_cons, List.map_cons, List.flatten_cons, b1]
      rfl
    rw [e1, e2] at h
    have hlen : a'.data.length = a.data.length := by
      have h1 : a.data.length = a.shape.prod := a3
      have h2 : a'.data.length = a'.shape.prod := b3
      rw [h1, h2, a2, b2]
    obtain ⟨g1, g2⟩ := List.append_inj h hlen
    intro x hx
    rcases List.mem_cons.1 hx with rfl | hx
    · rw [a1, b1']
      congr 1
      cases a; cases a'
      simp only [NDArray.mk.injEq]
      exact ⟨b2.trans a2.symm, g1⟩
    · exact ih (fun o ho => hd o (by simp [ho])) (fun o ho => hd₂ o (by simp [ho])) g2 x hx

end

variable {coords : Coords} {vars params : List ModelObject} {numeraire : Option ModelObject} {eqs : List IndexedEq}

theorem filledNames_rename (r : Renaming) (eqs : List IndexedEq) :
    ((eqs.map r.equation).flatMap (filledNames (r.coords coords) (numeraire.map r.obj))).length =
      (eqs.flatMap (filledNames coords numeraire)).length := by
  rw [List.flatMap_map, List.length_flatMap, List.length_flatMap]
  congr 1
  refine List.map_congr_left fun q _ => ?_
  unfold filledNames
  rw [List.length_map, List.length_map, fixed_rename]
  show (product (List.map _ (freeDims _ _ (r.expr q.lhs) (r.expr q.rhs)))).length = _
  rw [freeDims_rename, List.map_map]
  have : (labelsOf (r.coords coords) ∘ r.dim) = List.map r.label ∘ labelsOf coords := by
    funext d
    exact labelsOf_rename r d
  rw [this, ← List.map_map, product_map, List.length_map]

theorem flagged_rename (a b : List Str) (l : List ℝ) (h : b.length = a.length) (p : ℝ → Bool) :
    ((b.zip l).filter fun q => p q.2).map Prod.snd = ((a.zip l).filter fun q => p q.2).map Prod.snd := by
  induction l generalizing a b with
  | nil => simp
  | cons x l ih =>
    cases a with
    | nil =>
      have : b = [] := List.length_eq_zero_iff.1 h
      rw [this]
    | cons y a =>
      cases b with
      | nil => simp at h
      | cons z b =>
        have ih' := ih a b (by simpa using h)
        simp only [List.zip_cons_cons, List.filter_cons]
        by_cases hp : p x
        · simp only [hp, if_true, List.map_cons, ih']
        · simp only [hp, Bool.false_eq_true, if_false, ih']

/-- **C105 (equations).**  The equations of a model in which objects, dims and labels have been renamed are off by the
same amounts, one by one, at the same arrays; so it has the same solutions. -/
theorem C105_equations (r : Renaming) (h : IndexedModel coords vars params numeraire eqs)
    (h₂ : IndexedModel (r.coords coords) (vars.map r.obj) (params.map r.obj) (numeraire.map r.obj)
      (eqs.map r.equation)) (s : List ℝ) :
    imbalances (r.coords coords) (vars.map r.obj) (params.map r.obj) (numeraire.map r.obj) (eqs.map r.equation) s =
      imbalances coords vars params numeraire eqs s :=
  imbalances_rename r h (fun d l hl => (labels_readBack h₂.label_names d l hl).1) s

/-- **C105 (simulations).**  A model and the model in which its objects, dims and labels have been renamed, with the
equations renamed accordingly, are given the same request: the same arrays under the new names.  Let the Euler function
of the first return, and let the powers and logarithms of both be defined at the points at which it solved for a
direction.  Then `simulate` with Euler steps only returns for both, all states are the same, and every array of the final
state is found under its new name. -/
theorem C105_simulate (r : Renaming) {es es₂ : List (SymExpr Str)} {b b₂ : EulerBackend} {dx dx₂ : StepSolve ℝ}
    {env env₂ : SamEnv ℝ (List (NDArray ℝ))}
    (hm : BuiltOn coords vars params numeraire eqs es b dx env)
    (hm₂ : BuiltOn (r.coords coords) (vars.map r.obj) (params.map r.obj) (numeraire.map r.obj) (eqs.map r.equation)
      es₂ b₂ dx₂ env₂) (hb : b₂.rk4 = b.rk4)
    (hsquare : es.length = totalSize coords (solvedVars numeraire vars))
    (fl : SimFlags) (add mul : NDArray ℝ → NDArray ℝ → NDArray ℝ) (h h₂ : Heap (NDArray ℝ)) (c c₂ : SimCall ℝ)
    (hr : RequestOK coords (solvedVars numeraire vars) params add mul h c)
    (hr₂ : RequestOK (r.coords coords) ((solvedVars numeraire vars).map r.obj) (params.map r.obj) add mul h₂ c₂)
    (hinit : ∀ o ∈ solvedVars numeraire vars ++ params, seen h₂ c₂.initial (r.object o.name) = seen h c.initial o.name)
    (hwant : ∀ o ∈ params, wantedValue add mul h₂ c₂ (r.object o.name) = wantedValue add mul h c o.name)
    (heul : c.useEuler = true) (hopt : c.useOptimizer = false) (h1 : 1 ≤ c.nIterEuler)
    (heul₂ : c₂.useEuler = true) (hopt₂ : c₂.useOptimizer = false) (hn₂ : c₂.nIterEuler = c.nIterEuler)
    (outs : List (NDArray ℝ))
    (hrun : env.euler (derefDict h c.initial) (wantedFlat add mul h c params) c.nIterEuler = .ok outs)
    (hreg : ∀ t, t < c.nIterEuler → ∀ s ∈ b.points dx (totalSize coords (solvedVars numeraire vars))
        (b.stateAfter (solvedVars numeraire vars) params (derefDict h c.initial) outs t)
        (stepVec c.nIterEuler (wantedFlat add mul h c params) (initialFlat h c params)),
      (∀ e ∈ es, Regular (flatPoint (scalarNames coords (solvedVars numeraire vars ++ params)) s) e) ∧
      ∀ e ∈ es₂, Regular (flatPoint (scalarNames (r.coords coords)
        ((solvedVars numeraire vars ++ params).map r.obj)) s) e) :
    ∃ e e₂ outs₂,
      simulateCompute (simEnvOf env (fun _ => false) fl add mul) h c = .ok ⟨some e, none, none, false⟩ ∧
      simulateCompute (simEnvOf env₂ (fun _ => false) fl add mul) h₂ c₂ = .ok ⟨some e₂, none, none, false⟩ ∧
      env₂.euler (derefDict h₂ c₂.initial) (wantedFlat add mul h₂ c₂ (params.map r.obj)) c.nIterEuler = .ok outs₂ ∧
      (∀ t, t ≤ c.nIterEuler →
        b₂.stateAfter ((solvedVars numeraire vars).map r.obj) (params.map r.obj) (derefDict h₂ c₂.initial) outs₂ t =
          b.stateAfter (solvedVars numeraire vars) params (derefDict h c.initial) outs t) ∧
      ∀ o ∈ solvedVars numeraire vars ++ params, DataFor coords e.start o ∧
        dget e₂.start (r.object o.name) = dget e.start o.name := by
  have hcount := hm.count
  have hcount₂ := hm₂.count
  have hmod := (hm.stepsFrom hsquare).1
  have hsize := totalSize_rename r (coords := coords) (solvedVars numeraire vars)
  have hread₂ : ∀ d, ∀ l ∈ labelsOf (r.coords coords) d, ReadsBack l := by
    have : ∀ d ls, dget (r.coords coords) d = some ls → ∀ (k : Nat) (l : Str), ls[k]? = some l →
        FitLabel ls.length k l ∧ '<' ∉ l := by
      rcases hm₂ with ⟨A, B, -, hg⟩ | ⟨-, -, order, hg⟩
      · exact hg.model.label_names
      · exact hg.model.label_names
    exact fun d l hl => (labels_readBack this d l hl).1
  have himb := imbalances_rename r hmod hread₂
  have hsame : es₂.length = es.length := by
    rw [hcount, hcount₂, ← length_imbalances _ (vars.map r.obj) (params.map r.obj) (numeraire.map r.obj) _ [],
      himb, length_imbalances]
  obtain ⟨-, dx', A, B, hpts, hs⟩ := hm.stepsFrom hsquare
  simp only [← hpts] at hreg
  clear hm hpts dx
  rename' dx' => dx
  have hst₂ := hm₂.stepsFrom (by rw [hsame, hsquare, solvedVars_rename, hsize])
  rw [solvedVars_rename] at hst₂
  obtain ⟨-, dx₂', A₂, B₂, -, hs₂⟩ := hst₂
  clear hm₂ dx₂
  rename' dx₂' => dx₂
  obtain ⟨hem, hce, hve, hpe, hcomp, hsteps, hsolve, hder⟩ := id hs
  obtain ⟨hem₂, hce₂, hve₂, hpe₂, hcomp₂, hsteps₂, hsolve₂, hder₂⟩ := id hs₂
  have hlen := hs.lenOK
  have hlen₂ := hs₂.lenOK
  clear hs hs₂
  generalize solvedVars numeraire vars = vs at *
  subst hve hpe
  have hce' := hce
  subst hce'
  rw [← hce₂, ← hve₂, ← hpe₂] at hr₂
  rw [← hce₂, ← hve₂, ← hpe₂] at hem₂ hlen₂
  obtain ⟨hcall, hin, hsim⟩ := simulate_euler_only env b _ hsteps hem hlen hcomp fl add mul h c hr heul hopt h1
  obtain ⟨hcall₂, hin₂, hsim₂⟩ := simulate_euler_only env₂ b₂ _ hsteps₂ hem₂ hlen₂ hcomp₂ fl add mul h₂ c₂ hr₂
    heul₂ hopt₂ (by rw [hn₂]; exact h1)
  rw [hce₂, hve₂, hpe₂] at hcall₂ hsim₂
  rw [hve₂, hpe₂] at hin₂
  rw [hn₂] at hsim₂
  rw [← hin env.parameters (by simp +contextual)] at hreg
  rw [hsteps] at hrun
  dsimp only at hrun
  obtain ⟨e, g1, -, g3, g4⟩ := hsim outs hrun
  have hini : ∀ objs, (∀ o ∈ objs, o ∈ env.variables ++ env.parameters) →
      flatOf (derefDict h₂ c₂.initial) (objs.map r.obj) = flatOf (derefDict h c.initial) objs := by
    intro objs ho
    rw [hin objs ho, hin₂ (objs.map r.obj) (by
      intro o hm
      obtain ⟨o', ho', rfl⟩ := List.mem_map.1 hm
      rw [← List.map_append]
      exact List.mem_map_of_mem (ho o' ho'))]
    unfold initialFlat
    rw [List.flatMap_map, List.flatMap_def, List.flatMap_def]
    congr 1
    refine List.map_congr_left fun o hm => ?_
    show ((seen h₂ c₂.initial (r.object o.name)).map NDArray.data).getD [] = _
    rw [hinit o (ho o hm)]
  have hwf : wantedFlat add mul h₂ c₂ (env.parameters.map r.obj) = wantedFlat add mul h c env.parameters := by
    unfold wantedFlat
    rw [List.flatMap_map, List.flatMap_def, List.flatMap_def]
    congr 1
    refine List.map_congr_left fun o hm => ?_
    show ((wantedValue add mul h₂ c₂ (r.object o.name)).map NDArray.data).getD [] = _
    rw [hwant o hm]
  have lx := (flatOf_spec env.coords (derefDict h c.initial) env.variables fun o ho => hcall.shaped o (by simp [ho])).1
  have lt := (flatOf_spec env.coords (derefDict h c.initial) env.parameters fun o ho => hcall.shaped o (by simp [ho])).1
  obtain ⟨outs₂, hrun₂, hst⟩ := runs_placed (totalSize_rename r env.variables) (totalSize_rename r env.parameters)
    (List.Perm.refl _) (List.Perm.refl _) b b₂ hb dx dx₂ _ _ _ _ A B A₂ B₂ hsolve hsolve₂ hder hder₂
    ⟨1, by simp, fun x t hx ht => by
      rw [pickAt_range_self _ x hx, pickAt_range_self _ t ht, himb, Matrix.one_mulVec]⟩
    (derefDict h c.initial) (derefDict h₂ c₂.initial) _ _ c.nIterEuler hcall hcall₂
    (by rw [hini _ (by simp +contextual), pickAt_range_self _ _ lx])
    (by rw [hini _ (by simp +contextual), pickAt_range_self _ _ lt])
    (by rw [hwf, pickAt_range_self _ _ hcall.final]) outs hrun
    (by
      intro t ht s hs
      refine ⟨(hreg t ht s hs).1, fun x y he hx hy => ?_⟩
      rw [pickAt_range_self _ x hx, pickAt_range_self _ y hy, ← he, ← List.map_append]
      exact (hreg t ht s hs).2)
  obtain ⟨e₂, k1, -, k3, k4⟩ := hsim₂ outs₂ hrun₂
  have hall : ∀ t, t ≤ c.nIterEuler →
      b₂.stateAfter (env.variables.map r.obj) (env.parameters.map r.obj) (derefDict h₂ c₂.initial) outs₂ t =
        b.stateAfter env.variables env.parameters (derefDict h c.initial) outs t := by
    intro t ht
    obtain ⟨x, y, hx, hy, e1, e2⟩ := hst t ht
    rw [e1, e2, pickAt_range_self _ x hx, pickAt_range_self _ y hy]
  refine ⟨e, e₂, outs₂, g1, k1, ?_, hall, ?_⟩
  · rw [hsteps₂, hce₂, hve₂, hpe₂]
    exact hrun₂
  · rw [hall _ le_rfl, ← g4, ← List.map_append] at k4
    refine fun o ho => ⟨g3 o ho, ?_⟩
    exact arrays_of_flatOf r _ g3 (fun o ho => k3 _ (by
      rw [← List.map_append]; exact List.mem_map_of_mem ho)) k4 o ho

/-- **C105 (objective).**  The objective that the minimizer of the default back-end is given is the same function. -/
theorem C105_objective (r : Renaming) {F F₂ : SympyTensorFns} (hF : BuiltFns coords vars params numeraire eqs F)
    (hF₂ : BuiltFns (r.coords coords) (vars.map r.obj) (params.map r.obj) (numeraire.map r.obj) (eqs.map r.equation) F₂)
    (h : IndexedModel coords vars params numeraire eqs)
    (h₂ : IndexedModel (r.coords coords) (vars.map r.obj) (params.map r.obj) (numeraire.map r.obj)
      (eqs.map r.equation)) (vn vn₂ : List Str) (x t : List ℝ)
    (hx : x.length = totalSize coords (solvedVars numeraire vars)) (ht : t.length = totalSize coords params) :
    wrapForScipy (callGraphs (((solvedVars numeraire vars ++ params).map r.obj).map ModelObject.name) vn₂ [F₂.loss])
        ((solvedVars numeraire vars).map r.obj) (params.map r.obj) (r.coords coords) x t =
      wrapForScipy (callGraphs ((solvedVars numeraire vars ++ params).map ModelObject.name) vn [F.loss])
        (solvedVars numeraire vars) params coords x t := by
  have e₂ := hF₂.loss h₂ vn₂ x t (by rw [solvedVars_rename, totalSize_rename, hx]) (by rw [totalSize_rename, ht])
  rw [solvedVars_rename, ← List.map_append] at e₂
  rw [e₂, hF.loss h vn x t hx ht, C105_equations r h h₂]

/-- **C105 (equilibrium check).**  `check_for_equilibrium` gives the same verdict at the same arrays, and flags as many
equations, with the same errors in the same order. -/
theorem C105_check (r : Renaming) (h : IndexedModel coords vars params numeraire eqs)
    (h₂ : IndexedModel (r.coords coords) (vars.map r.obj) (params.map r.obj) (numeraire.map r.obj)
      (eqs.map r.equation)) (byName byName₂ : Bool)
    (hv0 : solvedVars numeraire vars ≠ []) (hp0 : params ≠ [])
    (ref ref₂ : Dict Str (NDArray ℝ)) (hs : ModelState coords (solvedVars numeraire vars) params ref)
    (hs₂ : ModelState (r.coords coords) ((solvedVars numeraire vars).map r.obj) (params.map r.obj) ref₂)
    (hsame : ∀ o ∈ solvedVars numeraire vars ++ params, dget ref₂ (r.object o.name) = dget ref o.name)
    (data data₂ : EqData ℝ) (hr : Represents (solvedVars numeraire vars) params ref data)
    (hr₂ : Represents ((solvedVars numeraire vars).map r.obj) (params.map r.obj) ref₂ data₂) (tol : ℝ) :
    let check := checkForEquilibrium (fun x t => imbalances coords vars params numeraire eqs (x ++ t)) byName
      (solvedVars numeraire vars) params coords (eqs.flatMap (filledNames coords numeraire)) data tol
    let check₂ := checkForEquilibrium (fun x t => imbalances (r.coords coords) (vars.map r.obj) (params.map r.obj)
        (numeraire.map r.obj) (eqs.map r.equation) (x ++ t))
      byName₂ ((solvedVars numeraire vars).map r.obj) (params.map r.obj) (r.coords coords)
      ((eqs.map r.equation).flatMap (filledNames (r.coords coords) (numeraire.map r.obj))) data₂ tol
    (check = .ok .found ∧ check₂ = .ok .found) ∨
    (∃ l l₂, check = .ok (.notFound l) ∧ check₂ = .ok (.notFound l₂) ∧ l₂.map Prod.snd = l.map Prod.snd) ∨
    (check = .error .valueError ∧ check₂ = .error .valueError) := by
  intro check check₂
  have hsc := solvedModel (numeraire := numeraire) h.scalar
  have hsc₂ := solvedModel (numeraire := numeraire.map r.obj) h₂.scalar
  rw [solvedVars_rename] at hsc₂
  have c1 : check = _ := check_eq _ byName coords _ params _ ref data tol hsc.known hsc.names hv0 hp0 hs hr _ _
    (pack_flat coords ref _ _ hv0 hp0 hs.data)
  have hv0' : (solvedVars numeraire vars).map r.obj ≠ [] := by simpa using hv0
  have hp0' : params.map r.obj ≠ [] := by simpa using hp0
  have c2 : check₂ = _ := check_eq _ byName₂ (r.coords coords) _ _ _ ref₂ data₂ tol hsc₂.known hsc₂.names hv0'
    hp0' hs₂ hr₂ _ _ (pack_flat (r.coords coords) ref₂ _ _ hv0' hp0' hs₂.data)
  rw [← flatOf_append] at c1 c2
  rw [← List.map_append, flatOf_rename r _ hsame, C105_equations r h h₂] at c2
  have hlen := filledNames_rename (coords := coords) (numeraire := numeraire) r eqs
  have hnil : (eqs.map r.equation).flatMap (filledNames (r.coords coords) (numeraire.map r.obj)) = [] ↔
      eqs.flatMap (filledNames coords numeraire) = [] := by
    rw [← List.length_eq_zero_iff, ← List.length_eq_zero_iff, hlen]
  rw [c1, c2]
  unfold eqReport
  by_cases hlt : sumSq (imbalances coords vars params numeraire eqs
      (flatOf ref (solvedVars numeraire vars ++ params))) < tol
  · exact Or.inl ⟨if_pos hlt, if_pos hlt⟩
  · rw [if_neg hlt, if_neg hlt]
    by_cases hn : eqs.flatMap (filledNames coords numeraire) = []
    · exact Or.inr (Or.inr ⟨if_pos hn, if_pos (hnil.2 hn)⟩)
    · rw [if_neg hn, if_neg fun e => hn (hnil.1 e)]
      exact Or.inr (Or.inl ⟨_, _, rfl, rfl, flagged_rename _ _ _ hlen fun x => decide (tol < |x|)⟩)

end Verif
