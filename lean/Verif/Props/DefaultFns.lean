import Verif.Spec.FlatFns
import Verif.Lemmas.SymSmooth
import Verif.Props.NumbaFns
import Verif.Props.PytensorFns
import Verif.Props.SimulateConverges

/-!
# C97: what the optimizers are handed on the default and the numba back-end
-/

namespace Verif

open SymExpr Filter Topology

variable {coords : Coords} {vars params : List ModelObject} {setList : List Str → List Str}
  {uv up : Dict Str ModelObject} {eqs : List (SymExpr Str)} {F : SympyTensorFns}

/-- The residuals as a function of the variables: the values of the equations. -/
noncomputable def symResiduals (coords : Coords) (vars params : List ModelObject) (eqs : List (SymExpr Str))
    (theta : List ℝ) (u : Fin (totalSize coords vars) → ℝ) (i : Fin eqs.length) : ℝ :=
  eqs[i].eval (flatPoint (scalarNames coords (vars ++ params)) (List.ofFn u ++ theta))

/-- Every scalar is a smooth function of the flat vector of variables. -/
theorem contDiff_flatPoint {n : Nat} {r : WithTop ℕ∞} (N : List Str) (theta : List ℝ) (a : Str) :
    ContDiff ℝ r fun u : Fin n → ℝ => flatPoint N (List.ofFn u ++ theta) a := by
  unfold flatPoint
  by_cases h : N.idxOf a < n
  · have : (fun u : Fin n → ℝ => (List.ofFn u ++ theta).getD (N.idxOf a) 0) = fun u => u ⟨N.idxOf a, h⟩ := by
      funext u
      rw [List.getD_eq_getElem?_getD, List.getElem?_append_left (by simpa using h), List.getElem?_ofFn]
      simp [h]
    rw [this]
    exact contDiff_apply ℝ ℝ _
  · have : (fun u : Fin n → ℝ => (List.ofFn u ++ theta).getD (N.idxOf a) 0) = fun _ => theta.getD (N.idxOf a - n) 0 := by
      funext u
      rw [List.getD_eq_getElem?_getD, List.getElem?_append_right (by simpa using h), List.length_ofFn,
        List.getD_eq_getElem?_getD]
    rw [this]
    exact contDiff_const

theorem ofFn_update {n : Nat} (v : Fin n → ℝ) (k : Fin n) (t : ℝ) :
    List.ofFn (Function.update v k t) = (List.ofFn v).set k t := by
  apply List.ext_getElem
  · simp
  · intro i h1 h2
    rw [List.getElem_ofFn, List.getElem_set, List.getElem_ofFn]
    by_cases hi : (k : Nat) = i
    · subst hi
      simp
    · rw [if_neg hi, Function.update_of_ne]
      intro h
      exact hi (by rw [← h])

/-- The symbolic derivative is the partial derivative in the flat vector. -/
theorem partialD_eval (h : ScalarModel coords vars params) (theta : List ℝ)
    (ht : theta.length = totalSize coords params) (v : Fin (totalSize coords vars) → ℝ)
    (k : Fin (totalSize coords vars)) (n : Str) (hk : (scalarNames coords vars)[k.1]? = some n) (e : SymExpr Str)
    (hreg : Regular (flatPoint (scalarNames coords (vars ++ params)) (List.ofFn v ++ theta)) e) :
    partialD (fun u : Fin (totalSize coords vars) → ℝ =>
        e.eval (flatPoint (scalarNames coords (vars ++ params)) (List.ofFn u ++ theta))) k v =
      (diff n e).eval (flatPoint (scalarNames coords (vars ++ params)) (List.ofFn v ++ theta)) := by
  have hd : DifferentiableAt ℝ (fun u : Fin (totalSize coords vars) → ℝ =>
      e.eval (flatPoint (scalarNames coords (vars ++ params)) (List.ofFn u ++ theta))) v :=
    (contDiffAt_eval (n := 1) (env := fun (u : Fin (totalSize coords vars) → ℝ) =>
      flatPoint (scalarNames coords (vars ++ params)) (List.ofFn u ++ theta))
      (contDiff_flatPoint _ _) e hreg).differentiableAt (by norm_num)
  have h1 := hasDerivAt_flat h (List.ofFn v) theta (by simp) ht k n hk e _ (hasPartial_diff _ n e hreg)
  have hv : (List.ofFn v).getD k.1 0 = v k := by
    rw [List.getD_eq_getElem?_getD, List.getElem?_ofFn]
    simp
  rw [hv] at h1
  have h2 : HasDerivAt (fun t : ℝ => Function.update v k t) (Pi.single k 1) (v k) := hasDerivAt_update v k (v k)
  have h3 := hd.hasFDerivAt
  rw [← Function.update_eq_self k v] at h3
  have h4 := h3.comp_hasDerivAt (v k) h2
  rw [Function.update_eq_self] at h4
  have h5 : (fun t => e.eval (flatPoint (scalarNames coords (vars ++ params)) ((List.ofFn v).set k t ++ theta))) =
      (fun u : Fin (totalSize coords vars) → ℝ =>
        e.eval (flatPoint (scalarNames coords (vars ++ params)) (List.ofFn u ++ theta))) ∘
      fun t : ℝ => Function.update v k t := by
    funext t
    simp only [Function.comp, ofFn_update]
  rw [h5] at h1
  exact h4.unique h1

section
variable (h : ScalarModel coords vars params) (theta : List ℝ) (ht : theta.length = totalSize coords params)
  (v : Fin (totalSize coords vars) → ℝ)
  (hreg : ∀ e ∈ eqs, Regular (flatPoint (scalarNames coords (vars ++ params)) (List.ofFn v ++ theta)) e)

include hreg in
theorem symResiduals_contDiffAt {r : WithTop ℕ∞} : ContDiffAt ℝ r (symResiduals coords vars params eqs theta) v :=
  contDiffAt_pi.2 fun i => contDiffAt_eval (env := fun (u : Fin (totalSize coords vars) → ℝ) =>
    flatPoint (scalarNames coords (vars ++ params)) (List.ofFn u ++ theta)) (contDiff_flatPoint _ _) _
    (hreg _ (List.getElem_mem _))

theorem halfSq_symResiduals : halfSq (symResiduals coords vars params eqs theta) = fun u =>
    (squaredLoss eqs).eval (flatPoint (scalarNames coords (vars ++ params)) (List.ofFn u ++ theta)) := by
  funext u
  rw [(C37_objective eqs _).1]
  unfold halfSq symResiduals
  congr 1
  rw [← List.sum_ofFn]
  congr 1
  apply List.ext_getElem
  · simp
  · intro i h1 h2
    simp

include h ht hreg in
/-- The partial derivatives of half the sum of squares, and their partial derivatives. -/
theorem partialD_loss (k l : Fin (totalSize coords vars)) (a b : Str)
    (ha : (scalarNames coords vars)[k.1]? = some a) (hb : (scalarNames coords vars)[l.1]? = some b) :
    partialD (halfSq (symResiduals coords vars params eqs theta)) k v =
      (diff a (squaredLoss eqs)).eval (flatPoint (scalarNames coords (vars ++ params)) (List.ofFn v ++ theta)) ∧
    partialD (partialD (halfSq (symResiduals coords vars params eqs theta)) k) l v =
      (diff b (diff a (squaredLoss eqs))).eval
        (flatPoint (scalarNames coords (vars ++ params)) (List.ofFn v ++ theta)) := by
  have hev : ∀ᶠ u in 𝓝 v, ∀ e ∈ eqs,
      Regular (flatPoint (scalarNames coords (vars ++ params)) (List.ofFn u ++ theta)) e := by
    have : ∀ᶠ u in 𝓝 v, ∀ i : Fin eqs.length,
        Regular (flatPoint (scalarNames coords (vars ++ params)) (List.ofFn u ++ theta)) eqs[i] :=
      eventually_all.2 fun i => regular_eventually (env := fun (u : Fin (totalSize coords vars) → ℝ) =>
        flatPoint (scalarNames coords (vars ++ params)) (List.ofFn u ++ theta)) (contDiff_flatPoint _ _) _
        (hreg _ (List.getElem_mem _))
    filter_upwards [this] with u hu e he
    obtain ⟨i, hi, rfl⟩ := List.mem_iff_getElem.1 he
    exact hu ⟨i, hi⟩
  have h1 : ∀ u : Fin (totalSize coords vars) → ℝ, (∀ e ∈ eqs,
      Regular (flatPoint (scalarNames coords (vars ++ params)) (List.ofFn u ++ theta)) e) →
      partialD (halfSq (symResiduals coords vars params eqs theta)) k u =
      (diff a (squaredLoss eqs)).eval (flatPoint (scalarNames coords (vars ++ params)) (List.ofFn u ++ theta)) := by
    intro u hu
    rw [halfSq_symResiduals]
    exact partialD_eval h theta ht u k a ha _ (regular_squaredLoss hu)
  refine ⟨h1 v hreg, ?_⟩
  have h2 : partialD (partialD (halfSq (symResiduals coords vars params eqs theta)) k) l v =
      partialD (fun u : Fin (totalSize coords vars) → ℝ => (diff a (squaredLoss eqs)).eval
        (flatPoint (scalarNames coords (vars ++ params)) (List.ofFn u ++ theta))) l v := by
    unfold partialD
    rw [Filter.EventuallyEq.fderiv_eq]
    filter_upwards [hev] with u hu
    exact h1 u hu
  rw [h2]
  exact partialD_eval h theta ht v l b hb _ (SymExpr.Regular.diff a (regular_squaredLoss hreg))

end

/-- The names of the scalars, one for each element of the flat vector. -/
theorem scalarNames_ofFn (coords : Coords) (objs : List ModelObject) :
    ∃ N : Fin (totalSize coords objs) → Str, scalarNames coords objs = List.ofFn N ∧
      ∀ k, (scalarNames coords objs)[k.1]? = some (N k) := by
  have hl := length_scalarNames coords objs
  refine ⟨fun k => (scalarNames coords objs)[k.1]'(by rw [hl]; exact k.2), ?_, fun k => ?_⟩
  · apply List.ext_getElem
    · rw [List.length_ofFn, hl]
    · intro i h1 h2
      rw [List.getElem_ofFn]
  · rw [List.getElem?_eq_getElem]

theorem map_eq_ofFn {α β : Type} (l : List α) (f : α → β) : l.map f = List.ofFn fun i : Fin l.length => f l[i] := by
  apply List.ext_getElem
  · simp
  · intro i h1 h2
    simp

/-- **C97 (default back-end).**  Where every equation is regular, the functions the default back-end hands to
scipy are the values of the equations, half the sum of their squares, and the exact derivatives of these with
respect to the flat vector of variables. -/
theorem C97_default_functions (h : ScalarModel coords vars params)
    (huv : unpackGroup setList coords vars = .ok uv) (hup : unpackGroup setList coords params = .ok up)
    (hF : compileSympytensor ((vars ++ params).map ModelObject.name) coords uv up eqs = .ok F)
    (hclash : ∀ v ∈ vars, pointName v.name ∉ (vars ++ params).map ModelObject.name)
    (theta : List ℝ) (ht : theta.length = totalSize coords params) (v : Fin (totalSize coords vars) → ℝ)
    (hreg : ∀ e ∈ eqs, Regular (flatPoint (scalarNames coords (vars ++ params)) (List.ofFn v ++ theta)) e) :
    DerivativesAt (F.flat coords vars params) theta (symResiduals coords vars params eqs theta) v := by
  have hx : (List.ofFn v).length = totalSize coords vars := by simp
  obtain ⟨N, hN, hNk⟩ := scalarNames_ofFn coords vars
  obtain ⟨m, hp, hs, hhp, rfl⟩ := compile_shape h huv hup hF
  have hsys : ∀ e ∈ eqs, ∀ n ∈ e.atoms, n ∈ eqs.flatMap atoms := fun e he n hn' =>
    List.mem_flatMap.2 ⟨e, he, hn'⟩
  have w1 := wrap_graphs h m hs (vars.map ModelObject.name) eqs hsys (List.ofFn v) theta hx ht
  have w2 := wrap_matrix h m hs (vars.map ModelObject.name) _
    (atoms_jacobian (wrt := scalarNames coords vars) hsys) (List.ofFn v) theta hx ht
  have w3 := wrap_graphs h m hs (vars.map ModelObject.name) [squaredLoss eqs] (by
    intro e he n hn
    rw [List.mem_singleton] at he
    subst he
    exact atoms_squaredLoss eqs n hn) (List.ofFn v) theta hx ht
  have w4 := wrap_graphs h m hs (vars.map ModelObject.name) _
    (atoms_gradient (wrt := scalarNames coords vars)) (List.ofFn v) theta hx ht
  have w5 := wrap_matrix h m hs (vars.map ModelObject.name) _
    (atoms_jacobian (wrt := scalarNames coords vars) (atoms_gradient (wrt := scalarNames coords vars)))
    (List.ofFn v) theta hx ht
  have hd : DifferentiableAt ℝ (symResiduals coords vars params eqs theta) v :=
    (symResiduals_contDiffAt (r := 1) theta v hreg).differentiableAt (by norm_num)
  have hloss := fun k l => partialD_loss h theta ht v hreg k l (N k) (N l) (hNk k) (hNk l)
  refine ⟨?_, ?_, ?_, ?_, ?_, fun p => ?_⟩
  · refine Eq.trans w1 ?_
    rw [map_eq_ofFn]
    rfl
  · show Except.map _ (wrapForScipy (callGraphs _ _ [_]) _ _ _ _ _) = _
    rw [List.map_cons, List.map_nil] at w3
    rw [w3, halfSq_symResiduals]
    rfl
  · show Except.map _ (wrapForScipy (callMatrix _ _ _) _ _ _ _ _) = _
    dsimp only
    rw [w2]
    show Except.ok (rowsArray _ _) = _
    unfold rowsArray arrayOf
    congr 2
    · simp [makeJacobian]
    · congr 1
      unfold makeJacobian
      rw [List.map_map, map_eq_ofFn]
      congr 1
      funext i
      simp only [Function.comp]
      rw [hN, List.map_ofFn, List.map_ofFn]
      congr 1
      funext k
      exact (partialD_eval h theta ht v k (N k) (hNk k) _ (hreg _ (List.getElem_mem _))).symm
  · refine Eq.trans w4 ?_
    unfold makeGradient
    rw [List.map_map, hN, List.map_ofFn]
    congr 2
    funext k
    rw [← partialD_halfSq hd, (hloss k k).1]
    rfl
  · show Except.map _ (wrapForScipy (callMatrix _ _ _) _ _ _ _ _) = _
    dsimp only
    rw [w5]
    show Except.ok (rowsArray _ _) = _
    unfold rowsArray arrayOf
    have hl := length_scalarNames coords vars
    congr 2
    · simp [makeJacobian, makeGradient, hl]
    · congr 1
      unfold makeJacobian makeGradient
      rw [List.map_map, List.map_map, hN, List.map_ofFn]
      congr 1
      funext k
      simp only [Function.comp]
      rw [List.map_ofFn, List.map_ofFn]
      congr 1
      funext l
      exact (hloss k l).2.symm
  · obtain ⟨hm1, hm2⟩ := hessp_atoms (eqs := eqs) (scalarNames coords vars) hp hhp
    have w6 := wrap_hessp h m hs hclash hp hm1
      (fun e he i hi => by rw [← length_scalarNames]; exact hm2 e he i hi) (List.ofFn v) (List.ofFn p) theta hx
      (by simp) ht
    refine Eq.trans w6 ?_
    obtain ⟨hp2, hhp2, hl2, hv2⟩ := C37_hessp eqs (scalarNames coords vars)
    rw [hhp] at hhp2
    cases hhp2
    congr 1
    apply List.ext_getElem
    · rw [List.length_map, List.length_ofFn, hl2, length_scalarNames]
    · intro k h1 h2
      rw [List.length_ofFn] at h2
      rw [List.getElem_map, List.getElem_ofFn]
      obtain ⟨w, hw, hev⟩ := hv2 k ((scalarNames coords vars).map fun b => diff b (diff (N ⟨k, h2⟩) (squaredLoss eqs)))
        (by
          unfold makeJacobian makeGradient
          rw [List.map_map, List.getElem?_map, hNk ⟨k, h2⟩]
          rfl)
      rw [List.length_map] at h1
      have hw' : hp[k] = w := by
        rw [List.getElem?_eq_getElem h1] at hw
        exact Option.some.inj hw
      rw [hw', hev, hN, List.map_ofFn]
      rw [← List.sum_ofFn]
      congr 1
      apply List.ext_getElem
      · simp
      · intro l h3 h4
        rw [List.length_ofFn] at h4
        simp only [List.getElem_map, List.getElem_zipIdx, List.getElem_ofFn, Function.comp, zero_add]
        rw [(hloss ⟨k, h2⟩ ⟨l, h4⟩).2, List.getD_eq_getElem?_getD, List.getElem?_ofFn]
        simp [h4]

/-- **C97 (numba back-end).**  The same for the functions of the numba back-end (the Hessian-vector product, when
numba does not compile it; see `C75_hessp_refused`). -/
theorem C97_numba_functions_partial (h : ScalarModel coords vars params)
    (hn : NumbaNames (scalarNames coords (vars ++ params)))
    (hhp : "hess_point".toList ∉ scalarNames coords (vars ++ params))
    (huv : unpackGroup setList coords vars = .ok uv) (hup : unpackGroup setList coords params = .ok up)
    (hF : compileSympytensor ((vars ++ params).map ModelObject.name) coords uv up eqs = .ok F)
    (hclash : ∀ v ∈ vars, pointName v.name ∉ (vars ++ params).map ModelObject.name) :
    ∃ K, compileNumba (dkeys uv) eqs = .ok K ∧
      ∀ theta : List ℝ, theta.length = totalSize coords params → ∀ v : Fin (totalSize coords vars) → ℝ,
        (∀ e ∈ eqs, Regular (flatPoint (scalarNames coords (vars ++ params)) (List.ofFn v ++ theta)) e) →
        DerivativesAt (K.flat false (dkeys uv) (dkeys up)) theta (symResiduals coords vars params eqs theta) v := by
  obtain ⟨K, hK, hag⟩ := C75_backends_agree_partial h hn hhp hclash huv hup F hF
  refine ⟨K, hK, fun theta ht v hreg => ?_⟩
  obtain ⟨d1, d2, d3, d4, d5, d6⟩ := C97_default_functions h huv hup hF hclash theta ht v hreg
  have e := fun p : Fin (totalSize coords vars) → ℝ =>
    hag (List.ofFn v) (List.ofFn p) theta (by simp) (by simp) ht
  dsimp only at e
  obtain ⟨e1, e2, e3, e4, e5, -, -⟩ := e v
  refine ⟨e1.trans d1, ?_, ?_, e4.trans d4, ?_, fun p => ?_⟩
  · show Except.map _ (callNumba _ _ _ _ _) = _
    rw [e3]
    exact d2
  · show Except.map _ (callNumbaMatrix _ _ _ _ _) = _
    rw [e2]
    exact d3
  · show Except.map _ (callNumbaMatrix _ _ _ _ _) = _
    rw [e5]
    exact d5
  · obtain ⟨-, -, -, -, -, e6, -⟩ := e p
    exact e6.trans (d6 p)

/-- When numba compiles it, the Hessian-vector product of a model with variables is refused, so the numba functions
are not the derivatives of any residuals at any point. -/
theorem C97_numba_compiled_counterexample (K : NumbaFns) (vn pn : List Str) (theta : List ℝ) {n m : Nat} (hpos : 0 < n)
    (G : (Fin n → ℝ) → Fin m → ℝ) (v : Fin n → ℝ) : ¬ DerivativesAt (K.flat true vn pn) theta G v := by
  rintro ⟨-, -, -, -, -, h⟩
  have h1 : callNumbaHessp true vn pn K.hessp (List.ofFn v) (List.ofFn v) theta = _ := h v
  rw [C75_hessp_refused _ _ _ _ _ _ (by
    intro h0
    have := congrArg List.length h0
    simp at this
    omega)] at h1
  cases h1

/-- What the JAX and pytensor functions are where the residuals are smooth. -/
theorem HandsDerivatives.at {fns : OptimFns} {theta : List ℝ} {m : Nat}
    {G : (Fin (totalSize coords vars) → ℝ) → Fin m → ℝ} (h : HandsDerivatives coords vars params fns theta G)
    {v : Fin (totalSize coords vars) → ℝ} (hc : ContDiffAt ℝ 2 G v) :
    DerivativesAt (fns.flat coords vars params) theta G v := by
  obtain ⟨h1, h2, h3, h4⟩ := h v
  obtain ⟨h5, h6⟩ := h3 (hc.differentiableAt (by norm_num))
  obtain ⟨h7, h8⟩ := h4 hc
  exact ⟨h1, h2, h5, h6, h7, h8⟩

theorem eq_of_ofFn {n m m' : Nat} (G : (Fin n → ℝ) → Fin m → ℝ) (G' : (Fin n → ℝ) → Fin m' → ℝ)
    (h : ∀ u, List.ofFn (G u) = List.ofFn (G' u)) (P : ∀ k : Nat, ((Fin n → ℝ) → Fin k → ℝ) → Prop) (hP : P m G) :
    P m' G' := by
  have hm : m = m' := by
    have := congrArg List.length (h 0)
    simpa using this
  subst hm
  have : G = G' := by
    funext u
    exact List.ofFn_injective (h u)
  rw [← this]
  exact hP

/-- **C97 (all back-ends).**  A model written once with array texts and once with indexed texts: at every point
where its scalar equations are regular, the six functions of the JAX back-end, of the pytensor back-end (compiled
from the array texts), of the default back-end and of the numba back-end (compiled from the indexed texts) all
return the residuals demanded by the indexed equations, half the sum of their squares, and the exact derivatives of
these. -/
theorem C97_all_back_ends_partial (jlib : JaxLib) (hj : JaxExact jlib) (plib : PtLib) (hplib : PtExact plib)
    {eqs : List TextEq} (h : ArrayModel coords vars params eqs) {es : List PExpr} {ps : List ParsedEq}
    (hes : List.Forall₂ (fun q e => Reads (normalizeEq q.arrText) e) eqs es)
    (hps : List.Forall₂ (ParsesTo coords (vars ++ params)) eqs ps)
    (hpt : ∀ v ∈ vars, pointName v.name ∉ (vars ++ params).map ModelObject.name)
    (hnn : NumbaNames (scalarNames coords (vars ++ params)))
    (hhp : "hess_point".toList ∉ scalarNames coords (vars ++ params))
    (hv : vars ≠ []) (hp : params ≠ []) (hpos : 0 < totalSize coords vars)
    {ses : List (SymExpr Str)} {F : SympyTensorFns}
    (hF : BuiltFrom coords vars params none (List.zipWith indexedEq eqs ps) ses F) :
    ∃ f fns m K, compileText coords (vars ++ params) (eqs.map fun q => q.name.text) es = .ok f ∧
      compileJaxFns jlib coords vars params f = .ok fns ∧
      unpackedEquationNames (eqs.map fun q => q.name.text) coords = .ok m ∧
      compileNumba (scalarNames coords vars) ses = .ok K ∧
      ∀ (theta : List ℝ) (v : Fin (totalSize coords vars) → ℝ), theta.length = totalSize coords params →
        (∀ e ∈ ses, Regular (flatPoint (scalarNames coords (vars ++ params)) (List.ofFn v ++ theta)) e) →
        ∃ (r : Nat) (G : (Fin (totalSize coords vars) → ℝ) → Fin r → ℝ),
          (∀ u, List.ofFn (G u) = (List.zipWith indexedEq eqs ps).flatMap
            (demanded coords [] (vars ++ params) (List.ofFn u ++ theta))) ∧
          ∀ fl ∈ [fns.flat coords vars params,
              (compilePytensorFns plib vars params (totalSize coords vars) m.length f).flat coords vars params,
              F.flat coords vars params, K.flat false (scalarNames coords vars) (scalarNames coords params)],
            DerivativesAt fl theta G v := by
  obtain ⟨f, fns, hf, hfns, hjax⟩ := C97_texts jlib hj h hes hps hpt hv hp hpos
  obtain ⟨f', m, hf', hm, hptn⟩ := C97_texts_pytensor plib hplib h hes hps hpt hv hpos
  rw [hf] at hf'
  cases hf'
  have hvals := hF.values (indexed_model h hps)
  obtain ⟨setList, _, _, _, uv, up, _, -, -, -, huv, hup, -, -, hFc⟩ := hF
  rw [solved_without_numeraire] at hFc
  simp only [solved_without_numeraire, imbalances, Option.toList_none, List.map_nil] at hvals
  obtain ⟨K, hK, hnum⟩ := C97_numba_functions_partial h.scalar hnn hhp huv hup hFc hpt
  obtain ⟨hk1, hk2⟩ := dkeys_unpacked h.scalar huv hup
  rw [hk1, hk2] at hnum
  rw [hk1] at hK
  refine ⟨f, fns, m, K, hf, hfns, hm, hK, fun theta v ht hreg => ?_⟩
  have hG : ∀ u, List.ofFn (symResiduals coords vars params ses theta u) = (List.zipWith indexedEq eqs ps).flatMap
      (demanded coords [] (vars ++ params) (List.ofFn u ++ theta)) := fun u => by
    rw [hvals, map_eq_ofFn]
    rfl
  refine ⟨_, symResiduals coords vars params ses theta, hG, ?_⟩
  have hc : ContDiffAt ℝ 2 (symResiduals coords vars params ses theta) v := symResiduals_contDiffAt theta v hreg
  obtain ⟨mj, Gj, hGj, hdj⟩ := hjax theta ht
  obtain ⟨Gp, hGp, hdp⟩ := hptn theta ht
  intro fl hfl
  simp only [List.mem_cons, List.not_mem_nil, or_false] at hfl
  rcases hfl with rfl | rfl | rfl | rfl
  · exact (eq_of_ofFn Gj _ (fun u => by rw [hGj, hG])
      (fun k G => HandsDerivatives coords vars params fns theta G) hdj).at hc
  · exact (eq_of_ofFn Gp _ (fun u => by rw [hGp, hG])
      (fun k G => HandsDerivatives coords vars params _ theta G) hdp).at hc
  · exact C97_default_functions h.scalar huv hup hFc hpt theta ht v hreg
  · exact hnum theta ht v hreg

/-! ## An example -/

/-- The scalar equations of the model `x[i] = A[i] * y`, `y = sum of x`. -/
theorem baBuilt : ∃ ses F, BuiltFrom scCoords baVars baParams none (List.zipWith indexedEq baEqs baParsed) ses F ∧
    ∀ env : Str → ℝ, ∀ e ∈ ses, Regular env e := by
  refine ⟨_, _, ⟨id, id, id, id, _, _, _, fun _ _ => Iff.rfl, fun _ _ => Iff.rfl, fun _ _ => Iff.rfl, rfl, rfl,
    rfl, rfl, rfl⟩, ?_⟩
  intro env e he
  rcases List.mem_cons.1 he with rfl | he
  · simp [Regular]
  rcases List.mem_cons.1 he with rfl | he
  · simp [Regular]
  rcases List.mem_cons.1 he with rfl | he
  · simp [Regular]
  exact absurd he (List.not_mem_nil)

/-- The numba functions of the example, compiled, are refused at every point. -/
example : ∃ ses K, compileNumba (scalarNames scCoords baVars) ses = .ok K ∧ ∀ (theta : List ℝ)
    (G : (Fin 3 → ℝ) → Fin 3 → ℝ) (v : Fin 3 → ℝ),
    ¬ DerivativesAt (K.flat true (scalarNames scCoords baVars) (scalarNames scCoords baParams)) theta G v := by
  obtain ⟨ses, F, hF, -⟩ := baBuilt
  obtain ⟨hp, hh, hK⟩ := compileNumba_ok (scalarNames scCoords baVars) ses
  exact ⟨ses, _, hK, fun theta G v => C97_numba_compiled_counterexample _ _ _ theta (by norm_num) G v⟩

/-- All four back-ends hand over the same, at every point. -/
example : ∃ es f fns m K ses F, compileText scCoords (baVars ++ baParams) (baEqs.map fun q => q.name.text) es = .ok f ∧
    compileJaxFns exactLib scCoords baVars baParams f = .ok fns ∧
    compileNumba (scalarNames scCoords baVars) ses = .ok K ∧
    ∀ (theta : List ℝ) (v : Fin (totalSize scCoords baVars) → ℝ), theta.length = totalSize scCoords baParams →
      ∃ (r : Nat) (G : (Fin (totalSize scCoords baVars) → ℝ) → Fin r → ℝ),
        ∀ fl ∈ [fns.flat scCoords baVars baParams,
            (compilePytensorFns exactPt baVars baParams (totalSize scCoords baVars) m f).flat scCoords baVars baParams,
            SympyTensorFns.flat F scCoords baVars baParams,
            K.flat false (scalarNames scCoords baVars) (scalarNames scCoords baParams)],
          DerivativesAt fl theta G v := by
  obtain ⟨⟨es, hes⟩, -⟩ := C76_texts_parse_partial baModel
  obtain ⟨ses, F, hF, hreg⟩ := baBuilt
  obtain ⟨f, fns, m, K, h1, h2, -, h4, h5⟩ := C97_all_back_ends_partial exactLib exactLib_exact exactPt exactPt_exact
    baModel hes baParses (by decide +kernel) (by
      refine ⟨?_, ?_, ?_, ?_, ?_⟩ <;> decide +kernel) (by decide +kernel) (by simp [baVars]) (by simp [baParams])
    (by decide +kernel) hF
  refine ⟨es, f, fns, m.length, K, ses, F, h1, h2, h4, fun theta v ht => ?_⟩
  obtain ⟨r, G, -, hG⟩ := h5 theta v ht fun e he => hreg _ e he
  exact ⟨r, G, hG⟩

end Verif
