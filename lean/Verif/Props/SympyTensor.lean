import Verif.Lemmas.SympyTensor2
import Verif.Props.NumbaCode

/-!
# C70: the functions of the default backend

The functions compiled by the default backend, called through the scipy wrapper with flat vectors: the
residuals are the values of the model's equations at the point in which the scalar at position `k` of
the flat vector has the value at position `k`; the other functions are the derivatives of that function
and of half its squared norm.
-/

namespace Verif

open SymExpr

variable {coords : Coords} {vars params : List ModelObject} {setList : List Str → List Str}
  {uv up : Dict Str ModelObject} {eqs : List (SymExpr Str)} {F : SympyTensorFns}

/-- Compilation succeeds exactly if there is an equation, every symbol in the equations is a scalar of
some variable or parameter, and every variable and every parameter occurs in some equation; otherwise it
raises `ValueError`. -/
theorem C70_compiles_iff (h : ScalarModel coords vars params)
    (huv : unpackGroup setList coords vars = .ok uv) (hup : unpackGroup setList coords params = .ok up)
    (eqs : List (SymExpr Str)) :
    let r := compileSympytensor ((vars ++ params).map ModelObject.name) coords uv up eqs
    ((∃ F, r = .ok F) ↔ eqs ≠ [] ∧
      (∀ e ∈ eqs, ∀ n, Mentions n e → n ∈ scalarNames coords (vars ++ params)) ∧
      ∀ o ∈ vars ++ params, ∃ e ∈ eqs, ∃ n ∈ scalarNames coords [o], Mentions n e) ∧
    ((∃ F, r = .ok F) ∨ r = .error .valueError) := by
  intro r
  by_cases hnames : ∀ n ∈ eqs.flatMap atoms, n ∈ scalarNames coords (vars ++ params)
  · have hn' : ∀ e ∈ eqs, ∀ n, Mentions n e → n ∈ scalarNames coords (vars ++ params) := fun e he n hn =>
      hnames n (List.mem_flatMap.2 ⟨e, he, (mem_atoms_iff n e).2 hn⟩)
    obtain ⟨m, hm, hs⟩ := packedMap_slots h huv hup _ hnames
    obtain ⟨hp, hhp, -⟩ := C37_hessp eqs (dkeys uv)
    by_cases hne : eqs = []
    · have hr : r = .error .valueError := by
        show compileSympytensor _ _ _ _ _ = _
        unfold compileSympytensor
        rw [hm]
        simp only [bind, Except.bind]
        rw [if_pos hne]
      rw [hr]
      refine ⟨⟨fun ⟨F, hF⟩ => (nomatch hF), fun h' => absurd hne h'.1⟩, Or.inr rfl⟩
    · have hval := validateInputs_iff h m eqs hs
      have hused : (∀ o ∈ vars ++ params, ∃ e ∈ eqs, ∃ n ∈ e.atoms, n ∈ scalarNames coords [o]) ↔
          ∀ o ∈ vars ++ params, ∃ e ∈ eqs, ∃ n ∈ scalarNames coords [o], Mentions n e := by
        constructor
        · intro h' o ho
          obtain ⟨e, he, n, h1, h2⟩ := h' o ho
          exact ⟨e, he, n, h2, (mem_atoms_iff n e).1 h1⟩
        · intro h' o ho
          obtain ⟨e, he, n, h1, h2⟩ := h' o ho
          exact ⟨e, he, n, (mem_atoms_iff n e).2 h2, h1⟩
      rw [hused] at hval
      rcases hval.1 with hv | hv
      · obtain ⟨F, hF⟩ : ∃ F, r = .ok F := by
          show ∃ F, compileSympytensor _ _ _ _ _ = .ok F
          unfold compileSympytensor
          rw [hm]
          simp only [bind, Except.bind]
          rw [if_neg hne, hv, hhp]
          exact ⟨_, rfl⟩
        exact ⟨⟨fun _ => ⟨hne, hn', hval.2.1 hv⟩, fun _ => ⟨F, hF⟩⟩, Or.inl ⟨F, hF⟩⟩
      · have hr : r = .error .valueError := by
          show compileSympytensor _ _ _ _ _ = _
          unfold compileSympytensor
          rw [hm]
          simp only [bind, Except.bind]
          rw [if_neg hne, hv]
        rw [hr]
        refine ⟨⟨fun ⟨F, hF⟩ => (nomatch hF), fun h' => ?_⟩, Or.inr rfl⟩
        rw [hval.2.2 h'.2.2] at hv
        cases hv
  · have hr : r = .error .valueError := by
      show compileSympytensor _ _ _ _ _ = _
      unfold compileSympytensor
      push Not at hnames
      rw [packedMap_unknown h huv hup _ hnames]
      rfl
    rw [hr]
    refine ⟨⟨fun ⟨F, hF⟩ => (nomatch hF), fun h' => ?_⟩, Or.inr rfl⟩
    refine absurd (fun n hn => ?_) hnames
    obtain ⟨e, he, hne⟩ := List.mem_flatMap.1 hn
    exact h'.2.1 e he n ((mem_atoms_iff n e).1 hne)

/-- The compiled functions take exactly the names of the variables and parameters as keyword arguments:
`TypeError` for an unknown or a missing one. -/
theorem C70_keywords (inputs vn : List Str) (outs : List (SymExpr PtAtom)) (d : Dict Str (NDArray ℝ))
    (hbad : (∃ n ∈ dkeys d, n ∉ inputs) ∨ ∃ n ∈ inputs, n ∉ dkeys d) :
    callGraphs inputs vn outs d = .error .typeError := by
  unfold callGraphs
  rw [if_pos]
  simp only [Bool.not_eq_true', Bool.and_eq_false_iff, List.all_eq_false, decide_eq_true_eq]
  exact hbad

example : callGraphs ["x".toList] [] [] [("x".toList, ⟨[], [1]⟩), ("y".toList, ⟨[], [2]⟩)] =
    .error .typeError :=
  C70_keywords _ _ _ _ (Or.inl ⟨"y".toList, by simp [dkeys], by decide⟩)

/-- Two model objects with one name are refused with `ValueError` (if the equations are otherwise fine). -/
theorem C70_duplicate_inputs (inputs : List Str) (hdup : ¬ inputs.Nodup) (coords : Coords)
    (uv up : Dict Str ModelObject) (eqs : List (SymExpr Str)) :
    (∀ F, compileSympytensor inputs coords uv up eqs ≠ .ok F) ∧
    ∀ m, makeUnpackedToPackedMap inputs coords uv up (eqs.flatMap atoms) = .ok m →
      compileSympytensor inputs coords uv up eqs = .error .valueError := by
  have e : ∀ m, makeUnpackedToPackedMap inputs coords uv up (eqs.flatMap atoms) = .ok m →
      compileSympytensor inputs coords uv up eqs = .error .valueError := by
    intro m hm
    unfold compileSympytensor
    rw [hm]
    simp only [bind, Except.bind]
    by_cases h : eqs = []
    · rw [if_pos h]
    · rw [if_neg h, validateInputs, if_pos hdup]
  refine ⟨fun F hF => ?_, e⟩
  cases hm : makeUnpackedToPackedMap inputs coords uv up (eqs.flatMap atoms) with
  | error x =>
    unfold compileSympytensor at hF
    rw [hm] at hF
    cases hF
  | ok m => rw [e m hm] at hF; cases hF

example : compileSympytensor ["x".toList, "x".toList] [] [("x".toList, { name := "x" })]
    [("x".toList, { name := "x" })] [.sym "x".toList] = .error .valueError :=
  (C70_duplicate_inputs _ (by decide) _ _ _ _).2 _ rfl

/-- The residuals at flat vectors `x`, `theta`: the values of the equations. -/
theorem C70_system (h : ScalarModel coords vars params)
    (huv : unpackGroup setList coords vars = .ok uv) (hup : unpackGroup setList coords params = .ok up)
    (hF : compileSympytensor ((vars ++ params).map ModelObject.name) coords uv up eqs = .ok F)
    (vn : List Str) (x theta : List ℝ) (hx : x.length = totalSize coords vars)
    (ht : theta.length = totalSize coords params) :
    wrapForScipy (callGraphs ((vars ++ params).map ModelObject.name) vn F.system) vars params coords
        x theta =
      .ok (eqs.map fun e => e.eval (flatPoint (scalarNames coords (vars ++ params)) (x ++ theta))) := by
  obtain ⟨m, hp, hs, -, rfl⟩ := compile_shape h huv hup hF
  exact wrap_graphs h m hs vn eqs (fun e he n hn => List.mem_flatMap.2 ⟨e, he, hn⟩) x theta hx ht

theorem set_append_left {x theta : List ℝ} {k : Nat} (hk : k < x.length) (t : ℝ) :
    x.set k t ++ theta = (x ++ theta).set k t := by
  rw [List.set_append_left _ _ hk]

/-- Differentiating in element `k` of the flat vector of variables is differentiating in the scalar at
position `k`. -/
theorem hasDerivAt_flat (h : ScalarModel coords vars params) (x theta : List ℝ)
    (hx : x.length = totalSize coords vars) (ht : theta.length = totalSize coords params)
    (k : Nat) (n : Str) (hk : (scalarNames coords vars)[k]? = some n) (e : SymExpr Str) (d : ℝ)
    (hd : HasPartial (fun env => e.eval env) n d
      (flatPoint (scalarNames coords (vars ++ params)) (x ++ theta))) :
    HasDerivAt (fun t => e.eval (flatPoint (scalarNames coords (vars ++ params)) (x.set k t ++ theta))) d
      (x.getD k 0) := by
  have hlt : k < x.length := by
    rw [hx, ← length_scalarNames]; exact (List.getElem?_eq_some_iff.1 hk).1
  have hk' : (scalarNames coords (vars ++ params))[k]? = some n := by
    rw [scalarNames_append, List.getElem?_append_left (List.getElem?_eq_some_iff.1 hk).1]; exact hk
  have hlen : (x ++ theta).length = (scalarNames coords (vars ++ params)).length := by
    rw [length_scalarNames, totalSize_append, List.length_append]; omega
  have hpt : flatPoint (scalarNames coords (vars ++ params)) (x ++ theta) n = x.getD k 0 := by
    rw [flatPoint_at h.scalars _ hk', List.getD_eq_getElem?_getD, List.getD_eq_getElem?_getD,
      List.getElem?_append_left hlt]
  unfold HasPartial at hd
  rw [hpt] at hd
  have : (fun t => e.eval (flatPoint (scalarNames coords (vars ++ params)) (x.set k t ++ theta))) =
      fun t => e.eval (Function.update
        (flatPoint (scalarNames coords (vars ++ params)) (x ++ theta)) n t) := by
    funext t
    rw [set_append_left hlt, flatPoint_set h.scalars _ hlen hk']
  rw [this]
  exact hd

theorem outAt_map (l : List (SymExpr Str)) (env : Str → ℝ) (i : Nat) (e : SymExpr Str)
    (hi : l[i]? = some e) : outAt (.ok (l.map fun e => e.eval env)) i = e.eval env := by
  simp [outAt, List.getD_eq_getElem?_getD, hi]

/-- The Jacobian: entry `(i, k)` is the derivative of residual `i` in element `k` of the vector of
variables. -/
theorem C70_jacobian (h : ScalarModel coords vars params)
    (huv : unpackGroup setList coords vars = .ok uv) (hup : unpackGroup setList coords params = .ok up)
    (hF : compileSympytensor ((vars ++ params).map ModelObject.name) coords uv up eqs = .ok F)
    (vn : List Str) (x theta : List ℝ) (hx : x.length = totalSize coords vars)
    (ht : theta.length = totalSize coords params) :
    ∃ J, wrapForScipy (callMatrix ((vars ++ params).map ModelObject.name) vn F.jac) vars params coords
        x theta = .ok J ∧ J.length = eqs.length ∧ (∀ row ∈ J, row.length = x.length) ∧
      ∀ (i k : Nat) (e : SymExpr Str), eqs[i]? = some e → k < x.length →
        Regular (flatPoint (scalarNames coords (vars ++ params)) (x ++ theta)) e →
        ∃ row d, J[i]? = some row ∧ row[k]? = some d ∧
          HasDerivAt (fun t => outAt (wrapForScipy (callGraphs ((vars ++ params).map ModelObject.name) vn
            F.system) vars params coords (x.set k t) theta) i) d (x.getD k 0) := by
  have hsys := C70_system h huv hup hF vn
  obtain ⟨m, hp, hs, -, hFe⟩ := compile_shape h huv hup hF
  have hw := wrap_matrix h m hs vn (makeJacobian eqs (scalarNames coords vars)) (by
    intro row hrow e he n hn
    obtain ⟨e', he', rfl⟩ := List.mem_map.1 hrow
    obtain ⟨y, -, rfl⟩ := List.mem_map.1 he
    exact List.mem_flatMap.2 ⟨e', he', atoms_diff_subset _ _ n hn⟩) x theta hx ht
  have hjac : F.jac = (makeJacobian eqs (scalarNames coords vars)).map fun row => row.map (packedGraph m) := by
    rw [hFe]
  refine ⟨_, by rw [hjac]; exact hw, by simp [makeJacobian], ?_, ?_⟩
  · intro row hrow
    obtain ⟨r, hr, rfl⟩ := List.mem_map.1 hrow
    obtain ⟨e, -, rfl⟩ := List.mem_map.1 hr
    rw [List.length_map, List.length_map, length_scalarNames, hx]
  · intro i k e hi hk hreg
    have hkn : k < (scalarNames coords vars).length := by rw [length_scalarNames, ← hx]; exact hk
    obtain ⟨n, hn⟩ : ∃ n, (scalarNames coords vars)[k]? = some n := ⟨_, List.getElem?_eq_getElem hkn⟩
    refine ⟨_, (diff n e).eval (flatPoint (scalarNames coords (vars ++ params)) (x ++ theta)),
      by simp only [makeJacobian, List.map_map, List.getElem?_map, hi, Option.map_some]; rfl,
      by simp only [Function.comp, List.map_map, List.getElem?_map, hn, Option.map_some], ?_⟩
    have hd := hasDerivAt_flat h x theta hx ht k n hn e _ (hasPartial_diff _ n e hreg)
    have : (fun t => outAt (wrapForScipy (callGraphs ((vars ++ params).map ModelObject.name) vn
        F.system) vars params coords (x.set k t) theta) i) =
        fun t => e.eval (flatPoint (scalarNames coords (vars ++ params)) (x.set k t ++ theta)) := by
      funext t
      rw [hsys (x.set k t) theta (by rw [List.length_set]; exact hx) ht, outAt_map _ _ _ _ hi]
    rw [this]
    exact hd

/-- The objective of the minimiser is half the sum of the squares of the residuals. -/
theorem C70_objective (h : ScalarModel coords vars params)
    (huv : unpackGroup setList coords vars = .ok uv) (hup : unpackGroup setList coords params = .ok up)
    (hF : compileSympytensor ((vars ++ params).map ModelObject.name) coords uv up eqs = .ok F)
    (vn : List Str) (x theta : List ℝ) (hx : x.length = totalSize coords vars)
    (ht : theta.length = totalSize coords params) :
    ∃ r, wrapForScipy (callGraphs ((vars ++ params).map ModelObject.name) vn F.system) vars params coords
        x theta = .ok r ∧
      wrapForScipy (callGraphs ((vars ++ params).map ModelObject.name) vn [F.loss]) vars params coords
        x theta = .ok [(1 / 2) * (r.map fun v => v ^ 2).sum] := by
  refine ⟨_, C70_system h huv hup hF vn x theta hx ht, ?_⟩
  obtain ⟨m, hp, hs, -, rfl⟩ := compile_shape h huv hup hF
  have := wrap_graphs h m hs vn [squaredLoss eqs] (by
    intro e he n hn
    rw [List.mem_singleton] at he
    subst he
    exact atoms_squaredLoss eqs n hn) x theta hx ht
  refine Eq.trans this ?_
  simp only [List.map_cons, List.map_nil, (C37_objective eqs _).1, List.map_map, Function.comp_def]

/-- The gradient: element `k` is the derivative of the objective in element `k` of the vector of
variables. -/
theorem C70_gradient (h : ScalarModel coords vars params)
    (huv : unpackGroup setList coords vars = .ok uv) (hup : unpackGroup setList coords params = .ok up)
    (hF : compileSympytensor ((vars ++ params).map ModelObject.name) coords uv up eqs = .ok F)
    (vn : List Str) (x theta : List ℝ) (hx : x.length = totalSize coords vars)
    (ht : theta.length = totalSize coords params)
    (hreg : ∀ e ∈ eqs, Regular (flatPoint (scalarNames coords (vars ++ params)) (x ++ theta)) e) :
    ∃ g, wrapForScipy (callGraphs ((vars ++ params).map ModelObject.name) vn F.grad) vars params coords
        x theta = .ok g ∧ g.length = x.length ∧
      ∀ k, k < x.length → HasDerivAt (fun t => outAt (wrapForScipy
        (callGraphs ((vars ++ params).map ModelObject.name) vn [F.loss]) vars params coords
          (x.set k t) theta) 0) (g.getD k 0) (x.getD k 0) := by
  obtain ⟨m, hp, hs, -, rfl⟩ := compile_shape h huv hup hF
  have hloss := fun (y : List ℝ) (hy : y.length = totalSize coords vars) =>
    wrap_graphs h m hs vn [squaredLoss eqs] (by
      intro e he n hn
      rw [List.mem_singleton] at he
      subst he
      exact atoms_squaredLoss eqs n hn) y theta hy ht
  have hg := wrap_graphs h m hs vn (makeGradient (squaredLoss eqs) (scalarNames coords vars)) (by
    intro e he n hn
    obtain ⟨y, -, rfl⟩ := List.mem_map.1 he
    exact atoms_squaredLoss eqs n (atoms_diff_subset _ _ n hn)) x theta hx ht
  refine ⟨_, hg, by simp [makeGradient, length_scalarNames, hx], ?_⟩
  intro k hk
  have hkn : k < (scalarNames coords vars).length := by rw [length_scalarNames, ← hx]; exact hk
  obtain ⟨n, hn⟩ : ∃ n, (scalarNames coords vars)[k]? = some n := ⟨_, List.getElem?_eq_getElem hkn⟩
  have hd := hasDerivAt_flat h x theta hx ht k n hn _ _
    (hasPartial_diff _ n _ (regular_squaredLoss hreg))
  have hfun : (fun t => outAt (wrapForScipy (callGraphs ((vars ++ params).map ModelObject.name) vn
      [packedGraph m (squaredLoss eqs)]) vars params coords (x.set k t) theta) 0) =
      fun t => (squaredLoss eqs).eval
        (flatPoint (scalarNames coords (vars ++ params)) (x.set k t ++ theta)) := by
    funext t
    have := hloss (x.set k t) (by rw [List.length_set]; exact hx)
    rw [List.map_cons, List.map_nil] at this
    rw [this]
    rfl
  dsimp only
  rw [hfun]
  have hgk : (((makeGradient (squaredLoss eqs) (scalarNames coords vars)).map fun e =>
      e.eval (flatPoint (scalarNames coords (vars ++ params)) (x ++ theta))).getD k 0) =
      (diff n (squaredLoss eqs)).eval (flatPoint (scalarNames coords (vars ++ params)) (x ++ theta)) := by
    simp [makeGradient, List.getD_eq_getElem?_getD, hn]
  rw [hgk]
  exact hd

/-- The Hessian: entry `(i, k)` is the derivative of element `i` of the gradient in element `k` of the
vector of variables, and the matrix is symmetric; the Hessian-vector product is the product of that
matrix with the given vector. -/
theorem C70_hessian (h : ScalarModel coords vars params)
    (huv : unpackGroup setList coords vars = .ok uv) (hup : unpackGroup setList coords params = .ok up)
    (hF : compileSympytensor ((vars ++ params).map ModelObject.name) coords uv up eqs = .ok F)
    (hclash : ∀ v ∈ vars, pointName v.name ∉ (vars ++ params).map ModelObject.name)
    (x theta : List ℝ) (hx : x.length = totalSize coords vars)
    (ht : theta.length = totalSize coords params)
    (hreg : ∀ e ∈ eqs, Regular (flatPoint (scalarNames coords (vars ++ params)) (x ++ theta)) e) :
    ∃ H, wrapForScipy (callMatrix ((vars ++ params).map ModelObject.name) (vars.map ModelObject.name)
        F.hess) vars params coords x theta = .ok H ∧ H.length = x.length ∧
      (∀ row ∈ H, row.length = x.length) ∧
      (∀ i k, i < x.length → k < x.length → (H.getD i []).getD k 0 = (H.getD k []).getD i 0) ∧
      (∀ i k, i < x.length → k < x.length → HasDerivAt (fun t => outAt (wrapForScipy
        (callGraphs ((vars ++ params).map ModelObject.name) (vars.map ModelObject.name) F.grad)
          vars params coords (x.set k t) theta) i) ((H.getD i []).getD k 0) (x.getD k 0)) ∧
      ∀ p : List ℝ, p.length = x.length →
        wrapForScipyP (callGraphs ((vars ++ params).map ModelObject.name ++
            vars.map fun v => pointName v.name) (vars.map ModelObject.name) F.hessp) vars params coords
            x p theta =
          .ok (H.map fun row => (row.zipIdx.map fun q => q.1 * p.getD q.2 0).sum) := by
  obtain ⟨m, hp, hs, hhp, rfl⟩ := compile_shape h huv hup hF
  obtain ⟨N, hN⟩ : ∃ N, N = scalarNames coords vars := ⟨_, rfl⟩
  obtain ⟨E, hE⟩ : ∃ E, E = flatPoint (scalarNames coords (vars ++ params)) (x ++ theta) := ⟨_, rfl⟩
  have hlenN : N.length = x.length := by rw [hN, length_scalarNames, hx]
  have hgsub : ∀ e ∈ makeGradient (squaredLoss eqs) N, ∀ n ∈ e.atoms, n ∈ eqs.flatMap atoms := by
    intro e he n hn
    obtain ⟨y, -, rfl⟩ := List.mem_map.1 he
    exact atoms_squaredLoss eqs n (atoms_diff_subset _ _ n hn)
  have hH := wrap_matrix h m hs (vars.map ModelObject.name)
    (makeJacobian (makeGradient (squaredLoss eqs) N) N) (by
      intro row hrow e he n hn
      obtain ⟨e', he', rfl⟩ := List.mem_map.1 hrow
      obtain ⟨y, -, rfl⟩ := List.mem_map.1 he
      exact hgsub e' he' n (atoms_diff_subset _ _ n hn)) x theta hx ht
  have hg := fun (y : List ℝ) (hy : y.length = totalSize coords vars) =>
    wrap_graphs h m hs (vars.map ModelObject.name) (makeGradient (squaredLoss eqs) N) hgsub y theta hy ht
  obtain ⟨hj1, hj2, hj3⟩ := C37_hessian eqs N
  rw [← hE] at hH
  subst hN
  have hentry : ∀ (i k : Nat) (a b : Str), (scalarNames coords vars)[i]? = some a →
      (scalarNames coords vars)[k]? = some b →
      ((((makeJacobian (makeGradient (squaredLoss eqs) (scalarNames coords vars))
        (scalarNames coords vars)).map fun row => row.map fun e => e.eval E).getD i []).getD k 0) =
      (diff b (diff a (squaredLoss eqs))).eval E := by
    intro i k a b ha hb
    simp [makeJacobian, makeGradient, List.getD_eq_getElem?_getD, ha, hb]
  have hname : ∀ k, k < x.length → ∃ n, (scalarNames coords vars)[k]? = some n := fun k hk =>
    ⟨_, List.getElem?_eq_getElem (by omega)⟩
  refine ⟨_, hH, by simp [makeJacobian, makeGradient, hlenN], ?_, ?_, ?_, ?_⟩
  · intro row hrow
    obtain ⟨r, hr, rfl⟩ := List.mem_map.1 hrow
    rw [List.length_map, hj2 r hr, hlenN]
  · intro i k hi hk
    obtain ⟨a, ha⟩ := hname i hi
    obtain ⟨b, hb⟩ := hname k hk
    rw [hentry i k a b ha hb, hentry k i b a hb ha]
    obtain ⟨ri, rj, g, hij, hji, h1, h2, h3, h4, -, h6, -⟩ := hj3 i k a b ha hb
    simp only [makeJacobian, makeGradient, List.map_map, List.getElem?_map, ha, hb, Option.map_some,
      Option.some.injEq] at h1 h2
    subst h1 h2
    simp only [Function.comp, List.getElem?_map, ha, hb, Option.map_some, Option.some.injEq] at h3 h4
    subst h3 h4
    exact h6 E
  · intro i k hi hk
    obtain ⟨a, ha⟩ := hname i hi
    obtain ⟨b, hb⟩ := hname k hk
    rw [hentry i k a b ha hb]
    have hd := hasDerivAt_flat h x theta hx ht k b hb (diff a (squaredLoss eqs)) _
      (hasPartial_diff _ b _ (SymExpr.Regular.diff a (regular_squaredLoss hreg)))
    have hfun : (fun t => outAt (wrapForScipy (callGraphs ((vars ++ params).map ModelObject.name)
        (vars.map ModelObject.name) ((makeGradient (squaredLoss eqs) (scalarNames coords vars)).map
          (packedGraph m))) vars params coords (x.set k t) theta) i) =
        fun t => (diff a (squaredLoss eqs)).eval
          (flatPoint (scalarNames coords (vars ++ params)) (x.set k t ++ theta)) := by
      funext t
      rw [hg (x.set k t) (by rw [List.length_set]; exact hx),
        outAt_map _ _ i (diff a (squaredLoss eqs)) (by simp [makeGradient, ha])]
    dsimp only
    rw [hfun, hE]
    exact hd
  · intro p hp'
    obtain ⟨hm1, hm2⟩ := hessp_atoms (eqs := eqs) (scalarNames coords vars) hp hhp
    have hw := wrap_hessp h m hs hclash hp hm1
      (fun e he i hi => by rw [← length_scalarNames]; exact hm2 e he i hi) x p theta hx
      (by rw [hp', hx]) ht
    refine Eq.trans hw ?_
    obtain ⟨hp2, hhp2, hl2, hv2⟩ := C37_hessp eqs (scalarNames coords vars)
    rw [hhp] at hhp2
    cases hhp2
    congr 1
    rw [List.map_map]
    apply List.ext_getElem?
    intro k
    rw [List.getElem?_map, List.getElem?_map]
    cases hrow : (makeJacobian (makeGradient (squaredLoss eqs) (scalarNames coords vars))
        (scalarNames coords vars))[k]? with
    | none =>
      have : hp[k]? = none := by
        rw [List.getElem?_eq_none_iff] at hrow ⊢
        omega
      rw [this]; rfl
    | some row =>
      obtain ⟨v, hv, hev⟩ := hv2 k row hrow
      rw [hv]
      simp only [Option.map_some, Function.comp, Option.some.injEq]
      rw [hev, ← hE, List.zipIdx_map, List.map_map]
      rfl

/-- The default backend and the numba backend evaluate the equations at the same point: in the generated
numba code every scalar of the model is bound to the value it has in `C70_system`. -/
theorem C70_agrees_with_numba (h : ScalarModel coords vars params)
    (hw : ∀ n ∈ scalarNames coords (vars ++ params), ∀ c ∈ n, isWordChar c = true)
    (h1 : "exog_inputs".toList ∉ scalarNames coords (vars ++ params))
    (h2 : "endog_inputs".toList ∉ scalarNames coords (vars ++ params))
    (x theta : List ℝ) (hx : x.length = totalSize coords vars)
    (ht : theta.length = totalSize coords params) :
    ∃ env, runPrelude (scalarNames coords vars) (some (scalarNames coords params)) x theta = .ok env ∧
      ∀ n ∈ scalarNames coords (vars ++ params), dget env n =
        some (.num (flatPoint (scalarNames coords (vars ++ params)) (x ++ theta) n)) := by
  have hsc := h.scalars
  have hsa := scalarNames_append coords vars params
  rw [hsa] at hw h1 h2 hsc
  obtain ⟨env, he, hb1, hb2, -⟩ := C55_binding (scalarNames coords vars) (scalarNames coords params)
    x theta hw h1 h2 (by rw [length_scalarNames, hx]) (by rw [length_scalarNames, ht])
  rw [List.nodup_append] at hsc
  refine ⟨env, he, fun n hn => ?_⟩
  obtain ⟨k, hk⟩ := List.mem_iff_getElem?.1 hn
  have hlen : k < (x ++ theta).length := by
    have := (List.getElem?_eq_some_iff.1 hk).1
    rw [length_scalarNames, totalSize_append] at this
    rw [List.length_append]; omega
  rw [flatPoint_at h.scalars _ hk, List.getD_eq_getElem?_getD, List.getElem?_eq_getElem hlen]
  rw [hsa] at hk
  have hxl : (scalarNames coords vars).length = x.length := by rw [length_scalarNames, hx]
  have last : ∀ {l : List Str}, l.Nodup → ∀ {j : Nat}, l[j]? = some n → ∀ j' : Nat, j < j' → l[j']? ≠ some n := by
    intro l hl j hj j' hlt hj'
    have e1 := idxOf_of_nodup hl hj
    have e2 := idxOf_of_nodup hl hj'
    omega
  by_cases hkv : k < x.length
  · rw [List.getElem?_append_left (by omega)] at hk
    rw [hb1 k n x[k] hk (List.getElem?_eq_getElem hkv) (last hsc.1 hk)
      (fun hmem => hsc.2.2 n (List.mem_of_getElem? hk) n hmem rfl)]
    rw [List.getElem_append_left hkv]
    rfl
  · rw [List.getElem?_append_right (by omega), hxl] at hk
    rw [List.length_append] at hlen
    rw [hb2 (k - x.length) n theta[k - x.length] hk (List.getElem?_eq_getElem (by omega))
      (last hsc.2.1 hk)]
    rw [List.getElem_append_right (by omega)]
    rfl

/-! ## An example -/

/-- One dimension with two labels. -/
def ptCoords : Coords := [("i".toList, ["a".toList, "b".toList])]

/-- A variable over `i`. -/
def ptVars : List ModelObject := [{ name := "x", dims := ["i".toList] }]

/-- A scalar parameter. -/
def ptParams : List ModelObject := [{ name := "p" }]

/-- `x_a - p` and `x_b * x_a - 1`. -/
def ptEqs : List (SymExpr Str) :=
  [.add (.sym "x_a".toList) (.mul (.num (-1)) (.sym "p".toList)),
   .add (.mul (.sym "x_b".toList) (.sym "x_a".toList)) (.num (-1))]

theorem ptModel : ScalarModel ptCoords ptVars ptParams where
  known := by decide +kernel
  dims := by decide +kernel
  fresh := by decide +kernel
  labels := by decide +kernel
  names := by decide +kernel
  scalars := by decide +kernel

theorem pt_compiles : ∃ uv up F, unpackGroup id ptCoords ptVars = .ok uv ∧
    unpackGroup id ptCoords ptParams = .ok up ∧
    compileSympytensor ((ptVars ++ ptParams).map ModelObject.name) ptCoords uv up ptEqs = .ok F := by
  have hu : unpackGroup id ptCoords ptVars = .ok [("x_a".toList, { name := "x", dims := ["i".toList], dimVals := [("i".toList, "a".toList)] }),
      ("x_b".toList, { name := "x", dims := ["i".toList], dimVals := [("i".toList, "b".toList)] })] := by
    decide +kernel
  have hp : unpackGroup id ptCoords ptParams = .ok [("p".toList, { name := "p" })] := by decide +kernel
  have hN : scalarNames ptCoords (ptVars ++ ptParams) = ["x_a".toList, "x_b".toList, "p".toList] := by
    decide +kernel
  have hN1 : scalarNames ptCoords [{ name := "x", dims := ["i".toList] }] = ["x_a".toList, "x_b".toList] := by
    decide +kernel
  have hN2 : scalarNames ptCoords [{ name := "p" }] = ["p".toList] := by decide +kernel
  obtain ⟨F, hF⟩ := (C70_compiles_iff ptModel hu hp ptEqs).1.2 ⟨by simp [ptEqs], by
    intro e he n hn
    rw [hN]
    rw [← mem_atoms_iff] at hn
    fin_cases he <;> simp [atoms] at hn <;> simp [hn] <;> tauto, by
    intro o ho
    fin_cases ho
    · exact ⟨_, List.mem_cons_self, "x_a".toList, by rw [hN1]; simp, (mem_atoms_iff _ _).1 (by simp [atoms])⟩
    · exact ⟨_, List.mem_cons_self, "p".toList, by rw [hN2]; simp, (mem_atoms_iff _ _).1 (by simp [atoms])⟩⟩
  exact ⟨_, _, F, hu, hp, hF⟩

/-- An equation with an undeclared symbol, and a model with an unused parameter, are refused. -/
example : ∃ uv up, unpackGroup id ptCoords ptVars = .ok uv ∧ unpackGroup id ptCoords ptParams = .ok up ∧
    compileSympytensor ((ptVars ++ ptParams).map ModelObject.name) ptCoords uv up
      (ptEqs ++ [.sym "q".toList]) = .error .valueError ∧
    compileSympytensor ((ptVars ++ ptParams).map ModelObject.name) ptCoords uv up
      (ptEqs.drop 1) = .error .valueError := by
  refine ⟨_, _, rfl, rfl, ?_, ?_⟩ <;> rfl

/-- At `x = (2, 1/2)`, `p = 2` both residuals are zero. -/
example : ∃ F : SympyTensorFns, wrapForScipy (callGraphs ["x".toList, "p".toList] [] F.system) ptVars ptParams
    ptCoords [2, 1 / 2] [2] = .ok [0, 0] := by
  obtain ⟨uv, up, F, h1, h2, h3⟩ := pt_compiles
  refine ⟨F, ?_⟩
  have hN : scalarNames ptCoords (ptVars ++ ptParams) = ["x_a".toList, "x_b".toList, "p".toList] := by
    decide +kernel
  have := C70_system ptModel h1 h2 h3 [] [2, 1 / 2] [2] (by decide +kernel) (by decide +kernel)
  refine Eq.trans this ?_
  rw [hN]
  have ha : flatPoint ["x_a".toList, "x_b".toList, "p".toList] ([2, 1 / 2] ++ [2]) "x_a".toList = 2 := rfl
  have hb : flatPoint ["x_a".toList, "x_b".toList, "p".toList] ([2, 1 / 2] ++ [2]) "x_b".toList = 1 / 2 := rfl
  have hc : flatPoint ["x_a".toList, "x_b".toList, "p".toList] ([2, 1 / 2] ++ [2]) "p".toList = 2 := rfl
  simp only [ptEqs, List.map_cons, List.map_nil, eval, ha, hb, hc]
  norm_num

theorem pt_regular (env : Str → ℝ) : ∀ e ∈ ptEqs, Regular env e := by
  intro e he
  fin_cases he <;> simp [Regular]

/-- The hypotheses of the theorems on derivatives hold for the example at every point. -/
example (x theta : List ℝ) (hx : x.length = 2) (ht : theta.length = 1) :
    ∃ (F : SympyTensorFns) (H : List (List ℝ)), wrapForScipy (callMatrix ["x".toList, "p".toList]
      ["x".toList] F.hess) ptVars ptParams ptCoords x theta = .ok H ∧
      (H.getD 0 []).getD 1 0 = (H.getD 1 []).getD 0 0 := by
  obtain ⟨uv, up, F, h1, h2, h3⟩ := pt_compiles
  have hv : totalSize ptCoords ptVars = 2 := by decide +kernel
  have hp : totalSize ptCoords ptParams = 1 := by decide +kernel
  obtain ⟨H, hH, -, -, hsym, -⟩ := C70_hessian ptModel h1 h2 h3 (by decide +kernel) x theta
    (by rw [hv]; exact hx) (by rw [hp]; exact ht) (pt_regular _)
  exact ⟨F, H, hH, hsym 0 1 (by omega) (by omega)⟩

example (x theta : List ℝ) (hx : x.length = 2) (ht : theta.length = 1) :
    ∃ (F : SympyTensorFns) (J : List (List ℝ)) (g : List ℝ), wrapForScipy (callMatrix
      ["x".toList, "p".toList] [] F.jac) ptVars ptParams ptCoords x theta = .ok J ∧ J.length = 2 ∧
      wrapForScipy (callGraphs ["x".toList, "p".toList] [] F.grad) ptVars ptParams ptCoords x theta =
        .ok g ∧ g.length = 2 := by
  obtain ⟨uv, up, F, h1, h2, h3⟩ := pt_compiles
  have hv : totalSize ptCoords ptVars = 2 := by decide +kernel
  have hp : totalSize ptCoords ptParams = 1 := by decide +kernel
  obtain ⟨J, hJ, hl, -⟩ := C70_jacobian ptModel h1 h2 h3 [] x theta (by rw [hv]; exact hx) (by rw [hp]; exact ht)
  obtain ⟨g, hg, hgl, -⟩ := C70_gradient ptModel h1 h2 h3 [] x theta (by rw [hv]; exact hx)
    (by rw [hp]; exact ht) (pt_regular _)
  exact ⟨F, J, g, hJ, hl, hg, by rw [hgl, hx]⟩

example (x theta : List ℝ) (hx : x.length = 2) (ht : theta.length = 1) :
    ∃ env, runPrelude ["x_a".toList, "x_b".toList] (some ["p".toList]) x theta = .ok env ∧
      dget env "x_b".toList = some (.num (x.getD 1 0)) := by
  have hv : totalSize ptCoords ptVars = 2 := by decide +kernel
  have hp : totalSize ptCoords ptParams = 1 := by decide +kernel
  obtain ⟨env, h1, h2⟩ := C70_agrees_with_numba ptModel (by decide +kernel) (by decide +kernel)
    (by decide +kernel) x theta (by rw [hv]; exact hx) (by rw [hp]; exact ht)
  have hN : scalarNames ptCoords (ptVars ++ ptParams) = ["x_a".toList, "x_b".toList, "p".toList] := by
    decide +kernel
  have hNv : scalarNames ptCoords ptVars = ["x_a".toList, "x_b".toList] := by decide +kernel
  have hNp : scalarNames ptCoords ptParams = ["p".toList] := by decide +kernel
  rw [hNv, hNp] at h1
  refine ⟨env, h1, ?_⟩
  rw [h2 _ (by rw [hN]; simp), flatPoint_at ptModel.scalars _ (k := 1) (by rw [hN]; rfl),
    List.getD_eq_getElem?_getD, List.getD_eq_getElem?_getD, List.getElem?_append_left (by omega)]

/-! ## Scalars that share a name -/

/-- Labels that contain `_`. -/
def clashCoords : Coords := [("i".toList, ["a_u".toList]), ("k".toList, ["u".toList, "w".toList])]

/-- `x` over `i` has the scalar `x_a_u`, … -/
def clashVars : List ModelObject := [{ name := "x", dims := ["i".toList] }]

/-- … and so has `x_a` over `k`. -/
def clashParams : List ModelObject := [{ name := "x_a", dims := ["k".toList] }]

/-- Negation without distinct scalar names: names of objects, dims and labels are all distinct, but the
variable `x` and the parameter `x_a` both have a scalar `x_a_u`.  The model compiles; in the equation
`x_a_u + x_a_w` the default backend reads the variable, in the generated numba code the same name is
bound to the parameter, so the two backends solve different equations. -/
theorem C70_shared_name_counterexample : ∃ uv up F,
    unpackGroup id clashCoords clashVars = .ok uv ∧ unpackGroup id clashCoords clashParams = .ok up ∧
    ((clashVars ++ clashParams).map ModelObject.name).Nodup ∧
    compileSympytensor ["x".toList, "x_a".toList] clashCoords uv up
      [.add (.sym "x_a_u".toList) (.sym "x_a_w".toList)] = .ok F ∧
    ∀ x u w : ℝ, wrapForScipy (callGraphs ["x".toList, "x_a".toList] ["x".toList] F.system) clashVars
        clashParams clashCoords [x] [u, w] = .ok [x + w] ∧
      ∃ env, runPrelude (dkeys uv) (some (dkeys up)) [x] [u, w] = .ok env ∧
        dget env "x_a_u".toList = some (.num u) := by
  refine ⟨_, _, _, rfl, rfl, by decide +kernel, rfl, ?_⟩
  intro x u w
  refine ⟨?_, ?_⟩
  · rfl
  · exact ⟨_, rfl, rfl⟩

end Verif
