import Verif.Model.NumbaFns
import Verif.Props.SympyTensor
import Verif.Props.SimulateConverges
import Verif.Props.NumbaConvergence

/-!
# C75: the numba functions compute what the functions of the default back-end compute
-/

namespace Verif

open SymExpr

/-- Names the generated numba code can use: words, none of which the code uses itself. -/
structure NumbaNames (names : List Str) : Prop where
  nodup : names.Nodup
  word : ∀ n ∈ names, ∀ c ∈ n, isWordChar c = true
  noExog : "exog_inputs".toList ∉ names
  noEndog : "endog_inputs".toList ∉ names
  noNumpy : "np".toList ∉ names

/-- What the generated function binds. -/
theorem prelude_point {vn pn : List Str} (hn : NumbaNames (vn ++ pn)) (x theta : List ℝ)
    (hx : x.length = vn.length) (ht : theta.length = pn.length) :
    ∃ env, runPrelude vn (some pn) x theta = .ok env ∧ hidesNumpy env = false ∧
      ∀ n ∈ vn ++ pn, boundNumber env n = some (flatPoint (vn ++ pn) (x ++ theta) n) := by
  obtain ⟨env, h1, h2, h3, h4⟩ := C55_binding vn pn x theta hn.word hn.noExog hn.noEndog hx ht
  have hnd := List.nodup_append.1 hn.nodup
  refine ⟨env, h1, ?_, fun n hm => ?_⟩
  · unfold hidesNumpy
    rw [h4 _ hn.noNumpy (by decide +kernel) (by decide +kernel)]
    rfl
  · obtain ⟨k, hk⟩ := List.mem_iff_getElem?.1 hm
    rw [flatPoint_at hn.nodup _ hk, List.getD_eq_getElem?_getD]
    have hlt : k < (vn ++ pn).length := (List.getElem?_eq_some_iff.1 hk).1
    rw [List.length_append] at hlt
    unfold boundNumber
    by_cases hkv : k < vn.length
    · rw [List.getElem?_append_left hkv] at hk
      have hkx : k < x.length := by omega
      rw [List.getElem?_append_left hkx, List.getElem?_eq_getElem hkx,
        h2 k n _ hk (List.getElem?_eq_getElem hkx) (nodup_last hnd.1 k n hk)
          (fun hp => hnd.2.2 n (List.mem_of_getElem? hk) n hp rfl)]
      rfl
    · rw [List.getElem?_append_right (by omega)] at hk
      have hkt : k - vn.length < theta.length := by omega
      rw [List.getElem?_append_right (by omega), hx, List.getElem?_eq_getElem hkt,
        h3 _ n _ hk (List.getElem?_eq_getElem hkt) (nodup_last hnd.2.1 _ n hk)]
      rfl

theorem evalGenerated_ok {A β : Type} (read : Dict Str (LocalVal β) → A → Option ℝ)
    (env : Dict Str (LocalVal β)) (hnp : hidesNumpy env = false) (outs : List (SymExpr A)) (P : A → ℝ)
    (h : ∀ e ∈ outs, ∀ a ∈ e.atoms, read env a = some (P a)) :
    evalGenerated read (.ok env) outs = .ok (outs.map fun e => e.eval P) := by
  unfold evalGenerated
  dsimp only
  rw [hnp, if_neg Bool.false_ne_true, if_neg]
  · congr 1
    apply List.map_congr_left
    intro e he
    apply eval_congr
    intro a ha
    rw [h e he a ha]
    rfl
  · intro hany
    obtain ⟨a, ha, hr⟩ := List.any_eq_true.1 hany
    obtain ⟨e, he, hae⟩ := List.mem_flatMap.1 ha
    rw [h e he a hae] at hr
    cases hr

theorem callNumba_eq {vn pn : List Str} (hn : NumbaNames (vn ++ pn)) (outs : List (SymExpr Str))
    (hat : ∀ e ∈ outs, ∀ n ∈ e.atoms, n ∈ vn ++ pn) (x theta : List ℝ)
    (hx : x.length = vn.length) (ht : theta.length = pn.length) :
    callNumba vn pn outs x theta = .ok (outs.map fun e => e.eval (flatPoint (vn ++ pn) (x ++ theta))) := by
  obtain ⟨env, h1, h2, h3⟩ := prelude_point hn x theta hx ht
  unfold callNumba
  rw [h1]
  exact evalGenerated_ok _ env h2 outs _ fun e he a ha => h3 a (hat e he a ha)

theorem callNumbaMatrix_eq {vn pn : List Str} (hn : NumbaNames (vn ++ pn)) (rows : List (List (SymExpr Str)))
    (hat : ∀ row ∈ rows, ∀ e ∈ row, ∀ n ∈ e.atoms, n ∈ vn ++ pn) (x theta : List ℝ)
    (hx : x.length = vn.length) (ht : theta.length = pn.length) :
    callNumbaMatrix vn pn rows x theta =
      .ok (rows.map fun row => row.map fun e => e.eval (flatPoint (vn ++ pn) (x ++ theta))) := by
  unfold callNumbaMatrix
  apply mapM_ok_of_forall
  intro row hrow
  exact callNumba_eq hn row (hat row hrow) x theta hx ht

/-- What the generated Hessian-vector product binds. -/
theorem callNumbaHessp_eq {vn pn : List Str} (hn : NumbaNames (vn ++ pn))
    (hhp : "hess_point".toList ∉ vn ++ pn) (outs : List (SymExpr (HAtom Str)))
    (hmodel : ∀ e ∈ outs, ∀ n, .model n ∈ e.atoms → n ∈ vn ++ pn)
    (hpoint : ∀ e ∈ outs, ∀ i, .point i ∈ e.atoms → i < vn.length)
    (x p theta : List ℝ) (hx : x.length = vn.length) (hp : p.length = vn.length)
    (ht : theta.length = pn.length) :
    callNumbaHessp false vn pn outs x p theta = .ok (outs.map fun e => e.eval (hesspEnv
      (flatPoint (vn ++ pn) (x ++ theta)) fun i => p.getD i 0)) := by
  have hnd := List.nodup_append.1 hn.nodup
  rw [List.mem_append, not_or] at hhp
  have hw : ∀ c ∈ "hess_point".toList, isWordChar c = true := by decide +kernel
  have hne1 : "exog_inputs".toList ≠ "hess_point".toList := by decide +kernel
  have hne2 : "endog_inputs".toList ≠ "hess_point".toList := by decide +kernel
  have hne3 : "np".toList ≠ "hess_point".toList := by decide +kernel
  unfold callNumbaHessp
  rw [Bool.false_and, if_neg Bool.false_ne_true]
  have hwd := hn.word
  have hexo := hn.noExog
  have hend := hn.noEndog
  have hnpy := hn.noNumpy
  have hb1 : "np".toList ≠ "exog_inputs".toList := by decide +kernel
  have hb2 : "np".toList ≠ "endog_inputs".toList := by decide +kernel
  unfold boundHessp
  obtain ⟨env, h1, h2, h3, h4⟩ := C55_binding (vn ++ ["hess_point".toList]) pn
    (x.map Sum.inl ++ [Sum.inr p]) (theta.map Sum.inl)
    (by
      intro n hm c hc
      simp only [List.mem_append, List.mem_singleton] at hm hwd
      rcases hm with (h | h) | h
      · exact hwd n (.inl h) c hc
      · subst h; exact hw c hc
      · exact hwd n (.inr h) c hc)
    (by
      intro hm
      simp only [List.mem_append, List.mem_singleton] at hm hexo
      rcases hm with (h | h) | h
      · exact hexo (.inl h)
      · exact hne1 h
      · exact hexo (.inr h))
    (by
      intro hm
      simp only [List.mem_append, List.mem_singleton] at hm hend
      rcases hm with (h | h) | h
      · exact hend (.inl h)
      · exact hne2 h
      · exact hend (.inr h))
    (by simp only [List.length_append, List.length_map, List.length_singleton, hx])
    (by simp only [List.length_map, ht])
  rw [h1]
  generalize "hess_point".toList = hpn at *
  have hlast : ∀ (k : Nat) n, vn[k]? = some n → ∀ k' : Nat, k < k' → (vn ++ [hpn])[k']? ≠ some n := by
    intro k n hk k' hlt he
    by_cases hk' : k' < vn.length
    · rw [List.getElem?_append_left hk'] at he
      exact nodup_last hnd.1 k n hk k' hlt he
    · rw [List.getElem?_append_right (by omega)] at he
      have hm := List.mem_of_getElem? he
      rw [List.mem_singleton] at hm
      subst hm
      exact hhp.1 (List.mem_of_getElem? hk)
  have hpoint' : dget env hpn = some (.num (.inr p)) := by
    refine h2 vn.length hpn _ ?_ ?_ ?_ hhp.2
    · rw [List.getElem?_append_right (by omega), Nat.sub_self]; rfl
    · rw [List.getElem?_append_right (by simp [hx]), List.length_map, hx, Nat.sub_self]; rfl
    · intro k' hk' he
      have hlen := (List.getElem?_eq_some_iff.1 he).1
      simp only [List.length_append, List.length_singleton] at hlen
      omega
  refine evalGenerated_ok _ env ?_ outs _ ?_
  · unfold hidesNumpy
    rw [h4 _ (by
      intro hm
      simp only [List.mem_append, List.mem_singleton] at hm hnpy
      rcases hm with (h | h) | h
      · exact hnpy (.inl h)
      · exact hne3 h
      · exact hnpy (.inr h)) hb1 hb2]
    rfl
  · intro e he a ha
    cases a with
    | point i =>
      have hi := hpoint e he i ha
      show (match dget env hpn with
        | some (.num (.inr p)) => p[i]?
        | _ => none) = some (p.getD i 0)
      rw [hpoint', List.getD_eq_getElem?_getD]
      dsimp only
      rw [List.getElem?_eq_getElem (by omega)]
      rfl
    | model n =>
      have hm := hmodel e he n ha
      obtain ⟨k, hk⟩ := List.mem_iff_getElem?.1 hm
      show (match dget env n with
        | some (.num (.inl v)) => some v
        | _ => none) = some (flatPoint (vn ++ pn) (x ++ theta) n)
      rw [flatPoint_at hn.nodup _ hk, List.getD_eq_getElem?_getD]
      have hlt : k < (vn ++ pn).length := (List.getElem?_eq_some_iff.1 hk).1
      rw [List.length_append] at hlt
      by_cases hkv : k < vn.length
      · rw [List.getElem?_append_left hkv] at hk
        have hkx : k < x.length := by omega
        rw [List.getElem?_append_left hkx, List.getElem?_eq_getElem hkx,
          h2 k n (.inl x[k]) (by rw [List.getElem?_append_left hkv]; exact hk)
            (by rw [List.getElem?_append_left (by simpa using hkx), List.getElem?_map,
              List.getElem?_eq_getElem hkx]; rfl) (hlast k n hk)
            (fun hp => hnd.2.2 n (List.mem_of_getElem? hk) n hp rfl)]
        rfl
      · rw [List.getElem?_append_right (by omega)] at hk
        have hkt : k - vn.length < theta.length := by omega
        rw [List.getElem?_append_right (by omega), hx, List.getElem?_eq_getElem hkt,
          h3 _ n (.inl theta[k - vn.length]) hk (by rw [List.getElem?_map, List.getElem?_eq_getElem hkt]; rfl)
            (nodup_last hnd.2.1 _ n hk)]
        rfl

/-! ### The two back-ends -/

variable {coords : Coords} {vars params : List ModelObject} {setList : List Str → List Str}
  {uv up : Dict Str ModelObject} {eqs : List (SymExpr Str)}

/-- The expressions of the numba functions. -/
theorem compileNumba_ok (vn : List Str) (eqs : List (SymExpr Str)) :
    ∃ hp, makeHessp (makeGradient (squaredLoss eqs) vn) vn = .ok hp ∧
      compileNumba vn eqs = .ok ⟨eqs, makeJacobian eqs vn, squaredLoss eqs,
        makeGradient (squaredLoss eqs) vn, makeJacobian (makeGradient (squaredLoss eqs) vn) vn, hp⟩ := by
  obtain ⟨hp, hhp, -⟩ := C37_hessp eqs vn
  refine ⟨hp, hhp, ?_⟩
  unfold compileNumba
  simp only [bind, Except.bind, hhp, pure, Except.pure]

theorem atoms_jacobian {wrt : List Str} {l : List (SymExpr Str)} {N : List Str}
    (h : ∀ e ∈ l, ∀ n ∈ e.atoms, n ∈ N) :
    ∀ row ∈ makeJacobian l wrt, ∀ e ∈ row, ∀ n ∈ e.atoms, n ∈ N := by
  intro row hrow e he n hn
  obtain ⟨e', he', rfl⟩ := List.mem_map.1 hrow
  obtain ⟨y, -, rfl⟩ := List.mem_map.1 he
  exact h e' he' n (atoms_diff_subset _ _ n hn)

theorem atoms_gradient {wrt : List Str} :
    ∀ e ∈ makeGradient (squaredLoss eqs) wrt, ∀ n ∈ e.atoms, n ∈ eqs.flatMap atoms := by
  intro e he n hn
  obtain ⟨y, -, rfl⟩ := List.mem_map.1 he
  exact atoms_squaredLoss eqs n (atoms_diff_subset _ _ n hn)

/-- **C75.**  A model that the default back-end compiles is compiled by the numba back-end too, and the six
functions of the two back-ends return the same for the same flat vectors (the Hessian-vector product, when
numba does not compile it; see `C75_hessp_refused`).  With the theorems of C70: the numba functions are the
residuals, half the sum of their squares, and the derivatives of these. -/
theorem C75_backends_agree_partial (h : ScalarModel coords vars params)
    (hn : NumbaNames (scalarNames coords (vars ++ params)))
    (hhp : "hess_point".toList ∉ scalarNames coords (vars ++ params))
    (hclash : ∀ v ∈ vars, pointName v.name ∉ (vars ++ params).map ModelObject.name)
    (huv : unpackGroup setList coords vars = .ok uv) (hup : unpackGroup setList coords params = .ok up)
    (F : SympyTensorFns)
    (hF : compileSympytensor ((vars ++ params).map ModelObject.name) coords uv up eqs = .ok F) :
    ∃ K, compileNumba (dkeys uv) eqs = .ok K ∧ ∀ x p theta : List ℝ,
      x.length = totalSize coords vars → p.length = totalSize coords vars →
      theta.length = totalSize coords params →
      let vn := vars.map ModelObject.name
      let inputs := (vars ++ params).map ModelObject.name
      callNumba (dkeys uv) (dkeys up) K.system x theta =
        wrapForScipy (callGraphs inputs vn F.system) vars params coords x theta ∧
      callNumbaMatrix (dkeys uv) (dkeys up) K.jac x theta =
        wrapForScipy (callMatrix inputs vn F.jac) vars params coords x theta ∧
      callNumba (dkeys uv) (dkeys up) [K.loss] x theta =
        wrapForScipy (callGraphs inputs vn [F.loss]) vars params coords x theta ∧
      callNumba (dkeys uv) (dkeys up) K.grad x theta =
        wrapForScipy (callGraphs inputs vn F.grad) vars params coords x theta ∧
      callNumbaMatrix (dkeys uv) (dkeys up) K.hess x theta =
        wrapForScipy (callMatrix inputs vn F.hess) vars params coords x theta ∧
      callNumbaHessp false (dkeys uv) (dkeys up) K.hessp x p theta =
        wrapForScipyP (callGraphs (inputs ++ vars.map fun v => pointName v.name) vn F.hessp)
          vars params coords x p theta ∧
      ∃ r, callNumba (dkeys uv) (dkeys up) K.system x theta = .ok r := by
  obtain ⟨hk1, hk2⟩ := dkeys_unpacked h huv hup
  obtain ⟨m, hp, hs, hhpe, rfl⟩ := compile_shape h huv hup hF
  obtain ⟨hp', hhp', hK⟩ := compileNumba_ok (scalarNames coords vars) eqs
  rw [hhpe] at hhp'
  cases hhp'
  have hat : ∀ n ∈ eqs.flatMap atoms, n ∈ scalarNames coords (vars ++ params) := by
    intro n hm
    obtain ⟨k, j, o, idx, h1, -⟩ := hs n hm
    exact List.mem_of_getElem? h1
  have hsys : ∀ e ∈ eqs, ∀ n ∈ e.atoms, n ∈ eqs.flatMap atoms := fun e he n hn' =>
    List.mem_flatMap.2 ⟨e, he, hn'⟩
  have hloss : ∀ e ∈ [squaredLoss eqs], ∀ n ∈ e.atoms, n ∈ eqs.flatMap atoms := by
    intro e he n hn'
    rw [List.mem_singleton] at he
    subst he
    exact atoms_squaredLoss eqs n hn'
  obtain ⟨hm1, hm2⟩ := hessp_atoms (eqs := eqs) (scalarNames coords vars) hp hhpe
  rw [hk1, hk2]
  refine ⟨_, hK, fun x p theta hx hpl ht => ?_⟩
  dsimp only
  have hsa := scalarNames_append coords vars params
  have w1 := wrap_graphs h m hs (vars.map ModelObject.name) eqs hsys x theta hx ht
  have w2 := wrap_matrix h m hs (vars.map ModelObject.name) _
    (atoms_jacobian (wrt := scalarNames coords vars) hsys) x theta hx ht
  have w3 := wrap_graphs h m hs (vars.map ModelObject.name) _ hloss x theta hx ht
  have w4 := wrap_graphs h m hs (vars.map ModelObject.name) _
    (atoms_gradient (wrt := scalarNames coords vars)) x theta hx ht
  have w5 := wrap_matrix h m hs (vars.map ModelObject.name) _
    (atoms_jacobian (wrt := scalarNames coords vars) (atoms_gradient (wrt := scalarNames coords vars)))
    x theta hx ht
  have w6 := wrap_hessp h m hs hclash hp hm1
    (fun e he i hi => by rw [← length_scalarNames]; exact hm2 e he i hi) x p theta hx hpl ht
  have w3' : wrapForScipy (callGraphs ((vars ++ params).map ModelObject.name) (vars.map ModelObject.name)
      [packedGraph m (squaredLoss eqs)]) vars params coords x theta = _ := w3
  rw [w1, w2, w3', w4, w5, w6]
  rw [hsa] at hn hhp hat ⊢
  have lx : x.length = (scalarNames coords vars).length := by rw [length_scalarNames, hx]
  have lp : p.length = (scalarNames coords vars).length := by rw [length_scalarNames, hpl]
  have lt : theta.length = (scalarNames coords params).length := by rw [length_scalarNames, ht]
  have c1 := callNumba_eq hn eqs (fun e he n hn' => hat n (hsys e he n hn')) x theta lx lt
  refine ⟨c1, callNumbaMatrix_eq hn _ (fun row hrow e he n hn' => hat n
      (atoms_jacobian hsys row hrow e he n hn')) x theta lx lt,
    callNumba_eq hn _ (fun e he n hn' => hat n (hloss e he n hn')) x theta lx lt,
    callNumba_eq hn _ (fun e he n hn' => hat n (atoms_gradient e he n hn')) x theta lx lt,
    callNumbaMatrix_eq hn _ (fun row hrow e he n hn' => hat n
      (atoms_jacobian atoms_gradient row hrow e he n hn')) x theta lx lt,
    callNumbaHessp_eq hn hhp hp (fun e he n hn' => hat n (hm1 e he n hn')) hm2 x p theta lx lp lt,
    _, c1⟩

/-- Vectors of the wrong length are refused by every function of the numba back-end. -/
theorem C75_wrong_length (vn pn : List Str) (eqs : List (SymExpr Str)) (hne : eqs ≠ []) (hv : vn ≠ [])
    (x p theta : List ℝ) (hbad : x.length ≠ vn.length ∨ theta.length ≠ pn.length) :
    ∃ K, compileNumba vn eqs = .ok K ∧
      callNumba vn pn K.system x theta = .error .assertion ∧
      callNumbaMatrix vn pn K.jac x theta = .error .assertion ∧
      callNumba vn pn [K.loss] x theta = .error .assertion ∧
      callNumba vn pn K.grad x theta = .error .assertion ∧
      callNumbaMatrix vn pn K.hess x theta = .error .assertion ∧
      callNumbaHessp false vn pn K.hessp x p theta = .error .assertion := by
  obtain ⟨hp, -, hK⟩ := compileNumba_ok vn eqs
  have hcall : ∀ outs, callNumba vn pn outs x theta = .error .assertion := by
    intro outs
    unfold callNumba
    rw [C55_length_checked vn pn x theta hbad]
    rfl
  have hmat : ∀ rows, rows ≠ [] → callNumbaMatrix vn pn rows x theta = .error .assertion := by
    intro rows hr
    cases rows with
    | nil => exact absurd rfl hr
    | cons r rs =>
      unfold callNumbaMatrix
      rw [List.mapM_cons, hcall]
      rfl
  refine ⟨_, hK, hcall _, hmat _ ?_, hcall _, hcall _, hmat _ ?_, ?_⟩
  · simpa [makeJacobian] using hne
  · simpa [makeJacobian, makeGradient] using hv
  · unfold callNumbaHessp
    rw [Bool.false_and, if_neg Bool.false_ne_true, C55_length_checked]
    · rfl
    · rcases hbad with h | h
      · left; simpa using h
      · right; simpa using h

/-- A model with a numeraire: the numeraire stays among the names the generated code unpacks, so the numba
functions refuse the vector of the model's variables, whatever the equations. -/
theorem C75_numeraire_refused (h : ScalarModel coords vars params) (o : ModelObject) (ho : o ∈ vars)
    (hpos : 0 < specSize coords o)
    (huv : unpackGroup setList coords vars = .ok uv) (hup : unpackGroup setList coords params = .ok up)
    (outs : List (SymExpr Str)) (x theta : List ℝ)
    (hx : x.length = totalSize coords (solvedVars (some o) vars)) :
    callNumba (dkeys uv) (dkeys up) outs x theta = .error .assertion := by
  obtain ⟨hk1, hk2⟩ := dkeys_unpacked h huv hup
  unfold callNumba
  rw [C55_length_checked]
  · rfl
  · left
    rw [hx, hk1, length_scalarNames]
    have key : ∀ l : List ModelObject, o ∈ l →
        totalSize coords (solvedVars (some o) l) < totalSize coords l := by
      intro l hl
      have hle : ∀ l : List ModelObject, totalSize coords (solvedVars (some o) l) ≤ totalSize coords l :=
        fun l => ((List.filter_sublist (l := l)).map (specSize coords)).sum_le_sum (by simp)
      induction l with
      | nil => cases hl
      | cons a l ih =>
        have hl' := hle l
        by_cases ha : a.name = o.name
        · have e : solvedVars (some o) (a :: l) = solvedVars (some o) l := by
            unfold solvedVars
            rw [List.filter_cons_of_neg]
            simp [ha]
          rw [e]
          rcases List.mem_cons.1 hl with rfl | hm
          · simp only [totalSize, List.map_cons, List.sum_cons] at hl' ⊢
            omega
          · have := ih hm
            simp only [totalSize, List.map_cons, List.sum_cons] at this ⊢
            omega
        · have e : solvedVars (some o) (a :: l) = a :: solvedVars (some o) l := by
            unfold solvedVars
            rw [List.filter_cons_of_pos]
            simp [ha]
          have hm : o ∈ l := by
            rcases List.mem_cons.1 hl with rfl | hm
            · exact absurd rfl ha
            · exact hm
          have := ih hm
          rw [e]
          simp only [totalSize, List.map_cons, List.sum_cons] at this ⊢
          omega
    exact (key vars ho).ne

/-- The Hessian-vector product of a model with variables, compiled by numba, refuses every call. -/
theorem C75_hessp_refused (vn pn : List Str) (outs : List (SymExpr (HAtom Str))) (x p theta : List ℝ)
    (hx : x ≠ []) : callNumbaHessp true vn pn outs x p theta = .error .typeError := by
  cases x with
  | nil => exact absurd rfl hx
  | cons a x => rfl

/-! ### Where the back-ends differ -/

/-- The example of C70 meets the hypotheses. -/
theorem ptNames : NumbaNames (scalarNames ptCoords (ptVars ++ ptParams)) where
  nodup := ptModel.scalars
  word := by decide +kernel
  noExog := by decide +kernel
  noEndog := by decide +kernel
  noNumpy := by decide +kernel

example (x theta : List ℝ) (hx : x.length = 2) (ht : theta.length = 1) :
    ∃ (uv up : Dict Str ModelObject) (K : NumbaFns) (F : List (SymExpr PtAtom)) (r : List ℝ),
      compileNumba (dkeys uv) ptEqs = .ok K ∧
      callNumba (dkeys uv) (dkeys up) K.system x theta = .ok r ∧
      wrapForScipy (callGraphs ["x".toList, "p".toList] ["x".toList] F) ptVars ptParams ptCoords x theta =
        .ok r := by
  obtain ⟨uv, up, F, h1, h2, h3⟩ := pt_compiles
  have hv : totalSize ptCoords ptVars = 2 := by decide +kernel
  have hp : totalSize ptCoords ptParams = 1 := by decide +kernel
  obtain ⟨K, hK, hall⟩ := C75_backends_agree_partial ptModel ptNames (by decide +kernel)
    (by decide +kernel) h1 h2 F h3
  obtain ⟨g1, -, -, -, -, -, r, hr⟩ := hall x x theta (by rw [hv]; exact hx) (by rw [hv]; exact hx)
    (by rw [hp]; exact ht)
  exact ⟨uv, up, K, F.system, r, hK, hr, g1.symm.trans hr⟩

/-- `x_a` and `x_b` with `p` as numeraire of size one, and the call refused. -/
example (x : ℝ) : ∃ uv up, unpackGroup id ptCoords (ptVars ++ [{ name := "q" }]) = .ok uv ∧
    unpackGroup id ptCoords ptParams = .ok up ∧
    callNumba (dkeys uv) (dkeys up) ptEqs [x, x] [x] = .error .assertion := by
  have hm : ScalarModel ptCoords (ptVars ++ [{ name := "q" }]) ptParams :=
    ⟨by decide +kernel, by decide +kernel, by decide +kernel, by decide +kernel, by decide +kernel,
      by decide +kernel⟩
  exact ⟨_, _, rfl, rfl, C75_numeraire_refused (setList := id) hm { name := "q" } (by simp)
    (by decide +kernel) rfl rfl ptEqs [x, x] [x] rfl⟩

/-- A model `x = np` with a parameter called `np`. -/
def npVars : List ModelObject := [{ name := "x" }]
def npParams : List ModelObject := [{ name := "np" }]
def npEqs : List (SymExpr Str) := [.add (.sym "x".toList) (.mul (.num (-1)) (.sym "np".toList))]

theorem npModel : ScalarModel [] npVars npParams where
  known := by decide +kernel
  dims := by decide +kernel
  fresh := by decide +kernel
  labels := by decide +kernel
  names := by decide +kernel
  scalars := by decide +kernel

/-- A parameter called `np` hides numpy in the generated code: the numba functions refuse every call, the
default ones return the residuals. -/
theorem C75_np_counterexample (a b : ℝ) : ∃ uv up F K, unpackGroup id [] npVars = .ok uv ∧
    unpackGroup id [] npParams = .ok up ∧
    compileSympytensor ["x".toList, "np".toList] [] uv up npEqs = .ok F ∧
    compileNumba (dkeys uv) npEqs = .ok K ∧
    callNumba (dkeys uv) (dkeys up) K.system [a] [b] = .error .attributeError ∧
    wrapForScipy (callGraphs ["x".toList, "np".toList] [] F.system) npVars npParams [] [a] [b] =
      .ok [a - b] := by
  obtain ⟨hp, -, hK⟩ := compileNumba_ok ["x".toList] npEqs
  obtain ⟨F, hF⟩ : ∃ F, compileSympytensor ["x".toList, "np".toList] [] [("x".toList, { name := "x" })]
      [("np".toList, { name := "np" })] npEqs = .ok F := ⟨_, rfl⟩
  refine ⟨[("x".toList, { name := "x" })], [("np".toList, { name := "np" })], F, _, rfl, rfl, hF, hK, rfl, ?_⟩
  have hsys := C70_system npModel (setList := id) rfl rfl hF [] [a] [b] rfl rfl
  refine Eq.trans hsys ?_
  have hN : scalarNames [] (npVars ++ npParams) = ["x".toList, "np".toList] := by decide +kernel
  rw [hN]
  have ha : flatPoint ["x".toList, "np".toList] ([a] ++ [b]) "x".toList = a := rfl
  have hb : flatPoint ["x".toList, "np".toList] ([a] ++ [b]) "np".toList = b := rfl
  simp only [npEqs, List.map_cons, List.map_nil, eval, ha, hb]
  norm_num
  ring

/-- A parameter that no equation uses: the default back-end refuses to compile the model, the numba back-end
returns the residuals. -/
theorem C75_unused_counterexample (a b : ℝ) : ∃ uv up K, unpackGroup id [] npVars = .ok uv ∧
    unpackGroup id [] [{ name := "q" }] = .ok up ∧
    compileSympytensor ["x".toList, "q".toList] [] uv up [.sym "x".toList] = .error .valueError ∧
    compileNumba ["x".toList] [.sym "x".toList] = .ok K ∧
    callNumba ["x".toList] ["q".toList] K.system [a] [b] = .ok [a] := by
  obtain ⟨hp, -, hK⟩ := compileNumba_ok ["x".toList] [.sym "x".toList]
  refine ⟨_, _, _, rfl, rfl, rfl, hK, ?_⟩
  have := callNumba_eq (vn := ["x".toList]) (pn := ["q".toList])
    ⟨by decide +kernel, by decide +kernel, by decide +kernel, by decide +kernel, by decide +kernel⟩
    [.sym "x".toList] (by simp [atoms]) [a] [b] rfl rfl
  exact this

/-- A symbol that is neither variable nor parameter: the default back-end refuses to compile, the numba
back-end compiles and refuses every call. -/
theorem C75_undeclared {vn pn : List Str} (hn : NumbaNames (vn ++ pn)) (outs : List (SymExpr Str))
    (s : Str) (hs : s ∉ vn ++ pn) (h1 : s ≠ "exog_inputs".toList) (h2 : s ≠ "endog_inputs".toList)
    (e : SymExpr Str) (he : e ∈ outs) (hse : s ∈ e.atoms) (x theta : List ℝ)
    (hx : x.length = vn.length) (ht : theta.length = pn.length) :
    callNumba vn pn outs x theta = .error .keyError := by
  obtain ⟨env, g1, -, -, g4⟩ := C55_binding vn pn x theta hn.word hn.noExog hn.noEndog hx ht
  have hnp : hidesNumpy env = false := by
    unfold hidesNumpy
    rw [g4 _ hn.noNumpy (by decide +kernel) (by decide +kernel)]
    rfl
  unfold callNumba evalGenerated
  rw [g1]
  dsimp only
  rw [hnp, if_neg Bool.false_ne_true, if_pos]
  rw [List.any_eq_true]
  refine ⟨s, List.mem_flatMap.2 ⟨e, he, hse⟩, ?_⟩
  unfold boundNumber
  rw [g4 s hs h1 h2]
  rfl

end Verif
