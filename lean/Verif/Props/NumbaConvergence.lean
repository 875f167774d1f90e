import Verif.Lemmas.SymField

/-!
# C66: the numba Euler solver converges to the solution of the symbolic equations

Everything between the symbolic equations and the returned arrays is composed: symbolic derivatives, the
renaming, the generated functions' argument binding, the linear solve, the loop, and the packing.
-/

namespace Verif

open SymExpr Set Filter Topology

variable {nx np : Nat}

theorem npSolve_eq (A : List (List ℝ)) (b : List ℝ) (n : Nat) (hA : A.length = n)
    (hrow : ∀ row ∈ A, row.length = n) (hb : b.length = n) (M : Matrix (Fin n) (Fin n) ℝ)
    (hM : ∀ i j : Fin n, M i j = ((A[i.val]?.getD [])[j.val]?).getD 0) [Decidable (IsUnit M.det)] :
    npSolve A b = if IsUnit M.det then .ok (List.ofFn (M⁻¹.mulVec (toVec n b))) else .error .linAlg := by
  subst hA
  have : M = fun i j => ((A[i.val]?.getD [])[j.val]?).getD 0 := by
    funext i j
    exact hM i j
  subst this
  unfold npSolve
  rw [if_pos ⟨hrow, hb⟩]
  dsimp only
  congr

theorem zipWith_sum_eq (l : List Str) (d : List ℝ) (f : Str → ℝ) (hl : l.length = np) (hd : d.length = np) :
    (List.zipWith (fun a s => f a * s) l d).sum = ∑ k : Fin np, f (l.getD k []) * toVec np d k := by
  rw [← List.sum_ofFn]
  congr 1
  apply List.ext_getElem
  · simp [hl, hd]
  · intro k h1 h2
    have hk : k < np := by simpa using h2
    rw [List.getElem_zipWith, List.getElem_ofFn]
    simp only [toVec, getD_lt (hl ▸ hk : k < l.length),
      List.getElem?_eq_getElem (hd ▸ hk : k < d.length), Option.getD_some]

/-- The step of the numba solver is minus the solution of the linear system of symbolic partial
derivatives. -/
theorem numbaDX_eq (order vn pn : List Str) (eqs : List (SymExpr Str))
    (hn : EulerNames (vn ++ pn)) (horder : ∀ a, a ∈ order ↔ a ∈ vn ++ pn)
    (hdecl : ∀ e ∈ eqs, ∀ a, Mentions a e → a ∈ vn ++ pn)
    (hv : vn.length = nx) (hp : pn.length = np) (he : eqs.length = nx) (x t h : List ℝ)
    (hx : x.length = nx) (ht : t.length = np) (hh : h.length = np) :
    numbaDX order vn pn eqs x t h
      = (vecJac (symA nx np vn pn eqs) (symB nx np vn pn eqs)).solve x t h := by
  classical
  obtain ⟨pt, hpt⟩ : ∃ pt, pt = scalarPoint vn pn (toVec nx x) (toVec np t) := ⟨_, rfl⟩
  have e1 : vn.map pt = x := by
    apply List.ext_getElem
    · simp [hv, hx]
    · intro i h1 h2
      have hi : i < nx := hx ▸ h2
      have := scalarPoint_left hn.nodup hv (toVec nx x) (toVec np t) ⟨i, hi⟩
      rw [getD_lt (hv ▸ hi)] at this
      rw [← hpt] at this
      rw [List.getElem_map, this]
      simp [toVec, List.getElem?_eq_getElem h2]
  have e2 : pn.map pt = t := by
    apply List.ext_getElem
    · simp [hp, ht]
    · intro i h1 h2
      have hi : i < np := ht ▸ h2
      have := scalarPoint_right hn.nodup hv hp (toVec nx x) (toVec np t) ⟨i, hi⟩
      rw [getD_lt (hp ▸ hi)] at this
      rw [← hpt] at this
      rw [List.getElem_map, this]
      simp [toVec, List.getElem?_eq_getElem h2]
  unfold numbaDX
  rw [numbaSystem_eq order vn pn eqs h x t pt hn horder hdecl (hh.trans hp.symm) e1 e2]
  dsimp only
  rw [npSolve_eq _ _ nx (by simp [he]) (by
      intro row hrow
      obtain ⟨e, -, rfl⟩ := List.mem_map.1 hrow
      simp [hv]) (by simp [he]) (symA nx np vn pn eqs (toVec nx x) (toVec np t)) (by
      intro i j
      have hi : i.val < eqs.length := he ▸ i.isLt
      have hj : j.val < vn.length := hv ▸ j.isLt
      simp [symA, ← hpt, List.getElem?_eq_getElem hi, List.getElem?_eq_getElem hj])]
  unfold Jacobians.solve vecJac
  dsimp only
  have hb : toVec nx (eqs.map fun e => (List.zipWith (fun p s => (diff p e).eval pt * s) pn h).sum)
      = (symB nx np vn pn eqs (toVec nx x) (toVec np t)).mulVec (toVec np h) := by
    funext i
    have hi : i.val < eqs.length := he ▸ i.isLt
    rw [show ∀ l : List ℝ, toVec nx l i = (l[i.val]?).getD 0 from fun l => rfl, List.getElem?_map,
      List.getElem?_eq_getElem hi, Option.map_some, Option.getD_some,
      zipWith_sum_eq pn h (fun p => (diff p eqs[i.val]).eval pt) hp hh]
    simp only [Matrix.mulVec, dotProduct, symB]
    apply Finset.sum_congr rfl
    intro k _
    rw [getD_lt hi, ← hpt]
  by_cases hu : IsUnit (symA nx np vn pn eqs (toVec nx x) (toVec np t)).det
  · rw [if_pos hu, if_pos hu]
    dsimp only
    rw [hb, List.map_ofFn]
    rfl
  · rw [if_neg hu, if_neg hu]

theorem eulerRows_congr (dx dy : StepSolve ℝ) (nx np : Nat) (hdx : LenOK dx nx np) (h : List ℝ)
    (hh : h.length = np)
    (hE : ∀ x t, x.length = nx → t.length = np → dx x t h = dy x t h) (k : Nat) (x t : List ℝ)
    (hx : x.length = nx) (ht : t.length = np) : eulerRows dx h k x t = eulerRows dy h k x t := by
  induction k generalizing x t with
  | zero => rfl
  | succ k ih =>
    unfold eulerRows
    rw [← hE x t hx ht]
    cases hd : dx x t h with
    | error e => rfl
    | ok d =>
      have hdl := hdx x t h d hx ht hh hd
      dsimp only
      rw [ih _ _ (by simp [hx, hdl]) (by simp [ht, hh])]

/-- The numba solver runs the Euler loop with the matrices of symbolic partial derivatives. -/
theorem runEuler_numbaDX (coords : Coords) (vars params : List ModelObject)
    (data : Dict Str (NDArray ℝ)) (tf : List ℝ) (hc : EulerCall coords vars params data tf)
    (order vn pn : List Str) (eqs : List (SymExpr Str))
    (hn : EulerNames (vn ++ pn)) (horder : ∀ a, a ∈ order ↔ a ∈ vn ++ pn)
    (hdecl : ∀ e ∈ eqs, ∀ a, Mentions a e → a ∈ vn ++ pn)
    (hv : vn.length = totalSize coords vars) (hp : pn.length = totalSize coords params)
    (he : eqs.length = totalSize coords vars) (n : Nat) :
    runEuler .numba (numbaDX order vn pn eqs) vars params coords tf n data
      = runEuler .numba (vecJac (nx := totalSize coords vars) (np := totalSize coords params)
          (symA _ _ vn pn eqs) (symB _ _ vn pn eqs)).solve vars params coords tf n data := by
  obtain ⟨lx, -⟩ := flatOf_spec coords data vars (fun o h => hc.shaped o (by simp [h]))
  obtain ⟨lt, -⟩ := flatOf_spec coords data params (fun o h => hc.shaped o (by simp [h]))
  have htf := hc.final
  have hs : (stepVec n tf (flatOf data params)).length = totalSize coords params := by
    simp [stepVec, lt, htf]
  have hE : ∀ x t h, x.length = totalSize coords vars → t.length = totalSize coords params →
      h.length = totalSize coords params → numbaDX order vn pn eqs x t h
        = (vecJac (nx := totalSize coords vars) (np := totalSize coords params) (symA _ _ vn pn eqs)
        (symB _ _ vn pn eqs)).solve x t h := fun x t h hx ht hh =>
    numbaDX_eq order vn pn eqs hn horder hdecl hv hp he x t h hx ht hh
  have hL : LenOK (numbaDX order vn pn eqs) (totalSize coords vars) (totalSize coords params) := by
    intro x t h d hx ht hh hd
    rw [hE x t h hx ht hh] at hd
    exact (vecJac _ _).lenOK x t h d hx ht hh hd
  rw [runEuler_eq .numba _ coords vars params data tf n hc hL,
    runEuler_eq .numba _ coords vars params data tf n hc (vecJac _ _).lenOK]
  have hjf : ∀ dx : StepSolve ℝ, jaxIncrement dx false = dx := by
    intro dx; funext x t h; simp [jaxIncrement]
  simp only [EulerBackend.rk4, hjf]
  rw [eulerRows_congr _ _ _ _ hL _ hs (fun x t hx ht => hE x t _ hx ht hs) n _ _ lx lt]

/-- **C66.**  Take a model whose scalars have names that do not clash and whose equations mention those
names only.  Let the parameters move on the straight line from their start to their end values, and let
`point s` be a continuous path of solutions of all equations over that line, from the given start; along
it let the powers and logarithms in the equations be defined and let the matrix of partial derivatives
with respect to the variables be invertible.  Then there are `C` and `N` so that the numba Euler solver
with `n ≥ N` steps succeeds, and after `t` steps the value it returns for each variable is within `C / n`
of its value at `point (t / n)`. -/
theorem C66_numba_converges (coords : Coords) (vars params : List ModelObject)
    (data : Dict Str (NDArray ℝ)) (tf : List ℝ) (hc : EulerCall coords vars params data tf)
    (order vn pn : List Str) (eqs : List (SymExpr Str))
    (hn : EulerNames (vn ++ pn)) (horder : ∀ a, a ∈ order ↔ a ∈ vn ++ pn)
    (hdecl : ∀ e ∈ eqs, ∀ a, Mentions a e → a ∈ vn ++ pn)
    (hv : vn.length = totalSize coords vars) (hp : pn.length = totalSize coords params)
    (he : eqs.length = totalSize coords vars)
    (point : ℝ → Str → ℝ)
    (hcont : ∀ v ∈ vn, ContinuousOn (fun s => point s v) (Icc 0 1))
    (hpar : ∀ (k : Nat) p a b, pn[k]? = some p → (flatOf data params)[k]? = some a → tf[k]? = some b →
      ∀ s ∈ Icc (0 : ℝ) 1, point s p = a + s * (b - a))
    (hstart : vn.map (point 0) = flatOf data vars)
    (hsol : ∀ s ∈ Icc (0 : ℝ) 1, ∀ e ∈ eqs, e.eval (point s) = 0)
    (hreg : ∀ s ∈ Icc (0 : ℝ) 1, ∀ e ∈ eqs, Regular (point s) e)
    (hinv : ∀ s ∈ Icc (0 : ℝ) 1, ∀ D : Matrix (Fin vn.length) (Fin vn.length) ℝ,
      (∀ (i j : Fin vn.length) e v, eqs[i.val]? = some e → vn[j.val]? = some v →
        HasPartial (fun env => e.eval env) v (D i j) (point s)) → D.det ≠ 0) :
    ∃ (C : ℝ) (N : ℕ), ∀ n, N ≤ n →
      ∃ outs, runEuler .numba (numbaDX order vn pn eqs) vars params coords tf n data = .ok outs ∧
        ∀ t, t ≤ n → ∀ (j : Nat) v, vn[j]? = some v →
          ∃ y, (EulerBackend.numba.stateAfter vars params data outs t)[j]? = some y ∧
            |y - point (t / n) v| ≤ C / n := by
  obtain ⟨lx, -⟩ := flatOf_spec coords data vars (fun o h => hc.shaped o (by simp [h]))
  obtain ⟨lt, -⟩ := flatOf_spec coords data params (fun o h => hc.shaped o (by simp [h]))
  have htf := hc.final
  -- the curve
  obtain ⟨φ, hφ⟩ : ∃ φ : ℝ → Fin (totalSize coords vars) → ℝ,
    φ = fun s j => point s (vn.getD j.val []) := ⟨_, rfl⟩
  obtain ⟨θ, hθ⟩ : ∃ θ, θ = thetaPath (toVec (totalSize coords params) (flatOf data params))
    (toVec (totalSize coords params) tf) := ⟨_, rfl⟩
  have hagree : ∀ s ∈ Icc (0 : ℝ) 1, ∀ a ∈ vn ++ pn, point s a = scalarPoint vn pn (φ s) (θ s) a := by
    intro s hs a ha
    rcases name_cases hv hp a with ⟨j, rfl⟩ | ⟨k, rfl⟩ | h
    · rw [scalarPoint_left hn.nodup hv, hφ]
    · have hk1 : k.val < pn.length := by rw [hp]; exact k.isLt
      have hk2 : k.val < (flatOf data params).length := by rw [lt]; exact k.isLt
      have hk3 : k.val < tf.length := by rw [htf]; exact k.isLt
      rw [scalarPoint_right hn.nodup hv hp, getD_lt hk1,
        hpar k _ _ _ (List.getElem?_eq_getElem hk1) (List.getElem?_eq_getElem hk2)
          (List.getElem?_eq_getElem hk3) s hs, hθ]
      simp [thetaPath, toVec, List.getElem?_eq_getElem hk2, List.getElem?_eq_getElem hk3]
    · exact absurd ha h
  have hat : ∀ e ∈ eqs, ∀ a ∈ e.atoms, a ∈ vn ++ pn :=
    fun e he' a ha => hdecl e he' a ((mem_atoms_iff a e).1 ha)
  have hmem : ∀ i : Fin (totalSize coords vars), eqs.getD i (.num 0) ∈ eqs := fun i => by
    rw [getD_lt (by rw [he]; exact i.isLt : i.val < eqs.length)]; exact List.getElem_mem _
  have hreg' : ∀ s ∈ Icc (0 : ℝ) 1, ∀ i : Fin (totalSize coords vars),
      Regular (scalarPoint vn pn (φ s) (θ s)) (eqs.getD i (.num 0)) := fun s hs i =>
    regular_congr _ (fun a ha => hagree s hs a (hat _ (hmem i) a ha)) (hreg s hs _ (hmem i))
  have hS : SmoothModel 2 (symF _ _ vn pn eqs) (symA _ _ vn pn eqs) (symB _ _ vn pn eqs)
      (toVec (totalSize coords params) (flatOf data params)) (toVec (totalSize coords params) tf) φ := by
    refine ⟨?_, ?_, ?_, ?_, ?_⟩
    · intro s hs
      rw [← hθ]
      funext i
      unfold symF
      rw [← eval_congr _ fun a ha => hagree s hs a (hat _ (hmem i) a ha)]
      exact hsol s hs _ (hmem i)
    · rw [hφ]
      refine continuousOn_pi.2 fun j => hcont _ ?_
      rw [getD_lt (by rw [hv]; exact j.isLt : j.val < vn.length)]
      exact List.getElem_mem _
    · intro s hs
      rw [← hθ]
      exact symF_contDiffAt hn.nodup hv hp (hreg' s hs)
    · intro s hs
      rw [← hθ]
      filter_upwards [symF_regular_eventually hn.nodup hv hp (p := (φ s, θ s)) (hreg' s hs)] with q hq u v
      exact symF_fderiv hn.nodup hv hp hq u v
    · intro s hs
      rw [← hθ, isUnit_iff_ne_zero]
      have := hinv s hs ((symA _ _ vn pn eqs (φ s) (θ s)).submatrix (Fin.cast hv) (Fin.cast hv)) (by
        intro i j e v hi hj
        obtain ⟨i1, rfl⟩ := List.getElem?_eq_some_iff.1 hi
        obtain ⟨j1, rfl⟩ := List.getElem?_eq_some_iff.1 hj
        have h1 := hasPartial_diff (point s) vn[j.val] eqs[i.val] (hreg s hs _ (List.getElem_mem _))
        rw [eval_congr _ fun a ha => hagree s hs a
          (hat _ (List.getElem_mem i1) a (atoms_diff_subset _ _ a ha))] at h1
        have h2 : symA _ _ vn pn eqs (φ s) (θ s) (Fin.cast hv i) (Fin.cast hv j)
            = (diff vn[j.val] eqs[i.val]).eval (scalarPoint vn pn (φ s) (θ s)) := by
          unfold symA
          rw [Fin.val_cast, Fin.val_cast, getD_lt i1, getD_lt j1]
        rw [Matrix.submatrix_apply, h2]
        exact h1)
      have hd := Matrix.det_submatrix_equiv_self (finCongr hv) (symA _ _ vn pn eqs (φ s) (θ s))
      rw [← hd]
      exact this
  obtain ⟨C, N, hCN⟩ := C22_smooth_model coords vars params data tf hc _ _ _ φ hS (by
    rw [← hstart, hφ]
    funext j
    have hj : j.val < vn.length := by rw [hv]; exact j.isLt
    simp [toVec, List.getElem?_eq_getElem hj])
  have hrun := runEuler_numbaDX coords vars params data tf hc order vn pn eqs hn horder hdecl hv hp he
  refine ⟨C, N, fun n hNn => ?_⟩
  obtain ⟨outs, ho, hb⟩ := hCN .numba rfl n hNn
  refine ⟨outs, (hrun n).trans ho, fun t ht j v hj => ?_⟩
  obtain ⟨S, -, hS2, -⟩ := stateAfter_spec .numba _ coords vars params data tf n hc (vecJac _ _).lenOK outs ho
  obtain ⟨e1, l1, l2⟩ := hS2 t ht
  obtain ⟨hj1, rfl⟩ := List.getElem?_eq_some_iff.1 hj
  have hj2 : j < totalSize coords vars := hv ▸ hj1
  have hlen : j < (EulerBackend.numba.stateAfter vars params data outs t).length := by
    rw [e1, List.length_append, l1]; omega
  refine ⟨_, List.getElem?_eq_getElem hlen, ?_⟩
  have h2 := (norm_le_pi_norm _ (⟨j, hj2⟩ : Fin (totalSize coords vars))).trans (hb t ht)
  rw [Pi.sub_apply, Real.norm_eq_abs, hφ] at h2
  simp only [toVec, List.getElem?_eq_getElem hlen, Option.getD_some, getD_lt hj1, mul_one_div] at h2
  exact h2

/-! ## The model `x e^{-a} - 1 = 0`, moved from `a = 0` to `a = 1` -/

/-- `x * exp(-a) - 1`. -/
def exConvEq : SymExpr Str :=
  .add (.mul (.sym "x".toList) (.exp (.mul (.num (-1)) (.sym "a".toList)))) (.num (-1))

theorem exConvNames : EulerNames (["x".toList] ++ ["a".toList]) where
  nodup := by decide +kernel
  word := by decide +kernel
  noZero := by
    intro a ha b hb
    revert a b
    decide +kernel
  noExog := by decide +kernel
  noEndog := by decide +kernel
  noNumpy := by decide +kernel

/-- The values that the numba solver returns for `x` approach `e^(t/n)`. -/
example : ∃ (C : ℝ) (N : ℕ), ∀ n, N ≤ n → ∃ outs,
    runEuler .numba (numbaDX ["a".toList, "x".toList] ["x".toList] ["a".toList] [exConvEq]) exVarsR
      exParamsR [] [1] n exDataR = .ok outs ∧ ∀ t, t ≤ n → ∃ y,
        (EulerBackend.numba.stateAfter exVarsR exParamsR exDataR outs t)[0]? = some y ∧
          |y - Real.exp (t / n)| ≤ C / n := by
  have hxa : "x".toList ≠ "a".toList := by decide +kernel
  obtain ⟨C, N, h⟩ := C66_numba_converges [] exVarsR exParamsR exDataR [1] exEulerCallR
    ["a".toList, "x".toList] ["x".toList] ["a".toList] [exConvEq] exConvNames
    (by intro a; simp only [List.mem_cons, List.mem_append]; tauto)
    (by
      intro e he a ha
      rw [List.mem_singleton] at he
      subst he
      have := (mem_atoms_iff _ _).2 ha
      simp only [exConvEq, atoms, List.mem_append, List.mem_cons, List.not_mem_nil] at this ⊢
      tauto)
    rfl rfl rfl (fun s a => if a = "x".toList then Real.exp s else s)
    (by
      intro v hv
      rw [List.mem_singleton] at hv
      subst hv
      simp only [if_true]
      exact Real.continuous_exp.continuousOn)
    (by
      intro k p a b hp ha hb s _
      have hk : k = 0 := by
        have := (List.getElem?_eq_some_iff.1 hp).1
        simpa using this
      subst hk
      simp only [List.getElem?_cons_zero, Option.some.injEq] at hp hb
      have ha' : (flatOf exDataR exParamsR)[0]? = some (0 : ℝ) := rfl
      rw [ha'] at ha
      injection ha with ha
      subst hp hb ha
      rw [if_neg hxa.symm]
      ring)
    (by
      show [if "x".toList = "x".toList then Real.exp 0 else 0] = [(1 : ℝ)]
      rw [if_pos rfl, Real.exp_zero])
    (by
      intro s _ e he
      rw [List.mem_singleton] at he
      subst he
      simp only [exConvEq, eval, if_true, if_neg hxa.symm]
      rw [← Real.exp_add]
      simp)
    (by
      intro s _ e he
      rw [List.mem_singleton] at he
      subst he
      simp [exConvEq, Regular])
    (by
      intro s _ D hD
      have h1 := hD 0 0 exConvEq "x".toList rfl rfl
      have h2 := hasPartial_diff (fun a => if a = "x".toList then Real.exp s else s) "x".toList exConvEq
        (by simp [exConvEq, Regular])
      have h3 := HasDerivAt.unique h1 h2
      show Matrix.det (n := Fin 1) D ≠ 0
      rw [Matrix.det_fin_one]
      have h4 : D 0 0 = Real.exp (-s) := by
        rw [h3]
        simp only [exConvEq, diff, eval, if_true, if_neg hxa, if_neg hxa.symm]
        simp
      exact fun h0 => (Real.exp_pos (-s)).ne' (h4.symm.trans h0))
  refine ⟨C, N, fun n hn => ?_⟩
  obtain ⟨outs, h1, h2⟩ := h n hn
  exact ⟨outs, h1, fun t ht => by simpa only [if_true] using h2 t ht 0 "x".toList rfl⟩

end Verif
