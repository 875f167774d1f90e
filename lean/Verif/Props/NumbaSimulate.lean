import Verif.Props.NumbaFns

/-!
# C75: `simulate` on the numba back-end
-/

namespace Verif

open SymExpr Set

variable {coords : Coords} {vars params : List ModelObject} {eqs : List IndexedEq}

/-- `es` are the scalar equations made from the indexed ones, and `K` the functions the numba back-end makes
from them; there is no numeraire. -/
def BuiltNumba (coords : Coords) (vars params : List ModelObject) (eqs : List IndexedEq)
    (es : List (SymExpr Str)) (uv up : Dict Str ModelObject) (K : NumbaFns) : Prop :=
  ∃ (setList : List Str → List Str) (setListR : List RExpr → List RExpr)
    (order : Dict (List SIdx) (List SIdx) → List (List SIdx × List SIdx))
    (order' : Dict RExpr RExpr → List (RExpr × RExpr)) (syms : List RExpr),
    (∀ l x, x ∈ setListR l ↔ x ∈ l) ∧ (∀ d e, e ∈ order d ↔ e ∈ d) ∧ (∀ d e, e ∈ order' d ↔ e ∈ d) ∧
    unpackGroup setList coords vars = .ok uv ∧ unpackGroup setList coords params = .ok up ∧
    unpackedEquationSymbols setListR order order' coords none uv up
      (eqs.map fun q => ⟨q.name.text, q.lhs, q.rhs⟩) = .ok syms ∧
    syms.mapM toScalarExpr = some es ∧ compileNumba (dkeys uv) es = .ok K

theorem solvedVars_none (vars : List ModelObject) : solvedVars none vars = vars := by
  simp [solvedVars]

/-- The scalar equations mention scalars of the model only, and their values are the imbalances. -/
theorem BuiltNumba.values {es : List (SymExpr Str)} {uv up : Dict Str ModelObject} {K : NumbaFns}
    (hK : BuiltNumba coords vars params eqs es uv up K)
    (h : IndexedModel coords vars params none eqs) :
    (∀ e ∈ es, ∀ n ∈ e.atoms, n ∈ scalarNames coords (vars ++ params)) ∧
    dkeys uv = scalarNames coords vars ∧ dkeys up = scalarNames coords params ∧
    ∀ flat, imbalances coords vars params none eqs flat =
      es.map fun e => e.eval (flatPoint (scalarNames coords (vars ++ params)) flat) := by
  obtain ⟨setList, setListR, order, order', syms, h1, h2, h3, h4, h5, h6, h7, -⟩ := hK
  obtain ⟨syms', es', g1, g2, g3, g4⟩ := C71_scalar_equations_partial h h1 h2 h3 h4 h5
  rw [h6] at g1
  cases g1
  rw [h7] at g2
  cases g2
  rw [solvedVars_none] at g3 g4
  have hd := dkeys_unpacked h.scalar h4 h5
  refine ⟨g3, hd.1, hd.2, fun flat => ?_⟩
  unfold imbalances
  rw [solvedVars_none]
  exact (g4 flat).symm

/-- A model on the numba back-end, as `simulate` uses it. -/
structure OnNumba (coords : Coords) (vars params : List ModelObject) (eqs : List IndexedEq)
    (env : SamEnv ℝ (List (NDArray ℝ))) : Prop where
  model : IndexedModel coords vars params none eqs
  names : NumbaNames (scalarNames coords (vars ++ params))
  labelled : Labelled coords vars params
  some_variable : vars ≠ []
  some_parameter : params ≠ []
  coords_eq : env.coords = coords
  variables_eq : env.variables = vars
  parameters_eq : env.parameters = params
  compiled : env.compiled ≠ []
  functions : ∃ es uv up K, BuiltNumba coords vars params eqs es uv up K ∧
    env.fSystem = .flat (callNumba (dkeys uv) (dkeys up) K.system) ∧
    env.fResid = .flat fun x theta => (callNumba (dkeys uv) (dkeys up) [K.loss] x theta).map fun l => l.headD 0

theorem OnNumba.runs {env : SamEnv ℝ (List (NDArray ℝ))} (hm : OnNumba coords vars params eqs env) :
    RunsOn coords vars params (imbalances coords vars params none eqs) env := by
  obtain ⟨hmod, hn, hl, hv, hp, hce, hve, hpe, hcomp, es, uv, up, K, hK, hsys, hres⟩ := hm
  obtain ⟨g1, g2, g3, g4⟩ := hK.values hmod
  obtain ⟨hp', -, hK'⟩ := compileNumba_ok (dkeys uv) es
  obtain ⟨_, _, _, _, _, -, -, -, -, -, -, -, hKe⟩ := hK
  rw [hKe] at hK'
  cases hK'
  have hsa := scalarNames_append coords vars params
  rw [hsa] at hn g1
  simp only [hsa] at g4
  refine ⟨hl, hv, hp, hce, hve, hpe, hcomp, fun x theta hx ht => ?_, fun x theta hx ht => ?_⟩
  · rw [hsys, g2, g3, g4]
    exact callNumba_eq hn es g1 x theta (by rw [length_scalarNames, hx]) (by rw [length_scalarNames, ht])
  · rw [hres, g2, g3, g4]
    show (callNumba _ _ [squaredLoss es] x theta).map _ = _
    rw [callNumba_eq hn [squaredLoss es] (by
      intro e he n hn'
      rw [List.mem_singleton] at he
      subst he
      obtain ⟨e', he', hn''⟩ := List.mem_flatMap.1 (atoms_squaredLoss es n hn')
      exact g1 e' he' n hn'') x theta (by rw [length_scalarNames, hx]) (by rw [length_scalarNames, ht])]
    simp only [List.map_cons, List.map_nil, (C37_objective es _).1, List.map_map, Function.comp_def]
    rfl

/-- **C75 (root).**  What C72 says of `simulate` with the root finder holds on the numba back-end too. -/
theorem C75_root_partial (env : SamEnv ℝ (List (NDArray ℝ)))
    (hm : OnNumba coords vars params eqs env) (isNan : ℝ → Bool) (fl : SimFlags)
    (add mul : NDArray ℝ → NDArray ℝ → NDArray ℝ) (h : Heap (NDArray ℝ)) (c : SimCall ℝ)
    (hr : RequestOK coords vars params add mul h c) (hE : EulerArrays env)
    (accept : List ℝ → Prop) (hroot : RootAccepts env accept)
    (hopt : c.useOptimizer = true) (hmode : c.optimizerMode = "root".toList) (out : SimOut ℝ)
    (hout : simulateCompute (simEnvOf env isNan fl add mul) h c = .ok out) :
    ∃ r, out.optimizer = some r ∧
      (out.warnedOptimizer = false →
        accept (imbalances coords vars params none eqs (reportedAt 1 r vars params))) ∧
      (∀ o ∈ vars, ∀ a, seen h c.initial o.name = some a → blockAt 0 r.1 o = a.data) ∧
      (∀ o ∈ params, ∀ a, seen h c.initial o.name = some a → blockAt 0 r.2 o = a.data) ∧
      (∀ p ∈ params, ∀ a, wantedValue add mul h c p.name = some a → blockAt 1 r.2 p = a.data) :=
  simulate_root env hm.runs isNan fl add mul h c hr hE accept hroot hopt hmode out hout

/-- **C75 (minimise).** -/
theorem C75_minimize_partial (env : SamEnv ℝ (List (NDArray ℝ)))
    (hm : OnNumba coords vars params eqs env) (isNan : ℝ → Bool) (fl : SimFlags)
    (add mul : NDArray ℝ → NDArray ℝ → NDArray ℝ) (h : Heap (NDArray ℝ)) (c : SimCall ℝ)
    (hr : RequestOK coords vars params add mul h c) (hE : EulerArrays env)
    (accept : ℝ → Prop) (hmin : MinimizeAccepts env accept)
    (hopt : c.useOptimizer = true) (hmode : c.optimizerMode = "minimize".toList) (out : SimOut ℝ)
    (hout : simulateCompute (simEnvOf env isNan fl add mul) h c = .ok out) :
    ∃ r, out.optimizer = some r ∧
      (out.warnedOptimizer = false → ∃ v, accept v ∧
        v = (1 / 2) * ((imbalances coords vars params none eqs
          (reportedAt 1 r vars params)).map (· ^ 2)).sum ∧
        ∀ y ∈ imbalances coords vars params none eqs (reportedAt 1 r vars params),
          |y| ≤ Real.sqrt (2 * v)) ∧
      (∀ o ∈ vars, ∀ a, seen h c.initial o.name = some a → blockAt 0 r.1 o = a.data) ∧
      (∀ o ∈ params, ∀ a, seen h c.initial o.name = some a → blockAt 0 r.2 o = a.data) ∧
      (∀ p ∈ params, ∀ a, wantedValue add mul h c p.name = some a → blockAt 1 r.2 p = a.data) :=
  simulate_minimize env hm.runs isNan fl add mul h c hr hE accept hmin hopt hmode out hout

/-! ### Euler steps -/

/-- The symbolic matrices are the derivatives of the residuals. -/
theorem sym_derivativesOf {nx np : Nat} (vn pn : List Str) (es : List (SymExpr Str)) (hn : (vn ++ pn).Nodup)
    (hv : vn.length = nx) (hp : pn.length = np) (he : es.length = nx) (G : List ℝ → List ℝ)
    (hG : ∀ flat, flat.length = (vn ++ pn).length →
      G flat = es.map fun e => e.eval (flatPoint (vn ++ pn) flat)) :
    DerivativesOf G (fun flat => ∀ e ∈ es, Regular (flatPoint (vn ++ pn) flat) e)
      (symA nx np vn pn es) (symB nx np vn pn es) := by
  intro x t hr
  have hlen : (List.ofFn x ++ List.ofFn t).length = (vn ++ pn).length := by simp [hv, hp]
  have hget : ∀ i : Fin nx, es[i.val]? = some (es.getD i (.num 0)) := by
    intro i
    have : i.val < es.length := by rw [he]; exact i.isLt
    rw [getD_lt this, List.getElem?_eq_getElem this]
  constructor
  · intro i j
    have hj : j.val < vn.length := by rw [hv]; exact j.isLt
    have hk : (vn ++ pn)[j.val]? = some (vn.getD j []) := by
      rw [List.getElem?_append_left hj, getD_lt hj, List.getElem?_eq_getElem hj]
    have h3 := flat_hasDerivAt hn G es hG _ hlen j _ hk i _ (hget i) (hr _ (List.mem_of_getElem? (hget i)))
    have hx : (List.ofFn x ++ List.ofFn t).getD j 0 = x j := by
      rw [List.getD_eq_getElem?_getD, List.getElem?_append_left (by simp), List.getElem?_ofFn]
      simp
    rw [hx] at h3
    unfold symA
    rw [scalarPoint_flat]
    exact h3
  · intro i k
    have hk1 : k.val < pn.length := by rw [hp]; exact k.isLt
    have hk : (vn ++ pn)[nx + k.val]? = some (pn.getD k []) := by
      rw [List.getElem?_append_right (by omega), hv, Nat.add_sub_cancel_left, getD_lt hk1,
        List.getElem?_eq_getElem hk1]
    have h3 := flat_hasDerivAt hn G es hG _ hlen _ _ hk i _ (hget i) (hr _ (List.mem_of_getElem? (hget i)))
    have hx : (List.ofFn x ++ List.ofFn t).getD (nx + k) 0 = t k := by
      rw [List.getD_eq_getElem?_getD, List.getElem?_append_right (by simp), List.getElem?_ofFn]
      simp
    rw [hx] at h3
    unfold symB
    rw [scalarPoint_flat]
    exact h3

/-- A model on the numba back-end as the Euler pass of `simulate` uses it; `es` are the scalar equations and
`order` the order of the replacements. -/
structure EulerOnNumba (coords : Coords) (vars params : List ModelObject) (eqs : List IndexedEq)
    (es : List (SymExpr Str)) (order : List Str) (env : SamEnv ℝ (List (NDArray ℝ))) : Prop where
  model : IndexedModel coords vars params none eqs
  names : EulerNames (scalarNames coords (vars ++ params))
  euler : EulerModel coords vars params
  replaced : ∀ a, a ∈ order ↔ a ∈ scalarNames coords (vars ++ params)
  coords_eq : env.coords = coords
  variables_eq : env.variables = vars
  parameters_eq : env.parameters = params
  compiled : env.compiled ≠ []
  steps : ∃ uv up K, BuiltNumba coords vars params eqs es uv up K ∧
    EulerIs env .numba (numbaDX order (dkeys uv) (dkeys up) es)

/-- **C75 (Euler).**  What C74 says of the default back-end holds on the numba back-end too, here with no
assumption on how the derivatives are made; but the length of the trajectory always triggers the warning
about missing steps. -/
theorem C75_euler_converges (es : List (SymExpr Str)) (order : List Str)
    (env : SamEnv ℝ (List (NDArray ℝ)))
    (hm : EulerOnNumba coords vars params eqs es order env)
    (hsquare : es.length = totalSize coords vars)
    (fl : SimFlags) (add mul : NDArray ℝ → NDArray ℝ → NDArray ℝ) (h : Heap (NDArray ℝ)) (c : SimCall ℝ)
    (hr : RequestOK coords vars params add mul h c)
    (heul : c.useEuler = true) (hopt : c.useOptimizer = false)
    (φ : ℝ → Fin (totalSize coords vars) → ℝ) (θ : ℝ → Fin (totalSize coords params) → ℝ)
    (hθ : ∀ s k, θ s k = (1 - s) * (initialFlat h c params).getD k 0 +
      s * (wantedFlat add mul h c params).getD k 0)
    (hcont : ContinuousOn φ (Icc 0 1))
    (hstart : List.ofFn (φ 0) = initialFlat h c vars)
    (hsol : ∀ s ∈ Icc (0 : ℝ) 1, ∀ y ∈ imbalances coords vars params none eqs
      (List.ofFn (φ s) ++ List.ofFn (θ s)), y = 0)
    (hreg : ∀ s ∈ Icc (0 : ℝ) 1, ∀ e ∈ es, Regular (flatPoint (scalarNames coords
      (vars ++ params)) (List.ofFn (φ s) ++ List.ofFn (θ s))) e)
    (hinv : ∀ s ∈ Icc (0 : ℝ) 1, ∀ D : Matrix (Fin (totalSize coords vars))
        (Fin (totalSize coords vars)) ℝ,
      (∀ i j : Fin (totalSize coords vars), HasDerivAt (fun u =>
        (imbalances coords vars params none eqs
          ((List.ofFn (φ s) ++ List.ofFn (θ s)).set j u)).getD i 0) (D i j) (φ s j)) → D.det ≠ 0) :
    ∃ (C : ℝ) (M : ℕ), ∀ n, M ≤ n → 1 ≤ n → ∃ e,
      simulateCompute (simEnvOf env (fun _ => false) fl add mul) h { c with nIterEuler := n } =
        .ok ⟨some e, none, none, false⟩ ∧ e.warned = true ∧
      flatOf e.start params = wantedFlat add mul h c params ∧
      (flatOf e.start vars).length = totalSize coords vars ∧
      ∀ j : Fin (totalSize coords vars), |(flatOf e.start vars).getD j 0 - φ 1 j| ≤ C / n := by
  obtain ⟨hmod, hnames, hem, horder, hce, hve, hpe, hcomp, uv, up, K, hK, hsteps⟩ := hm
  obtain ⟨g1, g2, g3, g4⟩ := hK.values hmod
  have hsa := scalarNames_append coords vars params
  rw [hsa] at hnames g1 horder hreg
  simp only [hsa] at g4
  rw [g2, g3] at hsteps
  have hdecl : ∀ e ∈ es, ∀ a, Mentions a e → a ∈ scalarNames coords vars ++ scalarNames coords params :=
    fun e he a ha => g1 e he a ((mem_atoms_iff a e).2 ha)
  have hlen := fun objs => length_scalarNames coords objs
  have hdx : LenOK (numbaDX order (scalarNames coords vars) (scalarNames coords params) es)
      (totalSize coords vars) (totalSize coords params) := by
    intro x t s d hx ht hs hd
    rw [numbaDX_eq order _ _ es hnames horder hdecl (hlen vars) (hlen params) hsquare x t s hx ht hs] at hd
    exact (vecJac _ _).lenOK x t s d hx ht hs hd
  obtain ⟨hcall, hiv, hip⟩ := euler_setup .numba _ env hsteps hem hdx hce hve hpe hcomp fl add mul h c hr
    heul hopt
  have hθ' : θ = thetaPath (toVec _ (flatOf (derefDict h c.initial) params))
      (toVec _ (wantedFlat add mul h c params)) := by
    funext s k
    rw [hθ, hip]
    simp only [thetaPath, toVec, Pi.add_apply, Pi.smul_apply, Pi.sub_apply, smul_eq_mul,
      List.getD_eq_getElem?_getD]
    ring
  obtain ⟨C, M, hCM⟩ := equations_converge coords vars params (derefDict h c.initial)
    (wantedFlat add mul h c params) hcall _ _ es hnames.nodup (hlen vars) (hlen params) hsquare
    (imbalances coords vars params none eqs) (fun flat _ => g4 flat) _ _
    (sym_derivativesOf _ _ es hnames.nodup (hlen vars) (hlen params) hsquare _ (fun flat _ => g4 flat))
    φ θ hθ' hcont
    (by
      rw [hiv, ← hstart]
      funext j
      simp [toVec])
    (fun s hs => ofFn_zeros (by rw [g4, g4, List.length_map, List.length_map]) (hsol s hs)
      (hsol 0 ⟨le_rfl, zero_le_one⟩)) hreg hinv .numba
  have h1 : EulerBackend.numba.order = 1 := rfl
  simp only [h1] at hCM
  have hmain := simulate_converges .numba _ env hsteps hem hdx hce hve hpe hcomp fl add mul h c hr heul
    hopt C 1 M φ (by
      intro n hn
      obtain ⟨outs, ho, hb⟩ := hCM n hn
      exact ⟨outs, (runEuler_numbaDX coords vars params _ _ hcall order _ _ es hnames horder hdecl
        (hlen vars) (hlen params) hsquare n).trans ho, hb⟩)
  simp only [pow_one] at hmain
  exact ⟨C, M, hmain⟩

/-! ### The theorems applied to `x * x = p` -/

/-- The functions of the numba back-end for the example. -/
theorem sqNumba : ∃ uv up K, BuiltNumba [] sqVars sqParams sqEqs sqEs uv up K ∧
    dkeys uv = ["x".toList] ∧ dkeys up = ["p".toList] :=
  ⟨_, _, _, ⟨id, id, id, id, _, fun _ _ => Iff.rfl, fun _ _ => Iff.rfl, fun _ _ => Iff.rfl, rfl, rfl,
    rfl, rfl, rfl⟩, rfl, rfl⟩

noncomputable def sqNumbaEnv (uv up : Dict Str ModelObject) (K : NumbaFns)
    (root : (List ℝ → List ℝ → Res (List ℝ)) → List ℝ → List ℝ → Bool → Res (OptResult ℝ)) :
    SamEnv ℝ (List (NDArray ℝ)) :=
  ⟨sqVars, sqParams, [], ["root".toList, "minimize".toList, "euler".toList],
    .flat (callNumba (dkeys uv) (dkeys up) K.system),
    .flat fun x theta => (callNumba (dkeys uv) (dkeys up) [K.loss] x theta).map fun l => l.headD 0,
    [], root, bestMinimize, fun x0 theta n => runEuler .numba
      (numbaDX ["p".toList, "x".toList] (dkeys uv) (dkeys up) sqEs) sqVars sqParams [] theta n x0⟩

theorem sqNumbaNames : NumbaNames (scalarNames [] (sqVars ++ sqParams)) :=
  ⟨by decide +kernel, by decide +kernel, by decide +kernel, by decide +kernel, by decide +kernel⟩

theorem sqEulerNames : EulerNames (scalarNames [] (sqVars ++ sqParams)) where
  nodup := by decide +kernel
  word := by decide +kernel
  noZero := by
    intro a ha b hb
    revert a b
    decide +kernel
  noExog := by decide +kernel
  noEndog := by decide +kernel
  noNumpy := by decide +kernel

theorem sqOnNumba (root : (List ℝ → List ℝ → Res (List ℝ)) → List ℝ → List ℝ → Bool → Res (OptResult ℝ)) :
    ∃ uv up K, OnNumba [] sqVars sqParams sqEqs (sqNumbaEnv uv up K root) ∧
      EulerOnNumba [] sqVars sqParams sqEqs sqEs ["p".toList, "x".toList] (sqNumbaEnv uv up K root) := by
  obtain ⟨uv, up, K, hK, h1, h2⟩ := sqNumba
  have hN : scalarNames [] (sqVars ++ sqParams) = ["x".toList, "p".toList] := by decide +kernel
  refine ⟨uv, up, K, ⟨sqModel, sqNumbaNames, gapModel.labelled, gapModel.someVar, gapModel.someParam, rfl,
    rfl, rfl, List.cons_ne_nil _ _, sqEs, uv, up, K, hK, rfl, rfl⟩,
    ⟨sqModel, sqEulerNames, gapModel, ?_, rfl, rfl, rfl, List.cons_ne_nil _ _, uv, up, K, hK, rfl⟩⟩
  intro a
  rw [hN]
  simp only [List.mem_cons, List.not_mem_nil, or_false]
  tauto

/-- A root finder that answers the square root when it is a root. -/
noncomputable def sqrtRoot (f : List ℝ → List ℝ → Res (List ℝ)) (_ theta : List ℝ) (_ : Bool) :
    Res (OptResult ℝ) :=
  (f (theta.map Real.sqrt) theta).map fun _ => ⟨theta.map Real.sqrt, true⟩

/-- The hypotheses of `C75_root_partial` with a result without a warning. -/
example (isNan : ℝ → Bool) (add mul : NDArray ℝ → NDArray ℝ → NDArray ℝ) :
    ∃ (env : SamEnv ℝ (List (NDArray ℝ))) (out : SimOut ℝ),
      OnNumba [] sqVars sqParams sqEqs env ∧ RequestOK [] sqVars sqParams add mul [] riseCall ∧
      simulateCompute (simEnvOf env isNan {} add mul) []
        { riseCall with useEuler := false, useOptimizer := true } = .ok out ∧
      out.warnedOptimizer = false := by
  obtain ⟨uv, up, K, h1, -⟩ := sqOnNumba sqrtRoot
  have hs : (sqNumbaEnv uv up K sqrtRoot).fSystem.forScipy sqVars sqParams [] [Real.sqrt 4] [4] = _ :=
    h1.runs.residuals [Real.sqrt 4] [4] rfl rfl
  have hroot : sqrtRoot ((sqNumbaEnv uv up K sqrtRoot).fSystem.forScipy sqVars sqParams []) [1] [4] true =
      .ok ⟨[Real.sqrt 4], true⟩ :=
    congrArg (Except.map fun _ => (⟨[Real.sqrt 4], true⟩ : OptResult ℝ)) hs
  refine ⟨sqNumbaEnv uv up K sqrtRoot, ⟨none, some ([("x".toList, (["step".toList], ⟨[2], [1, Real.sqrt 4]⟩))],
      [("p".toList, (["step".toList], ⟨[2], [1, 4]⟩))]), some ⟨[Real.sqrt 4], true⟩, false⟩, h1,
    riseRequest add mul, ?_, rfl⟩
  have e : simulateCompute (simEnvOf (sqNumbaEnv uv up K sqrtRoot) isNan {} add mul) []
      { riseCall with useEuler := false, useOptimizer := true } = liftPy ((sqrtRoot
        ((sqNumbaEnv uv up K sqrtRoot).fSystem.forScipy sqVars sqParams []) [1] [4] true).bind
        fun res => (optimizerResultToIdata res.x [4]
            [("x".toList, ⟨[], [1]⟩), ("p".toList, ⟨[], [1]⟩)] sqVars sqParams []).bind fun idata =>
              .ok ⟨none, some idata, some res, !res.success⟩) := rfl
  rw [e, hroot]
  rfl

/-- On the numba back-end, too, the simulated `x` approaches 2. -/
example (fl : SimFlags) (add mul : NDArray ℝ → NDArray ℝ → NDArray ℝ) :
    ∃ env, ∃ (C : ℝ) (M : ℕ), ∀ n, M ≤ n → 1 ≤ n → ∃ e,
      simulateCompute (simEnvOf env (fun _ => false) fl add mul) [] { riseCall with nIterEuler := n } =
        .ok ⟨some e, none, none, false⟩ ∧ flatOf e.start sqParams = [4] ∧
      |(flatOf e.start sqVars).getD 0 0 - 2| ≤ C / n := by
  obtain ⟨uv, up, K, -, hE⟩ := sqOnNumba sqrtRoot
  refine ⟨sqNumbaEnv uv up K sqrtRoot, ?_⟩
  have hpos : ∀ s ∈ Icc (0 : ℝ) 1, 0 < Real.sqrt (1 + 3 * s) := fun s hs =>
    Real.sqrt_pos.2 (by linarith [hs.1])
  obtain ⟨C, M, hCM⟩ := C75_euler_converges sqEs _ (sqNumbaEnv uv up K sqrtRoot) hE rfl fl add mul []
    riseCall (riseRequest add mul) rfl rfl (fun s _ => Real.sqrt (1 + 3 * s)) (fun s _ => 1 + 3 * s)
    (by
      intro s k
      rw [sqp_fin k]
      show (1 : ℝ) + 3 * s = (1 - s) * 1 + s * 4
      ring)
    (by fun_prop)
    (by
      show [Real.sqrt (1 + 3 * 0)] = [1]
      simp)
    (by
      intro s hs y hy
      have hf := sq_flat (fun _ => Real.sqrt (1 + 3 * s)) (fun _ => 1 + 3 * s) ⟨0, by decide⟩ ⟨0, by decide⟩
      rw [solvedVars_none] at hf
      rw [hf, sqImbalances, List.mem_singleton] at hy
      rw [hy, Real.mul_self_sqrt (by linarith [hs.1])]
      ring)
    (fun s _ => sqRegular _)
    (by
      intro s hs D hD
      have i0 : Fin (totalSize [] sqVars) := ⟨0, by decide⟩
      have hi0 : i0.val = 0 := by
        have : i0.val < 1 := i0.isLt
        omega
      have h1 := hD i0 i0
      have hf := sq_flat (fun _ => Real.sqrt (1 + 3 * s)) (fun _ => 1 + 3 * s) ⟨0, by decide⟩ ⟨0, by decide⟩
      rw [solvedVars_none] at hf
      rw [hf, hi0] at h1
      have h2 := h1.unique (sq_dx _ _)
      have : D.det = D i0 i0 := by
        have e : i0 = (default : Fin 1) := Fin.ext hi0
        rw [e]
        exact Matrix.det_unique (n := Fin 1) D
      rw [this, h2]
      have := hpos s hs
      positivity)
  refine ⟨C, M, fun n hn h1 => ?_⟩
  obtain ⟨e, g1, g2, g3, -, g4⟩ := hCM n hn h1
  refine ⟨e, g1, g3, ?_⟩
  have := g4 ⟨0, by decide⟩
  have h4 : Real.sqrt (1 + 3 * 1) = 2 := by
    rw [show (1 + 3 * 1 : ℝ) = 2 ^ 2 by norm_num]
    exact Real.sqrt_sq (by norm_num)
  simp only [h4] at this
  exact this

end Verif
