import Verif.Props.SimulateSolve
import Verif.Props.SimulateEuler
import Verif.Lemmas.SymField

/-!
# C74: simulations by Euler steps on the default back-end approach the equilibrium of the equations as
written
-/

namespace Verif

open SymExpr Set Filter Topology

variable {nx np : Nat}

/-- `A` and `B` are the partial derivatives of `G` in the first `nx` and in the other `np` elements of its
argument, at every point that is `ok`. -/
def DerivativesOf (G : List ℝ → List ℝ) (ok : List ℝ → Prop)
    (A : (Fin nx → ℝ) → (Fin np → ℝ) → Matrix (Fin nx) (Fin nx) ℝ)
    (B : (Fin nx → ℝ) → (Fin np → ℝ) → Matrix (Fin nx) (Fin np) ℝ) : Prop :=
  ∀ (x : Fin nx → ℝ) (t : Fin np → ℝ), ok (List.ofFn x ++ List.ofFn t) →
    (∀ i j : Fin nx, HasDerivAt
      (fun u => (G ((List.ofFn x ++ List.ofFn t).set j u)).getD i 0) (A x t i j) (x j)) ∧
    ∀ (i : Fin nx) (k : Fin np), HasDerivAt
      (fun u => (G ((List.ofFn x ++ List.ofFn t).set (nx + k) u)).getD i 0) (B x t i k) (t k)

theorem scalarPoint_flat (vn pn : List Str) (x : Fin nx → ℝ) (t : Fin np → ℝ) :
    scalarPoint vn pn x t = flatPoint (vn ++ pn) (List.ofFn x ++ List.ofFn t) := by
  funext a
  unfold scalarPoint flatPoint
  rw [List.getD_eq_getElem?_getD]

/-- The derivative in one element of the flat vector, of an equation whose powers and logarithms are
defined. -/
theorem flat_hasDerivAt {N : List Str} (hN : N.Nodup) (G : List ℝ → List ℝ) (es : List (SymExpr Str))
    (hG : ∀ flat, flat.length = N.length → G flat = es.map fun e => e.eval (flatPoint N flat))
    (flat : List ℝ) (hl : flat.length = N.length) (k : Nat) (n : Str) (hk : N[k]? = some n) (i : Nat)
    (e : SymExpr Str) (hi : es[i]? = some e) (hreg : Regular (flatPoint N flat) e) :
    HasDerivAt (fun u => (G (flat.set k u)).getD i 0) ((diff n e).eval (flatPoint N flat))
      (flat.getD k 0) := by
  have h := hasPartial_diff (flatPoint N flat) n e hreg
  unfold HasPartial at h
  rw [flatPoint_at hN flat hk] at h
  have e1 : (fun u => (G (flat.set k u)).getD i 0) =
      fun u => e.eval (Function.update (flatPoint N flat) n u) := by
    funext u
    rw [hG _ (by rw [List.length_set]; exact hl), List.getD_eq_getElem?_getD, List.getElem?_map, hi,
      flatPoint_set hN flat hl hk]
    rfl
  rw [e1]
  exact h

/-- A path along which the residuals keep the values they have at the start is a smooth path in the sense
of C22, if the matrices are the derivatives of the residuals. -/
theorem equations_smooth (k : ℕ) {nv np : Nat} (t0 tf : Fin np → ℝ)
    (vn pn : List Str) (es : List (SymExpr Str)) (hn : (vn ++ pn).Nodup)
    (hv : vn.length = nv) (hp : pn.length = np)
    (he : es.length = nv) (G : List ℝ → List ℝ)
    (hG : ∀ flat, flat.length = (vn ++ pn).length →
      G flat = es.map fun e => e.eval (flatPoint (vn ++ pn) flat))
    (A : (Fin nv → ℝ) → (Fin np → ℝ) → Matrix (Fin nv) (Fin nv) ℝ)
    (B : (Fin nv → ℝ) → (Fin np → ℝ) → Matrix (Fin nv) (Fin np) ℝ)
    (hAB : DerivativesOf G (fun flat => ∀ e ∈ es, Regular (flatPoint (vn ++ pn) flat) e) A B)
    (φ : ℝ → Fin nv → ℝ) (θ : ℝ → Fin np → ℝ) (hθ : θ = thetaPath t0 tf)
    (hcont : ContinuousOn φ (Icc 0 1))
    (hsol : ∀ s ∈ Icc (0 : ℝ) 1, G (List.ofFn (φ s) ++ List.ofFn (θ s)) =
      G (List.ofFn (φ 0) ++ List.ofFn (θ 0)))
    (hreg : ∀ s ∈ Icc (0 : ℝ) 1, ∀ e ∈ es,
      Regular (flatPoint (vn ++ pn) (List.ofFn (φ s) ++ List.ofFn (θ s))) e)
    (hinv : ∀ s ∈ Icc (0 : ℝ) 1, ∀ D : Matrix (Fin nv) (Fin nv) ℝ,
      (∀ i j : Fin nv, HasDerivAt (fun u => (G ((List.ofFn (φ s) ++
        List.ofFn (θ s)).set j u)).getD i 0) (D i j) (φ s j)) → D.det ≠ 0) :
    ∃ F, SmoothModel k F A B t0 tf φ := by
  have hlen : ∀ (x : Fin nv → ℝ) (t : Fin (np) → ℝ),
      (List.ofFn x ++ List.ofFn t).length = (vn ++ pn).length := by
    intro x t; simp [hv, hp]
  have hget : ∀ i : Fin nv, es[i.val]? = some (es.getD i (.num 0)) := by
    intro i
    have : i.val < es.length := by rw [he]; exact i.isLt
    rw [getD_lt this, List.getElem?_eq_getElem this]
  have hmem : ∀ i : Fin nv, es.getD i (.num 0) ∈ es := fun i =>
    List.mem_of_getElem? (hget i)
  -- where the equations are regular, the given matrices are the symbolic ones
  have hAB' : ∀ x t, (∀ i : Fin nv,
      Regular (scalarPoint vn pn x t) (es.getD i (.num 0))) →
      A x t = symA _ _ vn pn es x t ∧ B x t = symB _ _ vn pn es x t := by
    intro x t hr
    rw [scalarPoint_flat] at hr
    have hr' : ∀ e ∈ es, Regular (flatPoint (vn ++ pn) (List.ofFn x ++ List.ofFn t)) e := by
      intro e hem
      obtain ⟨i, hi⟩ := List.mem_iff_getElem?.1 hem
      have hil := (List.getElem?_eq_some_iff.1 hi).1
      have := hr ⟨i, he ▸ hil⟩
      rwa [List.getD_eq_getElem?_getD, hi] at this
    obtain ⟨h1, h2⟩ := hAB x t hr'
    constructor
    · ext i j
      have hj : j.val < vn.length := by rw [hv]; exact j.isLt
      have hk : (vn ++ pn)[j.val]? = some (vn.getD j []) := by
        rw [List.getElem?_append_left hj, getD_lt hj, List.getElem?_eq_getElem hj]
      have h3 := flat_hasDerivAt hn G es hG _ (hlen x t) j _ hk i _ (hget i) (hr i)
      have hx : (List.ofFn x ++ List.ofFn t).getD j 0 = x j := by
        rw [List.getD_eq_getElem?_getD, List.getElem?_append_left (by simp), List.getElem?_ofFn]
        simp
      rw [hx] at h3
      rw [(h1 i j).unique h3]
      unfold symA
      rw [scalarPoint_flat]
    · ext i k
      have hk1 : k.val < pn.length := by rw [hp]; exact k.isLt
      have hk : (vn ++ pn)[nv + k.val]? = some (pn.getD k []) := by
        rw [List.getElem?_append_right (by omega), hv, Nat.add_sub_cancel_left, getD_lt hk1,
          List.getElem?_eq_getElem hk1]
      have h3 := flat_hasDerivAt hn G es hG _ (hlen x t) _ _ hk i _ (hget i) (hr i)
      have hx : (List.ofFn x ++ List.ofFn t).getD (nv + k) 0 = t k := by
        rw [List.getD_eq_getElem?_getD, List.getElem?_append_right (by simp), List.getElem?_ofFn]
        simp
      rw [hx] at h3
      rw [(h2 i k).unique h3]
      unfold symB
      rw [scalarPoint_flat]
  have hreg' : ∀ s ∈ Icc (0 : ℝ) 1, ∀ i : Fin nv,
      Regular (scalarPoint vn pn (φ s) (θ s)) (es.getD i (.num 0)) := by
    intro s hs i
    rw [scalarPoint_flat]
    exact hreg s hs _ (hmem i)
  subst hθ
  obtain ⟨k0, hk0⟩ : ∃ k0, k0 = symF nv (np) vn pn es
    (φ 0, thetaPath t0 tf 0) := ⟨_, rfl⟩
  refine ⟨fun q => symF _ _ vn pn es q - k0, ?_, hcont, ?_, ?_, ?_⟩
  · intro s hs
    rw [hk0, sub_eq_zero]
    funext i
    have h := congrArg (fun l => l[i.val]?) (hsol s hs)
    simp only [hG _ (hlen _ _), List.getElem?_map, hget i, Option.map_some, Option.some.injEq] at h
    unfold symF
    rw [scalarPoint_flat, scalarPoint_flat]
    exact h
  · intro s hs
    exact (symF_contDiffAt hn hv hp (hreg' s hs)).sub contDiffAt_const
  · intro s hs
    filter_upwards [symF_regular_eventually hn hv hp
      (p := (φ s, thetaPath t0 tf s)) (hreg' s hs)] with q hq u v
    rw [(hAB' q.1 q.2 hq).1, (hAB' q.1 q.2 hq).2, fderiv_sub_const]
    exact symF_fderiv hn hv hp hq u v
  · intro s hs
    rw [isUnit_iff_ne_zero]
    exact hinv s hs _ (hAB _ _ (hreg s hs)).1

/-- The order of the steps: the error of a run with `n` steps is proportional to `1 / n`, with Runge-Kutta
steps to `1 / n⁴`. -/
def EulerBackend.order (b : EulerBackend) : ℕ := if b.rk4 then 4 else 1

/-- Euler steps with the derivatives of the residuals converge to the path along which the residuals keep
the values they have at the start. -/
theorem equations_converge (coords : Coords) (vars params : List ModelObject)
    (data : Dict Str (NDArray ℝ)) (tf : List ℝ) (hc : EulerCall coords vars params data tf)
    (vn pn : List Str) (es : List (SymExpr Str)) (hn : (vn ++ pn).Nodup)
    (hv : vn.length = totalSize coords vars) (hp : pn.length = totalSize coords params)
    (he : es.length = totalSize coords vars) (G : List ℝ → List ℝ)
    (hG : ∀ flat, flat.length = (vn ++ pn).length →
      G flat = es.map fun e => e.eval (flatPoint (vn ++ pn) flat))
    (A : (Fin (totalSize coords vars) → ℝ) → (Fin (totalSize coords params) → ℝ) →
      Matrix (Fin (totalSize coords vars)) (Fin (totalSize coords vars)) ℝ)
    (B : (Fin (totalSize coords vars) → ℝ) → (Fin (totalSize coords params) → ℝ) →
      Matrix (Fin (totalSize coords vars)) (Fin (totalSize coords params)) ℝ)
    (hAB : DerivativesOf G (fun flat => ∀ e ∈ es, Regular (flatPoint (vn ++ pn) flat) e) A B)
    (φ : ℝ → Fin (totalSize coords vars) → ℝ)
    (θ : ℝ → Fin (totalSize coords params) → ℝ)
    (hθ : θ = thetaPath (toVec _ (flatOf data params)) (toVec _ tf))
    (hcont : ContinuousOn φ (Icc 0 1)) (hstart : φ 0 = toVec _ (flatOf data vars))
    (hsol : ∀ s ∈ Icc (0 : ℝ) 1, G (List.ofFn (φ s) ++ List.ofFn (θ s)) =
      G (List.ofFn (φ 0) ++ List.ofFn (θ 0)))
    (hreg : ∀ s ∈ Icc (0 : ℝ) 1, ∀ e ∈ es,
      Regular (flatPoint (vn ++ pn) (List.ofFn (φ s) ++ List.ofFn (θ s))) e)
    (hinv : ∀ s ∈ Icc (0 : ℝ) 1,
      ∀ D : Matrix (Fin (totalSize coords vars)) (Fin (totalSize coords vars)) ℝ,
      (∀ i j : Fin (totalSize coords vars), HasDerivAt (fun u => (G ((List.ofFn (φ s) ++
        List.ofFn (θ s)).set j u)).getD i 0) (D i j) (φ s j)) → D.det ≠ 0) :
    ∀ b : EulerBackend, ∃ (C : ℝ) (M : ℕ), ∀ n, M ≤ n →
      ∃ outs, runEuler b (vecJac A B).solve vars params coords tf n data = .ok outs ∧
        ∀ t, t ≤ n →
          ‖toVec _ (b.stateAfter vars params data outs t) - φ (t * (1 / n))‖ ≤ C / n ^ b.order := by
  intro b
  cases hb : b.rk4 with
  | false =>
    obtain ⟨F, hF⟩ := equations_smooth 2 _ _ vn pn es hn hv hp he G hG A B hAB φ θ hθ hcont hsol hreg hinv
    obtain ⟨C, M, h⟩ := C22_smooth_model coords vars params data tf hc F A B φ hF hstart
    have ho : b.order = 1 := by simp [EulerBackend.order, hb]
    exact ⟨C, M, by simpa [ho] using h b hb⟩
  | true =>
    obtain ⟨F, hF⟩ := equations_smooth 5 _ _ vn pn es hn hv hp he G hG A B hAB φ θ hθ hcont hsol hreg hinv
    obtain ⟨C, M, h⟩ := C57_fourth_order coords vars params data tf hc F A B φ hF hstart
    have ho : b.order = 4 := by simp [EulerBackend.order, hb]
    exact ⟨C, M, by simpa [ho] using h b hb⟩

variable {coords : Coords} {vars params : List ModelObject} {numeraire : Option ModelObject}
  {eqs : List IndexedEq}

/-- `es` are the scalar equations made from the indexed ones (`unpacked_equation_symbols`), and `F` the
functions compiled from them. -/
def BuiltFrom (coords : Coords) (vars params : List ModelObject) (numeraire : Option ModelObject)
    (eqs : List IndexedEq) (es : List (SymExpr Str)) (F : SympyTensorFns) : Prop :=
  ∃ (setList : List Str → List Str) (setListR : List RExpr → List RExpr)
    (order : Dict (List SIdx) (List SIdx) → List (List SIdx × List SIdx))
    (order' : Dict RExpr RExpr → List (RExpr × RExpr)) (uv up : Dict Str ModelObject)
    (syms : List RExpr),
    (∀ l x, x ∈ setListR l ↔ x ∈ l) ∧ (∀ d e, e ∈ order d ↔ e ∈ d) ∧ (∀ d e, e ∈ order' d ↔ e ∈ d) ∧
    unpackGroup setList coords vars = .ok uv ∧ unpackGroup setList coords params = .ok up ∧
    unpackedEquationSymbols setListR order order' coords numeraire uv up
      (eqs.map fun q => ⟨q.name.text, q.lhs, q.rhs⟩) = .ok syms ∧
    syms.mapM toScalarExpr = some es ∧
    compileSympytensor ((solvedVars numeraire vars ++ params).map ModelObject.name) coords uv up es = .ok F

theorem BuiltFrom.fns {es : List (SymExpr Str)} {F : SympyTensorFns}
    (h : BuiltFrom coords vars params numeraire eqs es F) : BuiltFns coords vars params numeraire eqs F := by
  obtain ⟨a, b, c, d, e, f, g, h⟩ := h
  exact ⟨a, b, c, d, e, f, g, es, h⟩

/-- The values of the scalar equations are the imbalances of the indexed equations. -/
theorem BuiltFrom.values {es : List (SymExpr Str)} {F : SympyTensorFns}
    (hF : BuiltFrom coords vars params numeraire eqs es F)
    (h : IndexedModel coords vars params numeraire eqs) (flat : List ℝ) :
    imbalances coords vars params numeraire eqs flat = es.map fun e => e.eval
      (flatPoint (scalarNames coords (solvedVars numeraire vars ++ params)) flat) := by
  obtain ⟨_, _, _, _, _, _, syms, h1, h2, h3, h4, h5, h6, h7, h8⟩ := hF
  obtain ⟨syms', es', g1, g2, -, g4⟩ := C71_scalar_equations_partial h h1 h2 h3 h4 h5
  rw [h6] at g1
  cases g1
  rw [h7] at g2
  cases g2
  exact (g4 flat).symm

/-- The numbers a call returns. -/
def valuesOf (r : Res (List ℝ)) : List ℝ :=
  match r with
  | .ok l => l
  | .error _ => []

/-- What the Euler pass of an accepted request starts from and is told to reach. -/
theorem euler_setup {coords : Coords} {vs params : List ModelObject} (b : EulerBackend)
    (dx : StepSolve ℝ) (env : SamEnv ℝ (List (NDArray ℝ))) (hsteps : EulerIs env b dx)
    (hem : EulerModel coords vs params) (hdx : LenOK dx (totalSize coords vs) (totalSize coords params))
    (hce : env.coords = coords) (hve : env.variables = vs) (hpe : env.parameters = params)
    (hcomp : env.compiled ≠ []) (fl : SimFlags) (add mul : NDArray ℝ → NDArray ℝ → NDArray ℝ)
    (h : Heap (NDArray ℝ)) (c : SimCall ℝ) (hr : RequestOK coords vs params add mul h c)
    (heul : c.useEuler = true) (hopt : c.useOptimizer = false) :
    EulerCall coords vs params (derefDict h c.initial) (wantedFlat add mul h c params) ∧
      flatOf (derefDict h c.initial) vs = initialFlat h c vs ∧
      flatOf (derefDict h c.initial) params = initialFlat h c params := by
  subst hce hve hpe
  obtain ⟨hcall, hinit, -⟩ := simulate_euler_only env b _ hsteps hem hdx hcomp fl add mul h
    { c with nIterEuler := 1 } ⟨hr.nodup, hr.exact, hr.distinct, hr.some_change, hr.known, hr.valid,
      hr.unshared, hr.shaped, hr.sized⟩ heul hopt le_rfl
  exact ⟨hcall, hinit _ (by simp +contextual), hinit _ (by simp +contextual)⟩

/-- `simulate` with Euler steps only, when the back-end's trajectories converge. -/
theorem simulate_converges {coords : Coords} {vs params : List ModelObject} (b : EulerBackend)
    (dx : StepSolve ℝ) (env : SamEnv ℝ (List (NDArray ℝ))) (hsteps : EulerIs env b dx)
    (hem : EulerModel coords vs params) (hdx : LenOK dx (totalSize coords vs) (totalSize coords params))
    (hce : env.coords = coords) (hve : env.variables = vs) (hpe : env.parameters = params)
    (hcomp : env.compiled ≠ []) (fl : SimFlags) (add mul : NDArray ℝ → NDArray ℝ → NDArray ℝ)
    (h : Heap (NDArray ℝ)) (c : SimCall ℝ) (hr : RequestOK coords vs params add mul h c)
    (heul : c.useEuler = true) (hopt : c.useOptimizer = false) (C : ℝ) (k M : ℕ)
    (φ : ℝ → Fin (totalSize coords vs) → ℝ)
    (hCM : ∀ n, M ≤ n →
      ∃ outs, runEuler b dx vs params coords (wantedFlat add mul h c params) n (derefDict h c.initial) =
          .ok outs ∧
        ∀ t, t ≤ n → ‖toVec _ (b.stateAfter vs params (derefDict h c.initial) outs t) -
          φ (t * (1 / n))‖ ≤ C / n ^ k) :
    ∀ n, M ≤ n → 1 ≤ n → ∃ e,
      simulateCompute (simEnvOf env (fun _ => false) fl add mul) h { c with nIterEuler := n } =
        .ok ⟨some e, none, none, false⟩ ∧ e.warned = b.keepsStart ∧
      flatOf e.start params = wantedFlat add mul h c params ∧
      (flatOf e.start vs).length = totalSize coords vs ∧
      ∀ j : Fin (totalSize coords vs), |(flatOf e.start vs).getD j 0 - φ 1 j| ≤ C / n ^ k := by
  subst hce hve hpe
  have hcall := (euler_setup b dx env hsteps hem hdx rfl rfl rfl hcomp fl add mul h c hr heul hopt).1
  intro n hn h1
  obtain ⟨outs, hrun, hb⟩ := hCM n hn
  obtain ⟨-, -, hsim⟩ := simulate_euler_only env b _ hsteps hem hdx hcomp fl add mul h
    { c with nIterEuler := n } ⟨hr.nodup, hr.exact, hr.distinct, hr.some_change, hr.known, hr.valid,
      hr.unshared, hr.shaped, hr.sized⟩ heul hopt h1
  obtain ⟨e, g1, g2, g3, g4⟩ := hsim outs hrun
  have harr := C19_arrives b _ _ _ _ (derefDict h c.initial) _ n h1 hcall hdx outs hrun
  have lv := (flatOf_spec env.coords e.start env.variables (fun o ho => g3 o (by simp [ho]))).1
  rw [flatOf_append] at g4
  have g4 : flatOf e.start env.variables ++ flatOf e.start env.parameters =
    b.stateAfter env.variables env.parameters (derefDict h c.initial) outs n := g4
  refine ⟨e, g1, g2, ?_, lv, fun j => ?_⟩
  · rw [← harr, ← g4, List.drop_left' lv]
  · have hbn := hb n le_rfl
    have hnn : (n : ℝ) * (1 / n) = 1 := by
      have : (n : ℝ) ≠ 0 := by exact_mod_cast (by omega : n ≠ 0)
      field_simp
    rw [hnn] at hbn
    have h2 := (norm_le_pi_norm _ j).trans hbn
    rw [Pi.sub_apply, Real.norm_eq_abs, ← g4] at h2
    have e1 : toVec (totalSize env.coords env.variables)
        (flatOf e.start env.variables ++ flatOf e.start env.parameters) j =
        (flatOf e.start env.variables).getD j 0 := by
      rw [List.getD_eq_getElem?_getD]
      unfold toVec
      rw [List.getElem?_append_left (by rw [lv]; exact j.isLt)]
    rw [e1] at h2
    exact h2

/-- A model as the Euler pass of `simulate` uses it when the steps come from differentiating the residual
graph: the python loop around pytensor's or JAX's step, or the scan.  `es` are the scalar equations, `A` and
`B` the matrices of the compiled Euler step.  The derivatives are made by pytensor or JAX: wherever the powers
and logarithms in the equations are defined, `A` and `B` are the derivatives of the compiled residual
function. -/
structure EulerOnGraphs (coords : Coords) (vars params : List ModelObject)
    (numeraire : Option ModelObject) (eqs : List IndexedEq) (es : List (SymExpr Str)) (b : EulerBackend)
    (A : (Fin (totalSize coords (solvedVars numeraire vars)) → ℝ) → (Fin (totalSize coords params) → ℝ) →
      Matrix (Fin (totalSize coords (solvedVars numeraire vars)))
        (Fin (totalSize coords (solvedVars numeraire vars))) ℝ)
    (B : (Fin (totalSize coords (solvedVars numeraire vars)) → ℝ) → (Fin (totalSize coords params) → ℝ) →
      Matrix (Fin (totalSize coords (solvedVars numeraire vars))) (Fin (totalSize coords params)) ℝ)
    (env : SamEnv ℝ (List (NDArray ℝ))) : Prop where
  model : IndexedModel coords vars params numeraire eqs
  euler : EulerModel coords (solvedVars numeraire vars) params
  coords_eq : env.coords = coords
  variables_eq : env.variables = solvedVars numeraire vars
  parameters_eq : env.parameters = params
  compiled : env.compiled ≠ []
  system : ∃ F vn, BuiltFrom coords vars params numeraire eqs es F ∧
    env.fSystem = .kw (callGraphs ((solvedVars numeraire vars ++ params).map ModelObject.name) vn F.system)
  differentiated : b ≠ .numba
  steps : EulerIs env b (vecJac A B).solve
  derivatives : DerivativesOf
    (fun flat => valuesOf (env.fSystem.forScipy env.variables env.parameters env.coords
      (flat.take (totalSize coords (solvedVars numeraire vars)))
      (flat.drop (totalSize coords (solvedVars numeraire vars)))))
    (fun flat => ∀ e ∈ es,
      Regular (flatPoint (scalarNames coords (solvedVars numeraire vars ++ params)) flat) e) A B

/-- The default back-end: the python loop around pytensor's step. -/
abbrev EulerOnDefault (coords : Coords) (vars params : List ModelObject)
    (numeraire : Option ModelObject) (eqs : List IndexedEq) (es : List (SymExpr Str))
    (A : (Fin (totalSize coords (solvedVars numeraire vars)) → ℝ) → (Fin (totalSize coords params) → ℝ) →
      Matrix (Fin (totalSize coords (solvedVars numeraire vars)))
        (Fin (totalSize coords (solvedVars numeraire vars))) ℝ)
    (B : (Fin (totalSize coords (solvedVars numeraire vars)) → ℝ) → (Fin (totalSize coords params) → ℝ) →
      Matrix (Fin (totalSize coords (solvedVars numeraire vars))) (Fin (totalSize coords params)) ℝ)
    (env : SamEnv ℝ (List (NDArray ℝ))) : Prop :=
  EulerOnGraphs coords vars params numeraire eqs es .pytensorLoop A B env

/-- The compiled residual function is the list of imbalances, so the matrices are its derivatives. -/
theorem EulerOnGraphs.imbalanceDerivatives {es : List (SymExpr Str)} {b : EulerBackend}
    {A : (Fin (totalSize coords (solvedVars numeraire vars)) → ℝ) → (Fin (totalSize coords params) → ℝ) →
      Matrix (Fin (totalSize coords (solvedVars numeraire vars)))
        (Fin (totalSize coords (solvedVars numeraire vars))) ℝ}
    {B : (Fin (totalSize coords (solvedVars numeraire vars)) → ℝ) → (Fin (totalSize coords params) → ℝ) →
      Matrix (Fin (totalSize coords (solvedVars numeraire vars))) (Fin (totalSize coords params)) ℝ}
    {env : SamEnv ℝ (List (NDArray ℝ))}
    (hm : EulerOnGraphs coords vars params numeraire eqs es b A B env) :
    DerivativesOf (imbalances coords vars params numeraire eqs)
      (fun flat => ∀ e ∈ es, Regular (flatPoint (scalarNames coords (solvedVars numeraire vars) ++
        scalarNames coords params) flat) e) A B := by
  obtain ⟨hmod, hem, hce, hve, hpe, hcomp, ⟨F, vn, hF, hsys⟩, -, hsteps, hder⟩ := hm
  rw [scalarNames_append] at hder
  have key : ∀ flat : List ℝ, flat.length =
      totalSize coords (solvedVars numeraire vars) + totalSize coords params →
      valuesOf (env.fSystem.forScipy env.variables env.parameters env.coords
        (flat.take (totalSize coords (solvedVars numeraire vars)))
        (flat.drop (totalSize coords (solvedVars numeraire vars)))) =
        imbalances coords vars params numeraire eqs flat := by
    intro flat hl
    rw [hsys, hve, hpe, hce]
    show valuesOf (wrapForScipy _ (solvedVars numeraire vars) params coords _ _) = _
    have := hF.fns.system hmod vn (flat.take (totalSize coords (solvedVars numeraire vars)))
      (flat.drop (totalSize coords (solvedVars numeraire vars))) (by rw [List.length_take]; omega)
      (by rw [List.length_drop]; omega)
    rw [List.take_append_drop] at this
    rw [this]
    rfl
  intro x t hok
  obtain ⟨h1, h2⟩ := hder x t hok
  constructor
  · intro i j
    have := h1 i j
    simp only [key _ (show ((List.ofFn x ++ List.ofFn t).set j _).length = _ by simp)] at this
    exact this
  · intro i k
    have := h2 i k
    simp only [key _ (show ((List.ofFn x ++ List.ofFn t).set (_ + k.val) _).length = _ by simp)] at this
    exact this

/-- **C73 (nonlinear models).**  C74 without the assumption that the initial state is an equilibrium: let
the initial state lie on a continuous path along which the equations as written are off by as much as at the
initial state.  Then `simulate` with `n` Euler steps returns and ends within `C / n` of the end of that path,
with Runge-Kutta steps within `C / n⁴`. -/
theorem C73_path_kept (es : List (SymExpr Str)) (b : EulerBackend)
    (A : (Fin (totalSize coords (solvedVars numeraire vars)) → ℝ) → (Fin (totalSize coords params) → ℝ) →
      Matrix (Fin (totalSize coords (solvedVars numeraire vars)))
        (Fin (totalSize coords (solvedVars numeraire vars))) ℝ)
    (B : (Fin (totalSize coords (solvedVars numeraire vars)) → ℝ) → (Fin (totalSize coords params) → ℝ) →
      Matrix (Fin (totalSize coords (solvedVars numeraire vars))) (Fin (totalSize coords params)) ℝ)
    (env : SamEnv ℝ (List (NDArray ℝ)))
    (hm : EulerOnGraphs coords vars params numeraire eqs es b A B env)
    (hsquare : es.length = totalSize coords (solvedVars numeraire vars))
    (fl : SimFlags) (add mul : NDArray ℝ → NDArray ℝ → NDArray ℝ) (h : Heap (NDArray ℝ)) (c : SimCall ℝ)
    (hr : RequestOK coords (solvedVars numeraire vars) params add mul h c)
    (heul : c.useEuler = true) (hopt : c.useOptimizer = false)
    (φ : ℝ → Fin (totalSize coords (solvedVars numeraire vars)) → ℝ)
    (θ : ℝ → Fin (totalSize coords params) → ℝ)
    (hθ : ∀ s k, θ s k = (1 - s) * (initialFlat h c params).getD k 0 +
      s * (wantedFlat add mul h c params).getD k 0)
    (hcont : ContinuousOn φ (Icc 0 1))
    (hstart : List.ofFn (φ 0) = initialFlat h c (solvedVars numeraire vars))
    (hsol : ∀ s ∈ Icc (0 : ℝ) 1, imbalances coords vars params numeraire eqs
      (List.ofFn (φ s) ++ List.ofFn (θ s)) = imbalances coords vars params numeraire eqs
        (List.ofFn (φ 0) ++ List.ofFn (θ 0)))
    (hreg : ∀ s ∈ Icc (0 : ℝ) 1, ∀ e ∈ es, Regular (flatPoint (scalarNames coords
      (solvedVars numeraire vars ++ params)) (List.ofFn (φ s) ++ List.ofFn (θ s))) e)
    (hinv : ∀ s ∈ Icc (0 : ℝ) 1, ∀ D : Matrix (Fin (totalSize coords (solvedVars numeraire vars)))
        (Fin (totalSize coords (solvedVars numeraire vars))) ℝ,
      (∀ i j : Fin (totalSize coords (solvedVars numeraire vars)), HasDerivAt (fun u =>
        (imbalances coords vars params numeraire eqs
          ((List.ofFn (φ s) ++ List.ofFn (θ s)).set j u)).getD i 0) (D i j) (φ s j)) → D.det ≠ 0) :
    ∃ (C : ℝ) (M : ℕ), ∀ n, M ≤ n → 1 ≤ n → ∃ e,
      simulateCompute (simEnvOf env (fun _ => false) fl add mul) h { c with nIterEuler := n } =
        .ok ⟨some e, none, none, false⟩ ∧ e.warned = b.keepsStart ∧
      flatOf e.start params = wantedFlat add mul h c params ∧
      (flatOf e.start (solvedVars numeraire vars)).length = totalSize coords (solvedVars numeraire vars) ∧
      ∀ j : Fin (totalSize coords (solvedVars numeraire vars)),
        |(flatOf e.start (solvedVars numeraire vars)).getD j 0 - φ 1 j| ≤ C / n ^ b.order := by
  have hder' := hm.imbalanceDerivatives
  obtain ⟨hmod, hem, hce, hve, hpe, hcomp, ⟨F, vn, hF, hsys⟩, -, hsteps, hder⟩ := hm
  have hnames : scalarNames coords (solvedVars numeraire vars ++ params) =
      scalarNames coords (solvedVars numeraire vars) ++ scalarNames coords params := scalarNames_append _ _ _
  have hnd := (solvedModel (numeraire := numeraire) hmod.scalar).scalars
  have hval := hF.values hmod
  rw [hnames] at hreg hnd
  simp only [hnames] at hval
  obtain ⟨hcall, hiv, hip⟩ := euler_setup b _ env hsteps hem (vecJac A B).lenOK hce hve hpe
    hcomp fl add mul h c hr heul hopt
  have hθ' : θ = thetaPath (toVec _ (flatOf (derefDict h c.initial) params))
      (toVec _ (wantedFlat add mul h c params)) := by
    funext s k
    rw [hθ, hip]
    simp only [thetaPath, toVec, Pi.add_apply, Pi.smul_apply, Pi.sub_apply, smul_eq_mul,
      List.getD_eq_getElem?_getD]
    ring
  obtain ⟨C, M, hCM⟩ := equations_converge coords (solvedVars numeraire vars) params
    (derefDict h c.initial) (wantedFlat add mul h c params) hcall _ _ es hnd (length_scalarNames _ _)
    (length_scalarNames _ _) hsquare (imbalances coords vars params numeraire eqs)
    (fun flat _ => hval flat) A B hder' φ θ hθ' hcont
    (by
      rw [hiv, ← hstart]
      funext j
      simp [toVec]) hsol hreg hinv b
  exact ⟨C, M, simulate_converges b _ env hsteps hem (vecJac A B).lenOK hce hve hpe hcomp fl
    add mul h c hr heul hopt C b.order M φ hCM⟩

/-- **C73 (nonlinear models, the equations).**  In the same situation the equations at the last step are off
by as much as at the initial state, up to an error that vanishes with the number of steps. -/
theorem C73_imbalance_approached (es : List (SymExpr Str)) (b : EulerBackend)
    (A : (Fin (totalSize coords (solvedVars numeraire vars)) → ℝ) → (Fin (totalSize coords params) → ℝ) →
      Matrix (Fin (totalSize coords (solvedVars numeraire vars)))
        (Fin (totalSize coords (solvedVars numeraire vars))) ℝ)
    (B : (Fin (totalSize coords (solvedVars numeraire vars)) → ℝ) → (Fin (totalSize coords params) → ℝ) →
      Matrix (Fin (totalSize coords (solvedVars numeraire vars))) (Fin (totalSize coords params)) ℝ)
    (env : SamEnv ℝ (List (NDArray ℝ)))
    (hm : EulerOnGraphs coords vars params numeraire eqs es b A B env)
    (hsquare : es.length = totalSize coords (solvedVars numeraire vars))
    (fl : SimFlags) (add mul : NDArray ℝ → NDArray ℝ → NDArray ℝ) (h : Heap (NDArray ℝ)) (c : SimCall ℝ)
    (hr : RequestOK coords (solvedVars numeraire vars) params add mul h c)
    (heul : c.useEuler = true) (hopt : c.useOptimizer = false)
    (φ : ℝ → Fin (totalSize coords (solvedVars numeraire vars)) → ℝ)
    (θ : ℝ → Fin (totalSize coords params) → ℝ)
    (hθ : ∀ s k, θ s k = (1 - s) * (initialFlat h c params).getD k 0 +
      s * (wantedFlat add mul h c params).getD k 0)
    (hcont : ContinuousOn φ (Icc 0 1))
    (hstart : List.ofFn (φ 0) = initialFlat h c (solvedVars numeraire vars))
    (hsol : ∀ s ∈ Icc (0 : ℝ) 1, imbalances coords vars params numeraire eqs
      (List.ofFn (φ s) ++ List.ofFn (θ s)) = imbalances coords vars params numeraire eqs
        (List.ofFn (φ 0) ++ List.ofFn (θ 0)))
    (hreg : ∀ s ∈ Icc (0 : ℝ) 1, ∀ e ∈ es, Regular (flatPoint (scalarNames coords
      (solvedVars numeraire vars ++ params)) (List.ofFn (φ s) ++ List.ofFn (θ s))) e)
    (hinv : ∀ s ∈ Icc (0 : ℝ) 1, ∀ D : Matrix (Fin (totalSize coords (solvedVars numeraire vars)))
        (Fin (totalSize coords (solvedVars numeraire vars))) ℝ,
      (∀ i j : Fin (totalSize coords (solvedVars numeraire vars)), HasDerivAt (fun u =>
        (imbalances coords vars params numeraire eqs
          ((List.ofFn (φ s) ++ List.ofFn (θ s)).set j u)).getD i 0) (D i j) (φ s j)) → D.det ≠ 0) :
    ∀ ε > 0, ∃ M : ℕ, ∀ n, M ≤ n → 1 ≤ n → ∃ e,
      simulateCompute (simEnvOf env (fun _ => false) fl add mul) h { c with nIterEuler := n } =
        .ok ⟨some e, none, none, false⟩ ∧ e.warned = b.keepsStart ∧
      flatOf e.start params = wantedFlat add mul h c params ∧
      ∀ i : Fin (totalSize coords (solvedVars numeraire vars)),
        |(imbalances coords vars params numeraire eqs (flatOf e.start (solvedVars numeraire vars) ++
            flatOf e.start params)).getD i 0 -
          (imbalances coords vars params numeraire eqs (initialFlat h c (solvedVars numeraire vars) ++
            initialFlat h c params)).getD i 0| ≤ ε := by
  intro ε hε
  obtain ⟨C, M, hCM⟩ := C73_path_kept es b A B env hm hsquare fl add mul h c hr heul hopt φ θ hθ hcont hstart
    hsol hreg hinv
  obtain ⟨hmod, hem, hce, hve, hpe, hcomp, ⟨F, vn, hF, hsys⟩, -, hsteps, hder⟩ := hm
  obtain ⟨hcall, hiv, hip⟩ := euler_setup b _ env hsteps hem (vecJac A B).lenOK hce hve hpe
    hcomp fl add mul h c hr heul hopt
  have lp := (flatOf_spec coords (derefDict h c.initial) params (fun o ho => hcall.shaped o (by simp [ho]))).1
  rw [hip] at lp
  have lw : (wantedFlat add mul h c params).length = totalSize coords params := hcall.final
  have hnames : scalarNames coords (solvedVars numeraire vars ++ params) =
      scalarNames coords (solvedVars numeraire vars) ++ scalarNames coords params := scalarNames_append _ _ _
  have hnd := (solvedModel (numeraire := numeraire) hmod.scalar).scalars
  have hval := hF.values hmod
  rw [hnames] at hreg hnd
  simp only [hnames] at hval
  have hθ1 : List.ofFn (θ 1) = wantedFlat add mul h c params := by
    rw [← ofFn_toVec _ _ lw]
    congr 1
    funext k
    rw [hθ]
    simp [toVec, List.getD_eq_getElem?_getD]
  have hθ0 : List.ofFn (θ 0) = initialFlat h c params := by
    rw [← ofFn_toVec _ _ lp]
    congr 1
    funext k
    rw [hθ]
    simp [toVec, List.getD_eq_getElem?_getD]
  have himb : ∀ (x : Fin (totalSize coords (solvedVars numeraire vars)) → ℝ)
      (t : Fin (totalSize coords params) → ℝ) (i : Fin (totalSize coords (solvedVars numeraire vars))),
      (imbalances coords vars params numeraire eqs (List.ofFn x ++ List.ofFn t)).getD i 0 =
        symF _ _ (scalarNames coords (solvedVars numeraire vars)) (scalarNames coords params) es (x, t) i := by
    intro x t i
    have hi : i.val < es.length := by rw [hsquare]; exact i.isLt
    rw [hval, List.getD_eq_getElem?_getD, List.getElem?_map, List.getElem?_eq_getElem hi]
    unfold symF
    rw [scalarPoint_flat, getD_lt hi]
    rfl
  have h1mem : (1 : ℝ) ∈ Icc (0 : ℝ) 1 := ⟨zero_le_one, le_rfl⟩
  have hct : ContinuousAt (symF (totalSize coords (solvedVars numeraire vars)) (totalSize coords params)
      (scalarNames coords (solvedVars numeraire vars)) (scalarNames coords params) es) (φ 1, θ 1) := by
    refine (symF_contDiffAt (n := 1) hnd (length_scalarNames _ _) (length_scalarNames _ _)
      fun i => ?_).continuousAt
    rw [scalarPoint_flat]
    refine hreg 1 h1mem _ ?_
    have hi : i.val < es.length := by rw [hsquare]; exact i.isLt
    rw [getD_lt hi]
    exact List.getElem_mem _
  obtain ⟨δ, hδ, hball⟩ := Metric.continuousAt_iff.1 hct ε hε
  obtain ⟨N, hN⟩ := exists_nat_gt (|C| / δ)
  refine ⟨max M N, fun n hn h1 => ?_⟩
  obtain ⟨e, g1, g2, g3, g4, g5⟩ := hCM n (le_trans (le_max_left _ _) hn) h1
  refine ⟨e, g1, g2, g3, fun i => ?_⟩
  have hnpos : (0 : ℝ) < n := by exact_mod_cast h1
  have hpow : (n : ℝ) ≤ n ^ b.order := by
    refine le_self_pow₀ (by exact_mod_cast h1) ?_
    unfold EulerBackend.order
    split <;> decide
  have hsmall : |C| / n ^ b.order < δ := by
    have : |C| / δ < n := hN.trans_le (by exact_mod_cast le_trans (le_max_right _ _) hn)
    rw [div_lt_iff₀ hδ] at this
    rw [div_lt_iff₀ (hnpos.trans_le hpow)]
    nlinarith
  have hd : dist (toVec (totalSize coords (solvedVars numeraire vars)) (flatOf e.start (solvedVars numeraire vars)),
      θ 1) (φ 1, θ 1) < δ := by
    rw [Prod.dist_eq, dist_self, max_eq_left dist_nonneg]
    refine lt_of_le_of_lt ((dist_pi_le_iff (by positivity)).2 fun j => ?_) hsmall
    rw [Real.dist_eq]
    have := g5 j
    rw [List.getD_eq_getElem?_getD] at this
    exact this.trans (by gcongr; exact le_abs_self C)
  have hb := hball hd
  have hbi := (dist_le_pi_dist _ _ i).trans hb.le
  rw [Real.dist_eq, ← himb, ← himb, hsol 1 h1mem, ofFn_toVec _ _ g4, hθ1, hθ0, hstart] at hbi
  rw [g3]
  exact hbi

/-- **C73.**  So if some equation does not hold at the initial state, then it does not hold at the last step
either, for all large numbers of steps, and `simulate` does not raise; it warns (of missing steps) exactly on
the back-ends whose trajectories include the initial state. -/
theorem C73_never_restored (es : List (SymExpr Str)) (b : EulerBackend)
    (A : (Fin (totalSize coords (solvedVars numeraire vars)) → ℝ) → (Fin (totalSize coords params) → ℝ) →
      Matrix (Fin (totalSize coords (solvedVars numeraire vars)))
        (Fin (totalSize coords (solvedVars numeraire vars))) ℝ)
    (B : (Fin (totalSize coords (solvedVars numeraire vars)) → ℝ) → (Fin (totalSize coords params) → ℝ) →
      Matrix (Fin (totalSize coords (solvedVars numeraire vars))) (Fin (totalSize coords params)) ℝ)
    (env : SamEnv ℝ (List (NDArray ℝ)))
    (hm : EulerOnGraphs coords vars params numeraire eqs es b A B env)
    (hsquare : es.length = totalSize coords (solvedVars numeraire vars))
    (fl : SimFlags) (add mul : NDArray ℝ → NDArray ℝ → NDArray ℝ) (h : Heap (NDArray ℝ)) (c : SimCall ℝ)
    (hr : RequestOK coords (solvedVars numeraire vars) params add mul h c)
    (heul : c.useEuler = true) (hopt : c.useOptimizer = false)
    (φ : ℝ → Fin (totalSize coords (solvedVars numeraire vars)) → ℝ)
    (θ : ℝ → Fin (totalSize coords params) → ℝ)
    (hθ : ∀ s k, θ s k = (1 - s) * (initialFlat h c params).getD k 0 +
      s * (wantedFlat add mul h c params).getD k 0)
    (hcont : ContinuousOn φ (Icc 0 1))
    (hstart : List.ofFn (φ 0) = initialFlat h c (solvedVars numeraire vars))
    (hsol : ∀ s ∈ Icc (0 : ℝ) 1, imbalances coords vars params numeraire eqs
      (List.ofFn (φ s) ++ List.ofFn (θ s)) = imbalances coords vars params numeraire eqs
        (List.ofFn (φ 0) ++ List.ofFn (θ 0)))
    (hreg : ∀ s ∈ Icc (0 : ℝ) 1, ∀ e ∈ es, Regular (flatPoint (scalarNames coords
      (solvedVars numeraire vars ++ params)) (List.ofFn (φ s) ++ List.ofFn (θ s))) e)
    (hinv : ∀ s ∈ Icc (0 : ℝ) 1, ∀ D : Matrix (Fin (totalSize coords (solvedVars numeraire vars)))
        (Fin (totalSize coords (solvedVars numeraire vars))) ℝ,
      (∀ i j : Fin (totalSize coords (solvedVars numeraire vars)), HasDerivAt (fun u =>
        (imbalances coords vars params numeraire eqs
          ((List.ofFn (φ s) ++ List.ofFn (θ s)).set j u)).getD i 0) (D i j) (φ s j)) → D.det ≠ 0)
    (i : Fin (totalSize coords (solvedVars numeraire vars)))
    (hoff : (imbalances coords vars params numeraire eqs (initialFlat h c (solvedVars numeraire vars) ++
      initialFlat h c params)).getD i 0 ≠ 0) :
    ∃ M : ℕ, ∀ n, M ≤ n → 1 ≤ n → ∃ e,
      simulateCompute (simEnvOf env (fun _ => false) fl add mul) h { c with nIterEuler := n } =
        .ok ⟨some e, none, none, false⟩ ∧ e.warned = b.keepsStart ∧
      (imbalances coords vars params numeraire eqs (flatOf e.start (solvedVars numeraire vars) ++
        flatOf e.start params)).getD i 0 ≠ 0 := by
  obtain ⟨M, hM⟩ := C73_imbalance_approached es b A B env hm hsquare fl add mul h c hr heul hopt φ θ hθ hcont
    hstart hsol hreg hinv _ (half_pos (abs_pos.2 hoff))
  refine ⟨M, fun n hn h1 => ?_⟩
  obtain ⟨e, g1, g2, -, g4⟩ := hM n hn h1
  refine ⟨e, g1, g2, fun h0 => ?_⟩
  have := g4 i
  rw [h0, zero_sub, abs_neg] at this
  linarith [abs_pos.2 hoff]

theorem ofFn_zeros {l : List ℝ} {l' : List ℝ} (hl : l.length = l'.length) (h : ∀ y ∈ l, y = 0)
    (h' : ∀ y ∈ l', y = 0) : l = l' := by
  rw [List.eq_replicate_iff.2 ⟨rfl, h⟩, List.eq_replicate_iff.2 ⟨rfl, h'⟩, hl]

theorem BuiltFrom.length {es : List (SymExpr Str)} {F : SympyTensorFns}
    (hF : BuiltFrom coords vars params numeraire eqs es F)
    (h : IndexedModel coords vars params numeraire eqs) (flat : List ℝ) :
    (imbalances coords vars params numeraire eqs flat).length = es.length := by
  rw [hF.values h, List.length_map]

/-- **C74.**  Let a model whose steps come from differentiating the residual graph (the default back-end, JAX,
or the scan) have as many scalar equations as scalar variables.  Let
the caller's initial state lie on a continuous path of solutions of the equations as written, over the
straight line from the initial to the requested parameters; along it let the powers and logarithms in the
equations be defined and the matrix of partial derivatives with respect to the variables be invertible.
Then there are `C` and `M` so that `simulate` with `n ≥ M` steps and no optimizer returns with the requested
parameters and with every variable within `C / n` of the equilibrium, within `C / n⁴` if the steps are
Runge-Kutta steps; it warns exactly on the back-end whose trajectory includes the initial state (the scan). -/
theorem C74_simulate_converges (es : List (SymExpr Str)) (b : EulerBackend)
    (A : (Fin (totalSize coords (solvedVars numeraire vars)) → ℝ) → (Fin (totalSize coords params) → ℝ) →
      Matrix (Fin (totalSize coords (solvedVars numeraire vars)))
        (Fin (totalSize coords (solvedVars numeraire vars))) ℝ)
    (B : (Fin (totalSize coords (solvedVars numeraire vars)) → ℝ) → (Fin (totalSize coords params) → ℝ) →
      Matrix (Fin (totalSize coords (solvedVars numeraire vars))) (Fin (totalSize coords params)) ℝ)
    (env : SamEnv ℝ (List (NDArray ℝ)))
    (hm : EulerOnGraphs coords vars params numeraire eqs es b A B env)
    (hsquare : es.length = totalSize coords (solvedVars numeraire vars))
    (fl : SimFlags) (add mul : NDArray ℝ → NDArray ℝ → NDArray ℝ) (h : Heap (NDArray ℝ)) (c : SimCall ℝ)
    (hr : RequestOK coords (solvedVars numeraire vars) params add mul h c)
    (heul : c.useEuler = true) (hopt : c.useOptimizer = false)
    (φ : ℝ → Fin (totalSize coords (solvedVars numeraire vars)) → ℝ)
    (θ : ℝ → Fin (totalSize coords params) → ℝ)
    (hθ : ∀ s k, θ s k = (1 - s) * (initialFlat h c params).getD k 0 +
      s * (wantedFlat add mul h c params).getD k 0)
    (hcont : ContinuousOn φ (Icc 0 1))
    (hstart : List.ofFn (φ 0) = initialFlat h c (solvedVars numeraire vars))
    (hsol : ∀ s ∈ Icc (0 : ℝ) 1, ∀ y ∈ imbalances coords vars params numeraire eqs
      (List.ofFn (φ s) ++ List.ofFn (θ s)), y = 0)
    (hreg : ∀ s ∈ Icc (0 : ℝ) 1, ∀ e ∈ es, Regular (flatPoint (scalarNames coords
      (solvedVars numeraire vars ++ params)) (List.ofFn (φ s) ++ List.ofFn (θ s))) e)
    (hinv : ∀ s ∈ Icc (0 : ℝ) 1, ∀ D : Matrix (Fin (totalSize coords (solvedVars numeraire vars)))
        (Fin (totalSize coords (solvedVars numeraire vars))) ℝ,
      (∀ i j : Fin (totalSize coords (solvedVars numeraire vars)), HasDerivAt (fun u =>
        (imbalances coords vars params numeraire eqs
          ((List.ofFn (φ s) ++ List.ofFn (θ s)).set j u)).getD i 0) (D i j) (φ s j)) → D.det ≠ 0) :
    ∃ (C : ℝ) (M : ℕ), ∀ n, M ≤ n → 1 ≤ n → ∃ e,
      simulateCompute (simEnvOf env (fun _ => false) fl add mul) h { c with nIterEuler := n } =
        .ok ⟨some e, none, none, false⟩ ∧ e.warned = b.keepsStart ∧
      flatOf e.start params = wantedFlat add mul h c params ∧
      (flatOf e.start (solvedVars numeraire vars)).length = totalSize coords (solvedVars numeraire vars) ∧
      ∀ j : Fin (totalSize coords (solvedVars numeraire vars)),
        |(flatOf e.start (solvedVars numeraire vars)).getD j 0 - φ 1 j| ≤ C / n ^ b.order := by
  obtain ⟨F, vn, hF, -⟩ := hm.system
  refine C73_path_kept es b A B env hm hsquare fl add mul h c hr heul hopt φ θ hθ hcont hstart
    (fun s hs => ofFn_zeros ?_ (hsol s hs) (hsol 0 ⟨le_rfl, zero_le_one⟩)) hreg hinv
  rw [hF.length hm.model, hF.length hm.model]

/-! ### The theorem applied: `x * x = p`, with `p` raised from 1 to 4 -/

def sqEs : List (SymExpr Str) :=
  [.add (.mul (.sym "x".toList) (.sym "x".toList)) (.mul (.num (-1)) (.sym "p".toList))]

theorem sqBuiltFrom : ∃ F, BuiltFrom [] sqVars sqParams none sqEqs sqEs F :=
  ⟨_, id, id, id, id, _, _, _, fun _ _ => Iff.rfl, fun _ _ => Iff.rfl, fun _ _ => Iff.rfl, rfl, rfl,
    rfl, rfl, rfl⟩

/-- `x = 1`, `p = 1`; `p` becomes 4. -/
def riseCall : SimCall ℝ where
  initial := [("x".toList, .num ⟨[], [1]⟩), ("p".toList, .num ⟨[], [1]⟩)]
  finalValues := some [("p".toList, .num ⟨[], [4]⟩)]
  useOptimizer := false

theorem riseRequest (add mul : NDArray ℝ → NDArray ℝ → NDArray ℝ) :
    RequestOK [] (solvedVars none sqVars) sqParams add mul [] riseCall where
  nodup := by simp [riseCall, dkeys]
  exact := by intro n; simp [riseCall, dkeys, sqVars, sqParams, solvedVars]
  distinct := by simp [riseCall, dkeys]
  some_change := by simp [riseCall, dkeys]
  known := by simp [riseCall, dkeys]
  valid := by simp [riseCall, ValidRefs, refsOf]
  unshared := by simp [riseCall, refsOf]
  shaped := by
    intro o ho
    have : o = { name := "x" } ∨ o = { name := "p" } := by
      simpa [sqVars, sqParams, solvedVars] using ho
    rcases this with rfl | rfl
    · exact ⟨⟨[], [1]⟩, rfl, rfl, rfl⟩
    · exact ⟨⟨[], [1]⟩, rfl, rfl, rfl⟩
  sized := by
    intro o ho
    have : o = { name := "p" } := by simpa [sqParams] using ho
    subst this
    exact ⟨⟨[], [4]⟩, rfl, rfl⟩

/-- The matrices of the Euler step of `x * x - p`. -/
def sqA : (Fin (totalSize [] (solvedVars none sqVars)) → ℝ) → (Fin (totalSize [] sqParams) → ℝ) →
    Matrix (Fin (totalSize [] (solvedVars none sqVars))) (Fin (totalSize [] (solvedVars none sqVars))) ℝ :=
  fun x _ => Matrix.of fun _ j => 2 * x j

def sqB : (Fin (totalSize [] (solvedVars none sqVars)) → ℝ) → (Fin (totalSize [] sqParams) → ℝ) →
    Matrix (Fin (totalSize [] (solvedVars none sqVars))) (Fin (totalSize [] sqParams)) ℝ :=
  fun _ _ => Matrix.of fun _ _ => -1

noncomputable def riseEnvOn (b : EulerBackend) (F : SympyTensorFns) : SamEnv ℝ (List (NDArray ℝ)) :=
  { envOf [] (solvedVars none sqVars) sqParams F (fun _ _ _ _ => .error .valueError)
      (fun _ _ _ _ => .error .valueError) with
    euler := fun x0 theta n =>
      runEuler b (vecJac sqA sqB).solve (solvedVars none sqVars) sqParams [] theta n x0 }

noncomputable abbrev riseEnv (F : SympyTensorFns) : SamEnv ℝ (List (NDArray ℝ)) := riseEnvOn .pytensorLoop F

theorem sq_fin (i : Fin (totalSize [] (solvedVars none sqVars))) : i.val = 0 := by
  have : i.val < 1 := i.isLt
  omega

theorem sqp_fin (i : Fin (totalSize [] sqParams)) : i.val = 0 := by
  have : i.val < 1 := i.isLt
  omega

theorem sq_flat (x : Fin (totalSize [] (solvedVars none sqVars)) → ℝ)
    (t : Fin (totalSize [] sqParams) → ℝ) (j : Fin (totalSize [] (solvedVars none sqVars)))
    (k : Fin (totalSize [] sqParams)) : List.ofFn x ++ List.ofFn t = [x j, t k] := by
  have e1 : List.ofFn x = [x j] := by
    apply List.ext_getElem
    · rw [List.length_ofFn]; rfl
    · intro i h1 h2
      have : i = 0 := by simpa using h2
      subst this
      simp only [List.getElem_ofFn, List.getElem_cons_zero]
      congr 1
      exact Fin.ext (sq_fin j).symm
  have e2 : List.ofFn t = [t k] := by
    apply List.ext_getElem
    · rw [List.length_ofFn]; rfl
    · intro i h1 h2
      have : i = 0 := by simpa using h2
      subst this
      simp only [List.getElem_ofFn, List.getElem_cons_zero]
      congr 1
      exact Fin.ext (sqp_fin k).symm
  rw [e1, e2]
  rfl

theorem sqRegular (v : Str → ℝ) : ∀ e ∈ sqEs, Regular v e := by
  intro e he
  simp only [sqEs, List.mem_singleton] at he
  subst he
  exact ⟨⟨trivial, trivial⟩, trivial, trivial⟩

theorem sq_dx (x p : ℝ) : HasDerivAt (fun u => (imbalances [] sqVars sqParams none sqEqs [u, p]).getD 0 0)
    (2 * x) x := by
  simp only [sqImbalances, List.getD_cons_zero]
  have := ((hasDerivAt_id x).mul (hasDerivAt_id x)).sub_const p
  rw [show 2 * x = 1 * id x + id x * 1 by simp only [id]; ring]
  exact this

theorem sq_dp (x p : ℝ) : HasDerivAt (fun u => (imbalances [] sqVars sqParams none sqEqs [x, u]).getD 0 0)
    (-1) p := by
  simp only [sqImbalances, List.getD_cons_zero]
  exact (hasDerivAt_id p).const_sub (x * x)

theorem riseModelOn (b : EulerBackend) (hb : b ≠ .numba) (F : SympyTensorFns)
    (hF : BuiltFrom [] sqVars sqParams none sqEqs sqEs F) :
    EulerOnGraphs [] sqVars sqParams none sqEqs sqEs b sqA sqB (riseEnvOn b F) where
  model := sqModel
  euler :=
    { labelled := gapModel.labelled
      nonempty := gapModel.nonempty
      someVar := gapModel.someVar
      someParam := gapModel.someParam
      keywords := gapModel.keywords }
  coords_eq := rfl
  variables_eq := rfl
  parameters_eq := rfl
  compiled := List.cons_ne_nil _ _
  system := ⟨F, [], hF, rfl⟩
  differentiated := hb
  steps := rfl
  derivatives := by
    have key : ∀ x p : ℝ, valuesOf ((riseEnvOn b F).fSystem.forScipy (riseEnvOn b F).variables
        (riseEnvOn b F).parameters (riseEnvOn b F).coords [x] [p]) =
        imbalances [] sqVars sqParams none sqEqs [x, p] := by
      intro x p
      have := hF.fns.system sqModel [] [x] [p] rfl rfl
      show valuesOf (wrapForScipy _ (solvedVars none sqVars) sqParams [] [x] [p]) = _
      rw [this]
      rfl
    intro x t _
    have j0 : Fin (totalSize [] (solvedVars none sqVars)) := ⟨0, by decide⟩
    have k0 : Fin (totalSize [] sqParams) := ⟨0, by decide⟩
    constructor
    · intro i j
      rw [sq_flat x t j k0, sq_fin i, sq_fin j]
      show HasDerivAt (fun u => (valuesOf ((riseEnvOn b F).fSystem.forScipy (riseEnvOn b F).variables
        (riseEnvOn b F).parameters (riseEnvOn b F).coords [u] [t k0])).getD 0 0) (2 * x j) (x j)
      simp only [key]
      exact sq_dx _ _
    · intro i k
      rw [sq_flat x t j0 k, sq_fin i, sqp_fin k]
      show HasDerivAt (fun u => (valuesOf ((riseEnvOn b F).fSystem.forScipy (riseEnvOn b F).variables
        (riseEnvOn b F).parameters (riseEnvOn b F).coords [x j0] [u])).getD 0 0) (-1) (t k)
      simp only [key]
      exact sq_dp _ _

theorem riseModel (F : SympyTensorFns) (hF : BuiltFrom [] sqVars sqParams none sqEqs sqEs F) :
    EulerOnDefault [] sqVars sqParams none sqEqs sqEs sqA sqB (riseEnv F) :=
  riseModelOn .pytensorLoop (by decide) F hF

/-- The simulated `x` approaches 2: with the error `C / n` with Euler steps, `C / n⁴` with Runge-Kutta steps. -/
example (b : EulerBackend) (hb : b ≠ .numba) (fl : SimFlags) (add mul : NDArray ℝ → NDArray ℝ → NDArray ℝ) :
    ∃ env, ∃ (C : ℝ) (M : ℕ), ∀ n, M ≤ n → 1 ≤ n → ∃ e,
      simulateCompute (simEnvOf env (fun _ => false) fl add mul) [] { riseCall with nIterEuler := n } =
        .ok ⟨some e, none, none, false⟩ ∧ flatOf e.start sqParams = [4] ∧
      |(flatOf e.start sqVars).getD 0 0 - 2| ≤ C / n ^ b.order := by
  obtain ⟨F, hF⟩ := sqBuiltFrom
  refine ⟨riseEnvOn b F, ?_⟩
  have hpos : ∀ s ∈ Icc (0 : ℝ) 1, 0 < Real.sqrt (1 + 3 * s) := fun s hs =>
    Real.sqrt_pos.2 (by linarith [hs.1])
  obtain ⟨C, M, hCM⟩ := C74_simulate_converges sqEs b sqA sqB (riseEnvOn b F) (riseModelOn b hb F hF) rfl fl add mul []
    riseCall (riseRequest add mul) rfl rfl (fun s _ => Real.sqrt (1 + 3 * s)) (fun s _ => 1 + 3 * s)
    (by
      intro s k
      rw [sqp_fin k]
      show (1 : ℝ) + 3 * s = (1 - s) * 1 + s * 4
      ring)
    (by fun_prop)
    (by
      show [Real.sqrt (1 + 3 * 0)] = [1]
      simp)
    (by
      intro s hs y hy
      rw [sq_flat _ _ ⟨0, by decide⟩ ⟨0, by decide⟩, sqImbalances, List.mem_singleton] at hy
      rw [hy, Real.mul_self_sqrt (by linarith [hs.1])]
      ring)
    (fun s _ => sqRegular _)
    (by
      intro s hs D hD
      have i0 : Fin (totalSize [] (solvedVars none sqVars)) := ⟨0, by decide⟩
      have h1 := hD i0 i0
      rw [sq_flat _ _ i0 ⟨0, by decide⟩, sq_fin i0] at h1
      have h2 := h1.unique (sq_dx _ _)
      have : D.det = D i0 i0 := by
        have e : i0 = (default : Fin 1) := Fin.ext (sq_fin i0)
        rw [e]
        exact Matrix.det_unique (n := Fin 1) D
      rw [this, h2]
      have := hpos s hs
      positivity)
  refine ⟨C, M, fun n hn h1 => ?_⟩
  obtain ⟨e, g1, g2, g3, -, g4⟩ := hCM n hn h1
  refine ⟨e, g1, g3, ?_⟩
  have := g4 ⟨0, by decide⟩
  have h4 : Real.sqrt (1 + 3 * 1) = 2 := by
    rw [show (1 + 3 * 1 : ℝ) = 2 ^ 2 by norm_num]
    exact Real.sqrt_sq (by norm_num)
  simp only [h4] at this
  exact this

/-- `x = 2`, `p = 1`, which is not an equilibrium; `p` becomes 4. -/
def driftCall : SimCall ℝ where
  initial := [("x".toList, .num ⟨[], [2]⟩), ("p".toList, .num ⟨[], [1]⟩)]
  finalValues := some [("p".toList, .num ⟨[], [4]⟩)]
  useOptimizer := false

theorem driftRequest (add mul : NDArray ℝ → NDArray ℝ → NDArray ℝ) :
    RequestOK [] (solvedVars none sqVars) sqParams add mul [] driftCall where
  nodup := by simp [driftCall, dkeys]
  exact := by intro n; simp [driftCall, dkeys, sqVars, sqParams, solvedVars]
  distinct := by simp [driftCall, dkeys]
  some_change := by simp [driftCall, dkeys]
  known := by simp [driftCall, dkeys]
  valid := by simp [driftCall, ValidRefs, refsOf]
  unshared := by simp [driftCall, refsOf]
  shaped := by
    intro o ho
    have : o = { name := "x" } ∨ o = { name := "p" } := by
      simpa [sqVars, sqParams, solvedVars] using ho
    rcases this with rfl | rfl
    · exact ⟨⟨[], [2]⟩, rfl, rfl, rfl⟩
    · exact ⟨⟨[], [1]⟩, rfl, rfl, rfl⟩
  sized := by
    intro o ho
    have : o = { name := "p" } := by simpa [sqParams] using ho
    subst this
    exact ⟨⟨[], [4]⟩, rfl, rfl⟩

/-- Started at `x = 2`, `p = 1` the simulation of `x * x = p` never ends at a solution, for all large `n`. -/
example (fl : SimFlags) (add mul : NDArray ℝ → NDArray ℝ → NDArray ℝ) :
    ∃ env, ∃ M : ℕ, ∀ n, M ≤ n → 1 ≤ n → ∃ e,
      simulateCompute (simEnvOf env (fun _ => false) fl add mul) [] { driftCall with nIterEuler := n } =
        .ok ⟨some e, none, none, false⟩ ∧ e.warned = false ∧
      (imbalances [] sqVars sqParams none sqEqs (flatOf e.start sqVars ++ flatOf e.start sqParams)).getD
        0 0 ≠ 0 := by
  obtain ⟨F, hF⟩ := sqBuiltFrom
  refine ⟨riseEnv F, ?_⟩
  have hpos : ∀ s ∈ Icc (0 : ℝ) 1, 0 < Real.sqrt (4 + 3 * s) := fun s hs =>
    Real.sqrt_pos.2 (by linarith [hs.1])
  have h4 : Real.sqrt (4 + 3 * 0) = 2 := by
    rw [show (4 + 3 * 0 : ℝ) = 2 ^ 2 by norm_num]
    exact Real.sqrt_sq (by norm_num)
  refine C73_never_restored sqEs .pytensorLoop sqA sqB (riseEnv F) (riseModel F hF) rfl fl add mul []
    driftCall (driftRequest add mul) rfl rfl (fun s _ => Real.sqrt (4 + 3 * s)) (fun s _ => 1 + 3 * s)
    (by
      intro s k
      rw [sqp_fin k]
      show (1 : ℝ) + 3 * s = (1 - s) * 1 + s * 4
      ring)
    (by fun_prop)
    (by
      show [Real.sqrt (4 + 3 * 0)] = [2]
      rw [h4])
    (by
      intro s hs
      rw [sq_flat (fun _ => Real.sqrt (4 + 3 * s)) (fun _ => 1 + 3 * s) ⟨0, by decide⟩ ⟨0, by decide⟩,
        sq_flat (fun _ => Real.sqrt (4 + 3 * 0)) (fun _ => 1 + 3 * 0) ⟨0, by decide⟩ ⟨0, by decide⟩,
        sqImbalances, sqImbalances, Real.mul_self_sqrt (by linarith [hs.1]),
        Real.mul_self_sqrt (by norm_num)]
      congr 1
      ring)
    (fun s _ => sqRegular _)
    (by
      intro s hs D hD
      have i0 : Fin (totalSize [] (solvedVars none sqVars)) := ⟨0, by decide⟩
      have h1 := hD i0 i0
      rw [sq_flat _ _ i0 ⟨0, by decide⟩, sq_fin i0] at h1
      have h2 := h1.unique (sq_dx _ _)
      have : D.det = D i0 i0 := by
        have e : i0 = (default : Fin 1) := Fin.ext (sq_fin i0)
        rw [e]
        exact Matrix.det_unique (n := Fin 1) D
      rw [this, h2]
      have := hpos s hs
      positivity)
    ⟨0, by decide⟩ ?_
  show (imbalances [] sqVars sqParams none sqEqs [2, 1]).getD 0 0 ≠ 0
  rw [sqImbalances]
  norm_num

end Verif
