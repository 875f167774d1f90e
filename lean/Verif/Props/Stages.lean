import Verif.Props.SimulateConverges
import Verif.Lemmas.EulerNear

/-!
# C80: simulations in stages, there and back, and from a start that is slightly off
-/

namespace Verif

open SymExpr Set Filter Topology

/-- The point at time `s` of the straight line from `a` to `b`. -/
def lineTo {K : Type _} [Field K] (a b : List K) (s : K) : List K :=
  List.zipWith (fun u v => (1 - s) * u + s * v) a b

/-- The caller starts from the state that another simulation ended in. -/
def StartsFrom {K : Type _} [Field K] (vs params : List ModelObject) (e : EulerPass K)
    (h : Heap (NDArray K)) (c : SimCall K) : Prop :=
  initialFlat h c vs = flatOf e.start vs ∧ initialFlat h c params = flatOf e.start params

/-! ### Affine models: exactly -/

section
variable {K : Type _} [Field K] [CharZero K]

/-- `C73_imbalance_kept`, with the number of elements. -/
theorem affine_end (env : SamEnv K (List (NDArray K))) (b : EulerBackend)
    (M : Matrix (Fin (totalSize env.coords env.variables)) (Fin (totalSize env.coords env.variables)) K)
    (N : Matrix (Fin (totalSize env.coords env.variables)) (Fin (totalSize env.coords env.parameters)) K)
    (hu : IsUnit M.det)
    (he : EulerIs env b (affineJac M N).solve) (hm : EulerModel env.coords env.variables env.parameters)
    (hcomp : env.compiled ≠ []) (fl : SimFlags) (add mul : NDArray K → NDArray K → NDArray K)
    (h : Heap (NDArray K)) (c : SimCall K)
    (hr : RequestOK env.coords env.variables env.parameters add mul h c)
    (heul : c.useEuler = true) (hopt : c.useOptimizer = false) (hn : 1 ≤ c.nIterEuler) :
    ∃ e, simulateCompute (simEnvOf env (fun _ => false) fl add mul) h c = .ok ⟨some e, none, none, false⟩ ∧
      flatOf e.start env.parameters = wantedFlat add mul h c env.parameters ∧
      (flatOf e.start env.variables).length = totalSize env.coords env.variables ∧
      (initialFlat h c env.variables).length = totalSize env.coords env.variables ∧
      M.mulVec (toVec _ (flatOf e.start env.variables)) +
          N.mulVec (toVec _ (wantedFlat add mul h c env.parameters)) =
        M.mulVec (toVec _ (initialFlat h c env.variables)) +
          N.mulVec (toVec _ (initialFlat h c env.parameters)) := by
  obtain ⟨e, h1, -, h3, h4⟩ := C73_imbalance_kept env b M N 0 hu he hm hcomp fl add mul h c hr heul hopt hn
  obtain ⟨hcall, hinit, hsim⟩ := simulate_euler_only env b _ he hm (affineJac M N).lenOK hcomp fl add
    mul h c hr heul hopt hn
  obtain ⟨outs, hrun⟩ := C21_runs b _ _ _ M N hu (derefDict h c.initial) _ c.nIterEuler hcall
  obtain ⟨e', g1, -, g3, -⟩ := hsim outs hrun
  rw [g1] at h1
  cases h1
  have li := (flatOf_spec env.coords (derefDict h c.initial) env.variables
    (fun o ho => hcall.shaped o (by simp [ho]))).1
  rw [hinit _ (fun o ho => by simp [ho])] at li
  rw [add_zero, add_zero, h3] at h4
  exact ⟨e, g1, h3, (flatOf_spec env.coords e.start env.variables (fun o ho => g3 o (by simp [ho]))).1,
    li, h4⟩

/-- **C80 (affine models, stages).**  In an affine model with invertible `M`, whatever the back-end and the
numbers of steps: simulate a first scenario, start a second one from where the first ended, and compare with
a third simulation that goes from the first initial state straight to the parameters of the second scenario.
The second and the third end in the same state. -/
theorem C80_stages_affine (env : SamEnv K (List (NDArray K))) (b : EulerBackend)
    (M : Matrix (Fin (totalSize env.coords env.variables)) (Fin (totalSize env.coords env.variables)) K)
    (N : Matrix (Fin (totalSize env.coords env.variables)) (Fin (totalSize env.coords env.parameters)) K)
    (hu : IsUnit M.det)
    (he : EulerIs env b (affineJac M N).solve) (hm : EulerModel env.coords env.variables env.parameters)
    (hcomp : env.compiled ≠ []) (fl : SimFlags) (add mul : NDArray K → NDArray K → NDArray K)
    (h1 h2 h3 : Heap (NDArray K)) (c1 c2 c3 : SimCall K)
    (hr1 : RequestOK env.coords env.variables env.parameters add mul h1 c1)
    (hr2 : RequestOK env.coords env.variables env.parameters add mul h2 c2)
    (hr3 : RequestOK env.coords env.variables env.parameters add mul h3 c3)
    (he1 : c1.useEuler = true) (ho1 : c1.useOptimizer = false) (hn1 : 1 ≤ c1.nIterEuler)
    (he2 : c2.useEuler = true) (ho2 : c2.useOptimizer = false) (hn2 : 1 ≤ c2.nIterEuler)
    (he3 : c3.useEuler = true) (ho3 : c3.useOptimizer = false) (hn3 : 1 ≤ c3.nIterEuler)
    (hsame : initialFlat h3 c3 env.variables = initialFlat h1 c1 env.variables ∧
      initialFlat h3 c3 env.parameters = initialFlat h1 c1 env.parameters)
    (hwant : wantedFlat add mul h3 c3 env.parameters = wantedFlat add mul h2 c2 env.parameters) :
    ∃ e1, simulateCompute (simEnvOf env (fun _ => false) fl add mul) h1 c1 =
        .ok ⟨some e1, none, none, false⟩ ∧
      (StartsFrom env.variables env.parameters e1 h2 c2 →
        ∃ e2 e3, simulateCompute (simEnvOf env (fun _ => false) fl add mul) h2 c2 =
            .ok ⟨some e2, none, none, false⟩ ∧
          simulateCompute (simEnvOf env (fun _ => false) fl add mul) h3 c3 =
            .ok ⟨some e3, none, none, false⟩ ∧
          flatOf e2.start env.variables = flatOf e3.start env.variables ∧
          flatOf e2.start env.parameters = flatOf e3.start env.parameters) := by
  obtain ⟨e1, a1, a2, a3, a4, a5⟩ := affine_end env b M N hu he hm hcomp fl add mul h1 c1 hr1 he1 ho1 hn1
  refine ⟨e1, a1, fun ⟨hs1, hs2⟩ => ?_⟩
  obtain ⟨e2, b1, b2, b3, b4, b5⟩ := affine_end env b M N hu he hm hcomp fl add mul h2 c2 hr2 he2 ho2 hn2
  obtain ⟨e3, d1, d2, d3, d4, d5⟩ := affine_end env b M N hu he hm hcomp fl add mul h3 c3 hr3 he3 ho3 hn3
  refine ⟨e2, e3, b1, d1, toVec_inj _ _ _ b3 d3 (mulVec_inj_of_isUnit M hu _ _ ?_), by rw [b2, d2, hwant]⟩
  rw [hs1, hs2, a2, a5] at b5
  rw [hsame.1, hsame.2, ← b5, hwant] at d5
  exact (add_right_cancel d5).symm

/-- **C80 (affine models, there and back).**  In an affine model with invertible `M`, a simulation that
starts where another one ended and asks for the initial parameters of that one returns exactly to its initial
state, whatever the back-end and the numbers of steps. -/
theorem C80_there_and_back_affine (env : SamEnv K (List (NDArray K))) (b : EulerBackend)
    (M : Matrix (Fin (totalSize env.coords env.variables)) (Fin (totalSize env.coords env.variables)) K)
    (N : Matrix (Fin (totalSize env.coords env.variables)) (Fin (totalSize env.coords env.parameters)) K)
    (hu : IsUnit M.det)
    (he : EulerIs env b (affineJac M N).solve) (hm : EulerModel env.coords env.variables env.parameters)
    (hcomp : env.compiled ≠ []) (fl : SimFlags) (add mul : NDArray K → NDArray K → NDArray K)
    (h1 h2 : Heap (NDArray K)) (c1 c2 : SimCall K)
    (hr1 : RequestOK env.coords env.variables env.parameters add mul h1 c1)
    (hr2 : RequestOK env.coords env.variables env.parameters add mul h2 c2)
    (he1 : c1.useEuler = true) (ho1 : c1.useOptimizer = false) (hn1 : 1 ≤ c1.nIterEuler)
    (he2 : c2.useEuler = true) (ho2 : c2.useOptimizer = false) (hn2 : 1 ≤ c2.nIterEuler)
    (hback : wantedFlat add mul h2 c2 env.parameters = initialFlat h1 c1 env.parameters) :
    ∃ e1, simulateCompute (simEnvOf env (fun _ => false) fl add mul) h1 c1 =
        .ok ⟨some e1, none, none, false⟩ ∧
      (StartsFrom env.variables env.parameters e1 h2 c2 →
        ∃ e2, simulateCompute (simEnvOf env (fun _ => false) fl add mul) h2 c2 =
            .ok ⟨some e2, none, none, false⟩ ∧
          flatOf e2.start env.variables = initialFlat h1 c1 env.variables ∧
          flatOf e2.start env.parameters = initialFlat h1 c1 env.parameters) := by
  obtain ⟨e1, a1, a2, a3, a4, a5⟩ := affine_end env b M N hu he hm hcomp fl add mul h1 c1 hr1 he1 ho1 hn1
  refine ⟨e1, a1, fun ⟨hs1, hs2⟩ => ?_⟩
  obtain ⟨e2, b1, b2, b3, b4, b5⟩ := affine_end env b M N hu he hm hcomp fl add mul h2 c2 hr2 he2 ho2 hn2
  refine ⟨e2, b1, toVec_inj _ _ _ b3 a4 (mulVec_inj_of_isUnit M hu _ _ ?_), by rw [b2, hback]⟩
  rw [hs1, hs2, a2, a5, hback] at b5
  exact add_right_cancel b5

end

/-- From `x = p = a` with `p` changed to `q` in `n` steps, in the model `x = p`. -/
def lineCall (a q : ℚ) (n : Nat) : SimCall ℚ where
  initial := [("x".toList, .num ⟨[], [a]⟩), ("p".toList, .num ⟨[], [a]⟩)]
  finalValues := some [("p".toList, .num ⟨[], [q]⟩)]
  useOptimizer := false
  nIterEuler := n

theorem lineRequest (a q : ℚ) (n : Nat) (add mul : NDArray ℚ → NDArray ℚ → NDArray ℚ) :
    RequestOK [] gapVars gapParams add mul [] (lineCall a q n) where
  nodup := by simp [lineCall, dkeys]
  exact := by intro n; simp [lineCall, dkeys, gapVars, gapParams]
  distinct := by simp [lineCall, dkeys]
  some_change := by simp [lineCall, dkeys]
  known := by simp [lineCall, dkeys]
  valid := by simp [lineCall, ValidRefs, refsOf]
  unshared := by simp [lineCall, refsOf]
  shaped := by
    intro o ho
    have : o = { name := "x" } ∨ o = { name := "p" } := by
      simpa [gapVars, gapParams] using ho
    rcases this with rfl | rfl
    · exact ⟨⟨[], [a]⟩, rfl, rfl, rfl⟩
    · exact ⟨⟨[], [a]⟩, rfl, rfl, rfl⟩
  sized := by
    intro o ho
    have : o = { name := "p" } := by simpa [gapParams] using ho
    subst this
    exact ⟨⟨[], [q]⟩, rfl, rfl⟩

/-- The affine theorem applied: from 1 to 2 in three steps and back in five. -/
example (fl : SimFlags) (add mul : NDArray ℚ → NDArray ℚ → NDArray ℚ) :
    ∃ e1, simulateCompute (simEnvOf (gapEnv .numba) (fun _ => false) fl add mul) [] (lineCall 1 2 3) =
        .ok ⟨some e1, none, none, false⟩ ∧ StartsFrom gapVars gapParams e1 [] (lineCall 2 1 5) ∧
      ∃ e2, simulateCompute (simEnvOf (gapEnv .numba) (fun _ => false) fl add mul) [] (lineCall 2 1 5) =
          .ok ⟨some e2, none, none, false⟩ ∧
        flatOf e2.start gapVars = [1] ∧ flatOf e2.start gapParams = [1] := by
  have hu : IsUnit (1 : Matrix (Fin 1) (Fin 1) ℚ).det := by simp
  obtain ⟨e1, a1, a2⟩ := C80_there_and_back_affine (gapEnv .numba) .numba (1 : Matrix (Fin 1) (Fin 1) ℚ)
    (-1 : Matrix (Fin 1) (Fin 1) ℚ) hu rfl gapModel (List.cons_ne_nil _ _) fl add mul [] []
    (lineCall 1 2 3) (lineCall 2 1 5) (lineRequest _ _ _ _ _) (lineRequest _ _ _ _ _) rfl rfl (by decide)
    rfl rfl (by decide) rfl
  obtain ⟨e1', b1, b2, b3, -, b5⟩ := affine_end (gapEnv .numba) .numba (1 : Matrix (Fin 1) (Fin 1) ℚ)
    (-1 : Matrix (Fin 1) (Fin 1) ℚ) hu rfl gapModel (List.cons_ne_nil _ _) fl add mul []
    (lineCall 1 2 3) (lineRequest _ _ _ _ _) rfl rfl (by decide)
  rw [a1] at b1
  cases b1
  have hs : StartsFrom gapVars gapParams e1 [] (lineCall 2 1 5) := by
    refine ⟨?_, b2.symm⟩
    have b3' : (flatOf e1.start gapVars).length = 1 := b3
    obtain ⟨v, hv⟩ := List.length_eq_one_iff.1 b3'
    have h4 := congrFun b5 (0 : Fin 1)
    have g1 : flatOf e1.start (gapEnv .numba).variables = [v] := hv
    have g2 : wantedFlat add mul [] (lineCall 1 2 3) (gapEnv .numba).parameters = [2] := rfl
    have g3 : initialFlat [] (lineCall 1 2 3) (gapEnv .numba).variables = [1] := rfl
    have g4 : initialFlat [] (lineCall 1 2 3) (gapEnv .numba).parameters = [1] := rfl
    rw [g1, g2, g3, g4] at h4
    have h5 : v + -2 = (1 : ℚ) + -1 := by
      have r1 : ((1 : Matrix (Fin 1) (Fin 1) ℚ).mulVec (toVec 1 [v]) + (-1 : Matrix (Fin 1) (Fin 1) ℚ).mulVec
        (toVec 1 [2])) 0 = v + -2 := by simp [Matrix.neg_mulVec, toVec]
      have r2 : ((1 : Matrix (Fin 1) (Fin 1) ℚ).mulVec (toVec 1 [1]) + (-1 : Matrix (Fin 1) (Fin 1) ℚ).mulVec
        (toVec 1 [1])) 0 = 1 + -1 := by simp [Matrix.neg_mulVec, toVec]
      exact r1.symm.trans (h4.trans r2)
    have h6 : v = 2 := by linarith
    rw [hv, h6]
    rfl
  exact ⟨e1, a1, hs, a2 hs⟩

/-! ### Smooth models: up to an error that vanishes with the number of steps -/

variable {coords : Coords} {vars params : List ModelObject} {numeraire : Option ModelObject}
  {eqs : List IndexedEq}

/-- `φ` is a continuous path of solutions of the equations with the residuals `G` (as scalar expressions,
`es`), over the straight line of parameters from `t0` to `t1`; along it the powers and logarithms in the
equations are defined and the matrix of partial derivatives with respect to the variables is invertible. -/
structure SolutionPath (coords : Coords) (vs params : List ModelObject) (G : List ℝ → List ℝ)
    (es : List (SymExpr Str)) (t0 t1 : List ℝ) (φ : ℝ → Fin (totalSize coords vs) → ℝ) : Prop where
  start_length : t0.length = totalSize coords params
  end_length : t1.length = totalSize coords params
  continuous : ContinuousOn φ (Icc 0 1)
  solves : ∀ s ∈ Icc (0 : ℝ) 1, ∀ y ∈ G (List.ofFn (φ s) ++ lineTo t0 t1 s), y = 0
  regular : ∀ s ∈ Icc (0 : ℝ) 1, ∀ e ∈ es, Regular (flatPoint (scalarNames coords (vs ++ params))
    (List.ofFn (φ s) ++ lineTo t0 t1 s)) e
  invertible : ∀ s ∈ Icc (0 : ℝ) 1,
    ∀ D : Matrix (Fin (totalSize coords vs)) (Fin (totalSize coords vs)) ℝ,
    (∀ i j : Fin (totalSize coords vs), HasDerivAt (fun u =>
      (G ((List.ofFn (φ s) ++ lineTo t0 t1 s).set j u)).getD i 0) (D i j) (φ s j)) → D.det ≠ 0

theorem lineTo_ofFn {n : Nat} {t0 t1 : List ℝ} (h0 : t0.length = n) (h1 : t1.length = n) (s : ℝ) :
    lineTo t0 t1 s = List.ofFn (thetaPath (toVec n t0) (toVec n t1) s) := by
  subst h0
  apply List.ext_getElem
  · simp [lineTo, h1]
  · intro i g1 g2
    have i0 : i < t0.length := by simpa using g2
    have i1 : i < t1.length := by omega
    simp only [lineTo, List.getElem_zipWith, List.getElem_ofFn, thetaPath, Pi.add_apply, Pi.smul_apply,
      Pi.sub_apply, smul_eq_mul, toVec, List.getElem?_eq_getElem i0, List.getElem?_eq_getElem i1,
      Option.getD_some]
    ring

theorem lineTo_swap (t0 t1 : List ℝ) (s : ℝ) : lineTo t1 t0 s = lineTo t0 t1 (1 - s) := by
  unfold lineTo
  rw [List.zipWith_comm]
  congr 1
  funext u v
  ring

/-- A path can be walked backwards. -/
theorem SolutionPath.reverse {vs : List ModelObject} {G : List ℝ → List ℝ} {es : List (SymExpr Str)}
    {t0 t1 : List ℝ} {φ : ℝ → Fin (totalSize coords vs) → ℝ}
    (h : SolutionPath coords vs params G es t0 t1 φ) :
    SolutionPath coords vs params G es t1 t0 (fun s => φ (1 - s)) := by
  have hm : ∀ s ∈ Icc (0 : ℝ) 1, 1 - s ∈ Icc (0 : ℝ) 1 := fun s hs => ⟨by linarith [hs.2], by linarith [hs.1]⟩
  refine ⟨h.end_length, h.start_length, ?_, ?_, ?_, ?_⟩
  · exact h.continuous.comp (by fun_prop) hm
  · intro s hs
    rw [lineTo_swap]
    exact h.solves _ (hm s hs)
  · intro s hs
    rw [lineTo_swap]
    exact h.regular _ (hm s hs)
  · intro s hs
    rw [lineTo_swap]
    exact h.invertible _ (hm s hs)

/-- The end of a simulation with a given number of steps, from the bound on its trajectory. -/
theorem simulate_end {coords : Coords} {vs params : List ModelObject} (b : EulerBackend)
    (dx : StepSolve ℝ) (env : SamEnv ℝ (List (NDArray ℝ))) (hsteps : EulerIs env b dx)
    (hem : EulerModel coords vs params) (hdx : LenOK dx (totalSize coords vs) (totalSize coords params))
    (hce : env.coords = coords) (hve : env.variables = vs) (hpe : env.parameters = params)
    (hcomp : env.compiled ≠ []) (fl : SimFlags) (add mul : NDArray ℝ → NDArray ℝ → NDArray ℝ)
    (h : Heap (NDArray ℝ)) (c : SimCall ℝ) (hr : RequestOK coords vs params add mul h c)
    (heul : c.useEuler = true) (hopt : c.useOptimizer = false) (h1 : 1 ≤ c.nIterEuler) (C : ℝ)
    (z : Fin (totalSize coords vs) → ℝ) (outs : List (NDArray ℝ))
    (hrun : runEuler b dx vs params coords (wantedFlat add mul h c params) c.nIterEuler
      (derefDict h c.initial) = .ok outs)
    (hb : ‖toVec _ (b.stateAfter vs params (derefDict h c.initial) outs c.nIterEuler) - z‖ ≤ C) :
    ∃ e, simulateCompute (simEnvOf env (fun _ => false) fl add mul) h c =
        .ok ⟨some e, none, none, false⟩ ∧ e.warned = b.keepsStart ∧
      flatOf e.start params = wantedFlat add mul h c params ∧
      (flatOf e.start vs).length = totalSize coords vs ∧
      ∀ j : Fin (totalSize coords vs), |(flatOf e.start vs).getD j 0 - z j| ≤ C := by
  subst hce hve hpe
  obtain ⟨hcall, -, hsim⟩ := simulate_euler_only env b _ hsteps hem hdx hcomp fl add mul h c hr heul hopt h1
  obtain ⟨e, g1, g2, g3, g4⟩ := hsim outs hrun
  have harr := C19_arrives b _ _ _ _ (derefDict h c.initial) _ _ h1 hcall hdx outs hrun
  have lv := (flatOf_spec env.coords e.start env.variables (fun o ho => g3 o (by simp [ho]))).1
  rw [flatOf_append] at g4
  refine ⟨e, g1, g2, ?_, lv, fun j => ?_⟩
  · rw [← harr, ← g4, List.drop_left' lv]
  · have h2 := (norm_le_pi_norm _ j).trans hb
    rw [Pi.sub_apply, Real.norm_eq_abs, ← g4] at h2
    have e1 : toVec (totalSize env.coords env.variables)
        (flatOf e.start env.variables ++ flatOf e.start env.parameters) j =
        (flatOf e.start env.variables).getD j 0 := by
      rw [List.getD_eq_getElem?_getD]
      unfold toVec
      rw [List.getElem?_append_left (by rw [lv]; exact j.isLt)]
    rw [e1] at h2
    exact h2

/-- `simulate` with Euler steps only takes every state near `z0` at the parameters `t0` to near `z1` at the
parameters `t1`: there are `C`, `ρ > 0` and `N` that serve every request that starts at the parameters `t0`,
asks for `t1` and whose initial variables are off from `z0` by at most `ε ≤ ρ`.  With `n ≥ N` steps
`simulate` returns, with the parameters `t1` and with every variable within `C (ε + 1 / n ^ k)` of `z1`. -/
def TakesNear (k : ℕ) (env : SamEnv ℝ (List (NDArray ℝ))) (fl : SimFlags)
    (add mul : NDArray ℝ → NDArray ℝ → NDArray ℝ) (coords : Coords) (vs params : List ModelObject)
    (t0 t1 : List ℝ) (z0 z1 : Fin (totalSize coords vs) → ℝ) : Prop :=
  ∃ (C ρ : ℝ) (N : ℕ), 0 < C ∧ 0 < ρ ∧ ∀ (h : Heap (NDArray ℝ)) (c : SimCall ℝ),
    RequestOK coords vs params add mul h c →
    c.useEuler = true → c.useOptimizer = false → N ≤ c.nIterEuler → 1 ≤ c.nIterEuler →
    initialFlat h c params = t0 → wantedFlat add mul h c params = t1 →
    ∀ ε, 0 ≤ ε → ε ≤ ρ → (∀ j : Fin (totalSize coords vs), |(initialFlat h c vs).getD j 0 - z0 j| ≤ ε) →
    ∃ e, simulateCompute (simEnvOf env (fun _ => false) fl add mul) h c =
        .ok ⟨some e, none, none, false⟩ ∧
      flatOf e.start params = t1 ∧
      ∀ j : Fin (totalSize coords vs), |(flatOf e.start vs).getD j 0 - z1 j| ≤
        C * (ε + 1 / c.nIterEuler ^ k)

/-- Two simulations in a row, the second from the state the first ended in, take `z0` at the parameters `t0`
over the parameters `t1` to near `z2` at the parameters `t2`: there are `C` and `N` such that with
`n₁, n₂ ≥ N` steps both return and the second ends at `t2` and within `C (1 / n₁ ^ k + 1 / n₂ ^ k)` of
`z2`. -/
def StagesTake (k : ℕ) (env : SamEnv ℝ (List (NDArray ℝ))) (fl : SimFlags)
    (add mul : NDArray ℝ → NDArray ℝ → NDArray ℝ) (coords : Coords) (vs params : List ModelObject)
    (t0 t1 t2 : List ℝ) (z0 z2 : Fin (totalSize coords vs) → ℝ) : Prop :=
  ∃ (C : ℝ) (N : ℕ), 0 < C ∧ ∀ (h1 h2 : Heap (NDArray ℝ)) (c1 c2 : SimCall ℝ),
    RequestOK coords vs params add mul h1 c1 → RequestOK coords vs params add mul h2 c2 →
    c1.useEuler = true → c1.useOptimizer = false → N ≤ c1.nIterEuler →
    c2.useEuler = true → c2.useOptimizer = false → N ≤ c2.nIterEuler →
    initialFlat h1 c1 vs = List.ofFn z0 →
    initialFlat h1 c1 params = t0 → wantedFlat add mul h1 c1 params = t1 →
    wantedFlat add mul h2 c2 params = t2 →
    ∃ e1, simulateCompute (simEnvOf env (fun _ => false) fl add mul) h1 c1 =
        .ok ⟨some e1, none, none, false⟩ ∧
      (StartsFrom vs params e1 h2 c2 →
        ∃ e2, simulateCompute (simEnvOf env (fun _ => false) fl add mul) h2 c2 =
            .ok ⟨some e2, none, none, false⟩ ∧
          flatOf e2.start params = t2 ∧
          ∀ j : Fin (totalSize coords vs), |(flatOf e2.start vs).getD j 0 - z2 j| ≤
            C * (1 / c1.nIterEuler ^ k + 1 / c2.nIterEuler ^ k))

theorem EulerBackend.one_le_order (b : EulerBackend) : 1 ≤ b.order := by
  unfold EulerBackend.order
  split <;> omega

theorem TakesNear.stages {k : ℕ} (hk : 1 ≤ k) {env : SamEnv ℝ (List (NDArray ℝ))} {fl : SimFlags}
    {add mul : NDArray ℝ → NDArray ℝ → NDArray ℝ} {coords : Coords} {vs params : List ModelObject}
    {t0 t1 t2 : List ℝ} {z0 z1 z2 : Fin (totalSize coords vs) → ℝ}
    (n1 : TakesNear k env fl add mul coords vs params t0 t1 z0 z1)
    (n2 : TakesNear k env fl add mul coords vs params t1 t2 z1 z2) :
    StagesTake k env fl add mul coords vs params t0 t1 t2 z0 z2 := by
  obtain ⟨C₁, ρ₁, N₁, hC₁, hρ₁, k1⟩ := n1
  obtain ⟨C₂, ρ₂, N₂, hC₂, hρ₂, k2⟩ := n2
  obtain ⟨N₃, hN₃⟩ := exists_nat_gt (C₁ / ρ₂)
  refine ⟨C₂ * (C₁ + 1), N₁ + N₂ + N₃ + 1, by positivity, ?_⟩
  intro h1 h2 c1 c2 hr1 hr2 he1 ho1 hn1 he2 ho2 hn2 hs0 ht0 ht1 ht2
  have hp1 : (0 : ℝ) < c1.nIterEuler := by exact_mod_cast (by omega : 0 < c1.nIterEuler)
  have hp2 : (0 : ℝ) < c2.nIterEuler := by exact_mod_cast (by omega : 0 < c2.nIterEuler)
  obtain ⟨e1, g1, g3, g5⟩ := k1 h1 c1 hr1 he1 ho1 (by omega) (by omega) ht0 ht1 0 le_rfl hρ₁.le
    (by
      intro j
      rw [hs0, List.getD_eq_getElem?_getD]
      simp)
  refine ⟨e1, g1, fun ⟨s1, s2⟩ => ?_⟩
  rw [zero_add] at g5
  have hsmall : C₁ * (1 / c1.nIterEuler ^ k) ≤ ρ₂ := by
    rw [mul_one_div, div_le_iff₀ (by positivity)]
    rw [div_lt_iff₀ hρ₂] at hN₃
    have h3 : (N₃ : ℝ) ≤ c1.nIterEuler := by exact_mod_cast (by omega : N₃ ≤ c1.nIterEuler)
    have h4 : (c1.nIterEuler : ℝ) ≤ c1.nIterEuler ^ k :=
      le_self_pow₀ (by exact_mod_cast (by omega : 1 ≤ c1.nIterEuler)) (by omega)
    nlinarith
  obtain ⟨e2, q1, q3, q5⟩ := k2 h2 c2 hr2 he2 ho2 (by omega) (by omega) (by rw [s2, g3]) ht2
    (C₁ * (1 / c1.nIterEuler ^ k)) (by positivity) hsmall (by rw [s1]; exact g5)
  refine ⟨e2, q1, q3, fun j => (q5 j).trans ?_⟩
  rw [mul_assoc]
  apply mul_le_mul_of_nonneg_left _ hC₂.le
  have u1 : (0 : ℝ) ≤ 1 / c1.nIterEuler ^ k := by positivity
  have u2 : (0 : ℝ) ≤ 1 / c2.nIterEuler ^ k := by positivity
  nlinarith

/-- Both kinds of steps. -/
theorem smooth_near_order (b : EulerBackend) (coords : Coords) (vars params : List ModelObject)
    (t0 tf : List ℝ)
    (A : (Fin (totalSize coords vars) → ℝ) → (Fin (totalSize coords params) → ℝ) →
      Matrix (Fin (totalSize coords vars)) (Fin (totalSize coords vars)) ℝ)
    (B : (Fin (totalSize coords vars) → ℝ) → (Fin (totalSize coords params) → ℝ) →
      Matrix (Fin (totalSize coords vars)) (Fin (totalSize coords params)) ℝ)
    (φ : ℝ → Fin (totalSize coords vars) → ℝ)
    (h : ∀ k : ℕ, ∃ F, SmoothModel k F A B (toVec _ t0) (toVec _ tf) φ) :
    ∃ (C ρ : ℝ) (N : ℕ), 0 < C ∧ 0 < ρ ∧
      ∀ (data : Dict Str (NDArray ℝ)), EulerCall coords vars params data tf → flatOf data params = t0 →
      ∀ ε ≤ ρ, ‖toVec _ (flatOf data vars) - φ 0‖ ≤ ε → ∀ n, N ≤ n →
      ∃ outs, runEuler b (vecJac A B).solve vars params coords tf n data = .ok outs ∧
        ∀ t, t ≤ n →
          ‖toVec _ (b.stateAfter vars params data outs t) - φ (t * (1 / n))‖ ≤ C * (ε + 1 / n ^ b.order) := by
  unfold EulerBackend.order
  cases hb : b.rk4 with
  | false =>
    obtain ⟨F, hF⟩ := h 2
    obtain ⟨C, ρ, N, hC, hρ, k⟩ := smooth_near coords vars params t0 tf F A B φ hF
    refine ⟨C, ρ, N, hC, hρ, ?_⟩
    simpa using k b hb
  | true =>
    obtain ⟨F, hF⟩ := h 5
    obtain ⟨C, ρ, N, hC, hρ, k⟩ := smooth_near_rk coords vars params t0 tf F A B φ hF
    refine ⟨C, ρ, N, hC, hρ, ?_⟩
    simpa using k b hb

/-- **C80 (a start that is slightly off).**  Let `φ` be a path of solutions from the parameters `t0` to `t1`.
On a back-end that differentiates the residuals, `simulate` with Euler (or Runge-Kutta) steps takes every
state near the equilibrium `φ 0` to near the equilibrium `φ 1`; the order of the error in the number of steps
is 1 for Euler and 4 for Runge-Kutta steps. -/
theorem C80_near_partial (es : List (SymExpr Str)) (b : EulerBackend)
    (A : (Fin (totalSize coords (solvedVars numeraire vars)) → ℝ) → (Fin (totalSize coords params) → ℝ) →
      Matrix (Fin (totalSize coords (solvedVars numeraire vars)))
        (Fin (totalSize coords (solvedVars numeraire vars))) ℝ)
    (B : (Fin (totalSize coords (solvedVars numeraire vars)) → ℝ) → (Fin (totalSize coords params) → ℝ) →
      Matrix (Fin (totalSize coords (solvedVars numeraire vars))) (Fin (totalSize coords params)) ℝ)
    (env : SamEnv ℝ (List (NDArray ℝ)))
    (hm : EulerOnGraphs coords vars params numeraire eqs es b A B env)
    (hsquare : es.length = totalSize coords (solvedVars numeraire vars))
    (fl : SimFlags) (add mul : NDArray ℝ → NDArray ℝ → NDArray ℝ) (t0 t1 : List ℝ)
    (φ : ℝ → Fin (totalSize coords (solvedVars numeraire vars)) → ℝ)
    (hφ : SolutionPath coords (solvedVars numeraire vars) params
      (imbalances coords vars params numeraire eqs) es t0 t1 φ) :
    TakesNear b.order env fl add mul coords (solvedVars numeraire vars) params t0 t1 (φ 0) (φ 1) := by
  have hder' := hm.imbalanceDerivatives
  obtain ⟨hmod, hem, hce, hve, hpe, hcomp, ⟨F, vn, hF, hsys⟩, -, hsteps, hder⟩ := hm
  have hnames : scalarNames coords (solvedVars numeraire vars ++ params) =
      scalarNames coords (solvedVars numeraire vars) ++ scalarNames coords params := scalarNames_append _ _ _
  have hnd := (solvedModel (numeraire := numeraire) hmod.scalar).scalars
  have hval := hF.values hmod
  have hline := lineTo_ofFn hφ.start_length hφ.end_length
  have hreg := hφ.regular
  have hsol := hφ.solves
  have hinv := hφ.invertible
  rw [hnames] at hreg hnd
  simp only [hnames] at hval
  simp only [hline] at hreg hsol hinv
  have hsm := fun k : ℕ => equations_smooth k (toVec _ t0) (toVec _ t1) _ _ es hnd (length_scalarNames _ _)
    (length_scalarNames _ _) hsquare (imbalances coords vars params numeraire eqs)
    (fun flat _ => hval flat) A B hder' φ _ rfl hφ.continuous
    (fun s hs => ofFn_zeros (by rw [hF.length hmod, hF.length hmod]) (hsol s hs)
      (hsol 0 ⟨le_rfl, zero_le_one⟩)) hreg hinv
  obtain ⟨C, ρ, N, hC, hρ, hnear⟩ := smooth_near_order b coords (solvedVars numeraire vars) params t0 t1 A B
    φ hsm
  refine ⟨C, ρ, N, hC, hρ, ?_⟩
  intro h c hr heul hopt hN h1 ht0 ht1 ε hε0 hε hoff
  obtain ⟨hcall, hiv, hip⟩ := euler_setup b _ env hsteps hem (vecJac A B).lenOK hce hve hpe
    hcomp fl add mul h c hr heul hopt
  have hcall' : EulerCall coords (solvedVars numeraire vars) params (derefDict h c.initial) t1 := by
    rw [← ht1]; exact hcall
  obtain ⟨outs, hrun, hb⟩ := hnear (derefDict h c.initial) hcall' (by rw [hip, ht0]) ε hε
    (by
      rw [hiv, pi_norm_le_iff_of_nonneg hε0]
      intro j
      rw [Pi.sub_apply, Real.norm_eq_abs]
      have := hoff j
      rw [List.getD_eq_getElem?_getD] at this
      exact this) c.nIterEuler hN
  have hbn := hb c.nIterEuler le_rfl
  have hnn : (c.nIterEuler : ℝ) * (1 / c.nIterEuler) = 1 := by
    have : (c.nIterEuler : ℝ) ≠ 0 := by exact_mod_cast (by omega : c.nIterEuler ≠ 0)
    field_simp
  rw [hnn] at hbn
  obtain ⟨e, g1, -, g3, -, g5⟩ := simulate_end b _ env hsteps hem (vecJac A B).lenOK hce hve hpe
    hcomp fl add mul h c hr heul hopt h1 _ (φ 1) outs (by rw [ht1]; exact hrun) hbn
  exact ⟨e, g1, by rw [g3, ht1], g5⟩

/-- **C80 (stages).**  Let `φ₁` be a path of solutions from `t0` to `t1` and `φ₂` one from `t1` to `t2` that
begins where `φ₁` ends.  On a back-end that differentiates the residuals, simulating from the equilibrium
`φ₁ 0` to the parameters `t1` and from where that ended to `t2` leads to near the equilibrium `φ₂ 1`. -/
theorem C80_stages_partial (es : List (SymExpr Str)) (b : EulerBackend)
    (A : (Fin (totalSize coords (solvedVars numeraire vars)) → ℝ) → (Fin (totalSize coords params) → ℝ) →
      Matrix (Fin (totalSize coords (solvedVars numeraire vars)))
        (Fin (totalSize coords (solvedVars numeraire vars))) ℝ)
    (B : (Fin (totalSize coords (solvedVars numeraire vars)) → ℝ) → (Fin (totalSize coords params) → ℝ) →
      Matrix (Fin (totalSize coords (solvedVars numeraire vars))) (Fin (totalSize coords params)) ℝ)
    (env : SamEnv ℝ (List (NDArray ℝ)))
    (hm : EulerOnGraphs coords vars params numeraire eqs es b A B env)
    (hsquare : es.length = totalSize coords (solvedVars numeraire vars))
    (fl : SimFlags) (add mul : NDArray ℝ → NDArray ℝ → NDArray ℝ) (t0 t1 t2 : List ℝ)
    (φ₁ φ₂ : ℝ → Fin (totalSize coords (solvedVars numeraire vars)) → ℝ)
    (hφ₁ : SolutionPath coords (solvedVars numeraire vars) params
      (imbalances coords vars params numeraire eqs) es t0 t1 φ₁)
    (hφ₂ : SolutionPath coords (solvedVars numeraire vars) params
      (imbalances coords vars params numeraire eqs) es t1 t2 φ₂) (hjoin : φ₂ 0 = φ₁ 1) :
    StagesTake b.order env fl add mul coords (solvedVars numeraire vars) params t0 t1 t2 (φ₁ 0) (φ₂ 1) := by
  have h2 := C80_near_partial es b A B env hm hsquare fl add mul t1 t2 φ₂ hφ₂
  rw [hjoin] at h2
  exact (C80_near_partial es b A B env hm hsquare fl add mul t0 t1 φ₁ hφ₁).stages b.one_le_order h2

/-- **C80 (there and back).**  Let `φ` be a path of solutions from `t0` to `t1`.  On a back-end that
differentiates the residuals, simulating from the equilibrium `φ 0` to the parameters `t1` and from where that ended back to `t0` leads to
near `φ 0`. -/
theorem C80_there_and_back_partial (es : List (SymExpr Str)) (b : EulerBackend)
    (A : (Fin (totalSize coords (solvedVars numeraire vars)) → ℝ) → (Fin (totalSize coords params) → ℝ) →
      Matrix (Fin (totalSize coords (solvedVars numeraire vars)))
        (Fin (totalSize coords (solvedVars numeraire vars))) ℝ)
    (B : (Fin (totalSize coords (solvedVars numeraire vars)) → ℝ) → (Fin (totalSize coords params) → ℝ) →
      Matrix (Fin (totalSize coords (solvedVars numeraire vars))) (Fin (totalSize coords params)) ℝ)
    (env : SamEnv ℝ (List (NDArray ℝ)))
    (hm : EulerOnGraphs coords vars params numeraire eqs es b A B env)
    (hsquare : es.length = totalSize coords (solvedVars numeraire vars))
    (fl : SimFlags) (add mul : NDArray ℝ → NDArray ℝ → NDArray ℝ) (t0 t1 : List ℝ)
    (φ : ℝ → Fin (totalSize coords (solvedVars numeraire vars)) → ℝ)
    (hφ : SolutionPath coords (solvedVars numeraire vars) params
      (imbalances coords vars params numeraire eqs) es t0 t1 φ) :
    StagesTake b.order env fl add mul coords (solvedVars numeraire vars) params t0 t1 t0 (φ 0) (φ 0) := by
  have := C80_stages_partial es b A B env hm hsquare fl add mul t0 t1 t0 φ _ hφ hφ.reverse (by simp)
  simpa using this

/-! ### The model `x = p * p` -/

def parEqs : List IndexedEq :=
  [⟨[.lit "parabola".toList], .sym "x".toList, .mul (.sym "p".toList) (.sym "p".toList)⟩]

def parEs : List (SymExpr Str) :=
  [.add (.sym "x".toList) (.mul (.num (-1)) (.mul (.sym "p".toList) (.sym "p".toList)))]

theorem parModel : IndexedModel [] sqVars sqParams none parEqs where
  scalar := sqModel.scalar
  coords_nodup := sqModel.coords_nodup
  dim_names := sqModel.dim_names
  label_names := sqModel.label_names
  numeraire_mem := sqModel.numeraire_mem
  sides := by
    have hsym : ∀ s : Str, s = "x".toList ∨ s = "p".toList →
        ∃ o ∈ solvedVars none sqVars ++ sqParams ++ (none : Option ModelObject).toList,
          o.name = s ∧ o.dims = [] := by
      rintro s hs
      rcases hs with rfl | rfl <;> decide +kernel
    intro q hq
    simp only [parEqs, List.mem_cons, List.not_mem_nil, or_false] at hq
    subst hq
    refine ⟨⟨trivial, ⟨?_, fun v hv => (nomatch hv)⟩, fun o ho => (nomatch ho), fun o ho => (nomatch ho)⟩,
      ⟨⟨trivial, trivial⟩, ⟨?_, fun v hv => ?_⟩, fun o ho => (nomatch ho), fun o ho => (nomatch ho)⟩⟩
    · intro x hx
      simp only [RExpr.syms, List.mem_singleton] at hx
      exact hsym x (Or.inl hx)
    · intro x hx
      simp only [RExpr.syms, List.mem_append, List.mem_singleton, or_self] at hx
      exact hsym x (Or.inr hx)
    · simp [RExpr.indexeds] at hv
  clean := by
    intro q hq
    simp only [parEqs, List.mem_cons, List.not_mem_nil, or_false] at hq
    subst hq
    decide +kernel
  markers := by decide +kernel
  names := by decide +kernel

theorem parBuilt : ∃ F, BuiltFrom [] sqVars sqParams none parEqs parEs F :=
  ⟨_, id, id, id, id, _, _, _, fun _ _ => Iff.rfl, fun _ _ => Iff.rfl, fun _ _ => Iff.rfl, rfl, rfl,
    rfl, rfl, rfl⟩

theorem parImbalances (x p : ℝ) : imbalances [] sqVars sqParams none parEqs [x, p] = [x - p * p] := rfl

/-- The matrices of the Euler step of `x - p * p`. -/
def parA : (Fin (totalSize [] (solvedVars none sqVars)) → ℝ) → (Fin (totalSize [] sqParams) → ℝ) →
    Matrix (Fin (totalSize [] (solvedVars none sqVars))) (Fin (totalSize [] (solvedVars none sqVars))) ℝ :=
  fun _ _ => 1

def parB : (Fin (totalSize [] (solvedVars none sqVars)) → ℝ) → (Fin (totalSize [] sqParams) → ℝ) →
    Matrix (Fin (totalSize [] (solvedVars none sqVars))) (Fin (totalSize [] sqParams)) ℝ :=
  fun _ t => Matrix.of fun _ k => -(2 * t k)

noncomputable def parEnv (F : SympyTensorFns) : SamEnv ℝ (List (NDArray ℝ)) :=
  { envOf [] (solvedVars none sqVars) sqParams F (fun _ _ _ _ => .error .valueError)
      (fun _ _ _ _ => .error .valueError) with
    euler := fun x0 theta n =>
      runEuler .pytensorLoop (vecJac parA parB).solve (solvedVars none sqVars) sqParams [] theta n x0 }

theorem par_dx (x p : ℝ) : HasDerivAt (fun u => (imbalances [] sqVars sqParams none parEqs [u, p]).getD 0 0)
    1 x := by
  simp only [parImbalances, List.getD_cons_zero]
  exact (hasDerivAt_id x).sub_const (p * p)

theorem par_dp (x p : ℝ) : HasDerivAt (fun u => (imbalances [] sqVars sqParams none parEqs [x, u]).getD 0 0)
    (-(2 * p)) p := by
  simp only [parImbalances, List.getD_cons_zero]
  have := ((hasDerivAt_id p).mul (hasDerivAt_id p)).const_sub x
  rw [show -(2 * p) = -(1 * id p + id p * 1) by simp only [id]; ring]
  exact this

theorem parOnDefault (F : SympyTensorFns) (hF : BuiltFrom [] sqVars sqParams none parEqs parEs F) :
    EulerOnDefault [] sqVars sqParams none parEqs parEs parA parB (parEnv F) where
  model := parModel
  euler :=
    { labelled := gapModel.labelled
      nonempty := gapModel.nonempty
      someVar := gapModel.someVar
      someParam := gapModel.someParam
      keywords := gapModel.keywords }
  coords_eq := rfl
  variables_eq := rfl
  parameters_eq := rfl
  compiled := List.cons_ne_nil _ _
  system := ⟨F, [], hF, rfl⟩
  differentiated := by decide
  steps := rfl
  derivatives := by
    have key : ∀ x p : ℝ, valuesOf ((parEnv F).fSystem.forScipy (parEnv F).variables
        (parEnv F).parameters (parEnv F).coords [x] [p]) =
        imbalances [] sqVars sqParams none parEqs [x, p] := by
      intro x p
      have := hF.fns.system parModel [] [x] [p] rfl rfl
      show valuesOf (wrapForScipy _ (solvedVars none sqVars) sqParams [] [x] [p]) = _
      rw [this]
      rfl
    intro x t _
    have j0 : Fin (totalSize [] (solvedVars none sqVars)) := ⟨0, by decide⟩
    have k0 : Fin (totalSize [] sqParams) := ⟨0, by decide⟩
    constructor
    · intro i j
      have hA : parA x t i j = 1 := by
        unfold parA
        rw [show i = j from Fin.ext ((sq_fin i).trans (sq_fin j).symm)]
        exact Matrix.one_apply_eq j
      rw [hA, sq_flat x t j k0, sq_fin i, sq_fin j]
      show HasDerivAt (fun u => (valuesOf ((parEnv F).fSystem.forScipy (parEnv F).variables
        (parEnv F).parameters (parEnv F).coords [u] [t k0])).getD 0 0) 1 (x j)
      simp only [key]
      exact par_dx _ _
    · intro i k
      rw [sq_flat x t j0 k, sq_fin i, sqp_fin k]
      show HasDerivAt (fun u => (valuesOf ((parEnv F).fSystem.forScipy (parEnv F).variables
        (parEnv F).parameters (parEnv F).coords [x j0] [u])).getD 0 0) (-(2 * t k)) (t k)
      simp only [key]
      exact par_dp _ _

/-- From `x`, `p`, with `p` changed to `q` in `n` steps. -/
def parCall (x p q : ℝ) (n : Nat) : SimCall ℝ where
  initial := [("x".toList, .num ⟨[], [x]⟩), ("p".toList, .num ⟨[], [p]⟩)]
  finalValues := some [("p".toList, .num ⟨[], [q]⟩)]
  useOptimizer := false
  nIterEuler := n

theorem parRequest (x p q : ℝ) (n : Nat) (add mul : NDArray ℝ → NDArray ℝ → NDArray ℝ) :
    RequestOK [] (solvedVars none sqVars) sqParams add mul [] (parCall x p q n) where
  nodup := by simp [parCall, dkeys]
  exact := by intro n; simp [parCall, dkeys, sqVars, sqParams, solvedVars]
  distinct := by simp [parCall, dkeys]
  some_change := by simp [parCall, dkeys]
  known := by simp [parCall, dkeys]
  valid := by simp [parCall, ValidRefs, refsOf]
  unshared := by simp [parCall, refsOf]
  shaped := by
    intro o ho
    have : o = { name := "x" } ∨ o = { name := "p" } := by
      simpa [sqVars, sqParams, solvedVars] using ho
    rcases this with rfl | rfl
    · exact ⟨⟨[], [x]⟩, rfl, rfl, rfl⟩
    · exact ⟨⟨[], [p]⟩, rfl, rfl, rfl⟩
  sized := by
    intro o ho
    have : o = { name := "p" } := by simpa [sqParams] using ho
    subst this
    exact ⟨⟨[], [q]⟩, rfl, rfl⟩

/-- One step of the model `x = p * p`. -/
theorem par_solve (x p d : ℝ) : (vecJac parA parB).solve [x] [p] [d] = .ok [2 * p * d] := by
  have hu : IsUnit ((vecJac parA parB).A [x] [p]).det := by
    show IsUnit (1 : Matrix (Fin (totalSize [] (solvedVars none sqVars)))
      (Fin (totalSize [] (solvedVars none sqVars))) ℝ).det
    rw [Matrix.det_one]
    exact isUnit_one
  rw [(vecJac parA parB).solve_of_isUnit [x] [p] [d] hu]
  have : -(((vecJac parA parB).A [x] [p])⁻¹.mulVec (((vecJac parA parB).B [x] [p]).mulVec
      (toVec (totalSize [] sqParams) [d]))) = fun _ => 2 * p * d := by
    funext i
    show -(((1 : Matrix (Fin (totalSize [] (solvedVars none sqVars)))
      (Fin (totalSize [] (solvedVars none sqVars))) ℝ)⁻¹.mulVec ((parB (toVec _ [x]) (toVec _ [p])).mulVec
      (toVec (totalSize [] sqParams) [d]))) i) = _
    rw [inv_one, Matrix.one_mulVec]
    show -(∑ k : Fin 1, -(2 * toVec 1 [p] k) * toVec 1 [d] k) = _
    rw [Fin.sum_univ_one]
    simp [toVec]
  rw [this]
  rfl

/-- Where `n` steps of the model `x = p * p` lead. -/
theorem par_simulates (F : SympyTensorFns) (hF : BuiltFrom [] sqVars sqParams none parEqs parEs F)
    (fl : SimFlags) (add mul : NDArray ℝ → NDArray ℝ → NDArray ℝ) (x p q : ℝ) (n : Nat) (hn : 1 ≤ n) :
    ∃ e, simulateCompute (simEnvOf (parEnv F) (fun _ => false) fl add mul) [] (parCall x p q n) =
        .ok ⟨some e, none, none, false⟩ ∧
      flatOf e.start sqVars = [x + 2 * p * (q - p) + (q - p) ^ 2 * (1 - 1 / n)] ∧
      flatOf e.start sqParams = [q] := by
  have hn0 : (n : ℝ) ≠ 0 := by exact_mod_cast (by omega : n ≠ 0)
  have hm := parOnDefault F hF
  obtain ⟨hcall, hiv, hip⟩ := euler_setup .pytensorLoop _ (parEnv F) hm.steps hm.euler
    (vecJac parA parB).lenOK rfl rfl rfl hm.compiled fl add mul [] (parCall x p q n)
    (parRequest x p q n add mul) rfl rfl
  have hiv' : flatOf (derefDict [] (parCall x p q n).initial) (solvedVars none sqVars) = [x] := hiv
  have hip' : flatOf (derefDict [] (parCall x p q n).initial) sqParams = [p] := hip
  obtain ⟨outs, ho, hS⟩ := run_invariant .pytensorLoop (vecJac parA parB).solve [] (solvedVars none sqVars)
    sqParams (derefDict [] (parCall x p q n).initial) _ n hcall (vecJac parA parB).lenOK
    (fun j X T => X = [x + 2 * p * (q - p) * (j / n) + (q - p) ^ 2 * (j * (j - 1) / n ^ 2)] ∧
      T = [p + j * ((q - p) / n)])
    (by rw [hiv', hip']; simp)
    (by
      rintro j hj X T hX hT ⟨rfl, rfl⟩
      have hs : stepVec n (wantedFlat add mul [] (parCall x p q n) sqParams)
          (flatOf (derefDict [] (parCall x p q n).initial) sqParams) = [(q - p) / n] := by
        rw [hip']; rfl
      rw [hs]
      refine ⟨[2 * (p + j * ((q - p) / n)) * ((q - p) / n)],
        by simpa [jaxIncrement, EulerBackend.rk4] using par_solve _ _ _, rfl, ?_, ?_⟩
      · simp only [List.zipWith_cons_cons, List.zipWith_nil_left, List.cons.injEq, and_true]
        push_cast
        field_simp
        ring
      · simp only [List.zipWith_cons_cons, List.zipWith_nil_left, List.cons.injEq, and_true]
        push_cast
        ring)
  obtain ⟨X, T, e1, e2, rfl, rfl⟩ := hS n le_rfl
  obtain ⟨e, g1, -, g3, g4, g5⟩ := simulate_end .pytensorLoop _ (parEnv F) hm.steps hm.euler
    (vecJac parA parB).lenOK rfl rfl rfl hm.compiled fl add mul [] (parCall x p q n)
    (parRequest x p q n add mul) rfl rfl hn 0
    (fun _ => x + 2 * p * (q - p) * (n / n) + (q - p) ^ 2 * (n * (n - 1) / n ^ 2)) outs ho
    (by
      show ‖toVec _ (EulerBackend.stateAfter .pytensorLoop (solvedVars none sqVars) sqParams _ outs n) - _‖ ≤ 0
      rw [e1, toVec_append _ _ _ e2, pi_norm_le_iff_of_nonneg le_rfl]
      intro j
      rw [Pi.sub_apply, toVec, sq_fin j]
      simp)
  refine ⟨e, g1, ?_, g3⟩
  have l1 : (flatOf e.start sqVars).length = 1 := g4
  obtain ⟨v, hv⟩ := List.length_eq_one_iff.1 l1
  have h5 := g5 ⟨0, by decide⟩
  have hv' : flatOf e.start (solvedVars none sqVars) = [v] := hv
  rw [hv', abs_nonpos_iff, sub_eq_zero] at h5
  rw [hv]
  have h6 : v = x + 2 * p * (q - p) * (n / n) + (q - p) ^ 2 * (n * (n - 1) / n ^ 2) := h5
  rw [h6]
  congr 1
  field_simp

/-- **C80 is false of nonlinear models at any number of steps.**  In the model `x = p * p` on the default
back-end, from the equilibrium `x = 1`, `p = 1`: simulate `p = 2` with `n` Euler steps, start again from
where that ended and simulate `p = 1` with `n` steps.  Both return without a warning, and the second ends at
`x = 1 - 2 / n`, which is not where the first started. -/
theorem C80_there_and_back_counterexample :
    ∃ F, EulerOnDefault [] sqVars sqParams none parEqs parEs parA parB (parEnv F) ∧
      ∀ (fl : SimFlags) (add mul : NDArray ℝ → NDArray ℝ → NDArray ℝ) (n : Nat), 1 ≤ n →
      (∀ y ∈ imbalances [] sqVars sqParams none parEqs [1, 1], y = 0) ∧
      ∃ e1, simulateCompute (simEnvOf (parEnv F) (fun _ => false) fl add mul) [] (parCall 1 1 2 n) =
          .ok ⟨some e1, none, none, false⟩ ∧
        StartsFrom sqVars sqParams e1 [] (parCall (4 - 1 / n) 2 1 n) ∧
        ∃ e2, simulateCompute (simEnvOf (parEnv F) (fun _ => false) fl add mul) []
            (parCall (4 - 1 / n) 2 1 n) = .ok ⟨some e2, none, none, false⟩ ∧
          flatOf e2.start sqParams = [1] ∧ flatOf e2.start sqVars = [(1 - 2 / n : ℝ)] ∧
          flatOf e2.start sqVars ≠ [1] := by
  obtain ⟨F, hF⟩ := parBuilt
  refine ⟨F, parOnDefault F hF, fun fl add mul n hn => ⟨?_, ?_⟩⟩
  · intro y hy
    rw [parImbalances, List.mem_singleton] at hy
    rw [hy]
    ring
  have hn0 : (n : ℝ) ≠ 0 := by exact_mod_cast (by omega : n ≠ 0)
  obtain ⟨e1, a1, a2, a3⟩ := par_simulates F hF fl add mul 1 1 2 n hn
  obtain ⟨e2, b1, b2, b3⟩ := par_simulates F hF fl add mul (4 - 1 / n) 2 1 n hn
  have hx : flatOf e2.start sqVars = [(1 - 2 / n : ℝ)] := by
    rw [b2]
    congr 1
    ring
  refine ⟨e1, a1, ⟨?_, ?_⟩, e2, b1, b3, hx, ?_⟩
  · rw [a2]
    show [4 - 1 / (n : ℝ)] = _
    congr 1
    ring
  · rw [a3]
    rfl
  · rw [hx]
    intro h
    have h1 : (1 : ℝ) - 2 / n = 1 := by simpa using h
    have h2 : (2 : ℝ) / n = 0 := by linarith
    rw [div_eq_zero_iff] at h2
    rcases h2 with h2 | h2
    · norm_num at h2
    · exact hn0 h2

/-- The path of solutions from `p = 1` to `p = 2`. -/
theorem parPath : SolutionPath [] (solvedVars none sqVars) sqParams (imbalances [] sqVars sqParams none parEqs)
    parEs [1] [2] (fun s _ => (1 + s) * (1 + s)) := by
  have hl : ∀ s : ℝ, lineTo [1] [2] s = [1 + s] := by
    intro s
    simp only [lineTo, List.zipWith_cons_cons, List.zipWith_nil_left]
    congr 1
    ring
  have hfl : ∀ s : ℝ, List.ofFn (fun _ : Fin (totalSize [] (solvedVars none sqVars)) => (1 + s) * (1 + s)) ++
      lineTo [1] [2] s = [(1 + s) * (1 + s), 1 + s] := by
    intro s
    rw [hl]
    rfl
  refine ⟨rfl, rfl, by fun_prop, ?_, ?_, ?_⟩
  · intro s hs y hy
    rw [hfl, parImbalances, List.mem_singleton] at hy
    rw [hy, sub_self]
  · intro s hs e he
    simp only [parEs, List.mem_singleton] at he
    subst he
    exact ⟨trivial, trivial, trivial, trivial⟩
  · intro s hs D hD
    have i0 : Fin (totalSize [] (solvedVars none sqVars)) := ⟨0, by decide⟩
    have h1 := hD i0 i0
    rw [hfl, sq_fin i0] at h1
    have h2 := h1.unique (par_dx _ _)
    have : D.det = D i0 i0 := by
      have e : i0 = (default : Fin 1) := Fin.ext (sq_fin i0)
      rw [e]
      exact Matrix.det_unique (n := Fin 1) D
    rw [this, h2]
    exact one_ne_zero

/-- The theorems apply to it: there and back, `x` is within `C (2 / n)` of 1. -/
example (fl : SimFlags) (add mul : NDArray ℝ → NDArray ℝ → NDArray ℝ) :
    ∃ F, ∃ (C : ℝ) (N : ℕ), 0 < C ∧ ∀ n, N ≤ n → 1 ≤ n →
      ∃ e2, simulateCompute (simEnvOf (parEnv F) (fun _ => false) fl add mul) []
          (parCall (4 - 1 / n) 2 1 n) = .ok ⟨some e2, none, none, false⟩ ∧
        |(flatOf e2.start sqVars).getD 0 0 - 1| ≤ C * (1 / n + 1 / n) := by
  obtain ⟨F, hF⟩ := parBuilt
  obtain ⟨C, N, hC, k⟩ := C80_there_and_back_partial parEs .pytensorLoop parA parB (parEnv F) (parOnDefault F hF) rfl fl
    add mul [1] [2] _ parPath
  refine ⟨F, C, N, hC, fun n hn h1 => ?_⟩
  obtain ⟨e1, a1, a2⟩ := k [] [] (parCall 1 1 2 n) (parCall (4 - 1 / n) 2 1 n) (parRequest _ _ _ _ _ _)
    (parRequest _ _ _ _ _ _) rfl rfl hn rfl rfl hn
    (by
      show [(1 : ℝ)] = [(1 + 0) * (1 + 0)]
      norm_num) rfl rfl rfl
  obtain ⟨e1', b1, b2, b3⟩ := par_simulates F hF fl add mul 1 1 2 n h1
  rw [b1] at a1
  cases a1
  obtain ⟨e2, c1, -, c3⟩ := a2 ⟨by
    show [4 - 1 / (n : ℝ)] = flatOf e1.start sqVars
    rw [b2]
    congr 1
    ring, by
    show [(2 : ℝ)] = flatOf e1.start sqParams
    rw [b3]⟩
  refine ⟨e2, c1, ?_⟩
  have := c3 ⟨0, by decide⟩
  norm_num [EulerBackend.order, EulerBackend.rk4] at this ⊢
  exact this

end Verif
