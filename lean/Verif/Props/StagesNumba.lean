import Verif.Props.Stages
import Verif.Props.NumbaSimulate

/-!
# C80 on the numba back-end
-/

namespace Verif

open SymExpr Set

variable {coords : Coords} {vars params : List ModelObject} {eqs : List IndexedEq}

/-- **C80 (a start that is slightly off, numba).** -/
theorem C80_near_numba_partial (es : List (SymExpr Str)) (order : List Str)
    (env : SamEnv ℝ (List (NDArray ℝ)))
    (hm : EulerOnNumba coords vars params eqs es order env)
    (hsquare : es.length = totalSize coords vars)
    (fl : SimFlags) (add mul : NDArray ℝ → NDArray ℝ → NDArray ℝ) (t0 t1 : List ℝ)
    (φ : ℝ → Fin (totalSize coords vars) → ℝ)
    (hφ : SolutionPath coords vars params (imbalances coords vars params none eqs) es t0 t1 φ) :
    TakesNear 1 env fl add mul coords vars params t0 t1 (φ 0) (φ 1) := by
  obtain ⟨hmod, hnames, hem, horder, hce, hve, hpe, hcomp, uv, up, K, hK, hsteps⟩ := hm
  obtain ⟨g1, g2, g3, g4⟩ := hK.values hmod
  have hsa := scalarNames_append coords vars params
  have hline := lineTo_ofFn hφ.start_length hφ.end_length
  have hreg := hφ.regular
  have hsol := hφ.solves
  have hinv := hφ.invertible
  rw [hsa] at hnames g1 horder hreg
  simp only [hsa] at g4
  simp only [hline] at hreg hsol hinv
  rw [g2, g3] at hsteps
  have hdecl : ∀ e ∈ es, ∀ a, Mentions a e → a ∈ scalarNames coords vars ++ scalarNames coords params :=
    fun e he a ha => g1 e he a ((mem_atoms_iff a e).2 ha)
  have hlen := fun objs => length_scalarNames coords objs
  have hdx : LenOK (numbaDX order (scalarNames coords vars) (scalarNames coords params) es)
      (totalSize coords vars) (totalSize coords params) := by
    intro x t s d hx ht hs hd
    rw [numbaDX_eq order _ _ es hnames horder hdecl (hlen vars) (hlen params) hsquare x t s hx ht hs] at hd
    exact (vecJac _ _).lenOK x t s d hx ht hs hd
  obtain ⟨G, hG⟩ := equations_smooth 2 (toVec _ t0) (toVec _ t1) _ _ es hnames.nodup (hlen vars) (hlen params)
    hsquare (imbalances coords vars params none eqs) (fun flat _ => g4 flat) _ _
    (sym_derivativesOf _ _ es hnames.nodup (hlen vars) (hlen params) hsquare _ (fun flat _ => g4 flat))
    φ _ rfl hφ.continuous
    (fun s hs => ofFn_zeros (by rw [g4, g4, List.length_map, List.length_map]) (hsol s hs)
      (hsol 0 ⟨le_rfl, zero_le_one⟩)) hreg hinv
  obtain ⟨C, ρ, N, hC, hρ, hnear⟩ := smooth_near coords vars params t0 t1 G _ _ φ hG
  refine ⟨C, ρ, N, hC, hρ, ?_⟩
  simp only [pow_one]
  intro h c hr heul hopt hN h1 ht0 ht1 ε hε0 hε hoff
  obtain ⟨hcall, hiv, hip⟩ := euler_setup .numba _ env hsteps hem hdx hce hve hpe hcomp fl add mul h c hr
    heul hopt
  have hcall' : EulerCall coords vars params (derefDict h c.initial) t1 := by
    rw [← ht1]; exact hcall
  obtain ⟨outs, hrun, hb⟩ := hnear .numba rfl (derefDict h c.initial) hcall' (by rw [hip, ht0]) ε hε
    (by
      rw [hiv, pi_norm_le_iff_of_nonneg hε0]
      intro j
      rw [Pi.sub_apply, Real.norm_eq_abs]
      have := hoff j
      rw [List.getD_eq_getElem?_getD] at this
      exact this) c.nIterEuler hN
  have hbn := hb c.nIterEuler le_rfl
  have hnn : (c.nIterEuler : ℝ) * (1 / c.nIterEuler) = 1 := by
    have : (c.nIterEuler : ℝ) ≠ 0 := by exact_mod_cast (by omega : c.nIterEuler ≠ 0)
    field_simp
  rw [hnn] at hbn
  obtain ⟨e, q1, -, q3, -, q5⟩ := simulate_end .numba _ env hsteps hem hdx hce hve hpe
    hcomp fl add mul h c hr heul hopt h1 _ (φ 1) outs
    (by
      rw [ht1]
      exact (runEuler_numbaDX coords vars params _ _ hcall' order _ _ es hnames horder hdecl
        (hlen vars) (hlen params) hsquare c.nIterEuler).trans hrun) hbn
  exact ⟨e, q1, by rw [q3, ht1], q5⟩

/-- **C80 (stages, numba).** -/
theorem C80_stages_numba_partial (es : List (SymExpr Str)) (order : List Str)
    (env : SamEnv ℝ (List (NDArray ℝ)))
    (hm : EulerOnNumba coords vars params eqs es order env)
    (hsquare : es.length = totalSize coords vars)
    (fl : SimFlags) (add mul : NDArray ℝ → NDArray ℝ → NDArray ℝ) (t0 t1 t2 : List ℝ)
    (φ₁ φ₂ : ℝ → Fin (totalSize coords vars) → ℝ)
    (hφ₁ : SolutionPath coords vars params (imbalances coords vars params none eqs) es t0 t1 φ₁)
    (hφ₂ : SolutionPath coords vars params (imbalances coords vars params none eqs) es t1 t2 φ₂)
    (hjoin : φ₂ 0 = φ₁ 1) :
    StagesTake 1 env fl add mul coords vars params t0 t1 t2 (φ₁ 0) (φ₂ 1) := by
  have h2 := C80_near_numba_partial es order env hm hsquare fl add mul t1 t2 φ₂ hφ₂
  rw [hjoin] at h2
  exact (C80_near_numba_partial es order env hm hsquare fl add mul t0 t1 φ₁ hφ₁).stages le_rfl h2

/-- **C80 (there and back, numba).** -/
theorem C80_there_and_back_numba_partial (es : List (SymExpr Str)) (order : List Str)
    (env : SamEnv ℝ (List (NDArray ℝ)))
    (hm : EulerOnNumba coords vars params eqs es order env)
    (hsquare : es.length = totalSize coords vars)
    (fl : SimFlags) (add mul : NDArray ℝ → NDArray ℝ → NDArray ℝ) (t0 t1 : List ℝ)
    (φ : ℝ → Fin (totalSize coords vars) → ℝ)
    (hφ : SolutionPath coords vars params (imbalances coords vars params none eqs) es t0 t1 φ) :
    StagesTake 1 env fl add mul coords vars params t0 t1 t0 (φ 0) (φ 0) := by
  have := C80_stages_numba_partial es order env hm hsquare fl add mul t0 t1 t0 φ _ hφ hφ.reverse (by simp)
  simpa using this

/-- The path of solutions of `x * x = p` from `p = 1` to `p = 4`. -/
theorem sqPath : SolutionPath [] sqVars sqParams (imbalances [] sqVars sqParams none sqEqs) sqEs [1] [4]
    (fun s _ => Real.sqrt (1 + 3 * s)) := by
  have hl : ∀ s : ℝ, lineTo [1] [4] s = [1 + 3 * s] := by
    intro s
    simp only [lineTo, List.zipWith_cons_cons, List.zipWith_nil_left]
    congr 1
    ring
  have hfl : ∀ s : ℝ, List.ofFn (fun _ : Fin (totalSize [] sqVars) => Real.sqrt (1 + 3 * s)) ++
      lineTo [1] [4] s = [Real.sqrt (1 + 3 * s), 1 + 3 * s] := by
    intro s
    rw [hl]
    rfl
  refine ⟨rfl, rfl, by fun_prop, ?_, fun s _ => sqRegular _, ?_⟩
  · intro s hs y hy
    rw [hfl, sqImbalances, List.mem_singleton] at hy
    rw [hy, Real.mul_self_sqrt (by linarith [hs.1]), sub_self]
  · intro s hs D hD
    have i0 : Fin (totalSize [] sqVars) := ⟨0, by decide⟩
    have hi0 : i0.val = 0 := by
      have : i0.val < 1 := i0.isLt
      omega
    have h1 := hD i0 i0
    rw [hfl, hi0] at h1
    have h2 := h1.unique (sq_dx _ _)
    have : D.det = D i0 i0 := by
      have e : i0 = (default : Fin 1) := Fin.ext hi0
      rw [e]
      exact Matrix.det_unique (n := Fin 1) D
    rw [this, h2]
    have : 0 < Real.sqrt (1 + 3 * s) := Real.sqrt_pos.2 (by linarith [hs.1])
    positivity

/-- The theorems apply to `x * x = p` on the numba back-end, from `x = 1` to `x = 2` and back. -/
example (fl : SimFlags) (add mul : NDArray ℝ → NDArray ℝ → NDArray ℝ) :
    ∃ env : SamEnv ℝ (List (NDArray ℝ)),
      TakesNear 1 env fl add mul [] sqVars sqParams [1] [4] (fun _ => 1) (fun _ => 2) ∧
      StagesTake 1 env fl add mul [] sqVars sqParams [1] [4] [1] (fun _ => 1) (fun _ => 1) := by
  obtain ⟨uv, up, K, -, hE⟩ := sqOnNumba sqrtRoot
  have h4 : Real.sqrt (1 + 3 * 1) = 2 := by
    rw [show (1 + 3 * 1 : ℝ) = 2 ^ 2 by norm_num]
    exact Real.sqrt_sq (by norm_num)
  have h1 : Real.sqrt (1 + 3 * 0) = 1 := by simp
  have k1 := C80_near_numba_partial sqEs _ (sqNumbaEnv uv up K sqrtRoot) hE rfl fl add mul [1] [4] _ sqPath
  have k2 := C80_there_and_back_numba_partial sqEs _ (sqNumbaEnv uv up K sqrtRoot) hE rfl fl add mul [1] [4]
    _ sqPath
  simp only [h4, h1] at k1 k2
  exact ⟨_, k1, k2⟩

end Verif
