import Verif.Lemmas.SymSmooth
import Verif.Lemmas.Jacobian
import Verif.Props.NumbaEuler
import Verif.Props.SmoothEuler
import Mathlib.Analysis.Calculus.Deriv.Pi

/-!
# The equations as a map, and its derivative
-/

namespace Verif

open SymExpr Filter Topology

theorem regular_congr {α : Type} {env env' : α → ℝ} :
    ∀ e : SymExpr α, (∀ a ∈ e.atoms, env a = env' a) → Regular env e → Regular env' e
  | .num _, _, _ => trivial
  | .sym _, _, _ => trivial
  | .add a b, h, r => ⟨regular_congr a (fun c hc => h c (by simp [atoms, hc])) r.1,
      regular_congr b (fun c hc => h c (by simp [atoms, hc])) r.2⟩
  | .mul a b, h, r => ⟨regular_congr a (fun c hc => h c (by simp [atoms, hc])) r.1,
      regular_congr b (fun c hc => h c (by simp [atoms, hc])) r.2⟩
  | .log a, h, r => ⟨regular_congr a h r.1, by rw [← eval_congr a h]; exact r.2⟩
  | .exp a, h, r => regular_congr a h r
  | .pow a b, h, r => by
    have h1 : ∀ c ∈ a.atoms, env c = env' c := fun c hc => h c (by simp [atoms, hc])
    refine ⟨regular_congr a h1 r.1, regular_congr b (fun c hc => h c (by simp [atoms, hc])) r.2.1, ?_⟩
    rw [← eval_congr a h1]
    exact r.2.2

variable {nx np : Nat}

theorem getD_lt {α : Type} {l : List α} {d : α} {n : Nat} (h : n < l.length) : l.getD n d = l[n] := by
  rw [List.getD_eq_getElem?_getD, List.getElem?_eq_getElem h]; rfl

/-- The point at which the scalars called `vn` have the values `x` and those called `pn` the values
`t`. -/
noncomputable def scalarPoint (vn pn : List Str) (x : Fin nx → ℝ) (t : Fin np → ℝ) (a : Str) : ℝ :=
  ((List.ofFn x ++ List.ofFn t)[(vn ++ pn).idxOf a]?).getD 0

theorem scalarPoint_left {vn pn : List Str} (hn : (vn ++ pn).Nodup) (hv : vn.length = nx)
    (x : Fin nx → ℝ) (t : Fin np → ℝ) (j : Fin nx) :
    scalarPoint vn pn x t (vn.getD j []) = x j := by
  have hj : j.val < vn.length := by rw [hv]; exact j.isLt
  have h1 : vn.getD j [] = (vn ++ pn)[j.val]'(by simp; omega) := by
    rw [getD_lt hj, List.getElem_append_left hj]
  unfold scalarPoint
  rw [h1, hn.idxOf_getElem, List.getElem?_append_left (by simp), List.getElem?_ofFn]
  simp

theorem scalarPoint_right {vn pn : List Str} (hn : (vn ++ pn).Nodup) (hv : vn.length = nx)
    (hp : pn.length = np) (x : Fin nx → ℝ) (t : Fin np → ℝ) (k : Fin np) :
    scalarPoint vn pn x t (pn.getD k []) = t k := by
  have hk : k.val < pn.length := by rw [hp]; exact k.isLt
  have h1 : pn.getD k [] = (vn ++ pn)[vn.length + k.val]'(by simp; omega) := by
    rw [getD_lt hk, List.getElem_append_right (by omega)]
    congr 1; omega
  unfold scalarPoint
  rw [h1, hn.idxOf_getElem, List.getElem?_append_right (by simp [hv]), List.getElem?_ofFn]
  simp [hv]

theorem scalarPoint_of_not_mem {vn pn : List Str} (hv : vn.length = nx)
    (hp : pn.length = np) (x : Fin nx → ℝ) (t : Fin np → ℝ) (a : Str) (ha : a ∉ vn ++ pn) :
    scalarPoint vn pn x t a = 0 := by
  unfold scalarPoint
  rw [List.idxOf_eq_length ha, List.getElem?_eq_none (by simp [hv, hp])]
  rfl

theorem name_cases {vn pn : List Str} (hv : vn.length = nx) (hp : pn.length = np) (a : Str) :
    (∃ j : Fin nx, a = vn.getD j []) ∨ (∃ k : Fin np, a = pn.getD k []) ∨ a ∉ vn ++ pn := by
  by_cases h1 : a ∈ vn
  · obtain ⟨j, hj, rfl⟩ := List.mem_iff_getElem.1 h1
    exact .inl ⟨⟨j, hv ▸ hj⟩, (getD_lt hj).symm⟩
  by_cases h2 : a ∈ pn
  · obtain ⟨j, hj, rfl⟩ := List.mem_iff_getElem.1 h2
    exact .inr (.inl ⟨⟨j, hp ▸ hj⟩, (getD_lt hj).symm⟩)
  exact .inr (.inr (by simp [h1, h2]))

theorem scalarPoint_contDiff {vn pn : List Str} (hn : (vn ++ pn).Nodup) (hv : vn.length = nx)
    (hp : pn.length = np) {n : WithTop ℕ∞} (a : Str) :
    ContDiff ℝ n fun q : (Fin nx → ℝ) × (Fin np → ℝ) => scalarPoint vn pn q.1 q.2 a := by
  rcases name_cases hv hp a with ⟨j, rfl⟩ | ⟨k, rfl⟩ | h
  · simp only [scalarPoint_left hn hv]
    exact (contDiff_apply ℝ ℝ j).comp contDiff_fst
  · simp only [scalarPoint_right hn hv hp]
    exact (contDiff_apply ℝ ℝ k).comp contDiff_snd
  · simp only [scalarPoint_of_not_mem hv hp _ _ _ h]
    exact contDiff_const

theorem update_left {vn pn : List Str} (hn : (vn ++ pn).Nodup) (hv : vn.length = nx)
    (hp : pn.length = np) (x : Fin nx → ℝ) (t : Fin np → ℝ) (j : Fin nx) (r : ℝ) :
    Function.update (scalarPoint vn pn x t) (vn.getD j []) r
      = scalarPoint vn pn (Function.update x j r) t := by
  funext a
  by_cases ha : a = vn.getD j []
  · subst ha
    rw [Function.update_self, scalarPoint_left hn hv, Function.update_self]
  · rw [Function.update_of_ne ha]
    rcases name_cases hv hp a with ⟨i, rfl⟩ | ⟨k, rfl⟩ | h
    · rw [scalarPoint_left hn hv, scalarPoint_left hn hv,
        Function.update_of_ne fun h => ha (by rw [h])]
    · rw [scalarPoint_right hn hv hp, scalarPoint_right hn hv hp]
    · rw [scalarPoint_of_not_mem hv hp _ _ _ h, scalarPoint_of_not_mem hv hp _ _ _ h]

theorem update_right {vn pn : List Str} (hn : (vn ++ pn).Nodup) (hv : vn.length = nx)
    (hp : pn.length = np) (x : Fin nx → ℝ) (t : Fin np → ℝ) (j : Fin np) (r : ℝ) :
    Function.update (scalarPoint vn pn x t) (pn.getD j []) r
      = scalarPoint vn pn x (Function.update t j r) := by
  funext a
  by_cases ha : a = pn.getD j []
  · subst ha
    rw [Function.update_self, scalarPoint_right hn hv hp, Function.update_self]
  · rw [Function.update_of_ne ha]
    rcases name_cases hv hp a with ⟨i, rfl⟩ | ⟨k, rfl⟩ | h
    · rw [scalarPoint_left hn hv, scalarPoint_left hn hv]
    · rw [scalarPoint_right hn hv hp, scalarPoint_right hn hv hp,
        Function.update_of_ne fun h => ha (by rw [h])]
    · rw [scalarPoint_of_not_mem hv hp _ _ _ h, scalarPoint_of_not_mem hv hp _ _ _ h]

/-- The left-hand sides of the equations as a map. -/
noncomputable def symF (nx np : Nat) (vn pn : List Str) (eqs : List (SymExpr Str))
    (p : (Fin nx → ℝ) × (Fin np → ℝ)) (i : Fin nx) : ℝ :=
  (eqs.getD i (.num 0)).eval (scalarPoint vn pn p.1 p.2)

/-- The symbolic partial derivatives with respect to the variables. -/
noncomputable def symA (nx np : Nat) (vn pn : List Str) (eqs : List (SymExpr Str)) (x : Fin nx → ℝ)
    (t : Fin np → ℝ) : Matrix (Fin nx) (Fin nx) ℝ :=
  fun i j => (diff (vn.getD j []) (eqs.getD i (.num 0))).eval (scalarPoint vn pn x t)

/-- The symbolic partial derivatives with respect to the parameters. -/
noncomputable def symB (nx np : Nat) (vn pn : List Str) (eqs : List (SymExpr Str)) (x : Fin nx → ℝ)
    (t : Fin np → ℝ) : Matrix (Fin nx) (Fin np) ℝ :=
  fun i k => (diff (pn.getD k []) (eqs.getD i (.num 0))).eval (scalarPoint vn pn x t)

theorem symF_contDiffAt {vn pn : List Str} {eqs : List (SymExpr Str)} (hn : (vn ++ pn).Nodup)
    (hv : vn.length = nx) (hp : pn.length = np) {n : WithTop ℕ∞} {p : (Fin nx → ℝ) × (Fin np → ℝ)}
    (hreg : ∀ i : Fin nx, Regular (scalarPoint vn pn p.1 p.2) (eqs.getD i (.num 0))) :
    ContDiffAt ℝ n (symF nx np vn pn eqs) p :=
  contDiffAt_pi.2 fun i => contDiffAt_eval (env := fun q : (Fin nx → ℝ) × (Fin np → ℝ) =>
    scalarPoint vn pn q.1 q.2) (scalarPoint_contDiff hn hv hp) _ (hreg i)

theorem symF_fderiv {vn pn : List Str} {eqs : List (SymExpr Str)} (hn : (vn ++ pn).Nodup)
    (hv : vn.length = nx) (hp : pn.length = np) {p : (Fin nx → ℝ) × (Fin np → ℝ)}
    (hreg : ∀ i : Fin nx, Regular (scalarPoint vn pn p.1 p.2) (eqs.getD i (.num 0)))
    (u : Fin nx → ℝ) (v : Fin np → ℝ) :
    fderiv ℝ (symF nx np vn pn eqs) p (u, v)
      = (symA nx np vn pn eqs p.1 p.2).mulVec u + (symB nx np vn pn eqs p.1 p.2).mulVec v := by
  have hF : DifferentiableAt ℝ (symF nx np vn pn eqs) p :=
    (symF_contDiffAt (n := 1) hn hv hp hreg).differentiableAt (by simp)
  have hi : ∀ i, HasFDerivAt (fun q => symF nx np vn pn eqs q i)
      ((ContinuousLinearMap.proj i).comp (fderiv ℝ (symF nx np vn pn eqs) p)) p :=
    fun i => hasFDerivAt_pi'.1 hF.hasFDerivAt i
  obtain ⟨x, t⟩ := p
  generalize hL : fderiv ℝ (symF nx np vn pn eqs) (x, t) = L at hi
  have hA : ∀ i j, L (Pi.single j 1, 0) i = symA nx np vn pn eqs x t i j := by
    intro i j
    have h1 : HasDerivAt (fun r : ℝ => ((Function.update x j r, t) : (Fin nx → ℝ) × (Fin np → ℝ)))
        (Pi.single j 1, 0) (x j) := (hasDerivAt_update x j (x j)).prodMk (hasDerivAt_const _ _)
    have h2 := (hi i)
    rw [show ((x, t) : (Fin nx → ℝ) × (Fin np → ℝ)) = (Function.update x j (x j), t) by
      rw [Function.update_eq_self]] at h2
    have h3 := h2.comp_hasDerivAt (x j) h1
    have h4 := hasPartial_diff (scalarPoint vn pn x t) (vn.getD j []) _ (hreg i)
    unfold HasPartial at h4
    simp only [update_left hn hv hp, scalarPoint_left hn hv] at h4
    exact h3.unique h4
  have hB : ∀ i k, L (0, Pi.single k 1) i = symB nx np vn pn eqs x t i k := by
    intro i k
    have h1 : HasDerivAt (fun r : ℝ => ((x, Function.update t k r) : (Fin nx → ℝ) × (Fin np → ℝ)))
        (0, Pi.single k 1) (t k) := (hasDerivAt_const _ _).prodMk (hasDerivAt_update t k (t k))
    have h2 := (hi i)
    rw [show ((x, t) : (Fin nx → ℝ) × (Fin np → ℝ)) = (x, Function.update t k (t k)) by
      rw [Function.update_eq_self]] at h2
    have h3 := h2.comp_hasDerivAt (t k) h1
    have h4 := hasPartial_diff (scalarPoint vn pn x t) (pn.getD k []) _ (hreg i)
    unfold HasPartial at h4
    simp only [update_right hn hv hp, scalarPoint_right hn hv hp] at h4
    exact h3.unique h4
  have hsplit : L (u, v) = L (u, 0) + L (0, v) := by rw [← map_add]; simp
  have hu : L (u, 0) = ∑ j, u j • L (Pi.single j 1, 0) := by
    have := LinearMap.pi_apply_eq_sum_univ (L.toLinearMap.comp (LinearMap.inl ℝ (Fin nx → ℝ) (Fin np → ℝ))) u
    simp only [LinearMap.comp_apply, LinearMap.inl_apply, ContinuousLinearMap.coe_coe] at this
    rw [this]
    apply Finset.sum_congr rfl
    intro j _
    congr 3
    funext i
    simp [Pi.single_apply, eq_comm]
  have hv' : L (0, v) = ∑ j, v j • L (0, Pi.single j 1) := by
    have := LinearMap.pi_apply_eq_sum_univ (L.toLinearMap.comp (LinearMap.inr ℝ (Fin nx → ℝ) (Fin np → ℝ))) v
    simp only [LinearMap.comp_apply, LinearMap.inr_apply, ContinuousLinearMap.coe_coe] at this
    rw [this]
    apply Finset.sum_congr rfl
    intro j _
    congr 3
    funext i
    simp [Pi.single_apply, eq_comm]
  rw [hsplit, hu, hv']
  funext i
  simp only [Pi.add_apply, Finset.sum_apply, Pi.smul_apply, smul_eq_mul, hA, hB, Matrix.mulVec, dotProduct]
  congr 1 <;> exact Finset.sum_congr rfl fun j _ => mul_comm _ _

theorem symF_regular_eventually {vn pn : List Str} {eqs : List (SymExpr Str)} (hn : (vn ++ pn).Nodup)
    (hv : vn.length = nx) (hp : pn.length = np) {p : (Fin nx → ℝ) × (Fin np → ℝ)}
    (hreg : ∀ i : Fin nx, Regular (scalarPoint vn pn p.1 p.2) (eqs.getD i (.num 0))) :
    ∀ᶠ q in 𝓝 p, ∀ i : Fin nx, Regular (scalarPoint vn pn q.1 q.2) (eqs.getD i (.num 0)) :=
  eventually_all.2 fun i => regular_eventually (env := fun q : (Fin nx → ℝ) × (Fin np → ℝ) =>
    scalarPoint vn pn q.1 q.2) (scalarPoint_contDiff hn hv hp) _ (hreg i)

end Verif
