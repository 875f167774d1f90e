import Verif.Lemmas.ReorderSolve

/-!
# The Euler step of a model in other units of measurement
-/

namespace Verif

open Filter Topology

/-- Numbers `s` expressed in other units: each times its own conversion factor. -/
def inUnits {K : Type _} [Mul K] (w s : List K) : List K := List.zipWith (· * ·) w s

section
variable {K : Type _} [Field K]

theorem length_inUnits {n : Nat} (w s : List K) (hw : w.length = n) (hs : s.length = n) :
    (inUnits w s).length = n := by
  unfold inUnits
  rw [List.length_zipWith, hw, hs, min_self]

theorem toVec_inUnits {n : Nat} (w s : List K) (hw : w.length = n) (hs : s.length = n) (i : Fin n) :
    toVec n (inUnits w s) i = toVec n w i * toVec n s i := by
  have h1 : i.val < w.length := by rw [hw]; exact i.isLt
  have h2 : i.val < s.length := by rw [hs]; exact i.isLt
  simp [toVec, inUnits, h1, h2]

theorem inUnits_append (w w' s s' : List K) (h : w.length = s.length) :
    inUnits (w ++ w') (s ++ s') = inUnits w s ++ inUnits w' s' := by
  unfold inUnits
  rw [List.zipWith_append h]

theorem inUnits_set {n : Nat} (w s : List K) (hw : w.length = n) (hs : s.length = n) (j : Fin n) (u : K) :
    inUnits w (s.set j u) = (inUnits w s).set j (toVec n w j * u) := by
  have hl := length_inUnits w s hw hs
  apply toVec_inj n _ _ (length_inUnits _ _ hw (by rw [List.length_set, hs]))
    (by rw [List.length_set, hl])
  funext i
  rw [toVec_inUnits w _ hw (by rw [List.length_set, hs])]
  by_cases hij : j = i
  · subst hij
    simp only [toVec, List.getElem?_set]
    have h1 : j.val < s.length := by rw [hs]; exact j.isLt
    have h2 : j.val < (inUnits w s).length := by rw [hl]; exact j.isLt
    simp [h1, h2]
  · have h2 : j.val ≠ i.val := fun h => hij (Fin.ext h)
    have := toVec_inUnits w s hw hs i
    simp only [toVec, List.getElem?_set] at this ⊢
    rw [if_neg h2, if_neg h2, this]

theorem inUnits_add (w a b : List K) (h : a.length = b.length) (hw : w.length = a.length) :
    inUnits w (List.zipWith (· + ·) a b) = List.zipWith (· + ·) (inUnits w a) (inUnits w b) := by
  apply toVec_inj w.length
  · exact length_inUnits _ _ rfl (by simp [← h, hw])
  · rw [List.length_zipWith, length_inUnits w a rfl hw.symm, length_inUnits w b rfl (by rw [← h, hw]), min_self]
  · funext i
    have h1 : i.val < a.length := by rw [← hw]; exact i.isLt
    have h2 : i.val < b.length := by rw [← h]; exact h1
    simp [toVec, inUnits, h1, h2, mul_add]

theorem stepVec_inUnits (n : Nat) (w a b : List K) (h : a.length = b.length) (hw : w.length = a.length) :
    stepVec n (inUnits w a) (inUnits w b) = inUnits w (stepVec n a b) := by
  have hs : (stepVec n a b).length = w.length := by simp [stepVec, ← h, hw]
  apply toVec_inj w.length
  · simp only [stepVec, List.length_zipWith]
    rw [length_inUnits w a rfl hw.symm, length_inUnits w b rfl (by rw [← h, hw]), min_self]
  · exact length_inUnits _ _ rfl hs
  · funext i
    have h1 : i.val < a.length := by rw [← hw]; exact i.isLt
    have h2 : i.val < b.length := by rw [← h]; exact h1
    simp [toVec, stepVec, inUnits, h1, h2]
    ring

/-- If the solver, at the converted states, returns the converted solutions, then the Euler rows are the
converted rows. -/
theorem eulerRows_units (dx₁ dx₂ : StepSolve K) (nx np : Nat) (hdx : LenOK dx₁ nx np) (w v : List K)
    (hw : w.length = nx) (hv : v.length = np) (h : List K) (hh : h.length = np)
    (P : List K → List K → Prop)
    (hop : ∀ x t d, x.length = nx → t.length = np → P x t → dx₁ x t h = .ok d →
      dx₂ (inUnits w x) (inUnits v t) (inUnits v h) = .ok (inUnits w d))
    (k : Nat) (x t : List K) (hx : x.length = nx) (ht : t.length = np) (R : List (List K × List K))
    (hR : eulerRows dx₁ h k x t = .ok R)
    (hP : ∀ (j : Nat) s, j < k → ((x, t) :: R)[j]? = some s → P s.1 s.2) :
    eulerRows dx₂ (inUnits v h) k (inUnits w x) (inUnits v t) =
      .ok (R.map fun r => (inUnits w r.1, inUnits v r.2)) := by
  induction k generalizing x t R with
  | zero =>
    simp only [eulerRows, Except.ok.injEq] at hR
    subst hR
    rfl
  | succ k ih =>
    rw [eulerRows] at hR
    cases hd : dx₁ x t h with
    | error e => rw [hd] at hR; cases hR
    | ok d =>
      rw [hd] at hR
      dsimp only at hR
      have ld := hdx _ _ _ _ hx ht hh hd
      cases hr : eulerRows dx₁ h k (List.zipWith (· + ·) x d) (List.zipWith (· + ·) t h) with
      | error e => rw [hr] at hR; cases hR
      | ok r =>
        rw [hr] at hR
        injection hR with hR
        subst hR
        rw [eulerRows, hop x t d hx ht (hP 0 (x, t) (by omega) rfl) hd]
        dsimp only
        rw [← inUnits_add w x d (by rw [hx, ld]) (by rw [hw, hx]),
          ← inUnits_add v t h (by rw [ht, hh]) (by rw [hv, ht]),
          ih _ _ (by rw [List.length_zipWith, hx, ld, min_self])
            (by rw [List.length_zipWith, ht, hh, min_self]) r hr ?_]
        · rfl
        · intro j s hj hs
          exact hP (j + 1) s (by omega) (by rw [List.getElem?_cons_succ]; exact hs)

end

/-- A set of flat states in which every number can be moved a little. -/
def Movable (U : List ℝ → Prop) : Prop :=
  ∀ s, U s → ∀ (k : Nat), k < s.length → ∀ᶠ u in 𝓝 (s.getD k 0), U (s.set k u)

variable {nx np : Nat}

/-- The solution of the step in other units is the converted solution, if the residuals in other units are a
constant invertible combination of the residuals. -/
theorem solve_units (w v : List ℝ) (hw : w.length = nx) (hv : v.length = np)
    (G : List ℝ → List ℝ) (ok : List ℝ → Prop)
    (A : (Fin nx → ℝ) → (Fin np → ℝ) → Matrix (Fin nx) (Fin nx) ℝ)
    (B : (Fin nx → ℝ) → (Fin np → ℝ) → Matrix (Fin nx) (Fin np) ℝ)
    (D : DerivativesOf G ok A B)
    (R : Matrix (Fin nx) (Fin nx) ℝ) (hR : IsUnit R.det) (U : List ℝ → Prop) (hU : Movable U)
    (hG : ∀ x t, x.length = nx → t.length = np → U (x ++ t) →
      toVec nx (G (inUnits w x ++ inUnits v t)) = R.mulVec (toVec nx (G (x ++ t))))
    (x t h d : List ℝ) (hx : x.length = nx) (ht : t.length = np) (hh : h.length = np)
    (hUx : U (x ++ t))
    (h₁ : ok (x ++ t)) (h₂ : ok (inUnits w x ++ inUnits v t))
    (hd : (vecJac A B).solve x t h = .ok d) :
    (vecJac A B).solve (inUnits w x) (inUnits v t) (inUnits v h) = .ok (inUnits w d) := by
  have ld := (vecJac A B).lenOK x t h d hx ht hh hd
  obtain ⟨hu, hs⟩ := (vecJac A B).solve_spec x t h d hd
  have lpx := length_inUnits w x hw hx
  have lpt := length_inUnits v t hv ht
  have ex := ofFn_toVec nx x hx
  have et := ofFn_toVec np t ht
  have epx := ofFn_toVec nx _ lpx
  have ept := ofFn_toVec np _ lpt
  obtain ⟨a1, b1⟩ := D (toVec nx x) (toVec np t) (by rw [ex, et]; exact h₁)
  obtain ⟨a2, b2⟩ := D (toVec nx (inUnits w x)) (toVec np (inUnits v t))
    (by rw [epx, ept]; exact h₂)
  rw [ex, et] at a1 b1
  rw [epx, ept] at a2 b2
  have row : ∀ (x' t' : List ℝ), x'.length = nx → t'.length = np → U (x' ++ t') → ∀ i : Fin nx,
      (G (inUnits w x' ++ inUnits v t')).getD i 0 =
        ∑ k, R i k * (G (x' ++ t')).getD k 0 := by
    intro x' t' hx' ht' hU' i
    have := congrFun (hG x' t' hx' ht' hU') i
    simp only [toVec, Matrix.mulVec, dotProduct] at this
    simp only [List.getD_eq_getElem?_getD]
    exact this
  have hA : A (toVec nx (inUnits w x)) (toVec np (inUnits v t)) * Matrix.diagonal (toVec nx w) =
      R * A (toVec nx x) (toVec np t) := by
    ext i j
    have e1 := a2 i j
    rw [toVec_inUnits w x hw hx] at e1
    have e1' : HasDerivAt (fun u => (G ((inUnits w x ++ inUnits v t).set j (toVec nx w j * u))).getD i 0)
        (A (toVec nx (inUnits w x)) (toVec np (inUnits v t)) i j * (toVec nx w j)) (toVec nx x j) := by
      have hm : HasDerivAt (fun u : ℝ => toVec nx w j * u) (toVec nx w j) (toVec nx x j) := by
        simpa using (hasDerivAt_id (toVec nx x j)).const_mul (toVec nx w j)
      exact HasDerivAt.comp (toVec nx x j) e1 hm
    have e2 : HasDerivAt (fun u => ∑ k, R i k * (G ((x ++ t).set j u)).getD k 0)
        (∑ k, R i k * A (toVec nx x) (toVec np t) k j) (toVec nx x j) :=
      HasDerivAt.fun_sum fun k _ => (a1 k j).const_mul (R i k)
    have e3 : (fun u => (G ((inUnits w x ++ inUnits v t).set j (toVec nx w j * u))).getD i 0) =ᶠ[𝓝 (toVec nx x j)]
        fun u => ∑ k, R i k * (G ((x ++ t).set j u)).getD k 0 := by
      have hj : j.val < x.length := by rw [hx]; exact j.isLt
      have hn := hU _ hUx j (by rw [List.length_append]; omega)
      have hp : (x ++ t).getD j 0 = toVec nx x j := by
        rw [List.getD_eq_getElem?_getD, List.getElem?_append_left hj]
        rfl
      rw [hp] at hn
      filter_upwards [hn] with u hu'
      rw [List.set_append_left _ _ hj] at hu'
      rw [List.set_append_left _ _ (by rw [lpx]; exact j.isLt), List.set_append_left _ _ hj,
        ← inUnits_set w x hw hx j u]
      exact row _ _ (by rw [List.length_set, hx]) ht hu' i
    rw [Matrix.mul_diagonal, (e1'.congr_of_eventuallyEq e3.symm).unique e2]
    rfl
  have hB : B (toVec nx (inUnits w x)) (toVec np (inUnits v t)) * Matrix.diagonal (toVec np v) =
      R * B (toVec nx x) (toVec np t) := by
    ext i j
    have e1 := b2 i j
    rw [toVec_inUnits v t hv ht] at e1
    have e1' : HasDerivAt (fun u => (G ((inUnits w x ++ inUnits v t).set (nx + j) (toVec np v j * u))).getD i 0)
        (B (toVec nx (inUnits w x)) (toVec np (inUnits v t)) i j * (toVec np v j)) (toVec np t j) := by
      have hm : HasDerivAt (fun u : ℝ => toVec np v j * u) (toVec np v j) (toVec np t j) := by
        simpa using (hasDerivAt_id (toVec np t j)).const_mul (toVec np v j)
      exact HasDerivAt.comp (toVec np t j) e1 hm
    have e2 : HasDerivAt (fun u => ∑ k, R i k * (G ((x ++ t).set (nx + j) u)).getD k 0)
        (∑ k, R i k * B (toVec nx x) (toVec np t) k j) (toVec np t j) :=
      HasDerivAt.fun_sum fun k _ => (b1 k j).const_mul (R i k)
    have e3 : (fun u => (G ((inUnits w x ++ inUnits v t).set (nx + j) (toVec np v j * u))).getD i 0)
        =ᶠ[𝓝 (toVec np t j)] fun u => ∑ k, R i k * (G ((x ++ t).set (nx + j) u)).getD k 0 := by
      have hj : j.val < t.length := by rw [ht]; exact j.isLt
      have hn := hU _ hUx (nx + j) (by rw [List.length_append]; omega)
      have hp : (x ++ t).getD (nx + j) 0 = toVec np t j := by
        rw [List.getD_eq_getElem?_getD, List.getElem?_append_right (by omega), hx,
          Nat.add_sub_cancel_left]
        rfl
      rw [hp] at hn
      filter_upwards [hn] with u hu'
      rw [List.set_append_right _ _ (by omega), hx, Nat.add_sub_cancel_left] at hu'
      rw [List.set_append_right _ _ (by omega), lpx, Nat.add_sub_cancel_left,
        List.set_append_right _ _ (by omega), hx, Nat.add_sub_cancel_left, ← inUnits_set v t hv ht j u]
      exact row _ _ hx (by rw [List.length_set, ht]) hu' i
    rw [Matrix.mul_diagonal, (e1'.congr_of_eventuallyEq e3.symm).unique e2]
    rfl
  have hu' : IsUnit (A (toVec nx x) (toVec np t)).det := hu
  have hdet : IsUnit (A (toVec nx (inUnits w x)) (toVec np (inUnits v t))).det := by
    have := congrArg Matrix.det hA
    rw [Matrix.det_mul, Matrix.det_mul] at this
    exact isUnit_of_mul_isUnit_left (this ▸ hR.mul hu')
  have hsol := (vecJac A B).solve_of_isUnit (inUnits w x) (inUnits v t) (inUnits v h) hdet
  rw [hsol]
  obtain ⟨-, hs2⟩ := (vecJac A B).solve_spec _ _ _ _ hsol
  rw [toVec_ofFn] at hs2
  congr 1
  apply toVec_inj nx _ _ (by rw [List.length_ofFn]) (length_inUnits w d hw ld)
  rw [toVec_ofFn]
  apply mulVec_inj_of_isUnit _ hdet
  refine (eq_neg_of_add_eq_zero_left hs2).trans ?_
  have dw : toVec nx (inUnits w d) = (Matrix.diagonal (toVec nx w)).mulVec (toVec nx d) := by
    funext i
    rw [Matrix.mulVec_diagonal, toVec_inUnits w d hw ld]
  have dv : toVec np (inUnits v h) = (Matrix.diagonal (toVec np v)).mulVec (toVec np h) := by
    funext i
    rw [Matrix.mulVec_diagonal, toVec_inUnits v h hv hh]
  have e5 : (A (toVec nx (inUnits w x)) (toVec np (inUnits v t))).mulVec
      (toVec nx (inUnits w d)) = R.mulVec ((A (toVec nx x) (toVec np t)).mulVec (toVec nx d)) := by
    rw [dw, Matrix.mulVec_mulVec, hA, Matrix.mulVec_mulVec]
  have e6 : (B (toVec nx (inUnits w x)) (toVec np (inUnits v t))).mulVec
      (toVec np (inUnits v h)) = R.mulVec ((B (toVec nx x) (toVec np t)).mulVec (toVec np h)) := by
    rw [dv, Matrix.mulVec_mulVec, hB, Matrix.mulVec_mulVec]
  have hs' : (A (toVec nx x) (toVec np t)).mulVec (toVec nx d) =
      -(B (toVec nx x) (toVec np t)).mulVec (toVec np h) := eq_neg_of_add_eq_zero_left hs
  show -(B (toVec nx (inUnits w x)) (toVec np (inUnits v t))).mulVec (toVec np (inUnits v h)) =
    (A (toVec nx (inUnits w x)) (toVec np (inUnits v t))).mulVec (toVec nx (inUnits w d))
  rw [e5, e6, hs', Matrix.mulVec_neg]

end Verif
