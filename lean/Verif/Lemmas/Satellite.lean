import Verif.Props.Reorder
import Verif.Props.Equivalent

/-!
# Equations added to a model: the steps of the part that was there before
-/

namespace Verif

open RExpr

/-! ## One step -/

theorem pickAt_range {K : Type _} [Field K] (n : Nat) (l : List K) (h : n ≤ l.length) :
    pickAt 0 (List.range n) l = l.take n := by
  apply List.ext_getElem?
  intro i
  rcases Nat.lt_or_ge i n with hi | hi
  · rw [getElem?_pickAt 0 _ l i i (by rw [List.getElem?_range hi]), List.getElem?_take_of_lt hi,
      List.getD_eq_getElem?_getD, List.getElem?_eq_getElem (by omega)]
    rfl
  · rw [List.getElem?_eq_none (by rw [length_pickAt, List.length_range]; exact hi),
      List.getElem?_eq_none (by rw [List.length_take]; omega)]

theorem take_set_lt {α : Type _} (l : List α) (n j : Nat) (u : α) : (l.set j u).take n = (l.take n).set j u := by
  rw [List.take_set]

theorem take_set_ge {α : Type _} (l : List α) (n j : Nat) (u : α) (h : n ≤ j) : (l.set j u).take n = l.take n := by
  rw [List.take_set, List.set_eq_of_length_le (by rw [List.length_take]; omega)]

/-- If the first `n` values of the larger model are those of the smaller one, which knows only the first `n` variables,
the matrix of the larger model is that of the smaller one with zeros to its right. -/
theorem narrow_blocks {n m p r : Nat} (G₁ G₂ : List ℝ → List ℝ) (ok₁ ok₂ : List ℝ → Prop)
    (A₁ : (Fin (n + m) → ℝ) → (Fin (p + r) → ℝ) → Matrix (Fin (n + m)) (Fin (n + m)) ℝ)
    (B₁ : (Fin (n + m) → ℝ) → (Fin (p + r) → ℝ) → Matrix (Fin (n + m)) (Fin (p + r)) ℝ)
    (A₂ : (Fin n → ℝ) → (Fin p → ℝ) → Matrix (Fin n) (Fin n) ℝ)
    (B₂ : (Fin n → ℝ) → (Fin p → ℝ) → Matrix (Fin n) (Fin p) ℝ)
    (D₁ : DerivativesOf G₁ ok₁ A₁ B₁) (D₂ : DerivativesOf G₂ ok₂ A₂ B₂)
    (hG : ∀ x t, x.length = n + m → t.length = p + r → ∀ i < n,
      (G₂ (x.take n ++ t.take p)).getD i 0 = (G₁ (x ++ t)).getD i 0)
    (x t : List ℝ) (hx : x.length = n + m) (ht : t.length = p + r)
    (h₁ : ok₁ (x ++ t)) (h₂ : ok₂ (x.take n ++ t.take p)) :
    (∀ (i j : Fin n), A₁ (toVec (n + m) x) (toVec (p + r) t) (Fin.castAdd m i) (Fin.castAdd m j) =
      A₂ (toVec n (x.take n)) (toVec p (t.take p)) i j) ∧
    ∀ (i : Fin n) (j : Fin m), A₁ (toVec (n + m) x) (toVec (p + r) t) (Fin.castAdd m i) (Fin.natAdd n j) = 0 := by
  have lx : (x.take n).length = n := by rw [List.length_take]; omega
  have lt : (t.take p).length = p := by rw [List.length_take]; omega
  have ex := ofFn_toVec (n + m) x hx
  have et := ofFn_toVec (p + r) t ht
  have epx := ofFn_toVec n _ lx
  have ept := ofFn_toVec p _ lt
  obtain ⟨a1, b1⟩ := D₁ (toVec (n + m) x) (toVec (p + r) t) (by rw [ex, et]; exact h₁)
  obtain ⟨a2, b2⟩ := D₂ (toVec n (x.take n)) (toVec p (t.take p)) (by rw [epx, ept]; exact h₂)
  rw [ex, et] at a1 b1
  rw [epx, ept] at a2 b2
  have vtake : ∀ (a : Nat) (b : Nat) (l : List ℝ) (j : Fin a), toVec a (l.take a) j = toVec (a + b) l (Fin.castAdd b j) := by
    intro a b l j
    unfold toVec
    rw [List.getElem?_take_of_lt j.isLt]
    rfl
  have hA : ∀ (i j : Fin n), A₁ (toVec (n + m) x) (toVec (p + r) t) (Fin.castAdd m i) (Fin.castAdd m j) =
      A₂ (toVec n (x.take n)) (toVec p (t.take p)) i j := by
    intro i j
    have e1 := a1 (Fin.castAdd m i) (Fin.castAdd m j)
    have e2 := a2 i j
    rw [vtake n m] at e2
    refine e1.unique ?_
    refine e2.congr_of_eventuallyEq (Filter.Eventually.of_forall fun u => ?_)
    dsimp only
    rw [List.set_append_left _ _ (by rw [hx]; exact (Fin.castAdd m j).isLt), List.set_append_left _ _
      (by rw [lx]; exact j.isLt), ← take_set_lt]
    exact (hG _ _ (by rw [List.length_set, hx]) ht i i.isLt).symm
  have hA0 : ∀ (i : Fin n) (j : Fin m), A₁ (toVec (n + m) x) (toVec (p + r) t) (Fin.castAdd m i) (Fin.natAdd n j) = 0 := by
    intro i j
    have e1 := a1 (Fin.castAdd m i) (Fin.natAdd n j)
    refine e1.unique ?_
    refine (hasDerivAt_const _ ((G₂ (x.take n ++ t.take p)).getD i 0)).congr_of_eventuallyEq
      (Filter.Eventually.of_forall fun u => ?_)
    dsimp only
    rw [List.set_append_left _ _ (by rw [hx]; exact (Fin.natAdd n j).isLt)]
    refine (hG _ _ (by rw [List.length_set, hx]) ht i i.isLt).symm.trans ?_
    rw [take_set_ge _ _ _ _ (by simp)]
  exact ⟨hA, hA0⟩

theorem det_narrow {n m p r : Nat} (G₁ G₂ : List ℝ → List ℝ) (ok₁ ok₂ : List ℝ → Prop)
    (A₁ : (Fin (n + m) → ℝ) → (Fin (p + r) → ℝ) → Matrix (Fin (n + m)) (Fin (n + m)) ℝ)
    (B₁ : (Fin (n + m) → ℝ) → (Fin (p + r) → ℝ) → Matrix (Fin (n + m)) (Fin (p + r)) ℝ)
    (A₂ : (Fin n → ℝ) → (Fin p → ℝ) → Matrix (Fin n) (Fin n) ℝ)
    (B₂ : (Fin n → ℝ) → (Fin p → ℝ) → Matrix (Fin n) (Fin p) ℝ)
    (D₁ : DerivativesOf G₁ ok₁ A₁ B₁) (D₂ : DerivativesOf G₂ ok₂ A₂ B₂)
    (hG : ∀ x t, x.length = n + m → t.length = p + r → ∀ i < n,
      (G₂ (x.take n ++ t.take p)).getD i 0 = (G₁ (x ++ t)).getD i 0)
    (x t : List ℝ) (hx : x.length = n + m) (ht : t.length = p + r)
    (h₁ : ok₁ (x ++ t)) (h₂ : ok₂ (x.take n ++ t.take p)) :
    (A₁ (toVec (n + m) x) (toVec (p + r) t)).det = (A₂ (toVec n (x.take n)) (toVec p (t.take p))).det *
      (Matrix.of fun i j : Fin m => A₁ (toVec (n + m) x) (toVec (p + r) t) (Fin.natAdd n i) (Fin.natAdd n j)).det := by
  obtain ⟨hA, hA0⟩ := narrow_blocks G₁ G₂ ok₁ ok₂ A₁ B₁ A₂ B₂ D₁ D₂ hG x t hx ht h₁ h₂
  have hblock : (A₁ (toVec (n + m) x) (toVec (p + r) t)).submatrix finSumFinEquiv finSumFinEquiv =
      Matrix.fromBlocks (A₂ (toVec n (x.take n)) (toVec p (t.take p))) 0
        (Matrix.of fun i j => A₁ (toVec (n + m) x) (toVec (p + r) t) (Fin.natAdd n i) (Fin.castAdd m j))
        (Matrix.of fun i j => A₁ (toVec (n + m) x) (toVec (p + r) t) (Fin.natAdd n i) (Fin.natAdd n j)) := by
    ext i j
    rcases i with i | i <;> rcases j with j | j
    · simpa using hA i j
    · simpa using hA0 i j
    · simp
    · simp
  rw [← Matrix.det_submatrix_equiv_self finSumFinEquiv, hblock, Matrix.det_fromBlocks_zero₁₂]

/-- If the first `n` values of the larger model are those of the smaller one, which knows only the first `n` variables
and the first `p` parameters, then so are the first `n` elements of the direction of a step. -/
theorem solve_narrow {n m p r : Nat} (G₁ G₂ : List ℝ → List ℝ) (ok₁ ok₂ : List ℝ → Prop)
    (A₁ : (Fin (n + m) → ℝ) → (Fin (p + r) → ℝ) → Matrix (Fin (n + m)) (Fin (n + m)) ℝ)
    (B₁ : (Fin (n + m) → ℝ) → (Fin (p + r) → ℝ) → Matrix (Fin (n + m)) (Fin (p + r)) ℝ)
    (A₂ : (Fin n → ℝ) → (Fin p → ℝ) → Matrix (Fin n) (Fin n) ℝ)
    (B₂ : (Fin n → ℝ) → (Fin p → ℝ) → Matrix (Fin n) (Fin p) ℝ)
    (D₁ : DerivativesOf G₁ ok₁ A₁ B₁) (D₂ : DerivativesOf G₂ ok₂ A₂ B₂)
    (hG : ∀ x t, x.length = n + m → t.length = p + r → ∀ i < n,
      (G₂ (x.take n ++ t.take p)).getD i 0 = (G₁ (x ++ t)).getD i 0)
    (x t h d : List ℝ) (hx : x.length = n + m) (ht : t.length = p + r) (hh : h.length = p + r)
    (h₁ : ok₁ (x ++ t)) (h₂ : ok₂ (x.take n ++ t.take p))
    (hd : (vecJac A₁ B₁).solve x t h = .ok d) :
    (vecJac A₂ B₂).solve (x.take n) (t.take p) (h.take p) = .ok (d.take n) := by
  have ld := (vecJac A₁ B₁).lenOK x t h d hx ht hh hd
  obtain ⟨hu, hs⟩ := (vecJac A₁ B₁).solve_spec x t h d hd
  have lx : (x.take n).length = n := by rw [List.length_take]; omega
  have lt : (t.take p).length = p := by rw [List.length_take]; omega
  have lh : (h.take p).length = p := by rw [List.length_take]; omega
  have ldn : (d.take n).length = n := by rw [List.length_take]; omega
  have ex := ofFn_toVec (n + m) x hx
  have et := ofFn_toVec (p + r) t ht
  have epx := ofFn_toVec n _ lx
  have ept := ofFn_toVec p _ lt
  obtain ⟨a1, b1⟩ := D₁ (toVec (n + m) x) (toVec (p + r) t) (by rw [ex, et]; exact h₁)
  obtain ⟨a2, b2⟩ := D₂ (toVec n (x.take n)) (toVec p (t.take p)) (by rw [epx, ept]; exact h₂)
  rw [ex, et] at a1 b1
  rw [epx, ept] at a2 b2
  have vtake : ∀ (a : Nat) (b : Nat) (l : List ℝ) (j : Fin a), toVec a (l.take a) j = toVec (a + b) l (Fin.castAdd b j) := by
    intro a b l j
    unfold toVec
    rw [List.getElem?_take_of_lt j.isLt]
    rfl
  obtain ⟨hA, hA0⟩ := narrow_blocks G₁ G₂ ok₁ ok₂ A₁ B₁ A₂ B₂ D₁ D₂ hG x t hx ht h₁ h₂
  have hB : ∀ (i : Fin n) (j : Fin p), B₁ (toVec (n + m) x) (toVec (p + r) t) (Fin.castAdd m i) (Fin.castAdd r j) =
      B₂ (toVec n (x.take n)) (toVec p (t.take p)) i j := by
    intro i j
    have e1 := b1 (Fin.castAdd m i) (Fin.castAdd r j)
    have e2 := b2 i j
    rw [vtake p r] at e2
    refine e1.unique ?_
    refine e2.congr_of_eventuallyEq (Filter.Eventually.of_forall fun u => ?_)
    dsimp only
    rw [List.set_append_right _ _ (by rw [hx]; omega), hx, Nat.add_sub_cancel_left,
      List.set_append_right _ _ (by rw [lx]; omega), lx, Nat.add_sub_cancel_left, ← take_set_lt]
    exact (hG _ _ hx (by rw [List.length_set, ht]) i i.isLt).symm
  have hB0 : ∀ (i : Fin n) (j : Fin r), B₁ (toVec (n + m) x) (toVec (p + r) t) (Fin.castAdd m i) (Fin.natAdd p j) = 0 := by
    intro i j
    have e1 := b1 (Fin.castAdd m i) (Fin.natAdd p j)
    refine e1.unique ?_
    refine (hasDerivAt_const _ ((G₂ (x.take n ++ t.take p)).getD i 0)).congr_of_eventuallyEq
      (Filter.Eventually.of_forall fun u => ?_)
    dsimp only
    rw [List.set_append_right _ _ (by rw [hx]; omega), hx, Nat.add_sub_cancel_left]
    refine (hG _ _ hx (by rw [List.length_set, ht]) i i.isLt).symm.trans ?_
    rw [take_set_ge _ _ _ _ (by simp)]
  have hu' : IsUnit (A₁ (toVec (n + m) x) (toVec (p + r) t)).det := hu
  have hdet : IsUnit (A₂ (toVec n (x.take n)) (toVec p (t.take p))).det := by
    rw [det_narrow G₁ G₂ ok₁ ok₂ A₁ B₁ A₂ B₂ D₁ D₂ hG x t hx ht h₁ h₂] at hu'
    exact isUnit_of_mul_isUnit_left hu'
  have hsol := (vecJac A₂ B₂).solve_of_isUnit (x.take n) (t.take p) (h.take p) hdet
  rw [hsol]
  obtain ⟨-, hs2⟩ := (vecJac A₂ B₂).solve_spec _ _ _ _ hsol
  rw [toVec_ofFn] at hs2
  congr 1
  apply toVec_inj n _ _ (by rw [List.length_ofFn]) ldn
  rw [toVec_ofFn]
  apply mulVec_inj_of_isUnit _ hdet
  refine (eq_neg_of_add_eq_zero_left hs2).trans ?_
  funext i
  have hsi := congrFun hs (Fin.castAdd m i)
  simp only [Pi.add_apply, Pi.zero_apply, Matrix.mulVec, dotProduct] at hsi
  rw [Fin.sum_univ_add, Fin.sum_univ_add] at hsi
  change (∑ j : Fin n, A₁ (toVec (n + m) x) (toVec (p + r) t) (Fin.castAdd m i) (Fin.castAdd m j) *
      toVec (n + m) d (Fin.castAdd m j) + ∑ j : Fin m, A₁ (toVec (n + m) x) (toVec (p + r) t) (Fin.castAdd m i)
      (Fin.natAdd n j) * toVec (n + m) d (Fin.natAdd n j)) + (∑ j : Fin p, B₁ (toVec (n + m) x) (toVec (p + r) t)
      (Fin.castAdd m i) (Fin.castAdd r j) * toVec (p + r) h (Fin.castAdd r j) + ∑ j : Fin r, B₁ (toVec (n + m) x)
      (toVec (p + r) t) (Fin.castAdd m i) (Fin.natAdd p j) * toVec (p + r) h (Fin.natAdd p j)) = 0 at hsi
  simp only [hA, hA0, hB, hB0, zero_mul, Finset.sum_const_zero, add_zero] at hsi
  show -(∑ j : Fin p, B₂ (toVec n (x.take n)) (toVec p (t.take p)) i j * toVec p (h.take p) j) =
    ∑ j : Fin n, A₂ (toVec n (x.take n)) (toVec p (t.take p)) i j * toVec n (d.take n) j
  simp only [vtake n m, vtake p r]
  linarith

theorem solve_narrow' {nx np n m p r : Nat} (hnx : nx = n + m) (hnp : np = p + r) (G₁ G₂ : List ℝ → List ℝ)
    (ok₁ ok₂ : List ℝ → Prop)
    (A₁ : (Fin nx → ℝ) → (Fin np → ℝ) → Matrix (Fin nx) (Fin nx) ℝ)
    (B₁ : (Fin nx → ℝ) → (Fin np → ℝ) → Matrix (Fin nx) (Fin np) ℝ)
    (A₂ : (Fin n → ℝ) → (Fin p → ℝ) → Matrix (Fin n) (Fin n) ℝ)
    (B₂ : (Fin n → ℝ) → (Fin p → ℝ) → Matrix (Fin n) (Fin p) ℝ)
    (D₁ : DerivativesOf G₁ ok₁ A₁ B₁) (D₂ : DerivativesOf G₂ ok₂ A₂ B₂)
    (hG : ∀ x t, x.length = nx → t.length = np → ∀ i < n,
      (G₂ (x.take n ++ t.take p)).getD i 0 = (G₁ (x ++ t)).getD i 0)
    (x t h d : List ℝ) (hx : x.length = nx) (ht : t.length = np) (hh : h.length = np)
    (h₁ : ok₁ (x ++ t)) (h₂ : ok₂ (x.take n ++ t.take p))
    (hd : (vecJac A₁ B₁).solve x t h = .ok d) :
    (vecJac A₂ B₂).solve (x.take n) (t.take p) (h.take p) = .ok (d.take n) := by
  subst hnx hnp
  exact solve_narrow G₁ G₂ ok₁ ok₂ A₁ B₁ A₂ B₂ D₁ D₂ hG x t h d hx ht hh h₁ h₂ hd

/-! ## The runs -/

/-- A run of the larger model, restricted to the objects of the smaller one, is a run of the smaller one. -/
theorem runs_narrow (coords : Coords) {vs ps zs us : List ModelObject} (b₁ b₂ : EulerBackend) (hb : b₂.rk4 = b₁.rk4)
    (dx₁ dx₂ : StepSolve ℝ) (G₁ G₂ : List ℝ → List ℝ) (ok₁ ok₂ : List ℝ → Prop)
    (A₁ : (Fin (totalSize coords (vs ++ zs)) → ℝ) → (Fin (totalSize coords (ps ++ us)) → ℝ) →
      Matrix (Fin (totalSize coords (vs ++ zs))) (Fin (totalSize coords (vs ++ zs))) ℝ)
    (B₁ : (Fin (totalSize coords (vs ++ zs)) → ℝ) → (Fin (totalSize coords (ps ++ us)) → ℝ) →
      Matrix (Fin (totalSize coords (vs ++ zs))) (Fin (totalSize coords (ps ++ us))) ℝ)
    (A₂ : (Fin (totalSize coords vs) → ℝ) → (Fin (totalSize coords ps) → ℝ) →
      Matrix (Fin (totalSize coords vs)) (Fin (totalSize coords vs)) ℝ)
    (B₂ : (Fin (totalSize coords vs) → ℝ) → (Fin (totalSize coords ps) → ℝ) →
      Matrix (Fin (totalSize coords vs)) (Fin (totalSize coords ps)) ℝ)
    (e₁ : ∀ x t h, x.length = totalSize coords (vs ++ zs) → t.length = totalSize coords (ps ++ us) →
      h.length = totalSize coords (ps ++ us) → dx₁ x t h = (vecJac A₁ B₁).solve x t h)
    (e₂ : ∀ x t h, x.length = totalSize coords vs → t.length = totalSize coords ps →
      h.length = totalSize coords ps → dx₂ x t h = (vecJac A₂ B₂).solve x t h)
    (D₁ : DerivativesOf G₁ ok₁ A₁ B₁) (D₂ : DerivativesOf G₂ ok₂ A₂ B₂)
    (hG : ∀ x t, x.length = totalSize coords (vs ++ zs) → t.length = totalSize coords (ps ++ us) →
      ∀ i < totalSize coords vs, (G₂ (x.take (totalSize coords vs) ++ t.take (totalSize coords ps))).getD i 0 =
        (G₁ (x ++ t)).getD i 0)
    (data₁ data₂ : Dict Str (NDArray ℝ)) (tf₁ tf₂ : List ℝ) (n : Nat)
    (hc₁ : EulerCall coords (vs ++ zs) (ps ++ us) data₁ tf₁) (hc₂ : EulerCall coords vs ps data₂ tf₂)
    (hn : ((vs ++ zs ++ (ps ++ us)).map ModelObject.name).Nodup)
    (hdv : flatOf data₂ vs = flatOf data₁ vs) (hdp : flatOf data₂ ps = flatOf data₁ ps)
    (htf : tf₂ = tf₁.take (totalSize coords ps))
    (outs₁ : List (NDArray ℝ)) (hrun : runEuler b₁ dx₁ (vs ++ zs) (ps ++ us) coords tf₁ n data₁ = .ok outs₁)
    (hP : ∀ t, t < n → ∀ s ∈ b₁.points dx₁ (totalSize coords (vs ++ zs))
      (b₁.stateAfter (vs ++ zs) (ps ++ us) data₁ outs₁ t) (stepVec n tf₁ (flatOf data₁ (ps ++ us))), ok₁ s ∧
        ∀ s₂, SameArrays coords (vs ++ zs ++ (ps ++ us)) (vs ++ ps) s s₂ → ok₂ s₂) :
    ∃ outs₂, runEuler b₂ dx₂ vs ps coords tf₂ n data₂ = .ok outs₂ ∧
      ∀ t, t ≤ n → SameArrays coords (vs ++ zs ++ (ps ++ us)) (vs ++ ps)
        (b₁.stateAfter (vs ++ zs) (ps ++ us) data₁ outs₁ t) (b₂.stateAfter vs ps data₂ outs₂ t) := by
  have sv := totalSize_append coords vs zs
  have sp := totalSize_append coords ps us
  have hdx₁ : LenOK dx₁ (totalSize coords (vs ++ zs)) (totalSize coords (ps ++ us)) := by
    intro x t h d hx ht hh hd
    rw [e₁ x t h hx ht hh] at hd
    exact (vecJac A₁ B₁).lenOK x t h d hx ht hh hd
  have hdx₂ : LenOK dx₂ (totalSize coords vs) (totalSize coords ps) := by
    intro x t h d hx ht hh hd
    rw [e₂ x t h hx ht hh] at hd
    exact (vecJac A₂ B₂).lenOK x t h d hx ht hh hd
  have sh1 : ∀ o ∈ vs ++ zs, DataFor coords data₁ o := fun o ho => hc₁.shaped o (List.mem_append_left _ ho)
  have sh2 : ∀ o ∈ ps ++ us, DataFor coords data₁ o := fun o ho => hc₁.shaped o (List.mem_append_right _ ho)
  have lx := (flatOf_spec coords data₁ (vs ++ zs) sh1).1
  have lt := (flatOf_spec coords data₁ (ps ++ us) sh2).1
  have tv : ∀ d : Dict Str (NDArray ℝ), (∀ o ∈ vs ++ zs, DataFor coords d o) →
      (flatOf d (vs ++ zs)).take (totalSize coords vs) = flatOf d vs := by
    intro d hd
    rw [flatOf_append, List.take_left' (flatOf_spec coords d vs fun o ho => hd o (List.mem_append_left _ ho)).1]
  have tp : ∀ d : Dict Str (NDArray ℝ), (∀ o ∈ ps ++ us, DataFor coords d o) →
      (flatOf d (ps ++ us)).take (totalSize coords ps) = flatOf d ps := by
    intro d hd
    rw [flatOf_append, List.take_left' (flatOf_spec coords d ps fun o ho => hd o (List.mem_append_left _ ho)).1]
  have px : ∀ l : List ℝ, l.length = totalSize coords (vs ++ zs) →
      pickAt 0 (List.range (totalSize coords vs)) l = l.take (totalSize coords vs) :=
    fun l hl => pickAt_range _ l (by omega)
  have pp : ∀ l : List ℝ, l.length = totalSize coords (ps ++ us) →
      pickAt 0 (List.range (totalSize coords ps)) l = l.take (totalSize coords ps) :=
    fun l hl => pickAt_range _ l (by omega)
  have hlx : ∀ k ∈ List.range (totalSize coords vs), k < totalSize coords (vs ++ zs) := fun k hk => by
    have := List.mem_range.1 hk; omega
  have hlt : ∀ k ∈ List.range (totalSize coords ps), k < totalSize coords (ps ++ us) := fun k hk => by
    have := List.mem_range.1 hk; omega
  have hs : (stepVec n tf₁ (flatOf data₁ (ps ++ us))).length = totalSize coords (ps ++ us) := by
    simp only [stepVec, List.length_zipWith, lt, hc₁.final, min_self]
  have hstep : stepVec n tf₂ (flatOf data₂ ps) =
      pickAt 0 (List.range (totalSize coords ps)) (stepVec n tf₁ (flatOf data₁ (ps ++ us))) := by
    rw [pp _ hs]
    unfold stepVec
    rw [List.take_zipWith, tp data₁ sh2, htf, hdp]
  have hrun' := hrun
  rw [runEuler_eq b₁ dx₁ coords (vs ++ zs) (ps ++ us) data₁ tf₁ n hc₁ hdx₁] at hrun'
  cases hR : eulerRows (jaxIncrement dx₁ b₁.rk4) (stepVec n tf₁ (flatOf data₁ (ps ++ us))) n (flatOf data₁ (vs ++ zs))
      (flatOf data₁ (ps ++ us)) with
  | error e => rw [hR] at hrun'; cases hrun'
  | ok R =>
  have hrows₁ := stateAfter_rows b₁ dx₁ coords (vs ++ zs) (ps ++ us) data₁ tf₁ n hc₁ hdx₁ outs₁ hrun R hR
  have same : ∀ x t, x.length = totalSize coords (vs ++ zs) → t.length = totalSize coords (ps ++ us) →
      ∃ d : Dict Str (NDArray ℝ), (∀ o ∈ vs ++ zs ++ (ps ++ us), DataFor coords d o) ∧
        x ++ t = flatOf d (vs ++ zs ++ (ps ++ us)) ∧
        x.take (totalSize coords vs) ++ t.take (totalSize coords ps) = flatOf d (vs ++ ps) := by
    intro x t hx ht
    obtain ⟨d, hd, hflat⟩ := exists_data coords (vs ++ zs ++ (ps ++ us)) hn (x ++ t)
      (by rw [List.length_append, totalSize_append coords (vs ++ zs), hx, ht])
    have hd1 : ∀ o ∈ vs ++ zs, DataFor coords d o := fun o ho => hd o (List.mem_append_left _ ho)
    have hd2 : ∀ o ∈ ps ++ us, DataFor coords d o := fun o ho => hd o (List.mem_append_right _ ho)
    have l1 := (flatOf_spec coords d (vs ++ zs) hd1).1
    rw [flatOf_append d (vs ++ zs)] at hflat
    obtain ⟨q1, q2⟩ := List.append_inj hflat (by rw [l1, hx])
    exact ⟨d, hd, by rw [flatOf_append d (vs ++ zs), q1, q2],
      by rw [flatOf_append d vs ps, ← tv d hd1, ← tp d hd2, q1, q2]⟩
  have hR₂ := eulerRows_pick (jaxIncrement dx₁ b₁.rk4) (jaxIncrement dx₂ b₁.rk4) _ _
    (jaxIncrement_len dx₁ _ _ hdx₁ _) (List.range (totalSize coords vs)) (List.range (totalSize coords ps)) hlx hlt _ hs
    (fun x t => ∀ p ∈ solvedAt dx₁ b₁.rk4 x t (stepVec n tf₁ (flatOf data₁ (ps ++ us))),
      ok₁ (p.1 ++ p.2) ∧ ok₂ (p.1.take (totalSize coords vs) ++ p.2.take (totalSize coords ps)))
    (by
      intro x t d hx ht hok hd
      refine jaxIncrement_map dx₁ dx₂ _ _ _ _ hdx₁ _ _ (pickAt_combines hlx) (pickAt_combines hlt) _ x t _ d
        hx ht hs (fun p hp d hd => ?_) hd
      obtain ⟨hx, ht⟩ := solvedAt_len dx₁ _ _ hdx₁ _ x t _ hx ht hs p hp
      have hok := hok p hp
      have ld := hdx₁ _ _ _ _ hx ht hs hd
      rw [e₁ _ _ _ hx ht hs] at hd
      rw [px _ hx, pp _ ht, pp _ hs, px _ ld, e₂ _ _ _ (by rw [List.length_take]; omega) (by rw [List.length_take]; omega)
        (by rw [List.length_take]; omega)]
      exact solve_narrow' sv sp G₁ G₂ ok₁ ok₂ A₁ B₁ A₂ B₂ D₁ D₂ hG _ _ _ d hx ht hs hok.1 hok.2 hd)
    n _ _ lx lt R hR
    (by
      intro j s hj hsj p hp
      obtain ⟨s', k1, k2, k3, k4⟩ := hrows₁ j (by omega)
      rw [hsj, Option.some.injEq] at k1
      subst k1
      obtain ⟨l1, l2⟩ := solvedAt_len dx₁ _ _ hdx₁ _ _ _ _ k3 k4 hs p hp
      have hin : p.1 ++ p.2 ∈ b₁.points dx₁ (totalSize coords (vs ++ zs))
          (b₁.stateAfter (vs ++ zs) (ps ++ us) data₁ outs₁ j) (stepVec n tf₁ (flatOf data₁ (ps ++ us))) := by
        unfold EulerBackend.points
        rw [k2, List.take_left' k3, List.drop_left' k3]
        exact List.mem_map.2 ⟨p, hp, rfl⟩
      obtain ⟨o1, o2⟩ := hP j hj _ hin
      obtain ⟨d', w1, w2, w3⟩ := same p.1 p.2 l1 l2
      exact ⟨o1, o2 _ ⟨d', w1, w2, w3⟩⟩)
  rw [← hstep, px _ lx, pp _ lt, tv data₁ sh1, tp data₁ sh2, ← hdv, ← hdp, ← hb] at hR₂
  obtain ⟨outs₂, hrun₂⟩ := runEuler_ok_of_rows b₂ dx₂ coords vs ps data₂ tf₂ n hc₂ hdx₂ _ hR₂
  have hrows₂ := stateAfter_rows b₂ dx₂ coords vs ps data₂ tf₂ n hc₂ hdx₂ outs₂ hrun₂ _ hR₂
  refine ⟨outs₂, hrun₂, fun t ht => ?_⟩
  obtain ⟨s₁, k1, k2, k3, k4⟩ := hrows₁ t ht
  obtain ⟨s₂, m1, m2, -, -⟩ := hrows₂ t ht
  have hs₂ : s₂ = (s₁.1.take (totalSize coords vs), s₁.2.take (totalSize coords ps)) := by
    rw [hdv, hdp, ← tv data₁ sh1, ← tp data₁ sh2, ← px _ lx, ← pp _ lt] at m1
    have : ((pickAt 0 (List.range (totalSize coords vs)) (flatOf data₁ (vs ++ zs)),
        pickAt 0 (List.range (totalSize coords ps)) (flatOf data₁ (ps ++ us))) ::
        R.map fun r => (pickAt 0 (List.range (totalSize coords vs)) r.1, pickAt 0 (List.range (totalSize coords ps)) r.2)) =
        ((flatOf data₁ (vs ++ zs), flatOf data₁ (ps ++ us)) :: R).map fun r =>
          (pickAt 0 (List.range (totalSize coords vs)) r.1, pickAt 0 (List.range (totalSize coords ps)) r.2) := rfl
    rw [this, List.getElem?_map, k1, Option.map_some, Option.some.injEq] at m1
    rw [← m1, px _ k3, pp _ k4]
  obtain ⟨d', w1, w2, w3⟩ := same s₁.1 s₁.2 k3 k4
  rw [k2, m2, hs₂]
  exact ⟨d', w1, w2, w3⟩

/-! ## The equations -/

/-- The value of a name that both lists have, the larger with further names after each part of the smaller. -/
theorem flatPoint_narrow (X Z T U : List Str) (hnd : ((X ++ Z) ++ (T ++ U)).Nodup) (x t : List ℝ)
    (hx : x.length = X.length + Z.length) (ht : t.length = T.length + U.length) (n : Str) (hn : n ∈ X ++ T) :
    flatPoint ((X ++ Z) ++ (T ++ U)) (x ++ t) n = flatPoint (X ++ T) (x.take X.length ++ t.take T.length) n := by
  unfold flatPoint
  have lx : (x.take X.length).length = X.length := by rw [List.length_take]; omega
  by_cases hX : n ∈ X
  · have hlt := List.idxOf_lt_length_of_mem hX
    rw [List.idxOf_append_of_mem (List.mem_append_left _ hX), List.idxOf_append_of_mem hX,
      List.idxOf_append_of_mem hX, List.getD_eq_getElem?_getD, List.getD_eq_getElem?_getD,
      List.getElem?_append_left (by omega), List.getElem?_append_left (by omega), List.getElem?_take_of_lt hlt]
  · have hT : n ∈ T := (List.mem_append.1 hn).resolve_left hX
    have hlt := List.idxOf_lt_length_of_mem hT
    have hXZ : n ∉ X ++ Z := fun h => (List.nodup_append.1 hnd).2.2 n h n (List.mem_append_left _ hT) rfl
    rw [List.idxOf_append_of_notMem hXZ, List.idxOf_append_of_notMem hX, List.idxOf_append_of_mem hT,
      List.getD_eq_getElem?_getD, List.getD_eq_getElem?_getD, List.length_append, ← hx,
      List.getElem?_append_right (by omega), List.getElem?_append_right (by omega), lx, Nat.add_sub_cancel_left,
      Nat.add_sub_cancel_left, List.getElem?_take_of_lt hlt]

variable {coords : Coords} {vars params more extra : List ModelObject} {numeraire : Option ModelObject}
  {eqs further : List IndexedEq}

theorem solvedVars_append (numeraire : Option ModelObject) (a b : List ModelObject) :
    solvedVars numeraire (a ++ b) = solvedVars numeraire a ++ solvedVars numeraire b := by
  unfold solvedVars
  rw [List.filter_append]

/-- An equation of the smaller model demands the same in the larger one. -/
theorem demanded_narrow (h₁ : IndexedModel coords (vars ++ more) (params ++ extra) numeraire (eqs ++ further))
    (h₂ : IndexedModel coords vars params numeraire eqs) (q : IndexedEq) (hq : q ∈ eqs) (x t : List ℝ)
    (hx : x.length = totalSize coords (solvedVars numeraire (vars ++ more)))
    (ht : t.length = totalSize coords (params ++ extra)) :
    demanded coords (numeraire.toList.map ModelObject.name) (solvedVars numeraire (vars ++ more) ++ (params ++ extra))
        (x ++ t) q =
      demanded coords (numeraire.toList.map ModelObject.name) (solvedVars numeraire vars ++ params)
        (x.take (totalSize coords (solvedVars numeraire vars)) ++ t.take (totalSize coords params)) q := by
  obtain ⟨r, g1, g2⟩ := demanded_value h₁ q (List.mem_append_left _ hq)
  obtain ⟨r', g3, g4⟩ := demanded_value h₂ q hq
  rw [g1] at g3
  injection g3 with g3
  have g3 : r = r' := congrArg SymEquation.eq g3
  subst g3
  obtain ⟨r', g5, hrf, -, hwell, hfree⟩ := standardize_spec id (fun _ _ => Iff.rfl) id
    (fun _ _ => Iff.rfl) numeraire
    (solvedVars numeraire vars ++ params) h₂.label_names (fun o ho => ⟨h₂.scalar.fresh o
      (List.mem_append_left _ (h₂.numeraire_mem o ho)), fun o' ho' => numeraire_absent h₂ ho ho'⟩) q
      (h₂.sides q hq).1 (h₂.sides q hq).2
  rw [g1] at g5
  injection g5 with g5
  have g5 : r = r' := congrArg SymEquation.eq g5
  subst g5
  rw [g2, g4]
  have hpt : ∀ n ∈ scalarNames coords (solvedVars numeraire vars ++ params),
      flatPoint (scalarNames coords (solvedVars numeraire (vars ++ more) ++ (params ++ extra))) (x ++ t) n =
        flatPoint (scalarNames coords (solvedVars numeraire vars ++ params))
          (x.take (totalSize coords (solvedVars numeraire vars)) ++ t.take (totalSize coords params)) n := by
    intro n hn
    have hN := (solvedModel (numeraire := numeraire) h₁.scalar).scalars
    simp only [solvedVars_append, scalarNames_append] at hN hn ⊢
    rw [← length_scalarNames, ← length_scalarNames]
    rw [solvedVars_append, totalSize_append] at hx
    rw [totalSize_append] at ht
    exact flatPoint_narrow _ _ _ _ hN x t (by rw [hx, length_scalarNames, length_scalarNames])
      (by rw [ht, length_scalarNames, length_scalarNames]) n hn
  generalize flatPoint (scalarNames coords (solvedVars numeraire (vars ++ more) ++ (params ++ extra))) (x ++ t) = P at *
  generalize flatPoint (scalarNames coords (solvedVars numeraire vars ++ params))
    (x.take (totalSize coords (solvedVars numeraire vars)) ++ t.take (totalSize coords params)) = P' at *
  have hnd := freeDims_nodup h₂.coords_nodup (numeraire.toList.map ModelObject.name) q.lhs q.rhs
  generalize freeDims coords (numeraire.toList.map ModelObject.name) q.lhs q.rhs = ds at *
  have hback : ∀ (o : ModelObject) (ls' : List Str), ls' ∈ product (o.dims.map (labelsOf coords)) →
      ∀ l ∈ ls', ReadsBack l := by
    intro o ls' hls' l hl
    obtain ⟨d, -, hd⟩ := mem_product_label hls' l hl
    exact (labels_readBack h₂.label_names d l hd).1
  have hin : ∀ o ∈ solvedVars numeraire vars ++ params, ∀ ls' ∈ product (o.dims.map (labelsOf coords)),
      joinStr "_".toList (o.name :: ls') ∈ scalarNames coords (solvedVars numeraire vars ++ params) := by
    intro o ho ls' hls'
    unfold scalarNames
    exact List.mem_flatMap.2 ⟨o, ho, List.mem_map.2 ⟨ls', hls', rfl⟩⟩
  apply List.map_congr_left
  intro ls hls
  rw [eval_scal _ _ (redFree_mapIx _ _ hrf), eval_scal _ _ (redFree_mapIx _ _ hrf)]
  rw [val_congr_syms _ P']
  · apply val_congr
    intro v hv
    rw [indexeds_mapIx, List.mem_map] at hv
    obtain ⟨w, hw, rfl⟩ := hv
    obtain ⟨o, ho, hon, hod, hF⟩ := hwell.arrays w hw
    obtain ⟨ls', hls', hv2⟩ := bound_labels ds ls hnd hls w.2 o.dims hF fun d hd => hfree w hw d hd (by
      clear hod hon
      revert hd
      generalize w.2 = a at hF
      generalize o.dims = b at hF
      induction hF with
      | nil => intro hd; cases hd
      | cons hsd _ ih =>
        intro hd
        rcases List.mem_cons.1 hd with rfl | hd
        · rcases hsd with ⟨i, hi, hk, -⟩ | ⟨l, hl, -⟩
          · cases hi; exact hk
          · exact absurd hl.symm (sympifyLabel_ne_idx _ _)
        · exact ih hd)
    dsimp only
    rw [hv2, map_readsBack (hback o ls' hls'), ← hon]
    exact hpt _ (hin o ho ls' hls')
  · intro s hs
    rw [syms_mapIx] at hs
    obtain ⟨o, ho, rfl, hd⟩ := hwell.scalars s hs
    have := hpt _ (hin o ho [] (by rw [hd]; simp [product]))
    simpa [joinStr] using this

/-- What the equations of the larger model are off by: first what those of the smaller one are off by. -/
theorem imbalances_narrow (h₁ : IndexedModel coords (vars ++ more) (params ++ extra) numeraire (eqs ++ further))
    (h₂ : IndexedModel coords vars params numeraire eqs) (x t : List ℝ)
    (hx : x.length = totalSize coords (solvedVars numeraire (vars ++ more)))
    (ht : t.length = totalSize coords (params ++ extra)) :
    imbalances coords (vars ++ more) (params ++ extra) numeraire (eqs ++ further) (x ++ t) =
      imbalances coords vars params numeraire eqs
        (x.take (totalSize coords (solvedVars numeraire vars)) ++ t.take (totalSize coords params)) ++
      imbalances coords (vars ++ more) (params ++ extra) numeraire further (x ++ t) := by
  rw [imbalances_append]
  congr 1
  unfold imbalances
  apply List.flatMap_congr
  intro q hq
  exact demanded_narrow h₁ h₂ q hq x t hx ht

end Verif
