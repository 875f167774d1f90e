import Verif.Lemmas.EulerRun

/-!
# Lists as vectors, and the solver given by Jacobians
-/

namespace Verif

variable {K : Type _} [Field K]

theorem toVec_zipWith (f : K → K → K) (n : Nat) (a b : List K) (ha : a.length = n) (hb : b.length = n) :
    toVec n (List.zipWith f a b) = fun i => f (toVec n a i) (toVec n b i) := by
  funext i
  have hi := i.isLt
  unfold toVec
  rw [List.getElem?_zipWith, List.getElem?_eq_getElem (by omega : i.val < a.length),
    List.getElem?_eq_getElem (by omega : i.val < b.length)]
  rfl

theorem toVec_add (n : Nat) (a b : List K) (ha : a.length = n) (hb : b.length = n) :
    toVec n (List.zipWith (· + ·) a b) = toVec n a + toVec n b := toVec_zipWith _ n a b ha hb

theorem toVec_ofFn (n : Nat) (v : Fin n → K) : toVec n (List.ofFn v) = v := by
  funext i
  simp [toVec]

theorem ofFn_toVec (n : Nat) (l : List K) (h : l.length = n) : List.ofFn (toVec n l) = l := by
  subst h
  apply List.ext_getElem?
  intro i
  rcases Nat.lt_or_ge i l.length with hi | hi
  · rw [List.getElem?_eq_getElem (by simpa using hi), List.getElem?_eq_getElem hi]
    simp [toVec, hi]
  · rw [List.getElem?_eq_none (by simpa using hi), List.getElem?_eq_none hi]

theorem toVec_inj (n : Nat) (a b : List K) (ha : a.length = n) (hb : b.length = n)
    (h : toVec n a = toVec n b) : a = b := by
  rw [← ofFn_toVec n a ha, ← ofFn_toVec n b hb, h]

theorem toVec_append (n : Nat) (a b : List K) (ha : a.length = n) : toVec n (a ++ b) = toVec n a := by
  funext i
  have hi := i.isLt
  unfold toVec
  rw [List.getElem?_append_left (by omega)]

theorem Jacobians.lenOK {nx np : Nat} (J : Jacobians K nx np) : LenOK J.solve nx np := by
  intro x t h d hx ht hh hd
  unfold Jacobians.solve at hd
  split at hd
  · injection hd with hd
    rw [← hd, List.length_ofFn]
  · cases hd

theorem Jacobians.solve_spec {nx np : Nat} (J : Jacobians K nx np) (x t h d : List K)
    (hd : J.solve x t h = .ok d) :
    IsUnit (J.A x t).det ∧
    (J.A x t).mulVec (toVec nx d) + (J.B x t).mulVec (toVec np h) = 0 := by
  unfold Jacobians.solve at hd
  split at hd
  · rename_i hu
    injection hd with hd
    refine ⟨hu, ?_⟩
    rw [← hd, toVec_ofFn, Matrix.mulVec_neg, Matrix.mulVec_mulVec, Matrix.mul_nonsing_inv _ hu,
      Matrix.one_mulVec, neg_add_cancel]
  · cases hd

theorem mulVec_inj_of_isUnit {n : Nat} (A : Matrix (Fin n) (Fin n) K) (hu : IsUnit A.det)
    (d e : Fin n → K) (h : A.mulVec d = A.mulVec e) : d = e := by
  have := congrArg (A⁻¹).mulVec h
  rwa [Matrix.mulVec_mulVec, Matrix.mulVec_mulVec, Matrix.nonsing_inv_mul _ hu, Matrix.one_mulVec,
    Matrix.one_mulVec] at this

theorem Jacobians.solve_of_isUnit {nx np : Nat} (J : Jacobians K nx np) (x t h : List K)
    (hu : IsUnit (J.A x t).det) :
    J.solve x t h = .ok (List.ofFn (-((J.A x t)⁻¹.mulVec ((J.B x t).mulVec (toVec np h))))) := by
  unfold Jacobians.solve
  rw [if_pos hu]

theorem zipWith_add_zero (x d : List K) (hl : d.length = x.length) (hd : ∀ a ∈ d, a = 0) :
    List.zipWith (· + ·) x d = x := by
  apply List.ext_getElem
  · simp [hl]
  · intro i h1 h2
    rw [List.getElem_zipWith, hd _ (List.getElem_mem _), add_zero]

theorem stepVec_self (n : Nat) (t : List K) : ∀ a ∈ stepVec n t t, a = 0 := by
  intro a ha
  unfold stepVec at ha
  obtain ⟨i, hi, rfl⟩ := List.getElem_of_mem ha
  rw [List.getElem_zipWith, sub_self, zero_div]

theorem toVec_eq_zero (n : Nat) (l : List K) (h : ∀ a ∈ l, a = 0) : toVec n l = 0 := by
  funext i
  unfold toVec
  cases hl : l[i.val]? with
  | none => rfl
  | some a => exact h a (List.mem_of_getElem? hl)

/-- With no parameter step the solver returns zeros (or raises). -/
theorem Jacobians.solve_zero {nx np : Nat} (J : Jacobians K nx np) (x t h : List K)
    (hh : ∀ a ∈ h, a = 0) (d : List K) (hd : J.solve x t h = .ok d) : ∀ a ∈ d, a = 0 := by
  obtain ⟨hu, hs⟩ := J.solve_spec x t h d hd
  rw [J.solve_of_isUnit x t h hu] at hd
  injection hd with hd
  rw [toVec_eq_zero np h hh, Matrix.mulVec_zero, Matrix.mulVec_zero, neg_zero] at hd
  intro a ha
  rw [← hd] at ha
  obtain ⟨i, hi⟩ := List.mem_ofFn.1 ha
  exact hi.symm

end Verif
