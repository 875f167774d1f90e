import Verif.Lemmas.Newton
import Verif.Lemmas.EulerVec
import Mathlib.Algebra.Order.Field.Basic
import Mathlib.Algebra.Order.BigOperators.Group.List
import Mathlib.Algebra.Field.Rat
import Mathlib.Algebra.Order.Ring.Rat
import Mathlib.Tactic.Linarith
import Mathlib.Logic.Function.Iterate

/-!
# C25, C26: the Newton root finder

`newtonRoot … = .ok H`: the root finder returned the history `H`, one state per iteration.  The state
before iteration `i` is entry `i` of `newtonStart x0 stepSize :: H`, the state after it entry `i` of `H`.

Except where a field is mentioned, the theorems hold for any arithmetic whose comparison is irreflexive
(and, where stated, transitive); floating point numbers satisfy both.
-/

namespace Verif

variable {α : Type _}

/-- The facts shared by the theorems below: shapes are kept, and each state is the body of the one
before. -/
theorem newton_history (N : NewtonArith α) (hirr : ∀ a, N.lt a a = false) (P : NewtonProblem α)
    (x0 : List (NDArray α)) (hwf : ∀ a ∈ x0, a.WF) (parameters : Option (List (NDArray α)))
    (stepSize : α) (maxIter : Nat) (tol : α) (H : List (NewtonState α))
    (hH : newtonRoot N P x0 parameters stepSize maxIter tol = .ok H) (i : Nat) (s s' : NewtonState α)
    (hs : (newtonStart x0 stepSize :: H)[i]? = some s) (hs' : H[i]? = some s') :
    (∀ a ∈ s.X, a.WF) ∧
    scanBody N P stepSize tol parameters.isSome (parameters.getD []) s = .ok s' := by
  obtain ⟨-, h2⟩ := newtonScan_steps _ _ _ _ hH
  refine ⟨?_, h2 i s s' hs hs'⟩
  clear hs'
  induction i generalizing s with
  | zero =>
    simp only [List.getElem?_cons_zero, Option.some.injEq] at hs
    rw [← hs]; exact hwf
  | succ i ih =>
    rw [List.getElem?_cons_succ] at hs
    have hi : i < H.length := by
      rcases Nat.lt_or_ge i H.length with h | h
      · exact h
      · rw [List.getElem?_eq_none h] at hs; cases hs
    obtain ⟨q, hq⟩ : ∃ q, (newtonStart x0 stepSize :: H)[i]? = some q :=
      ⟨_, List.getElem?_eq_getElem (by rw [List.length_cons]; omega)⟩
    exact (scanBody_spec N hirr P stepSize tol parameters q s (ih q hq) (h2 i q s hq hs)).1.2

/-! ## C25 -/

/-- **C25 (the residual never gets worse).**  In every iteration the point stays where it is or moves to
a point with strictly smaller residual norm. -/
theorem C25_residual_never_worse (N : NewtonArith α) (hirr : ∀ a, N.lt a a = false)
    (P : NewtonProblem α) (x0 : List (NDArray α)) (hwf : ∀ a ∈ x0, a.WF)
    (parameters : Option (List (NDArray α))) (stepSize : α) (maxIter : Nat) (tol : α)
    (H : List (NewtonState α)) (hH : newtonRoot N P x0 parameters stepSize maxIter tol = .ok H)
    (i : Nat) (s s' : NewtonState α)
    (hs : (newtonStart x0 stepSize :: H)[i]? = some s) (hs' : H[i]? = some s') :
    s'.X = s.X ∨ ∃ a b, P.F s.X (parameters.getD []) = .ok a ∧ P.F s'.X (parameters.getD []) = .ok b ∧
      N.lt (N.norm1 b) (N.norm1 a) = true := by
  obtain ⟨hw, hb⟩ := newton_history N hirr P x0 hwf parameters stepSize maxIter tol H hH i s s' hs hs'
  rcases (scanBody_spec N hirr P stepSize tol parameters s s' hw hb).2 with ⟨-, h⟩ | h
  · left; rw [h]
  · obtain ⟨-, fx, JX, d, newX, fnew, h1, -, -, -, h2, -, -, h3⟩ := h
    rcases h3 with ⟨h4, h5, -⟩ | ⟨-, h5, -⟩
    · right; exact ⟨fx, fnew, h1, by rw [h5]; exact h2, h4⟩
    · left; exact h5

/-- **C25 (the flag is sticky).**  Once the flag is set it stays set, and the point no longer changes
nor does the step count. -/
theorem C25_flag_sticky (N : NewtonArith α) (hirr : ∀ a, N.lt a a = false)
    (P : NewtonProblem α) (x0 : List (NDArray α)) (hwf : ∀ a ∈ x0, a.WF)
    (parameters : Option (List (NDArray α))) (stepSize : α) (maxIter : Nat) (tol : α)
    (H : List (NewtonState α)) (hH : newtonRoot N P x0 parameters stepSize maxIter tol = .ok H)
    (i j : Nat) (hij : i ≤ j) (s s' : NewtonState α) (hs : H[i]? = some s) (hs' : H[j]? = some s')
    (hc : s.converged = true) :
    s'.converged = true ∧ s'.X = s.X ∧ s'.nSteps = s.nSteps := by
  induction j generalizing s' with
  | zero =>
    obtain rfl : i = 0 := by omega
    rw [hs] at hs'
    injection hs' with hs'
    subst hs'
    exact ⟨hc, rfl, rfl⟩
  | succ j ih =>
    rcases Nat.lt_or_ge j i with h | h
    · obtain rfl : i = j + 1 := by omega
      rw [hs] at hs'
      injection hs' with hs'
      subst hs'
      exact ⟨hc, rfl, rfl⟩
    · have hj : j + 1 < H.length := by
        rcases Nat.lt_or_ge (j + 1) H.length with h' | h'
        · exact h'
        · rw [List.getElem?_eq_none h'] at hs'; cases hs'
      obtain ⟨q, hq⟩ : ∃ q, H[j]? = some q := ⟨_, List.getElem?_eq_getElem (by omega)⟩
      obtain ⟨i1, i2, i3⟩ := ih h q hq
      obtain ⟨hw, hb⟩ := newton_history N hirr P x0 hwf parameters stepSize maxIter tol H hH (j + 1) q s'
        (by rw [List.getElem?_cons_succ]; exact hq) hs'
      rcases (scanBody_spec N hirr P stepSize tol parameters q s' hw hb).2 with ⟨-, h⟩ | ⟨h, -⟩
      · rw [h]; exact ⟨i1, i2, i3⟩
      · rw [i1] at h; cases h

/-- **C25 (the flag is honest).**  When the flag is set in a state of the history, the residual at the
point of that state is below the tolerance. -/
theorem C25_flag_honest (N : NewtonArith α) (hirr : ∀ a, N.lt a a = false)
    (htr : ∀ a b c, N.lt a b = true → N.lt b c = true → N.lt a c = true)
    (P : NewtonProblem α) (x0 : List (NDArray α)) (hwf : ∀ a ∈ x0, a.WF)
    (parameters : Option (List (NDArray α))) (stepSize : α) (maxIter : Nat) (tol : α)
    (H : List (NewtonState α)) (hH : newtonRoot N P x0 parameters stepSize maxIter tol = .ok H)
    (s : NewtonState α) (hs : s ∈ H) (hc : s.converged = true) :
    ∃ r, P.F s.X (parameters.getD []) = .ok r ∧ N.lt (N.norm1 r) tol = true := by
  obtain ⟨i, hi, rfl⟩ := List.getElem_of_mem hs
  have key : ∀ (i : Nat) (s : NewtonState α), H[i]? = some s → s.converged = true →
      ∃ r, P.F s.X (parameters.getD []) = .ok r ∧ N.lt (N.norm1 r) tol = true := by
    intro i
    induction i with
    | zero =>
      intro s hs hc
      obtain ⟨hw, hb⟩ := newton_history N hirr P x0 hwf parameters stepSize maxIter tol H hH 0 _ s rfl hs
      rcases (scanBody_spec N hirr P stepSize tol parameters _ s hw hb).2 with ⟨h, -⟩ | h
      · cases h
      · obtain ⟨-, fx, JX, d, newX, fnew, h1, -, -, -, h2, h3, -, h4⟩ := h
        rw [hc] at h3
        rcases h4 with ⟨h5, h6, -⟩ | ⟨-, h6, -⟩
        · exact ⟨fnew, by rw [h6]; exact h2, htr _ _ _ h5 h3.symm⟩
        · exact ⟨fx, by rw [h6]; exact h1, h3.symm⟩
    | succ i ih =>
      intro s hs hc
      have hi : i + 1 < H.length := by
        rcases Nat.lt_or_ge (i + 1) H.length with h' | h'
        · exact h'
        · rw [List.getElem?_eq_none h'] at hs; cases hs
      obtain ⟨q, hq⟩ : ∃ q, H[i]? = some q := ⟨_, List.getElem?_eq_getElem (by omega)⟩
      obtain ⟨hw, hb⟩ := newton_history N hirr P x0 hwf parameters stepSize maxIter tol H hH (i + 1) q s
        (by rw [List.getElem?_cons_succ]; exact hq) hs
      rcases (scanBody_spec N hirr P stepSize tol parameters q s hw hb).2 with ⟨h, h'⟩ | h
      · rw [h']; exact ih q hq h
      · obtain ⟨-, fx, JX, d, newX, fnew, h1, -, -, -, h2, h3, -, h4⟩ := h
        rw [hc] at h3
        rcases h4 with ⟨h5, h6, -⟩ | ⟨-, h6, -⟩
        · exact ⟨fnew, by rw [h6]; exact h2, htr _ _ _ h5 h3.symm⟩
        · exact ⟨fx, by rw [h6]; exact h1, h3.symm⟩
  exact key i _ (List.getElem?_eq_getElem hi) hc

/-- **C25 (step count).**  The reported step count is the number of iterations so far after which the
flag was not set; in particular it never exceeds the number of iterations. -/
theorem C25_step_count (N : NewtonArith α) (hirr : ∀ a, N.lt a a = false)
    (P : NewtonProblem α) (x0 : List (NDArray α)) (hwf : ∀ a ∈ x0, a.WF)
    (parameters : Option (List (NDArray α))) (stepSize : α) (maxIter : Nat) (tol : α)
    (H : List (NewtonState α)) (hH : newtonRoot N P x0 parameters stepSize maxIter tol = .ok H)
    (i : Nat) (s : NewtonState α) (hs : H[i]? = some s) :
    s.nSteps = ((H.take (i + 1)).filter fun q => !q.converged).length ∧ s.nSteps ≤ i + 1 ∧
      i + 1 ≤ maxIter := by
  have hlen := (newtonScan_steps _ _ _ _ hH).1
  have hi : i < H.length := by
    rcases Nat.lt_or_ge i H.length with h' | h'
    · exact h'
    · rw [List.getElem?_eq_none h'] at hs; cases hs
  have key : s.nSteps = ((H.take (i + 1)).filter fun q => !q.converged).length := by
    have step : ∀ (j : Nat) (q q' : NewtonState α), (newtonStart x0 stepSize :: H)[j]? = some q →
        H[j]? = some q' → q'.nSteps = q.nSteps + (if q'.converged then 0 else 1) := by
      intro j q q' hq hq'
      obtain ⟨hw, hb⟩ := newton_history N hirr P x0 hwf parameters stepSize maxIter tol H hH j q q' hq hq'
      rcases (scanBody_spec N hirr P stepSize tol parameters q q' hw hb).2 with ⟨h, h'⟩ | h
      · rw [h']; simp [h]
      · exact h.2.choose_spec.choose_spec.choose_spec.choose_spec.choose_spec.2.2.2.2.2.2.1
    clear hi
    induction i generalizing s with
    | zero =>
      have h1 := step 0 _ s rfl hs
      cases H with
      | nil => simp at hs
      | cons h H =>
        simp only [List.getElem?_cons_zero, Option.some.injEq] at hs
        subst hs
        rw [h1]
        cases hcv : h.converged <;> simp [newtonStart, hcv]
    | succ i ih =>
      have hi : i + 1 < H.length := by
        rcases Nat.lt_or_ge (i + 1) H.length with h' | h'
        · exact h'
        · rw [List.getElem?_eq_none h'] at hs; cases hs
      obtain ⟨q, hq⟩ : ∃ q, H[i]? = some q := ⟨_, List.getElem?_eq_getElem (by omega)⟩
      rw [step (i + 1) q s (by rw [List.getElem?_cons_succ]; exact hq) hs, ih q hq,
        List.take_add_one (i := i + 1), hs, List.filter_append, List.length_append]
      cases hcv : s.converged <;> simp [hcv]
  refine ⟨key, ?_, by omega⟩
  rw [key]
  refine (List.length_filter_le _ _).trans ?_
  rw [List.length_take]
  omega

/-! ## Arithmetic of an ordered field -/

/-- Exact arithmetic in an ordered field. -/
def fieldArith (K : Type _) [Field K] [LinearOrder K] : NewtonArith K where
  zero := 0
  add := (· + ·)
  sub := (· - ·)
  mul := (· * ·)
  abs := fun a => |a|
  lt := fun a b => decide (a < b)
  half := 2⁻¹

section Ordered

variable {K : Type _} [Field K] [LinearOrder K] [IsStrictOrderedRing K]

theorem fieldArith_irrefl (a : K) : (fieldArith K).lt a a = false := by
  simp [fieldArith]

theorem fieldArith_trans (a b c : K) (h1 : (fieldArith K).lt a b = true)
    (h2 : (fieldArith K).lt b c = true) : (fieldArith K).lt a c = true := by
  simp only [fieldArith, decide_eq_true_eq] at *
  exact h1.trans h2

theorem foldl_add_eq (l : List K) (a : K) : l.foldl (· + ·) a = a + l.sum := by
  induction l generalizing a with
  | nil => simp
  | cons b l ih => rw [List.foldl_cons, ih, List.sum_cons, add_assoc]

theorem fieldArith_norm1 (v : List K) : (fieldArith K).norm1 v = (v.map fun a => |a|).sum := by
  unfold NewtonArith.norm1
  have := foldl_add_eq (v.map fun a => |a|) 0
  rw [zero_add] at this
  exact this

/-- **C25 (monotone).**  In exact arithmetic the L1 norm of the residual is non-increasing along the
whole history. -/
theorem C25_monotone (P : NewtonProblem K) (x0 : List (NDArray K)) (hwf : ∀ a ∈ x0, a.WF)
    (parameters : Option (List (NDArray K))) (stepSize : K) (maxIter : Nat) (tol : K)
    (H : List (NewtonState K))
    (hH : newtonRoot (fieldArith K) P x0 parameters stepSize maxIter tol = .ok H)
    (i j : Nat) (hij : i ≤ j) (s s' : NewtonState K)
    (hs : (newtonStart x0 stepSize :: H)[i]? = some s)
    (hs' : (newtonStart x0 stepSize :: H)[j]? = some s') (a b : List K)
    (ha : P.F s.X (parameters.getD []) = .ok a) (hb : P.F s'.X (parameters.getD []) = .ok b) :
    (b.map fun v => |v|).sum ≤ (a.map fun v => |v|).sum := by
  induction j generalizing s' b with
  | zero =>
    obtain rfl : i = 0 := by omega
    rw [hs] at hs'
    injection hs' with hs'
    subst hs'
    rw [ha] at hb
    injection hb with hb
    rw [hb]
  | succ j ih =>
    rcases Nat.lt_or_ge j i with h | h
    · obtain rfl : i = j + 1 := by omega
      rw [hs] at hs'
      injection hs' with hs'
      subst hs'
      rw [ha] at hb
      injection hb with hb
      rw [hb]
    · have hj : j < H.length := by
        rcases Nat.lt_or_ge j H.length with h' | h'
        · exact h'
        · rw [List.getElem?_cons_succ, List.getElem?_eq_none h'] at hs'; cases hs'
      obtain ⟨q, hq⟩ : ∃ q, (newtonStart x0 stepSize :: H)[j]? = some q :=
        ⟨_, List.getElem?_eq_getElem (by rw [List.length_cons]; omega)⟩
      rcases C25_residual_never_worse (fieldArith K) fieldArith_irrefl P x0 hwf parameters stepSize
        maxIter tol H hH j q s' hq (by rw [List.getElem?_cons_succ] at hs'; exact hs') with hX | hX
      · rw [hX] at hb
        exact ih h q hq b hb
      · obtain ⟨c, d, h1, h2, h3⟩ := hX
        rw [hb] at h2
        injection h2 with h2
        subst h2
        rw [fieldArith_norm1, fieldArith_norm1] at h3
        simp only [fieldArith, decide_eq_true_eq] at h3
        exact h3.le.trans (ih h q hq c h1)

end Ordered

/-! ## C26 -/

/-- **C26 (back-tracking).**  An iteration that starts unconverged tries the point
`x - stepSize * solve(J, F)`; it moves there and resets the step size exactly when the residual norm
strictly decreases, otherwise it stays and halves the step size. -/
theorem C26_accept_or_halve (N : NewtonArith α) (hirr : ∀ a, N.lt a a = false)
    (P : NewtonProblem α) (x0 : List (NDArray α)) (hwf : ∀ a ∈ x0, a.WF)
    (parameters : Option (List (NDArray α))) (stepSize : α) (maxIter : Nat) (tol : α)
    (H : List (NewtonState α)) (hH : newtonRoot N P x0 parameters stepSize maxIter tol = .ok H)
    (i : Nat) (s s' : NewtonState α)
    (hs : (newtonStart x0 stepSize :: H)[i]? = some s) (hs' : H[i]? = some s')
    (hc : s.converged = false) :
    ∃ fx JX d newX fnew, P.F s.X (parameters.getD []) = .ok fx ∧
      P.J s.X (parameters.getD []) = .ok JX ∧ P.solve JX fx = .ok d ∧
      flatTensorToRaggedList (List.zipWith N.sub (s.X.map NDArray.data).flatten
        (d.map (N.mul s.stepSize))) (s.X.map NDArray.shape) = .ok newX ∧
      P.F newX (parameters.getD []) = .ok fnew ∧
      (if N.lt (N.norm1 fnew) (N.norm1 fx) then s'.X = newX ∧ s'.stepSize = stepSize
       else s'.X = s.X ∧ s'.stepSize = N.mul s.stepSize N.half) := by
  obtain ⟨hw, hb⟩ := newton_history N hirr P x0 hwf parameters stepSize maxIter tol H hH i s s' hs hs'
  rcases (scanBody_spec N hirr P stepSize tol parameters s s' hw hb).2 with ⟨h, -⟩ | h
  · rw [hc] at h; cases h
  · obtain ⟨-, fx, JX, d, newX, fnew, h1, h2, h3, h4, h5, -, -, h6⟩ := h
    refine ⟨fx, JX, d, newX, fnew, h1, h2, h3, h4, h5, ?_⟩
    rcases h6 with ⟨h7, h8, h9⟩ | ⟨h7, h8, h9⟩
    · rw [if_pos h7]; exact ⟨h8, h9⟩
    · rw [if_neg (by rw [h7]; simp)]; exact ⟨h8, h9⟩

/-- **C26 (powers of two).**  Every step size in use is the initial one, halved some number of times
(at most once per iteration). -/
theorem C26_step_is_halved_start (N : NewtonArith α) (hirr : ∀ a, N.lt a a = false)
    (P : NewtonProblem α) (x0 : List (NDArray α)) (hwf : ∀ a ∈ x0, a.WF)
    (parameters : Option (List (NDArray α))) (stepSize : α) (maxIter : Nat) (tol : α)
    (H : List (NewtonState α)) (hH : newtonRoot N P x0 parameters stepSize maxIter tol = .ok H)
    (i : Nat) (s : NewtonState α) (hs : (newtonStart x0 stepSize :: H)[i]? = some s) :
    ∃ k, k ≤ i ∧ s.stepSize = (fun x => N.mul x N.half)^[k] stepSize := by
  induction i generalizing s with
  | zero =>
    simp only [List.getElem?_cons_zero, Option.some.injEq] at hs
    exact ⟨0, Nat.le_refl 0, by rw [← hs]; rfl⟩
  | succ i ih =>
    rw [List.getElem?_cons_succ] at hs
    have hi : i < H.length := by
      rcases Nat.lt_or_ge i H.length with h | h
      · exact h
      · rw [List.getElem?_eq_none h] at hs; cases hs
    obtain ⟨q, hq⟩ : ∃ q, (newtonStart x0 stepSize :: H)[i]? = some q :=
      ⟨_, List.getElem?_eq_getElem (by rw [List.length_cons]; omega)⟩
    obtain ⟨k, hk, hqs⟩ := ih q hq
    obtain ⟨hw, hb⟩ := newton_history N hirr P x0 hwf parameters stepSize maxIter tol H hH i q s hq hs
    have hhalf : s.stepSize = N.mul q.stepSize N.half → ∃ k, k ≤ i + 1 ∧
        s.stepSize = (fun x => N.mul x N.half)^[k] stepSize := by
      intro h
      refine ⟨k + 1, by omega, ?_⟩
      rw [Function.iterate_succ_apply', h, hqs]
    rcases (scanBody_spec N hirr P stepSize tol parameters q s hw hb).2 with ⟨-, h⟩ | h
    · exact hhalf (by rw [h])
    · obtain ⟨-, fx, JX, d, newX, fnew, -, -, -, -, -, -, -, h6⟩ := h
      rcases h6 with ⟨-, -, h9⟩ | ⟨-, -, h9⟩
      · exact ⟨0, by omega, h9⟩
      · exact hhalf h9

section Affine

variable {K : Type _} [Field K] [LinearOrder K] [IsStrictOrderedRing K]

/-- In an ordered field: the step size is the initial one divided by a power of two. -/
theorem C26_power_of_two (P : NewtonProblem K) (x0 : List (NDArray K)) (hwf : ∀ a ∈ x0, a.WF)
    (parameters : Option (List (NDArray K))) (stepSize : K) (maxIter : Nat) (tol : K)
    (H : List (NewtonState K))
    (hH : newtonRoot (fieldArith K) P x0 parameters stepSize maxIter tol = .ok H)
    (i : Nat) (s : NewtonState K) (hs : (newtonStart x0 stepSize :: H)[i]? = some s) :
    ∃ k, k ≤ i ∧ s.stepSize = stepSize / 2 ^ k := by
  obtain ⟨k, hk, h⟩ := C26_step_is_halved_start (fieldArith K) fieldArith_irrefl P x0 hwf parameters
    stepSize maxIter tol H hH i s hs
  refine ⟨k, hk, ?_⟩
  rw [h]
  clear h hk
  induction k with
  | zero => simp
  | succ k ih =>
    rw [Function.iterate_succ_apply', ih]
    show stepSize / 2 ^ k * 2⁻¹ = stepSize / 2 ^ (k + 1)
    rw [pow_succ, div_mul_eq_div_div, div_eq_mul_inv (stepSize / 2 ^ k)]

/-- Flat value of a list of arrays. -/
def flatX (X : List (NDArray K)) : List K := (X.map NDArray.data).flatten

theorem sum_abs_eq_zero (l : List K) : (l.map fun a => |a|).sum = 0 ↔ ∀ a ∈ l, a = 0 := by
  induction l with
  | nil => simp
  | cons b l ih =>
    have hnn : 0 ≤ (l.map fun a => |a|).sum :=
      List.sum_nonneg (by intro a ha; obtain ⟨c, -, rfl⟩ := List.mem_map.1 ha; exact abs_nonneg c)
    rw [List.map_cons, List.sum_cons]
    constructor
    · intro h
      have hb : |b| = 0 := le_antisymm (by linarith [abs_nonneg b]) (abs_nonneg b)
      have hl : (l.map fun a => |a|).sum = 0 := by linarith [abs_nonneg b]
      intro a ha
      rcases List.mem_cons.1 ha with rfl | ha
      · exact abs_eq_zero.1 hb
      · exact (ih.1 hl) a ha
    · intro h
      rw [h b (by simp), abs_zero, zero_add]
      exact ih.2 fun a ha => h a (by simp [ha])

theorem sum_abs_nonneg (l : List K) : 0 ≤ (l.map fun a => |a|).sum :=
  List.sum_nonneg (by intro a ha; obtain ⟨c, -, rfl⟩ := List.mem_map.1 ha; exact abs_nonneg c)

theorem ragged_ok_of_length {α : Type _} (x : List α) (shapes : List (List Nat)) (c : Nat)
    (h : c + (shapes.map List.prod).sum ≤ x.length) :
    ∃ xs, raggedLoop x shapes c = .ok xs ∧
      (xs.map NDArray.data).flatten = (x.drop c).take (shapes.map List.prod).sum := by
  induction shapes generalizing c with
  | nil => exact ⟨[], rfl, by simp⟩
  | cons s shapes ih =>
    rw [List.map_cons, List.sum_cons] at h
    obtain ⟨xs, h1, h2⟩ := ih (c + s.prod) (by omega)
    have hl : (slice x c (c + s.prod)).length = s.prod := by
      rw [slice_eq, List.length_take, List.length_drop]; omega
    refine ⟨⟨s, slice x c (c + s.prod)⟩ :: xs, ?_, ?_⟩
    · rw [raggedLoop]
      simp only [bind, Except.bind, reshape, if_pos hl, h1, pure, Except.pure]
    · rw [List.map_cons, List.flatten_cons, h2, List.map_cons, List.sum_cons]
      show slice x c (c + s.prod) ++ _ = _
      rw [slice_eq, List.take_add, List.drop_drop]

theorem sum_shapes_prod {α : Type _} (X : List (NDArray α)) (h : ∀ a ∈ X, a.WF) :
    ((X.map NDArray.shape).map List.prod).sum = (X.map NDArray.data).flatten.length := by
  induction X with
  | nil => rfl
  | cons a X ih =>
    have ha : a.data.length = a.shape.prod := h a (by simp)
    rw [List.map_cons, List.map_cons, List.sum_cons, ih (fun b hb => h b (by simp [hb])),
      List.map_cons, List.flatten_cons, List.length_append, ha]

/-- **C26 (affine systems).**  For the system `M x + c` with a Jacobian that is `M`, a solver that
solves, and unit step size, the root finder succeeds for every iteration budget; from the first
iteration on the point is a root, and from the second on the flag is set (when the tolerance is
positive). -/
theorem C26_affine_one_step (n : Nat) (M : Matrix (Fin n) (Fin n) K) (c : Fin n → K)
    (P : NewtonProblem K) (x0 : List (NDArray K)) (hne : x0 ≠ []) (hwf : ∀ a ∈ x0, a.WF)
    (hn : (flatX x0).length = n) (parameters : Option (List (NDArray K)))
    (hF : ∀ X, (flatX X).length = n →
      P.F X (parameters.getD []) = .ok (List.ofFn (M.mulVec (toVec n (flatX X)) + c)))
    (JX : List (List K)) (hJ : ∀ X, (flatX X).length = n → P.J X (parameters.getD []) = .ok JX)
    (hsolve : ∀ b, b.length = n → ∃ d, P.solve JX b = .ok d ∧ d.length = n ∧
      M.mulVec (toVec n d) = toVec n b)
    (maxIter : Nat) (tol : K) (htol : 0 < tol) :
    ∃ H, newtonRoot (fieldArith K) P x0 parameters 1 maxIter tol = .ok H ∧ H.length = maxIter ∧
      (∀ s ∈ H, M.mulVec (toVec n (flatX s.X)) + c = 0) ∧
      ∀ (i : Nat) s, H[i + 1]? = some s → s.converged = true := by
  -- one iteration from any state of the right shape whose step size is 1 or whose point is a root
  have hz : ∀ r : Fin n → K, (fieldArith K).norm1 (List.ofFn r) = 0 ↔ r = 0 := by
    intro r
    rw [fieldArith_norm1, sum_abs_eq_zero]
    constructor
    · intro h
      funext i
      exact h (r i) (List.mem_ofFn.2 ⟨i, rfl⟩)
    · rintro rfl a ha
      obtain ⟨i, hi⟩ := List.mem_ofFn.1 ha
      exact hi.symm
  have hnn : ∀ r : List K, 0 ≤ (fieldArith K).norm1 r := by
    intro r; rw [fieldArith_norm1]; exact sum_abs_nonneg r
  have body : ∀ s : NewtonState K, s.X ≠ [] → (∀ a ∈ s.X, a.WF) → (flatX s.X).length = n →
      (s.stepSize = 1 ∨ M.mulVec (toVec n (flatX s.X)) + c = 0) →
      ∃ s', scanBody (fieldArith K) P 1 tol parameters.isSome (parameters.getD []) s = .ok s' ∧
        s'.X ≠ [] ∧ (∀ a ∈ s'.X, a.WF) ∧ (flatX s'.X).length = n ∧
        (s.converged = true → s'.X = s.X) ∧
        (s.converged = false → M.mulVec (toVec n (flatX s'.X)) + c = 0) ∧
        (s.converged = true → s'.converged = true) ∧
        (M.mulVec (toVec n (flatX s.X)) + c = 0 → s'.converged = true) := by
    intro s hsne hswf hsn hstep
    have hflat : flattenEquations s.X = .ok (flatX s.X) := npConcatenate_ok (by simpa using hsne)
    cases hcv : s.converged with
    | true =>
      refine ⟨{ s with stepSize := s.stepSize * 2⁻¹ }, ?_, hsne, hswf, hsn, fun _ => rfl,
        fun h => (by cases h), fun _ => hcv, fun _ => hcv⟩
      unfold scanBody
      simp only [hflat, bind, Except.bind, pure, Except.pure, hcv, if_true, noOp, checkConvergence,
        checkStepsize, fieldArith_irrefl, Bool.false_eq_true, if_false]
      rw [show flatX s.X = (s.X.map NDArray.data).flatten from rfl, ragged_flat _ hswf]
      cases s; simp_all [fieldArith]
    | false =>
      obtain ⟨d, hd, hdl, hMd⟩ := hsolve (List.ofFn (M.mulVec (toVec n (flatX s.X)) + c)) (by simp)
      rw [toVec_ofFn] at hMd
      have hnl : (List.zipWith (fieldArith K).sub (flatX s.X)
          (d.map ((fieldArith K).mul s.stepSize))).length = n := by simp [hsn, hdl]
      obtain ⟨newX, hR, hfl⟩ := ragged_ok_of_length (List.zipWith (fieldArith K).sub (flatX s.X)
          (d.map ((fieldArith K).mul s.stepSize))) (s.X.map NDArray.shape) 0
          (by rw [sum_shapes_prod _ hswf, hnl]; have : (s.X.map NDArray.data).flatten.length = n := hsn; omega)
      have hnewshape := raggedLoop_shapes _ _ _ _ hR
      have hfl' : flatX newX = List.zipWith (fieldArith K).sub (flatX s.X)
          (d.map ((fieldArith K).mul s.stepSize)) := by
        show (newX.map NDArray.data).flatten = _
        rw [hfl, List.drop_zero, sum_shapes_prod _ hswf]
        apply List.take_of_length_le
        have : (s.X.map NDArray.data).flatten.length = n := hsn
        omega
      have hnewn : (flatX newX).length = n := by rw [hfl']; exact hnl
      have hvec : toVec n (flatX newX) = toVec n (flatX s.X) - s.stepSize • toVec n d := by
        rw [hfl', toVec_zipWith _ _ _ _ hsn (by simp [hdl])]
        funext i
        have : toVec n (d.map ((fieldArith K).mul s.stepSize)) i = s.stepSize * toVec n d i := by
          unfold toVec
          rw [List.getElem?_map, List.getElem?_eq_getElem (by rw [hdl]; exact i.isLt)]
          rfl
        rw [this]
        rfl
      have hnew0 : M.mulVec (toVec n (flatX newX)) + c = 0 := by
        rcases hstep with h1 | h0
        · rw [hvec, h1, one_smul, Matrix.mulVec_sub, hMd]
          abel
        · rw [hvec, Matrix.mulVec_sub, Matrix.mulVec_smul, hMd, h0, smul_zero, sub_zero]
          exact h0
      have hnewne : newX ≠ [] := by
        intro h
        have := congrArg List.length hnewshape.1
        rw [h, List.length_map] at this
        exact hsne (List.eq_nil_of_length_eq_zero (by simpa using this.symm))
      unfold scanBody
      simp only [hflat, bind, Except.bind, pure, Except.pure, hcv, Bool.false_eq_true, if_false,
        newtonStep, evalMaybeExog_eq, checkConvergence, checkStepsize]
      rw [show flatTensorToRaggedList (flatX s.X) (s.X.map NDArray.shape) = .ok s.X from ragged_flat _ hswf]
      simp only [hF s.X hsn, hJ s.X hsn, hd, hdl, hsn, if_true]
      rw [show flatTensorToRaggedList (List.zipWith (fieldArith K).sub (flatX s.X)
          (d.map ((fieldArith K).mul s.stepSize))) (s.X.map NDArray.shape) = .ok newX from hR]
      simp only [hF newX hnewn, hnew0]
      rw [(hz 0).2 rfl]
      cases hlt : (fieldArith K).lt 0 ((fieldArith K).norm1
          (List.ofFn (M.mulVec (toVec n (flatX s.X)) + c))) with
      | true =>
        simp only [if_true]
        rw [show flatTensorToRaggedList (List.zipWith (fieldArith K).sub (flatX s.X)
          (d.map ((fieldArith K).mul s.stepSize))) (s.X.map NDArray.shape) = .ok newX from hR]
        refine ⟨_, rfl, hnewne, hnewshape.2, hnewn, fun h => by simp at h, fun _ => hnew0, fun h => by simp at h, ?_⟩
        intro h0
        rw [h0, (hz 0).2 rfl, fieldArith_irrefl] at hlt
        cases hlt
      | false =>
        simp only [Bool.false_eq_true, if_false]
        rw [show flatTensorToRaggedList (flatX s.X) (s.X.map NDArray.shape) = .ok s.X from ragged_flat _ hswf]
        have h00 : (fieldArith K).norm1 (List.ofFn (M.mulVec (toVec n (flatX s.X)) + c)) = 0 := by
          have h1 := hnn (List.ofFn (M.mulVec (toVec n (flatX s.X)) + c))
          simp only [fieldArith, decide_eq_false_iff_not, not_lt] at hlt
          exact le_antisymm hlt h1
        refine ⟨_, rfl, hsne, hswf, hsn, fun _ => rfl, fun _ => (hz _).1 h00, fun h => by simp at h, ?_⟩
        intro _
        show (fieldArith K).lt ((fieldArith K).norm1 (List.ofFn (M.mulVec (toVec n (flatX s.X)) + c))) tol
          = true
        rw [h00]
        simpa [fieldArith] using htol
  -- iterate from a root
  have fromRoot : ∀ k (s : NewtonState K), s.X ≠ [] → (∀ a ∈ s.X, a.WF) → (flatX s.X).length = n →
      M.mulVec (toVec n (flatX s.X)) + c = 0 →
      ∃ H, newtonScan (scanBody (fieldArith K) P 1 tol parameters.isSome (parameters.getD [])) k s = .ok H ∧
        H.length = k ∧ ∀ q ∈ H, M.mulVec (toVec n (flatX q.X)) + c = 0 ∧ q.converged = true := by
    intro k
    induction k with
    | zero => intro s _ _ _ _; exact ⟨[], rfl, rfl, by simp⟩
    | succ k ih =>
      intro s h1 h2 h3 h4
      obtain ⟨s', b1, b2, b3, b4, b5, b6, b7, b8⟩ := body s h1 h2 h3 (Or.inr h4)
      have hroot' : M.mulVec (toVec n (flatX s'.X)) + c = 0 := by
        cases hcv : s.converged with
        | true => rw [b5 hcv]; exact h4
        | false => exact b6 hcv
      obtain ⟨H, hH, hl, hq⟩ := ih s' b2 b3 b4 hroot'
      refine ⟨s' :: H, ?_, by rw [List.length_cons, hl], ?_⟩
      · rw [newtonScan]
        simp only [b1, hH, bind, Except.bind, pure, Except.pure]
      · intro q hq'
        rcases List.mem_cons.1 hq' with rfl | hq'
        · exact ⟨hroot', b8 h4⟩
        · exact hq q hq'
  cases maxIter with
  | zero => exact ⟨[], rfl, rfl, by simp, by simp⟩
  | succ k =>
    obtain ⟨s', b1, b2, b3, b4, b5, b6, b7, b8⟩ :=
      body (newtonStart x0 1) hne hwf hn (Or.inl rfl)
    have hroot' := b6 rfl
    obtain ⟨H, hH, hl, hq⟩ := fromRoot k s' b2 b3 b4 hroot'
    refine ⟨s' :: H, ?_, by rw [List.length_cons, hl], ?_, ?_⟩
    · unfold newtonRoot
      rw [newtonScan]
      simp only [b1, hH, bind, Except.bind, pure, Except.pure]
    · intro q hq'
      rcases List.mem_cons.1 hq' with rfl | hq'
      · exact hroot'
      · exact (hq q hq').1
    · intro i s hs
      rw [List.getElem?_cons_succ] at hs
      exact (hq s (List.mem_of_getElem? hs)).2

end Affine

/-! Concrete runs: `x² - 2` from `x = 1` (three iterations, exact rationals), with a Jacobian that is
too small by a factor, so that steps are rejected and halved. -/

def exNewton (scale : ℚ) : NewtonProblem ℚ where
  F := fun X _ => .ok ((X.map NDArray.data).flatten.map fun x => x * x - 2)
  J := fun X _ => .ok ((X.map NDArray.data).flatten.map fun x => [2 * x * scale])
  solve := fun A b => .ok (List.zipWith (fun r y => y / (r.headD 1)) A b)

example : ((newtonRoot (fieldArith ℚ) (exNewton 1) [⟨[], [1]⟩] none 1 3 (1 / 100)).map
    fun H => H.map fun s => ((s.X.map NDArray.data).flatten, s.converged, s.stepSize, s.nSteps))
    = .ok [([3 / 2], false, 1, 1), ([17 / 12], false, 1, 2), ([577 / 408], true, 1, 2)] := by decide +kernel

example : ((newtonRoot (fieldArith ℚ) (exNewton (1 / 4)) [⟨[], [1]⟩] none 1 3 (1 / 100)).map
    fun H => H.map fun s => ((s.X.map NDArray.data).flatten, s.converged, s.stepSize, s.nSteps))
    = .ok [([1], false, 1 / 2, 1), ([1], false, 1 / 4, 2), ([3 / 2], false, 1, 3)] := by decide +kernel

/-- The affine theorem applies to `2 x - 6`. -/
example : ∃ H, newtonRoot (fieldArith ℚ)
    { F := fun X _ => .ok (List.ofFn (((2 : ℚ) • (1 : Matrix (Fin 1) (Fin 1) ℚ)).mulVec (toVec 1 (flatX X)) + fun _ => -6))
      J := fun _ _ => .ok [[2]], solve := fun _ b => .ok (b.map (· / 2)) } [⟨[], [1]⟩] none 1 5 1 = .ok H ∧
    H.length = 5 ∧ (∀ s ∈ H, ((2 : ℚ) • (1 : Matrix (Fin 1) (Fin 1) ℚ)).mulVec (toVec 1 (flatX s.X)) + (fun _ => -6) = 0) ∧
    ∀ (i : Nat) s, H[i + 1]? = some s → s.converged = true :=
  C26_affine_one_step 1 ((2 : ℚ) • (1 : Matrix (Fin 1) (Fin 1) ℚ)) (fun _ => -6) _ [⟨[], [1]⟩] (by simp)
    (by intro a ha; simp at ha; subst ha; rfl) rfl none (fun X _ => rfl) [[2]] (fun X _ => rfl)
    (by
      intro b hb
      refine ⟨b.map (· / 2), rfl, by simp [hb], ?_⟩
      rw [Matrix.smul_mulVec, Matrix.one_mulVec]
      funext i
      have : i.val < b.length := by rw [hb]; exact i.isLt
      simp only [toVec, Pi.smul_apply, List.getElem?_map, List.getElem?_eq_getElem this, smul_eq_mul,
        Option.map_some, Option.getD_some]
      ring) 5 1 (by norm_num)

end Verif
