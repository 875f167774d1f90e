import Verif.Model.RebalanceDerivs
import Verif.Props.CrossEntropy
import Mathlib.Analysis.Calculus.Deriv.Abs
import Mathlib.Analysis.SpecialFunctions.Log.Deriv

/-!
# C90: the derivatives that the rebalancing optimizer is given
-/

namespace Verif

variable {ι : Type} [DecidableEq ι]

/-! ### Options -/

/-- **C90** (options): `balance_SAM(use_cvxpy=False)` is refused exactly when the method is not one of the
three that take constraints, or when `trust-constr` is to use second derivatives without the gradient. -/
theorem C90_refused (method : Option Str) (g h hp c : Bool) :
    (∃ e, minimizeArgs method g h hp c = .error e) ↔
      (method.getD "SLSQP".toList ∉ ["SLSQP".toList, "COBYLA".toList, "trust-constr".toList]) ∨
      (method = some "trust-constr".toList ∧ g = false ∧ (h = true ∨ hp = true)) := by
  unfold minimizeArgs crossentropySetup
  dsimp only
  by_cases hm : method.getD "SLSQP".toList ∈ ["SLSQP".toList, "COBYLA".toList, "trust-constr".toList]
  · by_cases ht : method.getD "SLSQP".toList = "trust-constr".toList
    · have hmt : method = some "trust-constr".toList := by
        cases method with
        | none => exact absurd ht (by decide)
        | some m => simpa using ht
      subst hmt
      cases g <;> cases h <;> cases hp <;> simp
    · have hmt : method ≠ some "trust-constr".toList := by
        rintro rfl; exact ht rfl
      have hb : (method.getD "SLSQP".toList != "trust-constr".toList) = true := by simpa using ht
      have hc : [("SLSQP".toList : Str), "COBYLA".toList, "trust-constr".toList].contains
          (method.getD "SLSQP".toList) = true := by simpa using hm
      rw [hc, hb]
      cases g <;> cases h <;> cases hp <;> simp_all
  · have hc : [("SLSQP".toList : Str), "COBYLA".toList, "trust-constr".toList].contains
        (method.getD "SLSQP".toList) = false := by simpa using hm
    rw [hc]
    simp_all

example : ∃ e, minimizeArgs (some "trust-constr".toList) false false true true = .error e :=
  (C90_refused _ _ _ _ _).mpr (Or.inr ⟨rfl, rfl, Or.inr rfl⟩)

/-- **C90** (options): all refusals are `ValueError`s. -/
theorem C90_refused_kind (method : Option Str) (g h hp c : Bool) (e : PyErr)
    (he : minimizeArgs method g h hp c = .error e) : e = .valueError := by
  unfold minimizeArgs crossentropySetup at he
  dsimp only at he
  split at he
  · injection he with he; exact he.symm
  · split at he
    · rename_i e' hs
      injection he with he
      subst he
      split_ifs at hs <;> first | exact (Except.error.inj hs).symm | cases hs
    · cases he

/-- **C90** (options): when the call is accepted, the optimizer gets the method and the first derivatives
that were asked for; the second derivatives that were asked for with `trust-constr`, and none with the
other two methods. -/
theorem C90_passed (method : Option Str) (g h hp c : Bool) (a : MinimizeArgs)
    (ha : minimizeArgs method g h hp c = .ok a) :
    a.method = method.getD "SLSQP".toList ∧ a.jac = g ∧ a.constraintJac = c ∧
      (a.hess = true ↔ h = true ∧ method = some "trust-constr".toList) ∧
      (a.hessp = true ↔ hp = true ∧ method = some "trust-constr".toList) := by
  unfold minimizeArgs crossentropySetup at ha
  dsimp only at ha
  split at ha
  · simp at ha
  · by_cases ht : method.getD "SLSQP".toList = "trust-constr".toList
    · have hmt : method = some "trust-constr".toList := by
        cases method with
        | none => exact absurd ht (by decide)
        | some m => simpa using ht
      subst hmt
      cases g <;> cases h <;> cases hp <;> simp at ha <;> subst ha <;> simp
    · have hmt : method ≠ some "trust-constr".toList := by
        rintro rfl; exact ht rfl
      have hb : (method.getD "SLSQP".toList != "trust-constr".toList) = true := by simpa using ht
      rw [hb] at ha
      cases g <;> cases h <;> cases hp <;> simp at ha <;> subst ha <;> simp_all

/-- **C90** (options, counterexample): with `trust-constr` and everything else but the gradient left at
its default, the call is refused. -/
theorem C90_no_gradient_counterexample :
    minimizeArgs (some "trust-constr".toList) false false true true = .error .valueError := by
  decide

/-! ### The derivatives -/

theorem set_getElem_self (x : List ℝ) (k : Nat) (hk : k < x.length) : x.set k x[k] = x := by
  simp

theorem getElem_zipWith_set (f : ℝ → ℝ → ℝ) : ∀ (x v : List ℝ) (k : Nat) (t : ℝ) (hk : k < x.length)
    (hv : k < v.length), (List.zipWith f (x.set k t) v).sum =
      (List.zipWith f x v).sum + (f t v[k] - f x[k] v[k])
  | a :: x, b :: v, 0, t, _, _ => by simp; ring
  | a :: x, b :: v, k + 1, t, hk, hv => by
    have := getElem_zipWith_set f x v k t (by simpa using hk) (by simpa using hv)
    simp only [List.set_cons_succ, List.zipWith_cons_cons, List.sum_cons, List.getElem_cons_succ, this]
    ring

theorem ceTerm_hasDerivAt (v a : ℝ) (ha : 0 ≤ a) :
    HasDerivAt (fun t => t * (Real.log (t + 1 / 10 ^ 10) - Real.log v))
      ((Real.log (a + 1 / 10 ^ 10) - Real.log v) + a / (a + 1 / 10 ^ 10)) a := by
  have hp : a + 1 / 10 ^ 10 ≠ 0 := by positivity
  have h1 : HasDerivAt (fun t : ℝ => t + 1 / 10 ^ 10) 1 a := (hasDerivAt_id a).add_const _
  have h2 := (h1.log hp).sub_const (Real.log v)
  have h3 := (hasDerivAt_id a).mul h2
  refine h3.congr_deriv ?_
  simp only [id]
  ring

/-- **C90**: at every vector that the bounds allow, the gradient that the optimizer is given is the
gradient of the objective, also at cells that are zero. -/
theorem C90_objective_grad (df : Sam ι ℝ) (x : List ℝ) (h0 : ∀ a ∈ x, 0 ≤ a) (k : Nat)
    (hk : k < x.length) (hv : k < (maskValues (fun v => decide (0 < v)) df.values).length) :
    HasDerivAt (fun t => scipyObjective df (x.set k t))
      ((gradCE df x)[k]'(by simp [gradCE]; exact ⟨hk, hv⟩)) x[k] := by
  have h1 : (fun t => scipyObjective df (x.set k t)) = fun t =>
      scipyObjective df x + (t * (Real.log (t + 1 / 10 ^ 10) -
        Real.log (maskValues (fun v => decide (0 < v)) df.values)[k]) -
        x[k] * (Real.log (x[k] + 1 / 10 ^ 10) -
          Real.log (maskValues (fun v => decide (0 < v)) df.values)[k])) := by
    funext t
    exact getElem_zipWith_set _ x _ k t hk hv
  rw [h1]
  have h2 := ((ceTerm_hasDerivAt (maskValues (fun v => decide (0 < v)) df.values)[k] x[k]
    (h0 _ (List.getElem_mem hk))).sub_const (x[k] * (Real.log (x[k] + 1 / 10 ^ 10) -
          Real.log (maskValues (fun v => decide (0 < v)) df.values)[k]))).const_add (scipyObjective df x)
  refine h2.congr_deriv ?_
  simp [gradCE]

theorem gradTerm_hasDerivAt (v a : ℝ) (ha : 0 ≤ a) :
    HasDerivAt (fun t => (Real.log (t + 1 / 10 ^ 10) - Real.log v) + t / (t + 1 / 10 ^ 10))
      (hessTerm a) a := by
  have hp : a + 1 / 10 ^ 10 ≠ 0 := by positivity
  have h1 : HasDerivAt (fun t : ℝ => t + 1 / 10 ^ 10) 1 a := (hasDerivAt_id a).add_const _
  have h2 := (h1.log hp).sub_const (Real.log v)
  have h3 := h2.add ((hasDerivAt_id a).div h1 hp)
  refine h3.congr_deriv ?_
  simp only [id, hessTerm]
  ring

/-- **C90**: the Hessian that the optimizer is given holds the derivatives of the gradient. -/
theorem C90_objective_hess (df : Sam ι ℝ) (x : List ℝ) (h0 : ∀ a ∈ x, 0 ≤ a) (l k : Nat)
    (hl : l < x.length) (hk : k < x.length)
    (hv : x.length = (maskValues (fun v => decide (0 < v)) df.values).length) :
    HasDerivAt (fun t => (gradCE df (x.set k t))[l]'(by simp [gradCE, ← hv, hl]))
      (hessCE x l k) x[k] := by
  by_cases hlk : l = k
  · subst hlk
    have h := gradTerm_hasDerivAt ((maskValues (fun v => decide (0 < v)) df.values)[l]'(hv ▸ hl)) x[l]
      (h0 _ (List.getElem_mem hl))
    have hd : hessCE x l l = hessTerm x[l] := by simp [hessCE, hl]
    rw [hd]
    refine h.congr_of_eventuallyEq (Filter.Eventually.of_forall fun t => ?_)
    simp [gradCE]
  · have hd : hessCE x l k = 0 := by simp [hessCE, hlk]
    rw [hd]
    refine (hasDerivAt_const x[k] ((gradCE df x)[l]'(by simp [gradCE, ← hv, hl]))).congr_of_eventuallyEq
      (Filter.Eventually.of_forall fun t => ?_)
    have : k ≠ l := fun h => hlk h.symm
    simp [gradCE, List.getElem_set, this]

/-- **C90**: the Hessian-vector product that the optimizer is given is the product of the Hessian and the
vector. -/
theorem C90_objective_hessp (x p : List ℝ) (hp : p.length = x.length) (l : Nat) (hl : l < x.length) :
    (hesspCE x p)[l]? = some (∑ k ∈ Finset.range x.length, hessCE x l k * p.getD k 0) := by
  have h1 : (∑ k ∈ Finset.range x.length, hessCE x l k * p.getD k 0) = hessTerm x[l] * p[l] := by
    rw [Finset.sum_eq_single l]
    · simp [hessCE, hl, hp]
    · intro k _ hk
      simp [hessCE, Ne.symm hk]
    · intro h; exact absurd (Finset.mem_range.mpr hl) h
  rw [h1]
  simp [hesspCE, hl, hp]

theorem sum_set_real : ∀ (x : List ℝ) (k : Nat) (t : ℝ) (hk : k < x.length),
    (x.set k t).sum = x.sum + (t - x[k])
  | a :: x, 0, t, _ => by simp; ring
  | a :: x, k + 1, t, hk => by
    have := sum_set_real x k t (by simpa using hk)
    simp only [List.set_cons_succ, List.sum_cons, List.getElem_cons_succ, this]
    ring

/-- **C90**: the gradient of the second constraint is right everywhere. -/
theorem C90_constraint_two_grad (x : List ℝ) (k : Nat) (hk : k < x.length) :
    HasDerivAt (fun t => constraintTwo (x.set k t)) ((gradTwo x)[k]'(by simpa [gradTwo] using hk)) x[k] := by
  have h1 : (fun t => constraintTwo (x.set k t)) = fun t => (x.sum - 1 - x[k]) + t := by
    funext t
    unfold constraintTwo
    rw [sum_set_real x k t hk]
    ring
  rw [h1]
  refine ((hasDerivAt_id x[k]).const_add _).congr_deriv ?_
  simp [gradTwo]

/-! ### The first constraint -/

theorem putAt_set : ∀ (pos : List (Nat × Nat)) (x : List ℝ) (k : Nat) (t : ℝ) (ij q : Nat × Nat)
    (hk : k < x.length), pos.Nodup → pos[k]? = some ij →
    putAt pos (x.set k t) q = putAt pos x q + if q = ij then t - x[k] else 0
  | [], x, k, t, ij, q, hk, _, h => by simp at h
  | a :: pos, w :: x, 0, t, ij, q, _, hn, h => by
    have : a = ij := by simpa using h
    subst this
    have hnot : a ∉ pos := (List.nodup_cons.mp hn).1
    simp only [List.set_cons_zero, putAt_cons, List.getElem_cons_zero]
    by_cases hq : q = a
    · subst hq; simp
    · have : ¬ a = q := fun e => hq e.symm
      simp [hq, this]
  | a :: pos, w :: x, k + 1, t, ij, q, hk, hn, h => by
    have ih := putAt_set pos x k t ij q (by simpa using hk) (List.nodup_cons.mp hn).2 (by simpa using h)
    have hmem : ij ∈ pos := List.mem_of_getElem? (by simpa using h)
    have hne : a ≠ ij := fun e => (List.nodup_cons.mp hn).1 (e ▸ hmem)
    simp only [List.set_cons_succ, putAt_cons, List.getElem_cons_succ, ih]
    by_cases hq : a = q
    · subst hq; simp [hne]
    · simp [hq]

/-- By how much a change of the cell `(i, j)` moves the gap of account `m`. -/
def gapMove (ij : Nat × Nat) (m : Nat) : ℝ := (if m = ij.2 then 1 else 0) - (if m = ij.1 then 1 else 0)

omit [DecidableEq ι] in
theorem samGap_set (df : Sam ι ℝ) (x : List ℝ) (k : Nat) (t : ℝ) (ij : Nat × Nat) (hk : k < x.length)
    (hij : (posS df)[k]? = some ij) (h1 : ij.1 < df.rows.length) (h2 : ij.2 < df.rows.length) (m : Nat) :
    samGap df (x.set k t) m = samGap df x m + (t - x[k]) * gapMove ij m := by
  have hn : (posS df).Nodup := nodup_maskPositions _ _
  unfold samGap gapMove
  simp only [scipy_Z, sum_map_range, putAt_set (posS df) x k t ij _ hk hn hij, Finset.sum_add_distrib]
  have e1 : (∑ i ∈ Finset.range df.rows.length, if (i, m) = ij then t - x[k] else 0) =
      if m = ij.2 then t - x[k] else 0 := by
    by_cases hm : m = ij.2
    · rw [if_pos hm, Finset.sum_eq_single ij.1]
      · simp [hm]
      · intro b _ hb
        rw [if_neg]; rintro rfl; exact hb rfl
      · intro h; exact absurd (Finset.mem_range.mpr h1) h
    · rw [if_neg hm]
      refine Finset.sum_eq_zero fun i _ => if_neg ?_
      rintro rfl; exact hm rfl
  have e2 : (∑ j ∈ Finset.range df.rows.length, if (m, j) = ij then t - x[k] else 0) =
      if m = ij.1 then t - x[k] else 0 := by
    by_cases hm : m = ij.1
    · rw [if_pos hm, Finset.sum_eq_single ij.2]
      · simp [hm]
      · intro b _ hb
        rw [if_neg]; rintro rfl; exact hb rfl
      · intro h; exact absurd (Finset.mem_range.mpr h2) h
    · rw [if_neg hm]
      refine Finset.sum_eq_zero fun i _ => if_neg ?_
      rintro rfl; exact hm rfl
  rw [e1, e2]
  split_ifs <;> ring

omit [DecidableEq ι] in
theorem posS_lt (df : Sam ι ℝ) (hs : df.rows = df.cols) (k : Nat) (ij : Nat × Nat)
    (hij : (posS df)[k]? = some ij) : ij.1 < df.rows.length ∧ ij.2 < df.rows.length := by
  have := maskPositions_lt _ _ _ (values_rows df) ij (List.mem_of_getElem? hij)
  rw [values_length, ← hs] at this
  exact this

theorem sum_gapMove (n : Nat) (ij : Nat × Nat) (h1 : ij.1 < n) (h2 : ij.2 < n) (s : Nat → ℝ) :
    (∑ m ∈ Finset.range n, s m * gapMove ij m) = s ij.2 - s ij.1 := by
  unfold gapMove
  simp only [mul_sub, Finset.sum_sub_distrib, mul_ite, mul_one, mul_zero]
  rw [Finset.sum_ite_eq' , Finset.sum_ite_eq']
  simp [h1, h2]

/-- **C90** (partial): the gradient of the first constraint is right at a cell on the diagonal, and at a
cell whose two accounts are both out of balance. -/
theorem C90_constraint_one_grad_partial (df : Sam ι ℝ) (hs : df.rows = df.cols) (x : List ℝ) (k : Nat)
    (ij : Nat × Nat) (hk : k < x.length)
    (hij : (maskPositions (fun v => decide (0 < v)) df.values)[k]? = some ij)
    (hgap : ij.1 = ij.2 ∨ (samGap df x ij.1 ≠ 0 ∧ samGap df x ij.2 ≠ 0)) :
    ∃ g, (gradOne df x)[k]? = some g ∧ HasDerivAt (fun t => constraintOne df (x.set k t)) g x[k] := by
  obtain ⟨h1, h2⟩ := posS_lt df hs k ij hij
  refine ⟨_, by simp [gradOne, hij]; rfl, ?_⟩
  have hf : (fun t => constraintOne df (x.set k t)) = fun t =>
      ∑ m ∈ Finset.range df.rows.length, |samGap df x m + (t - x[k]) * gapMove ij m| := by
    funext t
    unfold constraintOne
    rw [sum_map_range]
    exact Finset.sum_congr rfl fun m _ => by rw [samGap_set df x k t ij hk hij h1 h2 m]
  rw [hf]
  have hterm : ∀ m ∈ Finset.range df.rows.length,
      HasDerivAt (fun t => |samGap df x m + (t - x[k]) * gapMove ij m|)
        (((SignType.sign (samGap df x m) : SignType) : ℝ) * gapMove ij m) x[k] := by
    intro m _
    by_cases hz : gapMove ij m = 0
    · rw [hz]
      simpa using hasDerivAt_const x[k] |samGap df x m|
    · have hm : samGap df x m ≠ 0 := by
        rcases hgap with h | ⟨ha, hb⟩
        · exact absurd (by simp [gapMove, h]) hz
        · by_cases e2 : m = ij.2
          · rw [e2]; exact hb
          · by_cases e1 : m = ij.1
            · rw [e1]; exact ha
            · exact absurd (by simp [gapMove, e1, e2]) hz
      have hin : HasDerivAt (fun t => samGap df x m + (t - x[k]) * gapMove ij m) (gapMove ij m) x[k] := by
        have := (((hasDerivAt_id x[k]).sub_const x[k]).mul_const (gapMove ij m)).const_add (samGap df x m)
        simpa using this
      have hne : samGap df x m + (x[k] - x[k]) * gapMove ij m ≠ 0 := by simpa using hm
      have := HasDerivAt.comp x[k] (hasDerivAt_abs hne) hin
      refine this.congr_deriv ?_
      simp
  refine (HasDerivAt.fun_sum hterm).congr_deriv ?_
  exact sum_gapMove _ ij h1 h2 _

omit [DecidableEq ι] in
/-- **C90** (the full statement is false): at every vector that meets the constraints the first constraint
has no derivative with respect to any cell off the diagonal, while the gradient that the optimizer is given
there is zero in every entry. -/
theorem C90_constraint_one_counterexample (df : Sam ι ℝ) (hs : df.rows = df.cols) (x : List ℝ)
    (hx : ScipyConstraints df x) :
    (∀ g ∈ gradOne df x, g = 0) ∧
    ∀ (k : Nat) (ij : Nat × Nat) (hk : k < x.length),
      (maskPositions (fun v => decide (0 < v)) df.values)[k]? = some ij → ij.1 ≠ ij.2 →
      ¬ DifferentiableAt ℝ (fun t => constraintOne df (x.set k t)) x[k] := by
  have hgap : ∀ m < df.rows.length, samGap df x m = 0 := by
    have h := (scipy_iff df x).mp hx
    intro m hm
    have := h.2.2.2 m hm
    unfold samGap
    simp only [scipy_Z, sum_map_range]
    exact sub_eq_zero.mpr this
  refine ⟨?_, ?_⟩
  · intro g hg
    obtain ⟨ij, hmem, rfl⟩ := List.mem_map.mp hg
    obtain ⟨k, hk⟩ := List.getElem?_of_mem hmem
    obtain ⟨h1, h2⟩ := posS_lt df hs k ij hk
    simp [hgap _ h1, hgap _ h2]
  · intro k ij hk hij hne hd
    obtain ⟨h1, h2⟩ := posS_lt df hs k ij hij
    have hf : (fun t => constraintOne df (x.set k t)) = fun t => 2 * |t - x[k]| := by
      funext t
      unfold constraintOne
      rw [sum_map_range]
      have e : ∀ m ∈ Finset.range df.rows.length, |samGap df (x.set k t) m| =
          (gapMove ij m * gapMove ij m) * |t - x[k]| := by
        intro m hm
        rw [samGap_set df x k t ij hk hij h1 h2 m, hgap m (Finset.mem_range.mp hm), zero_add, abs_mul]
        have : |gapMove ij m| = gapMove ij m * gapMove ij m := by
          unfold gapMove
          split_ifs with e1 e2 <;> norm_num
        rw [this, mul_comm]
      rw [Finset.sum_congr rfl e, ← Finset.sum_mul, sum_gapMove _ ij h1 h2]
      have : gapMove ij ij.2 - gapMove ij ij.1 = 2 := by
        simp [gapMove, hne, hne.symm]; norm_num
      rw [this]
    rw [hf] at hd
    have h3 : DifferentiableAt ℝ (fun s : ℝ => |s|) 0 := by
      have hshift : DifferentiableAt ℝ (fun s : ℝ => s + x[k]) 0 := by fun_prop
      have hd' : DifferentiableAt ℝ (fun t => 2 * |t - x[k]|) ((fun s : ℝ => s + x[k]) 0) := by
        simpa using hd
      have := (hd'.comp (0 : ℝ) hshift).const_mul (1 / 2 : ℝ)
      refine this.congr_of_eventuallyEq (Filter.Eventually.of_forall fun s => ?_)
      simp
    exact not_differentiableAt_abs_zero h3

/-- The first-order condition that a vector with all entries strictly inside the bounds has to meet, with
the derivatives that the optimizer is given: the gradient of the objective is a combination of the gradients
of the constraints. -/
def FirstOrder (df : Sam ι ℝ) (x : List ℝ) : Prop :=
  ∃ l1 l2 : ℝ, ∀ (k : Nat) (g g1 g2 : ℝ), (gradCE df x)[k]? = some g → (gradOne df x)[k]? = some g1 →
    (gradTwo x)[k]? = some g2 → g = l1 * g1 + l2 * g2

/-- **C90**: among the vectors that meet the constraints, the first-order condition with the given
derivatives holds only where the gradient of the objective is the same for every cell: the requirement
that the SAM be balanced has dropped out of it. -/
theorem C90_first_order_iff (df : Sam ι ℝ) (hs : df.rows = df.cols) (x : List ℝ)
    (hx : ScipyConstraints df x) :
    FirstOrder df x ↔ ∃ c, ∀ g ∈ gradCE df x, g = c := by
  have h0 := (C90_constraint_one_counterexample df hs x hx).1
  have hlen : (gradOne df x).length = x.length := by
    rw [hx.1]; simp [gradOne, mask_length]
  have hlen2 : (gradCE df x).length = x.length := by
    simp [gradCE, hx.1]
  constructor
  · rintro ⟨l1, l2, h⟩
    refine ⟨l2, fun g hg => ?_⟩
    obtain ⟨k, hk⟩ := List.getElem?_of_mem hg
    have hkl : k < x.length := by
      have := (List.getElem?_eq_some_iff.mp hk).1
      omega
    have e1 : (gradOne df x)[k]? = some 0 := by
      rw [List.getElem?_eq_getElem (by omega), h0 _ (List.getElem_mem _)]
    have := h k g 0 1 hk e1 (by simp [gradTwo, hkl])
    simpa using this
  · rintro ⟨c, h⟩
    refine ⟨0, c, fun k g g1 g2 hg _ h2 => ?_⟩
    have e2 : g2 = 1 := by
      simp only [gradTwo, List.getElem?_map, Option.map_eq_some_iff] at h2
      obtain ⟨_, _, rfl⟩ := h2; rfl
    rw [h g (List.mem_of_getElem? hg), e2]; ring

/-! ### A SAM whose exact solution fails the first-order condition -/

/-- Two accounts; the first pays three times what it gets. -/
noncomputable def lopsided : Sam Nat ℝ where
  rows := [0, 1]
  cols := [0, 1]
  rowLevels := 1
  colLevels := 1
  cell := fun r c => if r = 0 ∧ c = 1 then 3 / 4 else if r = 1 ∧ c = 0 then 1 / 4 else 0

theorem lopsided_values : lopsided.values = [[0, 3 / 4], [1 / 4, 0]] := by
  simp [Sam.values, lopsided]

theorem lopsided_positions :
    maskPositions (fun v => decide (0 < v)) lopsided.values = [(0, 1), (1, 0)] := by
  rw [lopsided_values]
  norm_num [maskPositions, List.zipIdx, List.filterMap_cons]

theorem lopsided_mask : maskValues (fun v => decide (0 < v)) lopsided.values = [3 / 4, 1 / 4] := by
  rw [lopsided_values]
  norm_num [maskValues]

theorem lopsided_constraints (x : List ℝ) : ScipyConstraints lopsided x ↔ x = [1 / 2, 1 / 2] := by
  rw [scipy_iff]
  unfold Feas
  rw [posS, lopsided_positions]
  constructor
  · rintro ⟨h1, h2, -, h4⟩
    match x, h1 with
    | [a, b], _ =>
      have h := h4 0 (by simp [lopsided])
      simp [lopsided, putAt_cons, putAt_nil] at h h2
      have : a = 1 / 2 := by linarith
      have : b = 1 / 2 := by linarith
      simp [*]
  · rintro rfl
    refine ⟨rfl, by norm_num, by norm_num, ?_⟩
    intro k hk
    have : k = 0 ∨ k = 1 := by simp [lopsided] at hk; omega
    rcases this with rfl | rfl <;>
      simp [lopsided, putAt_cons, putAt_nil]

/-- **C90** (counterexample): the derivatives do not lead to the solution.  For this SAM the optimizer's
problem has exactly one solution, strictly inside the bounds, and the first-order condition with the given
derivatives fails there. -/
theorem C90_first_order_counterexample :
    ScipyOptimal lopsided [1 / 2, 1 / 2] ∧ (∀ x, ScipyOptimal lopsided x → x = [1 / 2, 1 / 2]) ∧
      ¬ FirstOrder lopsided [1 / 2, 1 / 2] := by
  have hc : ScipyConstraints lopsided [1 / 2, 1 / 2] := (lopsided_constraints _).mpr rfl
  refine ⟨⟨hc, fun y hy => ?_⟩, fun x hx => (lopsided_constraints x).mp hx.1, ?_⟩
  · rw [(lopsided_constraints y).mp hy]
  · rw [C90_first_order_iff lopsided rfl _ hc]
    rintro ⟨c, h⟩
    simp only [gradCE, lopsided_mask, List.zipWith_cons_cons, List.zipWith_nil_right, List.mem_cons,
      List.not_mem_nil, or_false, forall_eq_or_imp, forall_eq] at h
    obtain ⟨h1, h2⟩ := h
    have : Real.log (3 / 4) = Real.log (1 / 4) := by linarith
    have := Real.log_injOn_pos (Set.mem_Ioi.mpr (by norm_num)) (Set.mem_Ioi.mpr (by norm_num)) this
    norm_num at this

example : ∃ g, (gradOne lopsided [3 / 4, 1 / 4])[0]? = some g ∧
    HasDerivAt (fun t => constraintOne lopsided ([3 / 4, 1 / 4].set 0 t)) g (3 / 4) := by
  refine C90_constraint_one_grad_partial lopsided rfl [3 / 4, 1 / 4] 0 (0, 1) (by simp)
    (by rw [lopsided_positions]; rfl) (Or.inr ⟨?_, ?_⟩) <;>
  · unfold samGap
    simp only [scipy_Z, posS, lopsided_positions, sum_map_range]
    norm_num [lopsided, Finset.sum_range_succ, putAt_cons, putAt_nil]

example : ¬ DifferentiableAt ℝ (fun t => constraintOne lopsided ([1 / 2, 1 / 2].set 0 t)) (1 / 2) :=
  (C90_constraint_one_counterexample lopsided rfl [1 / 2, 1 / 2] ((lopsided_constraints _).mpr rfl)).2 0 (0, 1)
    (by simp) (by rw [lopsided_positions]; rfl) (by decide)

example : ∃ g, HasDerivAt (fun t => scipyObjective lopsided ([0, 1].set 0 t)) g 0 := ⟨_,
  C90_objective_grad lopsided [0, 1] (by simp) 0 (by simp) (by rw [lopsided_mask]; simp)⟩

end Verif
