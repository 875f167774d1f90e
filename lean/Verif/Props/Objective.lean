import Verif.Props.Jacobian
import Verif.Lemmas.Expand
import Mathlib.Analysis.Calculus.Deriv.Basic
import Mathlib.Algebra.Order.BigOperators.Group.List

/-!
# C37: objective, gradient, Hessian and Hessian-vector product

`squaredLoss`, `makeGradient`, `makeJacobian` of the gradient and `makeHessp` are the four expressions
compiled when `"minimize"` is requested.
-/

namespace Verif

open SymExpr

variable {α : Type} [DecidableEq α]

theorem sum_sq_eq_zero {β : Type} (f : β → ℝ) (l : List β) :
    0 ≤ (l.map fun b => f b ^ 2).sum ∧
      ((l.map fun b => f b ^ 2).sum = 0 ↔ ∀ b ∈ l, f b = 0) := by
  induction l with
  | nil => simp
  | cons a l ih =>
    have h : 0 ≤ f a ^ 2 := by positivity
    constructor
    · simp only [List.map_cons, List.sum_cons]; linarith [ih.1]
    · simp only [List.map_cons, List.sum_cons, List.mem_cons, forall_eq_or_imp]
      constructor
      · intro h0
        have h1 : f a ^ 2 = 0 := by linarith [ih.1]
        have h2 : (l.map fun b => f b ^ 2).sum = 0 := by linarith [ih.1]
        exact ⟨by simpa using h1, ih.2.mp h2⟩
      · rintro ⟨h1, h2⟩
        rw [ih.2.mpr h2, h1]; simp

omit [DecidableEq α] in
/-- **C37 (objective).**  The objective is half the sum of squared residuals; it is never negative and
is zero exactly when every equation holds. -/
theorem C37_objective (eqs : List (SymExpr α)) (env : α → ℝ) :
    (squaredLoss eqs).eval env = (1 / 2) * (eqs.map fun e => e.eval env ^ 2).sum ∧
    0 ≤ (squaredLoss eqs).eval env ∧
    ((squaredLoss eqs).eval env = 0 ↔ ∀ e ∈ eqs, e.eval env = 0) := by
  have h := eval_squaredLoss env eqs
  have h2 := sum_sq_eq_zero (fun e : SymExpr α => e.eval env) eqs
  refine ⟨h, ?_, ?_⟩
  · rw [h]; linarith [h2.1]
  · rw [h, ← h2.2]
    constructor
    · intro h0; linarith
    · intro h0; rw [h0]; simp

/-- `x - 2 = 0` holds at `exampleEnv`, `x - y = 0` does not. -/
example : (squaredLoss [SymExpr.add (.sym "x") (.num (-2))]).eval exampleEnv = 0 ∧
    (squaredLoss [SymExpr.add (.sym "x") (.num (-2)),
      .add (.sym "x") (.mul (.num (-1)) (.sym "y"))]).eval exampleEnv ≠ 0 := by
  constructor
  · rw [(C37_objective _ _).2.2]; simp [eval, exampleEnv]
  · intro h
    rw [(C37_objective _ _).2.2] at h
    have := h (.add (.sym "x") (.mul (.num (-1)) (.sym "y"))) (by simp)
    rw [eval, eval, eval, eval, eval, exampleEnv, if_pos rfl, exampleEnv, if_neg (by decide)] at this
    norm_num at this

/-- **C37 (gradient).**  The gradient has one entry per symbol.  Entry `j` is the partial derivative of
the objective with respect to symbol `j`, and it is `Σ rᵢ · ∂rᵢ/∂xⱼ`, that is `Jᵀ r`. -/
theorem C37_gradient (eqs : List (SymExpr α)) (wrt : List α) (env : α → ℝ)
    (hreg : ∀ e ∈ eqs, Regular env e) :
    (makeGradient (squaredLoss eqs) wrt).length = wrt.length ∧
    ∀ (j : Nat) (x : α), wrt[j]? = some x →
      ∃ g, (makeGradient (squaredLoss eqs) wrt)[j]? = some g ∧
        HasPartial (fun env => (squaredLoss eqs).eval env) x (g.eval env) env ∧
        ∀ d : SymExpr α → ℝ,
          (∀ e ∈ eqs, HasPartial (fun env => e.eval env) x (d e) env) →
          g.eval env = (eqs.map fun e => e.eval env * d e).sum := by
  refine ⟨by simp [makeGradient], ?_⟩
  intro j x hx
  refine ⟨diff x (squaredLoss eqs), by simp [makeGradient, hx],
    hasPartial_diff env x _ (regular_squaredLoss hreg), ?_⟩
  intro d hd
  rw [eval_grad]
  congr 1
  apply List.map_congr_left
  intro e he
  have h1 := hasPartial_diff env x e (hreg e he)
  rw [h1.unique (hd e he)]

example : ∃ g, (makeGradient (squaredLoss exampleEqs) ["y", "x"])[1]? = some g ∧
    HasPartial (fun env => (squaredLoss exampleEqs).eval env) "x" (g.eval exampleEnv) exampleEnv := by
  obtain ⟨g, h1, h2, -⟩ := (C37_gradient exampleEqs ["y", "x"] exampleEnv example_regular).2 1 "x" rfl
  exact ⟨g, h1, h2⟩

/-- **C37 (equilibria are stationary).**  At a point where all equations hold every entry of the
gradient is zero. -/
theorem C37_gradient_zero_at_equilibrium (eqs : List (SymExpr α)) (wrt : List α) (env : α → ℝ)
    (heq : ∀ e ∈ eqs, e.eval env = 0) :
    ∀ g ∈ makeGradient (squaredLoss eqs) wrt, g.eval env = 0 := by
  intro g hg
  obtain ⟨x, -, rfl⟩ := List.mem_map.mp hg
  rw [eval_grad]
  apply List.sum_eq_zero
  intro y hy
  obtain ⟨e, he, rfl⟩ := List.mem_map.mp hy
  rw [heq e he, zero_mul]

example : ∀ g ∈ makeGradient (squaredLoss [SymExpr.add (.sym "x") (.num (-2))]) ["x", "y"],
    g.eval exampleEnv = 0 :=
  C37_gradient_zero_at_equilibrium _ _ _ (by simp [eval, exampleEnv])

/-- **C37 (stationary points of a regular system are equilibria).**  If the rows of the Jacobian are
linearly independent at a point where the gradient vanishes, all equations hold there. -/
theorem C37_stationary_is_equilibrium (eqs : List (SymExpr α)) (wrt : List α) (env : α → ℝ)
    (hrows : ∀ c : SymExpr α → ℝ,
      (∀ x ∈ wrt, (eqs.map fun e => c e * (e.diff x).eval env).sum = 0) → ∀ e ∈ eqs, c e = 0)
    (hgrad : ∀ g ∈ makeGradient (squaredLoss eqs) wrt, g.eval env = 0) :
    ∀ e ∈ eqs, e.eval env = 0 := by
  apply hrows
  intro x hx
  rw [← eval_grad]
  exact hgrad _ (List.mem_map.mpr ⟨x, hx, rfl⟩)

/-- For `x - 2` the hypothesis holds at every point. -/
example (env : String → ℝ)
    (h : ∀ g ∈ makeGradient (squaredLoss [SymExpr.add (.sym "x") (.num (-2))]) ["x"],
      g.eval env = 0) : (SymExpr.add (.sym "x") (.num (-2)) : SymExpr String).eval env = 0 := by
  refine C37_stationary_is_equilibrium [SymExpr.add (.sym "x") (.num (-2))] ["x"] env ?_ h _ (by simp)
  intro c hc e he
  have := hc "x" (by simp)
  simp only [List.map_cons, List.map_nil, List.sum_cons, List.sum_nil, diff, eval] at this
  simp only [List.mem_singleton] at he
  subst he
  simpa using this

/-- **C37 (Hessian).**  The Hessian is square and symmetric at every point, and its entries are the
partial derivatives of the entries of the gradient. -/
theorem C37_hessian (eqs : List (SymExpr α)) (wrt : List α) :
    let H := makeJacobian (makeGradient (squaredLoss eqs) wrt) wrt
    H.length = wrt.length ∧ (∀ row ∈ H, row.length = wrt.length) ∧
    ∀ (i j : Nat) (x y : α), wrt[i]? = some x → wrt[j]? = some y →
      ∃ rowi rowj g hij hji, H[i]? = some rowi ∧ H[j]? = some rowj ∧ rowi[j]? = some hij ∧
        rowj[i]? = some hji ∧ (makeGradient (squaredLoss eqs) wrt)[i]? = some g ∧
        (∀ env : α → ℝ, hij.eval env = hji.eval env) ∧
        ∀ env : α → ℝ, (∀ e ∈ eqs, Regular env e) →
          HasPartial (fun env => g.eval env) y (hij.eval env) env := by
  refine ⟨by simp [makeJacobian, makeGradient], ?_, ?_⟩
  · intro row h
    obtain ⟨e, -, rfl⟩ := List.mem_map.mp h
    simp
  · intro i j x y hi hj
    refine ⟨wrt.map fun z => diff z (diff x (squaredLoss eqs)),
      wrt.map fun z => diff z (diff y (squaredLoss eqs)), diff x (squaredLoss eqs),
      diff y (diff x (squaredLoss eqs)), diff x (diff y (squaredLoss eqs)),
      by simp [makeJacobian, makeGradient, hi], by simp [makeJacobian, makeGradient, hj],
      by simp [hj], by simp [hi], by simp [makeGradient, hi], ?_, ?_⟩
    · intro env; exact diff_comm env x y _
    · intro env hreg
      exact hasPartial_diff env y _ (SymExpr.Regular.diff x (regular_squaredLoss hreg))

example : ∃ g h, (makeGradient (squaredLoss exampleEqs) ["y", "x"])[0]? = some g ∧
    HasPartial (fun env => g.eval env) "x" h exampleEnv := by
  obtain ⟨-, -, g, hij, -, -, -, -, -, hg, -, hp⟩ :=
    (C37_hessian exampleEqs ["y", "x"]).2.2 0 1 "y" "x" rfl rfl
  exact ⟨g, hij.eval exampleEnv, hg, hp exampleEnv example_regular⟩

/-- Values for the atoms of the Hessian-vector product: the model's symbols have the values `env`, the
vector `hess_point` is `p`. -/
def hesspEnv (env : α → ℝ) (p : Nat → ℝ) : HAtom α → ℝ
  | .model a => env a
  | .point i => p i

omit [DecidableEq α] in
theorem hesspTerms_ok (grad : List (SymExpr α)) (n : Nat) (h : n = grad.length) :
    hesspTerms grad n = .ok (grad.zipIdx.map fun q =>
      mul (mapAtoms HAtom.model q.1) (sym (.point q.2))) := by
  subst h
  have key : ∀ (l : List (SymExpr α)) (k : Nat), (∀ i, grad[k + i]? = l[i]?) →
      (List.range' k l.length).mapM (fun i => match grad[i]? with
        | some g => (Except.ok (mul (mapAtoms HAtom.model g) (sym (.point i))) :
            Res (SymExpr (HAtom α)))
        | none => .error .indexError) =
      .ok ((l.zipIdx k).map fun q => mul (mapAtoms HAtom.model q.1) (sym (.point q.2))) := by
    intro l
    induction l with
    | nil => intro k _; rfl
    | cons a l ih =>
      intro k hk
      have h0 := hk 0
      simp only [Nat.add_zero, List.getElem?_cons_zero] at h0
      rw [List.length_cons, List.range'_succ, List.mapM_cons, h0]
      dsimp only
      rw [ih (k + 1) (fun i => by
        have := hk (i + 1)
        rw [List.getElem?_cons_succ] at this
        rw [← this]; congr 1; omega)]
      rfl
  have := key grad 0 (by simp)
  unfold hesspTerms
  rw [List.range_eq_range']
  exact this

/-- **C37 (Hessian-vector product).**  `make_sympy_hessp`, applied to the gradient, returns one entry
per symbol; with the vector `p` bound to `hess_point`, entry `k` is `Σᵢ Hₖᵢ pᵢ`, `H` being the compiled
Hessian. -/
theorem C37_hessp (eqs : List (SymExpr α)) (wrt : List α) :
    ∃ hp, makeHessp (makeGradient (squaredLoss eqs) wrt) wrt = .ok hp ∧ hp.length = wrt.length ∧
      ∀ (k : Nat) (row : List (SymExpr α)),
        (makeJacobian (makeGradient (squaredLoss eqs) wrt) wrt)[k]? = some row →
        ∃ v, hp[k]? = some v ∧ ∀ (env : α → ℝ) (p : Nat → ℝ),
          v.eval (hesspEnv env p) = (row.zipIdx.map fun q => q.1.eval env * p q.2).sum := by
  have hlen : wrt.length = (makeGradient (squaredLoss eqs) wrt).length := by simp [makeGradient]
  refine ⟨_, by rw [makeHessp, hesspTerms_ok _ _ hlen]; rfl, by simp [makeGradient], ?_⟩
  intro k row hrow
  simp only [makeJacobian, makeGradient, List.map_map, List.getElem?_map,
    Option.map_eq_some_iff] at hrow
  obtain ⟨x, hx, rfl⟩ := hrow
  refine ⟨_, by simp only [makeGradient, List.map_map, List.getElem?_map, hx]; rfl, ?_⟩
  intro env p
  have henv : hesspEnv env p ∘ HAtom.model = env := rfl
  simp only [Function.comp, diff_sum, eval_sum, List.map_map]
  have key : ∀ (l : List α) (n : Nat),
      (((l.map fun z => diff z (squaredLoss eqs)).zipIdx n).map fun q =>
        ((mul (mapAtoms HAtom.model q.1) (sym (HAtom.point q.2))).diff (HAtom.model x)).eval
          (hesspEnv env p)).sum =
      (((l.map fun z => diff z (diff x (squaredLoss eqs))).zipIdx n).map fun q =>
        q.1.eval env * p q.2).sum := by
    intro l
    induction l with
    | nil => intro n; rfl
    | cons a l ih =>
      intro n
      simp only [List.map_cons, List.zipIdx_cons, List.sum_cons]
      rw [ih (n + 1)]
      congr 1
      have hinj : Function.Injective (HAtom.model : α → HAtom α) := fun a b h => by cases h; rfl
      simp only [diff, eval, diff_mapAtoms _ hinj, eval_mapAtoms, henv, reduceCtorEq, if_false,
        hesspEnv]
      rw [diff_comm env a x]
      simp
  simpa [Function.comp_def] using key wrt 0

example : ∃ hp v, makeHessp (makeGradient (squaredLoss exampleEqs) ["y", "x"]) ["y", "x"] = .ok hp ∧
    hp[1]? = some v := by
  obtain ⟨hp, h1, -, h2⟩ := C37_hessp exampleEqs ["y", "x"]
  obtain ⟨v, hv, -⟩ := h2 1 _ rfl
  exact ⟨hp, v, h1, hv⟩

/-- **C37 (curvature at an equilibrium).**  Where all equations hold the Hessian is `JᵀJ`: its quadratic
form is the squared length of `J p`, hence never negative. -/
theorem C37_hessian_psd_at_equilibrium (eqs : List (SymExpr α)) (wrt : List α) (env : α → ℝ)
    (heq : ∀ e ∈ eqs, e.eval env = 0) (p : α → ℝ) :
    (wrt.map fun x => p x * (wrt.map fun y =>
      (((squaredLoss eqs).diff x).diff y).eval env * p y).sum).sum =
    (eqs.map fun e => ((wrt.map fun x => (e.diff x).eval env * p x).sum) ^ 2).sum := by
  have hH : ∀ x y, (((squaredLoss eqs).diff x).diff y).eval env =
      (eqs.map fun e => (e.diff y).eval env * (e.diff x).eval env).sum := by
    intro x y
    rw [eval_hess]
    congr 1
    apply List.map_congr_left
    intro e he
    rw [heq e he]; ring
  simp only [hH]
  clear heq hH
  induction eqs with
  | nil => simp
  | cons e eqs ih =>
    simp only [List.map_cons, List.sum_cons]
    rw [← ih]
    simp only [add_mul]
    have hadd : ∀ (l : List α) (f g : α → ℝ),
        (l.map fun x => f x + g x).sum = (l.map f).sum + (l.map g).sum := by
      intro l f g
      induction l with
      | nil => simp
      | cons a l ih => simp only [List.map_cons, List.sum_cons, ih]; ring
    simp only [hadd, mul_add]
    congr 1
    have h1 : ∀ x, (wrt.map fun y => (e.diff y).eval env * (e.diff x).eval env * p y).sum =
        (e.diff x).eval env * (wrt.map fun y => (e.diff y).eval env * p y).sum := by
      intro x
      rw [← sum_map_mul_left']
      congr 1
      apply List.map_congr_left
      intro y _; ring
    simp only [h1]
    rw [sq, ← sum_map_mul_left']
    congr 1
    apply List.map_congr_left
    intro x _; ring

example (p : String → ℝ) :
    (["x", "y"].map fun x => p x * (["x", "y"].map fun y =>
      (((squaredLoss [SymExpr.add (.sym "x") (.num (-2))]).diff x).diff y).eval exampleEnv
        * p y).sum).sum = (p "x") ^ 2 := by
  rw [C37_hessian_psd_at_equilibrium _ _ _ (by simp [eval, exampleEnv])]
  simp [diff, eval]

end Verif
