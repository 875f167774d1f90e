import Verif.Spec.Calculus
import Mathlib.Analysis.SpecialFunctions.Pow.Deriv
import Mathlib.Analysis.SpecialFunctions.ExpDeriv
import Mathlib.Analysis.SpecialFunctions.Log.Deriv
import Mathlib.Tactic.Ring
import Mathlib.Tactic.FieldSimp
import Mathlib.Tactic.Linarith
import Mathlib.Tactic.Positivity
import Mathlib.Algebra.BigOperators.Group.Finset.Basic

/-!
# Derivatives of symbolic expressions
-/

namespace Verif

namespace SymExpr

variable {α : Type} [DecidableEq α]

omit [DecidableEq α] in
theorem eval_congr {env env' : α → ℝ} : ∀ (e : SymExpr α), (∀ a ∈ e.atoms, env a = env' a) →
    e.eval env = e.eval env'
  | num _, _ => rfl
  | sym a, h => h a (by simp [atoms])
  | add a b, h => by
      simp only [eval]
      rw [eval_congr a fun c hc => h c (by simp [atoms, hc]),
        eval_congr b fun c hc => h c (by simp [atoms, hc])]
  | mul a b, h => by
      simp only [eval]
      rw [eval_congr a fun c hc => h c (by simp [atoms, hc]),
        eval_congr b fun c hc => h c (by simp [atoms, hc])]
  | pow a b, h => by
      simp only [eval]
      rw [eval_congr a fun c hc => h c (by simp [atoms, hc]),
        eval_congr b fun c hc => h c (by simp [atoms, hc])]
  | log a, h => by
      simp only [eval]
      rw [eval_congr a fun c hc => h c (by simp [atoms, hc])]
  | exp a, h => by
      simp only [eval]
      rw [eval_congr a fun c hc => h c (by simp [atoms, hc])]

omit [DecidableEq α] in
/-- The value of the derivative of a power whose exponent is not a number. -/
theorem eval_powDiff_of_ne (env : α → ℝ) (a b a' b' : SymExpr α) (h : ∀ q, b ≠ num q) :
    (powDiff a b a' b').eval env = a.eval env ^ b.eval env *
      (b'.eval env * Real.log (a.eval env) + a'.eval env * (b.eval env * (a.eval env)⁻¹)) := by
  cases b with
  | num q => exact absurd rfl (h q)
  | _ => simp [powDiff, eval, Real.rpow_neg_one]

omit [DecidableEq α] in
theorem eval_powDiff_num (env : α → ℝ) (a a' b' : SymExpr α) (q : ℚ) :
    (powDiff a (num q) a' b').eval env =
      (q : ℝ) * a.eval env ^ ((q : ℝ) - 1) * a'.eval env := by
  unfold powDiff
  by_cases hq : q = 0
  · subst hq; simp [eval]
  · simp [eval, hq]

theorem eval_diff_eq_zero (env : α → ℝ) (x : α) : ∀ (e : SymExpr α), x ∉ e.atoms →
    (e.diff x).eval env = 0
  | num _, _ => by simp [diff, eval]
  | sym a, h => by
      have : a ≠ x := fun hh => h (by simp [atoms, hh])
      simp [diff, eval, this]
  | add a b, h => by
      simp only [atoms, List.mem_append, not_or] at h
      simp [diff, eval, eval_diff_eq_zero env x a h.1, eval_diff_eq_zero env x b h.2]
  | mul a b, h => by
      simp only [atoms, List.mem_append, not_or] at h
      simp [diff, eval, eval_diff_eq_zero env x a h.1, eval_diff_eq_zero env x b h.2]
  | pow a b, h => by
      simp only [atoms, List.mem_append, not_or] at h
      have ha := eval_diff_eq_zero env x a h.1
      have hb := eval_diff_eq_zero env x b h.2
      by_cases hq : ∃ q, b = num q
      · obtain ⟨q, rfl⟩ := hq
        simp [diff, eval_powDiff_num, ha]
      · simp only [diff]
        rw [eval_powDiff_of_ne env a b _ _ fun q hh => hq ⟨q, hh⟩, ha, hb]
        ring
  | log a, h => by simp [diff, eval, eval_diff_eq_zero env x a h]
  | exp a, h => by simp [diff, eval, eval_diff_eq_zero env x a h]

theorem eval_update_self (env : α → ℝ) (x : α) (e : SymExpr α) :
    e.eval (Function.update env x (env x)) = e.eval env := by rw [Function.update_eq_self]

/-- Symbolic differentiation is differentiation. -/
theorem hasPartial_diff (env : α → ℝ) (x : α) : ∀ (e : SymExpr α), Regular env e →
    HasPartial (fun env => e.eval env) x ((e.diff x).eval env) env
  | num q, _ => by
      simpa [HasPartial, eval, diff] using hasDerivAt_const (env x) (q : ℝ)
  | sym a, _ => by
      unfold HasPartial
      by_cases h : a = x
      · subst h
        simpa [eval, diff] using hasDerivAt_id' (env a)
      · simpa [eval, diff, h, Function.update_of_ne h] using hasDerivAt_const (env x) (env a)
  | add a b, h => by
      exact (hasPartial_diff env x a h.1).add (hasPartial_diff env x b h.2)
  | mul a b, h => by
      have := (hasPartial_diff env x a h.1).mul (hasPartial_diff env x b h.2)
      simp only [eval_update_self] at this
      exact this
  | log a, h => by
      have := (hasPartial_diff env x a h.1).log
        (by simpa [eval_update_self] using h.2.ne')
      simpa [HasPartial, eval, diff, eval_update_self, Real.rpow_neg_one, div_eq_mul_inv] using this
  | exp a, h => by
      have := (hasPartial_diff env x a h).exp
      simpa [HasPartial, eval, diff, eval_update_self] using this
  | pow a b, h => by
      obtain ⟨ha, hb, hd⟩ := h
      have Ha := hasPartial_diff env x a ha
      have Hb := hasPartial_diff env x b hb
      unfold HasPartial at Ha Hb ⊢
      simp only [diff, eval]
      by_cases hq : ∃ q, b = num q
      · obtain ⟨q, rfl⟩ := hq
        rw [eval_powDiff_num]
        have hcase : a.eval env ≠ 0 ∨ 1 ≤ (q : ℝ) ∨ q = 0 := by
          rcases hd with hd | ⟨q', hq', hd⟩
          · exact Or.inl hd.ne'
          · cases hq'
            rcases hd with ⟨n, rfl⟩ | ⟨h0, -⟩
            · rcases Nat.eq_zero_or_pos n with rfl | hn
              · exact Or.inr (Or.inr (by simp))
              · refine Or.inr (Or.inl ?_)
                have : (1 : ℝ) ≤ (n : ℝ) := by exact_mod_cast hn
                simpa using this
            · exact Or.inl h0
        by_cases hq0 : q = 0
        · subst hq0
          simpa [eval] using hasDerivAt_const (env x) (1 : ℝ)
        · have hc : a.eval (Function.update env x (env x)) ≠ 0 ∨ 1 ≤ (q : ℝ) := by
            rw [eval_update_self]
            rcases hcase with h1 | h1 | h1
            · exact Or.inl h1
            · exact Or.inr h1
            · exact absurd h1 hq0
          have := Ha.rpow_const hc
          simp only [eval_update_self] at this
          convert this using 1
          · rfl
          · ring
      · have hpos : 0 < a.eval env := by
          rcases hd with hd | ⟨q, hq', -⟩
          · exact hd
          · exact absurd ⟨q, hq'⟩ hq
        rw [eval_powDiff_of_ne env a b _ _ fun q hh => hq ⟨q, hh⟩]
        have := Ha.rpow Hb (by simpa [eval_update_self] using hpos)
        simp only [eval_update_self] at this
        convert this using 1
        rw [Real.rpow_sub hpos, Real.rpow_one]
        field_simp
        ring

/-- The regular points of an expression are regular points of its derivatives. -/
theorem Regular.diff {env : α → ℝ} (x : α) : ∀ {e : SymExpr α}, Regular env e →
    Regular env (e.diff x)
  | num _, _ => trivial
  | sym _, _ => trivial
  | add _ _, h => ⟨Regular.diff x h.1, Regular.diff x h.2⟩
  | mul _ _, h => ⟨⟨Regular.diff x h.1, h.2⟩, ⟨h.1, Regular.diff x h.2⟩⟩
  | log _, h => ⟨Regular.diff x h.1, h.1, trivial,
      Or.inr ⟨-1, rfl, Or.inr ⟨h.2.ne', -1, by simp⟩⟩⟩
  | exp _, h => ⟨h, Regular.diff x h⟩
  | pow a b, h => by
      obtain ⟨ha, hb, hd⟩ := h
      have Ha := Regular.diff x ha
      have Hb := Regular.diff x hb
      by_cases hq : ∃ q, b = num q
      · obtain ⟨q, rfl⟩ := hq
        simp only [SymExpr.diff, powDiff]
        by_cases hq0 : q = 0
        · simp [hq0, Regular]
        · rw [if_neg hq0]
          refine ⟨⟨trivial, ha, trivial, ?_⟩, Ha⟩
          rcases hd with hd | ⟨q', hq', hd⟩
          · exact Or.inl hd
          · cases hq'
            refine Or.inr ⟨q - 1, rfl, ?_⟩
            rcases hd with ⟨n, rfl⟩ | ⟨h0, n, rfl⟩
            · cases n with
              | zero => simp at hq0
              | succ n => exact Or.inl ⟨n, by push_cast; ring⟩
            · exact Or.inr ⟨h0, n - 1, by push_cast; ring⟩
      · have hpos : 0 < a.eval env := by
          rcases hd with hd | ⟨q, hq', -⟩
          · exact hd
          · exact absurd ⟨q, hq'⟩ hq
        simp only [SymExpr.diff]
        cases b with
        | num q => exact absurd ⟨q, rfl⟩ hq
        | _ =>
          exact ⟨⟨ha, hb, Or.inl hpos⟩, ⟨Hb, ha, hpos⟩, Ha, hb, ha, trivial, Or.inl hpos⟩

/-- Mixed second derivatives agree, as expressions, at every point. -/
theorem diff_comm (env : α → ℝ) (x y : α) : ∀ (e : SymExpr α),
    ((e.diff x).diff y).eval env = ((e.diff y).diff x).eval env
  | num _ => by simp [diff, eval]
  | sym a => by simp [diff, eval]
  | add a b => by simp [diff, eval, diff_comm env x y a, diff_comm env x y b]
  | mul a b => by simp [diff, eval, diff_comm env x y a, diff_comm env x y b]; ring
  | log a => by
      simp [diff, eval, diff_comm env x y a, eval_powDiff_num]; ring
  | exp a => by simp [diff, eval, diff_comm env x y a]; ring
  | pow a b => by
      have Ha := diff_comm env x y a
      have Hb := diff_comm env x y b
      by_cases hq : ∃ q, b = num q
      · obtain ⟨q, rfl⟩ := hq
        simp only [diff, powDiff]
        by_cases hq0 : q = 0
        · simp [hq0, diff]
        · simp only [if_neg hq0, diff, eval, eval_powDiff_num, Ha]
          ring
      · have hne : ∀ q, b ≠ num q := fun q hh => hq ⟨q, hh⟩
        have key : ∀ z w, ((powDiff a b (a.diff z) (b.diff z)).diff w).eval env =
            a.eval env ^ b.eval env *
              ((b.diff w).eval env * Real.log (a.eval env) +
                (a.diff w).eval env * (b.eval env * (a.eval env)⁻¹)) *
              ((b.diff z).eval env * Real.log (a.eval env) +
                (a.diff z).eval env * (b.eval env * (a.eval env)⁻¹)) +
            a.eval env ^ b.eval env *
              (((b.diff z).diff w).eval env * Real.log (a.eval env) +
                (b.diff z).eval env * ((a.diff w).eval env * (a.eval env)⁻¹) +
                (((a.diff z).diff w).eval env * (b.eval env * (a.eval env)⁻¹) +
                (a.diff z).eval env * ((b.diff w).eval env * (a.eval env)⁻¹ +
                  b.eval env * (-1 * a.eval env ^ ((-1 : ℝ) - 1) * (a.diff w).eval env)))) := by
          intro z w
          have e1 : powDiff a b (a.diff z) (b.diff z) =
              mul (pow a b) (add (mul (b.diff z) (log a))
                (mul (a.diff z) (mul b (pow a (num (-1)))))) := by
            cases b with
            | num q => exact absurd rfl (hne q)
            | _ => rfl
          rw [e1]
          simp only [diff, eval]
          rw [eval_powDiff_of_ne env a b _ _ hne, eval_powDiff_num]
          simp [Real.rpow_neg_one]
        simp only [diff]
        rw [key, key, Ha, Hb]
        ring

end SymExpr

end Verif
