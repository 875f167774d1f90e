import Verif.Lemmas.SymExpr
import Mathlib.Analysis.SpecialFunctions.Pow.Deriv
import Mathlib.Analysis.SpecialFunctions.Log.Deriv
import Mathlib.Analysis.SpecialFunctions.ExpDeriv
import Mathlib.Analysis.Calculus.ContDiff.Operations

/-!
# Symbolic expressions are smooth where they are regular
-/

namespace Verif

open SymExpr Filter Topology

variable {α : Type} [DecidableEq α] {V : Type} [NormedAddCommGroup V] [NormedSpace ℝ V]

theorem contDiffAt_eval {n : WithTop ℕ∞} {env : V → α → ℝ} {p : V}
    (he : ∀ a, ContDiff ℝ n fun q => env q a) :
    ∀ e : SymExpr α, Regular (env p) e → ContDiffAt ℝ n (fun q => e.eval (env q)) p
  | .num q, _ => contDiffAt_const
  | .sym a, _ => (he a).contDiffAt
  | .add a b, h => (contDiffAt_eval he a h.1).add (contDiffAt_eval he b h.2)
  | .mul a b, h => (contDiffAt_eval he a h.1).mul (contDiffAt_eval he b h.2)
  | .log a, h => (contDiffAt_eval he a h.1).log h.2.ne'
  | .exp a, h => (contDiffAt_eval he a h).exp
  | .pow a b, h => by
    obtain ⟨ha, hb, hc⟩ := h
    have Ha := contDiffAt_eval he a ha
    have Hb := contDiffAt_eval he b hb
    rcases hc with hpos | ⟨q, rfl, ⟨m, rfl⟩ | ⟨hne, -⟩⟩
    · exact Ha.rpow Hb hpos.ne'
    · have : (fun q => (SymExpr.pow a (.num (m : ℚ))).eval (env q)) = fun q => (a.eval (env q)) ^ m := by
        funext q
        simp [eval]
      rw [this]
      exact Ha.pow m
    · exact Ha.rpow Hb hne

theorem regular_eventually {env : V → α → ℝ} {p : V} (he : ∀ a, ContDiff ℝ 0 fun q => env q a) :
    ∀ e : SymExpr α, Regular (env p) e → ∀ᶠ q in 𝓝 p, Regular (env q) e
  | .num q, _ => Eventually.of_forall fun _ => trivial
  | .sym a, _ => Eventually.of_forall fun _ => trivial
  | .add a b, h => (regular_eventually he a h.1).and (regular_eventually he b h.2)
  | .mul a b, h => (regular_eventually he a h.1).and (regular_eventually he b h.2)
  | .log a, h => (regular_eventually he a h.1).and
      ((contDiffAt_eval he a h.1).continuousAt.eventually (lt_mem_nhds h.2))
  | .exp a, h => regular_eventually he a h
  | .pow a b, h => by
    obtain ⟨ha, hb, hc⟩ := h
    have Ha := regular_eventually he a ha
    have Hb := regular_eventually he b hb
    have ca := (contDiffAt_eval he a ha).continuousAt
    rcases hc with hpos | ⟨q, rfl, ⟨m, rfl⟩ | ⟨hne, m, rfl⟩⟩
    · filter_upwards [Ha, Hb, ca.eventually (lt_mem_nhds hpos)] with x h1 h2 h3
      exact ⟨h1, h2, .inl h3⟩
    · filter_upwards [Ha, Hb] with x h1 h2
      exact ⟨h1, h2, .inr ⟨_, rfl, .inl ⟨m, rfl⟩⟩⟩
    · filter_upwards [Ha, Hb, ca.eventually_ne hne] with x h1 h2 h3
      exact ⟨h1, h2, .inr ⟨_, rfl, .inr ⟨h3, m, rfl⟩⟩⟩

end Verif
