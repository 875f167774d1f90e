import Verif.Model.Progress
import Verif.Lemmas.Euler
import Mathlib.Analysis.SpecialFunctions.Pow.Real

/-!
# C91: the residuals that are shown
-/

namespace Verif

/-- The root of the mean of the squares. -/
noncomputable def rootMeanSquare (errors : List ℝ) : ℝ :=
  Real.sqrt ((errors.map fun e => e ^ 2).sum / errors.length)

theorem sumSquares_nonneg (l : List ℝ) : 0 ≤ (l.map fun e => e ^ 2).sum :=
  List.sum_nonneg fun x hx => by
    obtain ⟨e, -, rfl⟩ := List.mem_map.mp hx
    positivity

theorem sumSquares_zero (l : List ℝ) : (l.map fun e => e ^ 2).sum = 0 ↔ ∀ e ∈ l, e = 0 := by
  induction l with
  | nil => simp
  | cons a l ih =>
    simp only [List.map_cons, List.sum_cons, List.mem_cons, forall_eq_or_imp]
    rw [← ih]
    have h1 := sumSquares_nonneg l
    have h2 : 0 ≤ a ^ 2 := by positivity
    constructor
    · intro h
      have : a ^ 2 = 0 := by linarith
      exact ⟨by simpa using this, by linarith⟩
    · rintro ⟨rfl, h⟩
      rw [h]; norm_num

theorem shownRmse_eq (errors : List ℝ) (h : errors ≠ []) :
    shownRmse errors = some ((errors.map fun e => e ^ 2).sum) := by
  have hl : 1 ≤ errors.length := by
    rcases errors with _ | ⟨a, l⟩
    · exact absurd rfl h
    · simp
  have : min 1 errors.length = 1 := by omega
  unfold shownRmse
  rw [this]
  simp

/-- **C91** (partial): the figure shown as `RMSE` is zero exactly at an equilibrium. -/
theorem C91_zero_partial (errors : List ℝ) (h : errors ≠ []) :
    shownRmse errors = some 0 ↔ ∀ e ∈ errors, e = 0 := by
  rw [shownRmse_eq errors h, ← sumSquares_zero]
  simp

example : shownRmse [0, 0] = some 0 := (C91_zero_partial [0, 0] (by simp)).mpr (by simp)

/-- **C91** (the full statement is false): the figure shown as `RMSE` is the sum of the squares; it is the
root mean square exactly at an equilibrium and where the sum of the squares is one over the number of
equations. -/
theorem C91_rmse_iff (errors : List ℝ) (h : errors ≠ []) :
    shownRmse errors = some (rootMeanSquare errors) ↔
      (∀ e ∈ errors, e = 0) ∨ (errors.map fun e => e ^ 2).sum = 1 / (errors.length : ℝ) := by
  rw [shownRmse_eq errors h, ← sumSquares_zero]
  unfold rootMeanSquare
  obtain ⟨s, hs⟩ : ∃ s, s = (errors.map fun e => e ^ 2).sum := ⟨_, rfl⟩
  have h0 : 0 ≤ s := hs ▸ sumSquares_nonneg errors
  have hn : (0 : ℝ) < errors.length := by
    rcases errors with _ | ⟨a, l⟩
    · exact absurd rfl h
    · exact_mod_cast Nat.succ_pos _
  rw [← hs, Option.some_inj]
  constructor
  · intro he
    have h2 : s ^ 2 = s / errors.length := by
      conv_lhs => rw [he]
      exact Real.sq_sqrt (by positivity)
    by_cases hz : s = 0
    · exact Or.inl hz
    · right
      have : s * s = s * (1 / errors.length) := by rw [← sq, h2]; ring
      exact mul_left_cancel₀ hz this
  · rintro (hz | hz)
    · rw [hz]; simp
    · have : s / errors.length = s ^ 2 := by rw [hz]; field_simp
      rw [this, Real.sqrt_sq h0]

/-- **C91** (counterexample): two residuals of one are shown as two. -/
theorem C91_rmse_counterexample : shownRmse [1, 1] = some 2 ∧ rootMeanSquare [1, 1] = 1 := by
  constructor
  · rw [shownRmse_eq _ (by simp)]; norm_num
  · unfold rootMeanSquare; norm_num

theorem row_lookup (vn keys : List Str) (V' P' : Dict Str (NDArray ℝ)) (row : Dict Str (NDArray ℝ))
    (hrow : (keys.mapM fun key => do
      let v ← if key ∈ vn then dgetE V' key else dgetE P' key
      return (key, v)) = Except.ok row) :
    ∀ key ∈ keys, ∃ v, dget row key = some v ∧ dget (if key ∈ vn then V' else P') key = some v := by
  induction keys generalizing row with
  | nil => simp
  | cons k keys ih =>
    rw [List.mapM_cons] at hrow
    simp only [bind, Except.bind] at hrow
    split at hrow
    · cases hrow
    rename_i p hp
    split at hrow
    · cases hrow
    rename_i rest hrest
    simp only [pure, Except.pure, Except.ok.injEq] at hrow
    subst hrow
    have hk : p.1 = k ∧ dget (if k ∈ vn then V' else P') k = some p.2 := by
      by_cases hc : k ∈ vn
      · rw [if_pos hc] at hp ⊢
        unfold dgetE at hp
        cases hd : dget V' k with
        | none => rw [hd] at hp; cases hp
        | some w => rw [hd] at hp; cases hp; exact ⟨rfl, rfl⟩
      · rw [if_neg hc] at hp ⊢
        unfold dgetE at hp
        cases hd : dget P' k with
        | none => rw [hd] at hp; cases hp
        | some w => rw [hd] at hp; cases hp; exact ⟨rfl, rfl⟩
    obtain ⟨k', v⟩ := p
    obtain ⟨rfl, hk⟩ := hk
    dsimp only at hk
    intro key hkey
    by_cases hkk : k' = key
    · subst hkk
      exact ⟨v, by simp [dget], hk⟩
    · have : key ∈ keys := by
        rcases List.mem_cons.mp hkey with h | h
        · exact absurd h.symm hkk
        · exact h
      obtain ⟨w, hw1, hw2⟩ := ih rest hrest key this
      exact ⟨w, by simp [dget, hkk, hw1], hw2⟩

theorem pyEulerLoop_length (fStep : Dict Str (NDArray ℝ) → Res (List (NDArray ℝ))) (vn pn keys : List Str)
    (tf ti : Dict Str (NDArray ℝ)) : ∀ (n : Nat) (V P : Dict Str (NDArray ℝ)) rows,
    pyEulerLoop fStep vn pn keys tf ti n V P = .ok rows → rows.length = n
  | 0, V, P, rows, h => by
    simp only [pyEulerLoop, Except.ok.injEq] at h; subst h; rfl
  | n + 1, V, P, rows, h => by
    simp only [pyEulerLoop, bind, Except.bind] at h
    split at h
    · cases h
    split at h
    · cases h
    split at h
    · cases h
    split at h
    · cases h
    rename_i rest hrest
    simp only [pure, Except.pure, Except.ok.injEq] at h
    subst h
    simp [pyEulerLoop_length fStep vn pn keys tf ti n _ _ _ hrest]

theorem pyEulerShown_spec {σ : Type} (stat : Dict Str (NDArray ℝ) → Dict Str (NDArray ℝ) → Res σ)
    (fStep : Dict Str (NDArray ℝ) → Res (List (NDArray ℝ))) (vn pn keys : List Str)
    (tf ti : Dict Str (NDArray ℝ)) : ∀ (n : Nat) (V P : Dict Str (NDArray ℝ)) r,
    pyEulerShown stat fStep vn pn keys tf ti n V P = .ok r →
    pyEulerLoop fStep vn pn keys tf ti n V P = .ok r.1 ∧
    List.Forall₂ (fun row s => ∃ V' P', stat V' P' = .ok s ∧
      ∀ key ∈ keys, ∃ v, dget row key = some v ∧ dget (if key ∈ vn then V' else P') key = some v)
      r.1 r.2.1 ∧
    (n = 0 → r.2.2 = (V, P)) ∧
    ∀ s, r.2.1.getLast? = some s → stat r.2.2.1 r.2.2.2 = .ok s
  | 0, V, P, r, h => by
    simp only [pyEulerShown, Except.ok.injEq] at h
    subst h
    simp [pyEulerLoop]
  | n + 1, V, P, r, h => by
    simp only [pyEulerShown, bind, Except.bind] at h
    split at h
    · cases h
    rename_i kw hkw
    split at h
    · cases h
    rename_i cur hcur
    split at h
    · cases h
    rename_i row hrow
    split at h
    · cases h
    rename_i s hs
    split at h
    · cases h
    rename_i rest hrest
    simp only [pure, Except.pure, Except.ok.injEq] at h
    subst h
    obtain ⟨h1, h2, h3, h4⟩ := pyEulerShown_spec stat fStep vn pn keys tf ti n _ _ rest hrest
    refine ⟨?_, ?_, by simp, ?_⟩
    · simp only [pyEulerLoop, bind, Except.bind, hkw, hcur]
      rw [hrow]
      simp only [h1, pure, Except.pure]
    · refine List.Forall₂.cons ⟨_, _, hs, ?_⟩ h2
      exact row_lookup _ _ _ _ _ hrow
    · intro t ht
      cases hr : rest.2.1 with
      | nil =>
        rw [hr] at ht
        have hn : n = 0 := by
          rcases n with _ | n
          · rfl
          · exfalso
            have hl := h2.length_eq
            rw [hr] at hl
            have := pyEulerLoop_length fStep vn pn keys tf ti (n + 1) _ _ _ h1
            simp at hl
            rw [hl] at this
            simp at this
        have hst := h3 hn
        simp only [List.getLast?_singleton, Option.some.injEq] at ht
        subst ht
        rw [hst]
        exact hs
      | cons a l =>
        apply h4
        rw [hr] at ht ⊢
        simpa using ht

/-- **C91**: the progress bar shows the statistics of the initial state, then those of the state that is
recorded for each step, and at the end those of the last state again; and showing them does not change the
recorded states. -/
theorem C91_progress {σ : Type} (stat : Dict Str (NDArray ℝ) → Dict Str (NDArray ℝ) → Res σ)
    (fStep : Dict Str (NDArray ℝ) → Res (List (NDArray ℝ))) (vn pn keys : List Str)
    (tf ti : Dict Str (NDArray ℝ)) (n : Nat) (V P : Dict Str (NDArray ℝ))
    (rows : List (Dict Str (NDArray ℝ))) (shown : List σ)
    (h : pyEulerProgress stat fStep vn pn keys tf ti n V P = .ok (rows, shown)) :
    pyEulerLoop fStep vn pn keys tf ti n V P = .ok rows ∧ rows.length = n ∧
    ∃ s0 steps s1, shown = s0 :: steps ++ [s1] ∧ stat V P = .ok s0 ∧
      List.Forall₂ (fun row s => ∃ V' P', stat V' P' = .ok s ∧ ∀ key ∈ keys, ∃ v,
        dget row key = some v ∧ dget (if key ∈ vn then V' else P') key = some v) rows steps ∧
      (s0 :: steps).getLast? = some s1 := by
  simp only [pyEulerProgress, bind, Except.bind] at h
  split at h
  · cases h
  rename_i s0 hs0
  split at h
  · cases h
  rename_i r hr
  split at h
  · cases h
  rename_i s1 hs1
  simp only [pure, Except.pure, Except.ok.injEq, Prod.mk.injEq] at h
  obtain ⟨rfl, rfl⟩ := h
  obtain ⟨h1, h2, h3, h4⟩ := pyEulerShown_spec stat fStep vn pn keys tf ti n V P r hr
  have hlen := pyEulerLoop_length fStep vn pn keys tf ti n V P _ h1
  refine ⟨h1, hlen, s0, r.2.1, s1, rfl, hs0, h2, ?_⟩
  cases hl : r.2.1 with
  | nil =>
    have h5 := h2.length_eq
    rw [hl] at h5
    have hst := h3 (by simpa [hlen] using h5)
    rw [hst] at hs1
    have : s0 = s1 := by
      have := hs0.symm.trans hs1
      simpa using this
    rw [this]; rfl
  | cons a l =>
    rw [List.getLast?_cons_cons]
    cases hg : (a :: l).getLast? with
    | none => simp at hg
    | some s =>
      have := h4 s (by rw [hl]; exact hg)
      have := this.symm.trans hs1
      simpa using this

theorem pyEulerShown_total {σ : Type} (stat : Dict Str (NDArray ℝ) → Dict Str (NDArray ℝ) → Res σ)
    (fStep : Dict Str (NDArray ℝ) → Res (List (NDArray ℝ))) (vn pn keys : List Str)
    (tf ti : Dict Str (NDArray ℝ)) (hstat : ∀ V P, ∃ s, stat V P = .ok s) :
    ∀ (n : Nat) (V P : Dict Str (NDArray ℝ)) rows,
    pyEulerLoop fStep vn pn keys tf ti n V P = .ok rows →
    ∃ r, pyEulerShown stat fStep vn pn keys tf ti n V P = .ok r ∧ r.1 = rows
  | 0, V, P, rows, h => by
    simp only [pyEulerLoop, Except.ok.injEq] at h
    subst h
    exact ⟨_, rfl, rfl⟩
  | n + 1, V, P, rows, h => by
    simp only [pyEulerLoop, bind, Except.bind] at h
    split at h
    · cases h
    rename_i kw hkw
    split at h
    · cases h
    rename_i cur hcur
    split at h
    · cases h
    rename_i row hrow
    split at h
    · cases h
    rename_i rest hrest
    simp only [pure, Except.pure, Except.ok.injEq] at h
    subst h
    obtain ⟨r, hr, hr1⟩ := pyEulerShown_total stat fStep vn pn keys tf ti hstat n _ _ rest hrest
    obtain ⟨s, hs⟩ := hstat (dofPairs (vn.zip (cur.take vn.length))) (dofPairs (pn.zip (cur.drop vn.length)))
    refine ⟨(row :: r.1, s :: r.2.1, r.2.2), ?_, by rw [hr1]⟩
    simp only [pyEulerShown, bind, Except.bind, hkw, hcur]
    rw [hrow]
    simp only [hs, hr, pure, Except.pure]

/-- **C91**: a statistic that can always be computed never keeps the simulation from finishing. -/
theorem C91_progress_harmless {σ : Type} (stat : Dict Str (NDArray ℝ) → Dict Str (NDArray ℝ) → Res σ)
    (fStep : Dict Str (NDArray ℝ) → Res (List (NDArray ℝ))) (vn pn keys : List Str)
    (tf ti : Dict Str (NDArray ℝ)) (n : Nat) (V P : Dict Str (NDArray ℝ))
    (hstat : ∀ V P, ∃ s, stat V P = .ok s) (rows : List (Dict Str (NDArray ℝ))) :
    pyEulerLoop fStep vn pn keys tf ti n V P = .ok rows ↔
      ∃ shown, pyEulerProgress stat fStep vn pn keys tf ti n V P = .ok (rows, shown) := by
  constructor
  · intro h
    obtain ⟨r, hr, hr1⟩ := pyEulerShown_total stat fStep vn pn keys tf ti hstat n V P rows h
    obtain ⟨s0, hs0⟩ := hstat V P
    obtain ⟨s1, hs1⟩ := hstat r.2.2.1 r.2.2.2
    refine ⟨s0 :: r.2.1 ++ [s1], ?_⟩
    simp only [pyEulerProgress, bind, Except.bind, hs0, hr, hs1, pure, Except.pure, hr1]
  · rintro ⟨shown, h⟩
    exact (C91_progress stat fStep vn pn keys tf ti n V P rows shown h).1

/-- One step of a model with one variable that doubles and one parameter that stays. -/
def doubling : Dict Str (NDArray ℝ) → Res (List (NDArray ℝ)) := fun kw => do
  let x ← dgetE kw "x".toList
  let a ← dgetE kw "a".toList
  return [⟨x.shape, x.data.map (2 * ·)⟩, a]

example : ∃ rows shown, rows.length = 2 ∧
    pyEulerProgress (fun V _ => .ok (dget V "x".toList)) doubling ["x".toList] ["a".toList]
      ["x".toList, "a".toList] [] [] 2 [("x".toList, ⟨[], [1]⟩)] [("a".toList, ⟨[], [0]⟩)] =
      .ok (rows, shown) := by
  refine ⟨_, _, ?_, rfl⟩
  rfl

/-! ### `print_residuals` -/

/-- **C91** (partial): with the numba back-end, `print_residuals` of a calibration result prints beside the
name of each equation its residual at the fitted values. -/
theorem C91_print_partial (sys : List ℝ → List ℝ → List ℝ) (vars params : List ModelObject)
    (coords : Coords) (eqNames : List Str) (x theta : List ℝ)
    (hlen : ∀ x theta, (sys x theta).length = eqNames.length) :
    ∃ lines, printResiduals sys false vars params coords x.length eqNames (some (x ++ theta)) = .ok lines ∧
      lines.length = eqNames.length ∧
      ∀ (i : Nat) (name : Str) (r : ℝ), eqNames[i]? = some name → (sys x theta)[i]? = some r →
        lines[i]? = some (name, r) := by
  refine ⟨eqNames.zip (sys x theta), by simp [printResiduals, callTwoVectors, bind, Except.bind, pure,
    Except.pure], by simp [hlen], ?_⟩
  intro i name r h1 h2
  simp [List.getElem?_zip_eq_some, h1, h2]

example : ∃ lines, printResiduals (fun x theta => [x.sum - theta.sum]) false [] [] [] 1
    ["market".toList] (some ([3] ++ [1])) = .ok lines ∧ lines.length = 1 := by
  obtain ⟨lines, h1, h2, -⟩ := C91_print_partial (fun x theta => [x.sum - theta.sum]) [] [] []
    ["market".toList] [3] [1] (by simp)
  exact ⟨lines, h1, h2⟩

/-- **C91** (the full statement is false): with the tensor back-ends, `print_residuals` raises `TypeError`
for every model that has not exactly two objects. -/
theorem C91_print_counterexample (sys : List ℝ → List ℝ → List ℝ) (vars params : List ModelObject)
    (coords : Coords) (nVars : Nat) (eqNames : List Str) (v : List ℝ)
    (h : (vars ++ params).length ≠ 2) :
    printResiduals sys true vars params coords nVars eqNames (some v) = .error .typeError := by
  unfold printResiduals callTwoVectors
  match hl : vars ++ params with
  | [] => rfl
  | [_] => rfl
  | [_, _] => rw [hl] at h; simp at h
  | _ :: _ :: _ :: _ => rfl

/-- **C91** (calls by name): with the tensor back-ends `print_residuals` of a model whose objects have shapes works
exactly when the model has two objects, both vectors, whose lengths are the numbers of variables and of parameters
in the fitted values; otherwise it raises `TypeError`. -/
theorem C91_print_by_name (sys : List ℝ → List ℝ → List ℝ) (vars params : List ModelObject)
    (coords : Coords) (eqNames : List Str) (x theta : List ℝ)
    (hsh : ∀ o ∈ vars ++ params, ∃ s, inferShape o coords = .ok s) :
    ((∃ a b, vars ++ params = [a, b] ∧ inferShape a coords = .ok [x.length] ∧
        inferShape b coords = .ok [theta.length]) ∧
      printResiduals sys true vars params coords x.length eqNames (some (x ++ theta)) =
        .ok (eqNames.zip (sys x theta))) ∨
    (¬ (∃ a b, vars ++ params = [a, b] ∧ inferShape a coords = .ok [x.length] ∧
        inferShape b coords = .ok [theta.length]) ∧
      printResiduals sys true vars params coords x.length eqNames (some (x ++ theta)) =
        .error .typeError) := by
  by_cases hl : (vars ++ params).length = 2
  · obtain ⟨a, b, hab⟩ := List.length_eq_two.1 hl
    obtain ⟨sa, hsa⟩ := hsh a (by rw [hab]; simp)
    obtain ⟨sb, hsb⟩ := hsh b (by rw [hab]; simp)
    by_cases hc : sa = [x.length] ∧ sb = [theta.length]
    · left
      refine ⟨⟨a, b, hab, by rw [hsa, hc.1], by rw [hsb, hc.2]⟩, ?_⟩
      unfold printResiduals callTwoVectors
      simp [hab, hsa, hsb, hc.1, hc.2, bind, Except.bind, pure, Except.pure]
    · right
      refine ⟨?_, ?_⟩
      · rintro ⟨a', b', h1, h2, h3⟩
        rw [hab] at h1
        simp only [List.cons.injEq, and_true] at h1
        obtain ⟨rfl, rfl⟩ := h1
        rw [hsa] at h2
        rw [hsb] at h3
        injection h2 with h2
        injection h3 with h3
        exact hc ⟨h2, h3⟩
      · unfold printResiduals callTwoVectors
        simp only [hab, hsa, hsb, bind, Except.bind, if_true, List.take_left, List.drop_left, if_neg hc]
  · right
    refine ⟨fun ⟨a, b, h, _⟩ => hl (by rw [h]; rfl), ?_⟩
    exact C91_print_counterexample sys vars params coords x.length eqNames _ hl

example : ∀ o ∈ [(⟨"x".toList, ["i".toList], []⟩ : ModelObject), ⟨"a".toList, ["i".toList], []⟩],
    ∃ s, inferShape o [("i".toList, ["b".toList, "c".toList])] = .ok s := by
  intro o ho
  rcases List.mem_cons.1 ho with rfl | ho
  · exact ⟨[2], rfl⟩
  · rw [List.mem_singleton] at ho
    subst ho
    exact ⟨[2], rfl⟩

/-- **C91** (no fitted values): an optimizer result has none, and `print_residuals` raises `AttributeError`. -/
theorem C91_print_optimizer_result (sys : List ℝ → List ℝ → List ℝ) (byName : Bool)
    (vars params : List ModelObject) (coords : Coords) (nVars : Nat) (eqNames : List Str) :
    printResiduals sys byName vars params coords nVars eqNames none = .error .attributeError := rfl

/-- **C91** (what the bar shows): for states in which no name is used twice, the figure is the sum of squares of the
residuals there, NaN for a system without equations; a name that is used twice raises `TypeError`. -/
theorem C91_statistics (sys : List ℝ → List ℝ → List ℝ) (vars params : List ModelObject)
    (V P : Dict Str (NDArray ℝ)) :
    ((dkeys V ++ dkeys P).Nodup → ∀ e, callSystem sys vars params (V ++ P) = .ok e →
      stepStatistics sys vars params V P =
        .ok (if e = [] then none else some ((e.map fun r => r ^ 2).sum))) ∧
    (¬ (dkeys V ++ dkeys P).Nodup → stepStatistics sys vars params V P = .error .typeError) := by
  have hk : ([V, P].flatten.map Prod.fst) = dkeys V ++ dkeys P := by simp [dkeys]
  constructor
  · intro hn e he
    unfold stepStatistics stepStatistics.mergeKwPlain
    rw [hk, if_pos hn]
    have hf : [V, P].flatten = V ++ P := by simp
    simp only [bind, Except.bind, hf, he, pure, Except.pure]
    by_cases h0 : e = []
    · subst h0; simp [shownRmse]
    · rw [if_neg h0, shownRmse_eq e h0]
  · intro hn
    unfold stepStatistics stepStatistics.mergeKwPlain
    rw [hk, if_neg hn]
    rfl

example : (dkeys [("x".toList, (⟨[], [1]⟩ : NDArray ℝ))] ++ dkeys [("a".toList, (⟨[], [0]⟩ : NDArray ℝ))]).Nodup := by
  simp [dkeys]

end Verif
