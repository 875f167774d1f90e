import Verif.Model.Calibrate
import Verif.Props.RecursiveSolve
import Verif.Lemmas.Jacobian
import Mathlib.Tactic.Linarith
import Mathlib.Tactic.NormNum
import Mathlib.Tactic.Positivity

/-!
# C63: what `calibrate` reports
-/

namespace Verif

open SymExpr

theorem dget_zip_map {β : Type} (names : List Str) (f : Str → β) (a : Str) :
    dget (names.zip (names.map f)) a = if a ∈ names then some (f a) else none := by
  induction names with
  | nil => simp [dget]
  | cons n names ih =>
    simp only [List.map_cons, List.zip_cons_cons]
    by_cases h : n = a
    · subst h; simp [dget]
    · have h' : a ≠ n := fun h' => h h'.symm
      rw [dget] 
      simp [h, h', ih]

theorem argValue_map (names : List Str) (f : Str → Option ℚ) (k : Nat) (a : Str) (ha : a ∈ names) :
    argValue names ((names.map f).take k ++ (names.map f).drop k) a = f a := by
  rw [List.take_append_drop, argValue, dget_zip_map, if_pos ha]
  rfl

/-- A number that is the squared loss of the equations bounds each of them. -/
theorem sq_le_of_loss (eqs : List (SymExpr Str)) (env : Str → ℝ) (e : SymExpr Str) (he : e ∈ eqs) :
    (e.eval env) ^ 2 ≤ 2 * (squaredLoss eqs).eval env := by
  rw [eval_squaredLoss]
  have : (e.eval env) ^ 2 ≤ (eqs.map fun e => (e.eval env) ^ 2).sum :=
    List.single_le_sum (by
      intro y hy
      obtain ⟨e', -, rfl⟩ := List.mem_map.1 hy
      positivity) _ (List.mem_map.2 ⟨e, he, rfl⟩)
  linarith

theorem calibrate_inv (S : SymSolver Str) (m : CalibModel) (data : Dict Str ℚ) (maxIter : Nat)
    (r : CalibResult) (h : calibrate S m (some data) maxIter = .ok r) :
    ∃ solved, recursiveSolve S m.equations (some data) maxIter = .ok solved ∧
      r = ⟨m.varNames ++ m.parNames, (m.varNames ++ m.parNames).map fun x => dget data x,
        (m.varNames ++ m.parNames).map fun x => dget solved x,
        belowTol (residLoss m.equations (argValue (m.varNames ++ m.parNames)
          (((m.varNames ++ m.parNames).map fun x => dget solved x).take m.varNames.length ++
            ((m.varNames ++ m.parNames).map fun x => dget solved x).drop m.varNames.length)))⟩ := by
  unfold calibrate at h
  split at h
  · simp at h
  split at h
  · simp at h
  dsimp only at h
  split at h
  · simp at h
  cases hs : recursiveSolve S m.equations (some data) maxIter with
  | error e => rw [hs] at h; simp at h
  | ok solved =>
    rw [hs] at h
    dsimp only at h
    split at h
    · simp at h
    · exact ⟨solved, rfl, ((Except.ok.injEq _ _).mp h).symm⟩

theorem dict_zip_map {β : Type} (names : List Str) (hn : names.Nodup) (f : Str → β) (a : Str)
    (ha : a ∈ names) : dget (dofPairs (names.zip (names.map f))) a = some (f a) := by
  rw [dofPairs_of_nodup _ (by
    rw [List.map_fst_zip (by simp)]; exact hn), dget_zip_map, if_pos ha]

/-- **C63**, the reported values.  The result lists the scalar variables and then the parameters; a given
value is reported under its own name, as initial and as fitted value; a name without a given value has NaN
as initial value; and everything that occurs in an equation has a fitted value. -/
theorem C63_reports (S : SymSolver Str) (m : CalibModel) (data : Dict Str ℚ) (maxIter : Nat)
    (r : CalibResult) (hn : (m.varNames ++ m.parNames).Nodup)
    (hdecl : ∀ e ∈ m.equations, ∀ a, Mentions a e → a ∈ m.varNames ++ m.parNames)
    (hkeep : KeepsSymbols S m.equations)
    (h : calibrate S m (some data) maxIter = .ok r) :
    r.names = m.varNames ++ m.parNames ∧
    (∀ a ∈ r.names, dget r.initialDict a = some (dget data a)) ∧
    (∀ a ∈ r.names, ∀ v, dget data a = some v → dget r.fittedDict a = some (some v)) ∧
    (∀ e ∈ m.equations, ∀ a, Mentions a e → ∃ v, dget r.fittedDict a = some (some v)) := by
  obtain ⟨solved, hs, rfl⟩ := calibrate_inv S m data maxIter r h
  have hk : ∀ a v, dget data a = some v → dget solved a = some v ∧ True := by
    intro a v hv
    rcases C39_otherwise_raises S m.equations (some data) maxIter hkeep with ⟨r', h1, -, -, h4⟩ | h1
    · rw [hs] at h1
      cases h1
      exact ⟨h4 a v hv, trivial⟩
    · rw [hs] at h1; cases h1
  refine ⟨rfl, fun a ha => dict_zip_map _ hn _ a ha, fun a ha v hv => ?_, fun e he a ha => ?_⟩
  · exact (dict_zip_map _ hn _ a ha).trans (by rw [(hk a v hv).1])
  · rcases C39_otherwise_raises S m.equations (some data) maxIter hkeep with ⟨r', h1, -, h3, -⟩ | h1
    · rw [hs] at h1
      cases h1
      obtain ⟨v, hv⟩ := h3 e he a ha
      exact ⟨v, (dict_zip_map _ hn _ a (hdecl e he a ha)).trans (by rw [hv])⟩
    · rw [hs] at h1; cases h1

/-- **C63**, the flag (partial: the equations hold up to the tolerance only, see
`C63_small_scale_counterexample`).  If `success` is true then everything that occurs in an equation has a
fitted value, and at the fitted values the square of every equation is below `2e-6`. -/
theorem C63_success_partial (S : SymSolver Str) (m : CalibModel) (data : Dict Str ℚ) (maxIter : Nat)
    (r : CalibResult) (hn : (m.varNames ++ m.parNames).Nodup)
    (hdecl : ∀ e ∈ m.equations, ∀ a, Mentions a e → a ∈ m.varNames ++ m.parNames)
    (h : calibrate S m (some data) maxIter = .ok r) (hsucc : r.success) :
    (∀ e ∈ m.equations, ∀ a, Mentions a e → ∃ v, dget r.fittedDict a = some (some v)) ∧
    ∀ env : Str → ℝ, (∀ a v, dget r.fittedDict a = some (some v) → env a = (v : ℝ)) →
      ∀ e ∈ m.equations, (e.eval env) ^ 2 < 2 / 10 ^ 6 := by
  obtain ⟨solved, hs, rfl⟩ := calibrate_inv S m data maxIter r h
  have harg : ∀ a ∈ m.varNames ++ m.parNames, argValue (m.varNames ++ m.parNames)
      (((m.varNames ++ m.parNames).map fun x => dget solved x).take m.varNames.length ++
        ((m.varNames ++ m.parNames).map fun x => dget solved x).drop m.varNames.length) a =
      dget solved a := fun a ha => argValue_map _ _ _ a ha
  dsimp only at hsucc
  clear h
  generalize argValue (m.varNames ++ m.parNames)
      (((m.varNames ++ m.parNames).map fun x => dget solved x).take m.varNames.length ++
        ((m.varNames ++ m.parNames).map fun x => dget solved x).drop m.varNames.length) = arg
    at harg hsucc
  unfold residLoss at hsucc
  split at hsucc
  case isFalse => exact hsucc.elim
  case isTrue hall =>
    have hsome : ∀ e ∈ m.equations, ∀ a, Mentions a e → ∃ v, dget solved a = some v := by
      intro e he a ha
      have := hall e he a ((mem_atoms_iff a e).2 ha)
      rw [harg a (hdecl e he a ha)] at this
      exact Option.isSome_iff_exists.1 this
    refine ⟨fun e he a ha => ?_, fun env henv e he => ?_⟩
    · obtain ⟨v, hv⟩ := hsome e he a ha
      exact ⟨v, (dict_zip_map _ hn _ a (hdecl e he a ha)).trans (by rw [hv])⟩
    · have hle := sq_le_of_loss m.equations (fun a => (((arg a).getD 0 : ℚ) : ℝ)) e he
      have hb := lt_of_le_of_lt hle (mul_lt_mul_of_pos_left hsucc (by norm_num : (0:ℝ) < 2))
      refine lt_of_eq_of_lt ?_ (lt_of_lt_of_eq hb (by norm_num))
      congr 1
      apply eval_congr
      intro a ha
      have hm := (mem_atoms_iff a e).1 ha
      obtain ⟨v, hv⟩ := hsome e he a hm
      rw [harg a (hdecl e he a hm), hv]
      exact henv a v ((dict_zip_map _ hn _ a (hdecl e he a hm)).trans (by rw [hv]))

/-- **C63**, the flag, other direction (partial: under the hypotheses of C38).  If the system has a
solution with the given values, and solving one equation in one unknown finds it, then a calibration that
does not raise is reported as successful. -/
theorem C63_solved_success_partial (S : SymSolver Str) (m : CalibModel) (data : Dict Str ℚ)
    (maxIter : Nat) (r : CalibResult) (s : Str → ℝ)
    (hdecl : ∀ e ∈ m.equations, ∀ a, Mentions a e → a ∈ m.varNames ++ m.parNames)
    (hkeep : KeepsSymbols S m.equations)
    (hsimp : ∀ e env, (S.simplify e).eval env = e.eval env)
    (hs : ∀ e ∈ m.equations, e.eval s = 0) (hagree : AgreesWith s data)
    (hsolve : ∀ e x, Arises S (AgreesWith s) m.equations e → (∀ y, Mentions y e ↔ y = x) →
      ∃ q rest, S.solve e x = q :: rest ∧ s x = (q : ℝ))
    (h : calibrate S m (some data) maxIter = .ok r) : r.success := by
  obtain ⟨solved, hrs, rfl⟩ := calibrate_inv S m data maxIter r h
  obtain ⟨h1, -, h3⟩ := C38_values_partial S m.equations (some data) maxIter solved s hkeep hsimp hs
    hagree hsolve hrs
  have harg : ∀ a ∈ m.varNames ++ m.parNames, argValue (m.varNames ++ m.parNames)
      (((m.varNames ++ m.parNames).map fun x => dget solved x).take m.varNames.length ++
        ((m.varNames ++ m.parNames).map fun x => dget solved x).drop m.varNames.length) a =
      dget solved a := fun a ha => argValue_map _ _ _ a ha
  dsimp only
  have hall : ∀ e ∈ m.equations, ∀ a ∈ e.atoms, (argValue (m.varNames ++ m.parNames)
      (((m.varNames ++ m.parNames).map fun x => dget solved x).take m.varNames.length ++
        ((m.varNames ++ m.parNames).map fun x => dget solved x).drop m.varNames.length) a).isSome := by
    intro e he a ha
    have hm := (mem_atoms_iff a e).1 ha
    obtain ⟨v, hv⟩ := h1 e he a hm
    rw [harg a (hdecl e he a hm), hv]
    rfl
  unfold residLoss
  rw [if_pos hall]
  unfold belowTol
  rw [eval_squaredLoss]
  have hz : (m.equations.map fun e => e.eval (fun a => (((argValue (m.varNames ++ m.parNames)
      (((m.varNames ++ m.parNames).map fun x => dget solved x).take m.varNames.length ++
        ((m.varNames ++ m.parNames).map fun x => dget solved x).drop m.varNames.length) a).getD 0
        : ℚ) : ℝ)) ^ 2) = m.equations.map fun _ => (0 : ℝ) := by
    apply List.map_congr_left
    intro e he
    have h0 : e.eval (fun a => (((dget solved a).getD 0 : ℚ) : ℝ)) = 0 :=
      h3 _ (fun x v hv => by simp [hv]) e he
    have : e.eval (fun a => (((argValue (m.varNames ++ m.parNames)
      (((m.varNames ++ m.parNames).map fun x => dget solved x).take m.varNames.length ++
        ((m.varNames ++ m.parNames).map fun x => dget solved x).drop m.varNames.length) a).getD 0
        : ℚ) : ℝ)) = 0 := by
      rw [← h0]
      apply eval_congr
      intro a ha
      rw [harg a (hdecl e he a ((mem_atoms_iff a e).1 ha))]
    rw [this]
    norm_num
  rw [hz]
  simp

/-- A model with the equation `x = p`. -/
def exCalib : CalibModel := ⟨true, true, ["x".toList], ["p".toList],
  [.add (.sym "x".toList) (.mul (.num (-1)) (.sym "p".toList))], true⟩

/-- A solver whose every root is `2`. -/
def exTwo : SymSolver Str := ⟨id, fun _ _ => [2]⟩

example : ∃ r, calibrate exTwo exCalib (some [("p".toList, 2)]) 100 = .ok r ∧ r.success ∧
    r.fittedDict = [("x".toList, some 2), ("p".toList, some 2)] := by
  have hrs : recursiveSolve exTwo exCalib.equations (some [("p".toList, 2)]) 100 =
      .ok [("p".toList, 2), ("x".toList, 2)] := by decide +kernel
  have hc : ∃ r, calibrate exTwo exCalib (some [("p".toList, 2)]) 100 = .ok r ∧
      r.fittedDict = [("x".toList, some 2), ("p".toList, some 2)] := by
    unfold calibrate
    rw [if_neg (by simp [exCalib]), if_neg (by simp [exCalib])]
    dsimp only
    rw [if_neg (by simp [exCalib, dkeys]), hrs]
    dsimp only
    rw [if_neg (by simp [exCalib])]
    exact ⟨_, rfl, by decide +kernel⟩
  obtain ⟨r, hr, hf⟩ := hc
  refine ⟨r, hr, C63_solved_success_partial exTwo exCalib [("p".toList, 2)] 100 r (fun _ => 2) ?_
    (fun _ _ _ _ => Iff.rfl) (fun _ _ => rfl) ?_ ?_ (fun e x _ _ => ⟨2, [], rfl, by norm_num⟩) hr, hf⟩
  · intro e he a ha
    rw [exCalib, List.mem_singleton] at he
    subst he
    have := (mem_atoms_iff _ _).2 ha
    simpa [atoms, exCalib] using this
  · intro e he
    rw [exCalib, List.mem_singleton] at he
    subst he
    norm_num [eval]
  · intro x v hv
    by_cases h : x = "p".toList
    · subst h
      have : v = 2 := by
        have h2 : dget [("p".toList, (2 : ℚ))] "p".toList = some 2 := rfl
        rw [h2] at hv
        exact (Option.some.inj hv).symm
      rw [this]; norm_num
    · have h2 : dget [("p".toList, (2 : ℚ))] x = none := by
        have h' : ¬ "p".toList = x := fun h' => h h'.symm
        simp only [dget, if_neg h']
      rw [h2] at hv
      cases hv

/-- **C63**, refusals: a model that was not compiled, a model without a residual function, no data, an
unknown name. -/
theorem C63_refusals (S : SymSolver Str) (m : CalibModel) (maxIter : Nat) :
    (m.compiled = false → ∀ data, calibrate S m data maxIter = .error .attributeError) ∧
    (∃ e, calibrate S m none maxIter = .error e) ∧
    (∀ data k v, dget data k = some v → k ∉ m.varNames → k ∉ m.parNames →
      ∃ e, calibrate S m (some data) maxIter = .error e) ∧
    (m.hasResid = false → ∀ data, ∃ e, calibrate S m data maxIter = .error e) := by
  refine ⟨fun h data => by simp [calibrate, h], ?_, ?_, ?_⟩
  · unfold calibrate
    split
    · exact ⟨_, rfl⟩
    split
    · exact ⟨_, rfl⟩
    exact ⟨_, rfl⟩
  · intro data k v hk h1 h2
    unfold calibrate
    split
    · exact ⟨_, rfl⟩
    split
    · exact ⟨_, rfl⟩
    dsimp only
    rw [if_pos ⟨k, (mem_dkeys_iff _ _).2 ⟨v, hk⟩, h2, h1⟩]
    exact ⟨_, rfl⟩
  · intro h data
    cases hc : calibrate S m data maxIter with
    | error e => exact ⟨e, rfl⟩
    | ok r =>
      exfalso
      unfold calibrate at hc
      split at hc
      · simp at hc
      split at hc
      · simp at hc
      split at hc
      · simp at hc
      split at hc
      · simp at hc
      split at hc
      · simp at hc
      simp [h] at hc

/-- An equation without a root: `c·(x² + 1)`. -/
def noRoot (c : ℚ) : SymExpr Str := .mul (.num c) (.add (.pow (.sym "x".toList) (.num 2)) (.num 1))

theorem noRoot_solved (S : SymSolver Str) (c : ℚ) (maxIter : Nat)
    (hsimp : S.simplify (noRoot c) = noRoot c) (hsolve : S.solve (noRoot c) "x".toList = []) :
    recursiveSolve S [noRoot c] (some []) (maxIter + 1) = .ok [("x".toList, 0)] := by
  have h1 : substKnown [] (noRoot c) = noRoot c := rfl
  have h2 : freeSymbols (noRoot c) = ["x".toList] := rfl
  have hp : solvePass S [] [noRoot c] = ([("x".toList, 0)], true, []) := by
    simp only [solvePass, List.map_cons, List.map_nil, h1, hsimp, List.foldl_cons, List.foldl_nil,
      passStep, h2, hsolve]
    simp [firstSolution, dset]
  unfold recursiveSolve
  simp only [solveLoop, Option.getD_some, List.length_singleton, hp]
  simp

/-- What `calibrate` reports for that equation. -/
theorem noRoot_calibrate (S : SymSolver Str) (c : ℚ) (maxIter : Nat)
    (hsimp : S.simplify (noRoot c) = noRoot c) (hsolve : S.solve (noRoot c) "x".toList = []) :
    ∃ r, calibrate S ⟨true, true, ["x".toList], [], [noRoot c], true⟩ (some []) (maxIter + 1) = .ok r ∧
      r.fitted = [some 0] ∧ (r.success ↔ (1 / 2 : ℝ) * (c : ℝ) ^ 2 < 1 / 10 ^ 6) := by
  have hs := noRoot_solved S c maxIter hsimp hsolve
  refine ⟨⟨["x".toList], [none], [some 0], belowTol (residLoss [noRoot c]
    (argValue ["x".toList] [some 0]))⟩, ?_, rfl, ?_⟩
  · unfold calibrate
    rw [if_neg (by simp), if_neg (by simp)]
    dsimp only
    rw [if_neg (by simp [dkeys]), hs]
    rfl
  · have ha : argValue ["x".toList] [some 0] "x".toList = some 0 := rfl
    dsimp only
    unfold residLoss
    rw [if_pos (by
      intro e he a hat
      rw [List.mem_singleton] at he
      subst he
      have : a = "x".toList := by simpa [noRoot, atoms] using hat
      rw [this, ha]; rfl)]
    unfold belowTol
    rw [eval_squaredLoss]
    have : (noRoot c).eval (fun a => (((argValue ["x".toList] [some 0] a).getD 0 : ℚ) : ℝ)) = c := by
      simp only [noRoot, eval, ha]
      norm_num
    simp only [List.map_cons, List.map_nil, List.sum_cons, List.sum_nil, add_zero, this]

/-- The made-up value of C38's counterexample (`x² + 1 = 0` has no root, the value is zero) is reported as
not successful. -/
theorem C63_no_root_flagged (S : SymSolver Str) (maxIter : Nat)
    (hsimp : S.simplify (noRoot 1) = noRoot 1) (hsolve : S.solve (noRoot 1) "x".toList = []) :
    ∃ r, calibrate S ⟨true, true, ["x".toList], [], [noRoot 1], true⟩ (some []) (maxIter + 1) = .ok r ∧
      ¬ r.success := by
  obtain ⟨r, h1, -, h3⟩ := noRoot_calibrate S 1 maxIter hsimp hsolve
  refine ⟨r, h1, fun h => ?_⟩
  have := h3.1 h
  norm_num at this

/-- **C63, counterexample.**  The tolerance is absolute: `(x² + 1)/1000 = 0` has no solution, its made-up
value zero leaves the equation at `1/1000`, and the calibration is reported as successful. -/
theorem C63_small_scale_counterexample (S : SymSolver Str) (maxIter : Nat)
    (hsimp : S.simplify (noRoot (1 / 1000)) = noRoot (1 / 1000))
    (hsolve : S.solve (noRoot (1 / 1000)) "x".toList = []) :
    (∃ r, calibrate S ⟨true, true, ["x".toList], [], [noRoot (1 / 1000)], true⟩ (some [])
        (maxIter + 1) = .ok r ∧ r.fitted = [some 0] ∧ r.success) ∧
      ∀ env : Str → ℝ, (noRoot (1 / 1000)).eval env ≠ 0 := by
  obtain ⟨r, h1, h2, h3⟩ := noRoot_calibrate S (1 / 1000) maxIter hsimp hsolve
  refine ⟨⟨r, h1, h2, h3.2 (by norm_num)⟩, fun env => ?_⟩
  simp only [noRoot, eval]
  have : (0:ℝ) < env "x".toList ^ ((2 : ℚ) : ℝ) + ((1 : ℚ) : ℝ) := by
    have : env "x".toList ^ ((2 : ℚ) : ℝ) = env "x".toList ^ 2 := by
      rw [← Real.rpow_natCast]; norm_num
    rw [this]; push_cast; positivity
  push_cast at this ⊢
  have h4 : (0:ℝ) < 1 / 1000 := by norm_num
  exact (mul_pos h4 this).ne'

end Verif
