import Verif.Model.PartlyCompiled

/-!
# C94: simulate on a model compiled in part
-/

namespace Verif

variable {α : Type _}

/-! ## Specification -/

/-- The families of functions that a call of `simulate` uses. -/
def familiesUsed (c : SimCall α) (fl : SimFlags) : List Str :=
  (if c.useEuler then ["euler".toList] else []) ++
  (if c.useOptimizer ∧ c.optimizerMode = "root".toList ∧ fl.useJac = true then ["root".toList] else []) ++
  (if c.useOptimizer ∧ c.optimizerMode = "minimize".toList then ["minimize".toList] else [])

/-- All families. -/
def allFamilies : List Str := ["root".toList, "minimize".toList, "euler".toList]

/-! ## Helper lemmas -/

theorem eulerPart_builtWith (env : SamEnv α (List (NDArray α))) (isNan : α → Bool) (fns : List Str)
    (x0 : Dict Str (NDArray α)) (theta : List α) (c : SimCall α)
    (h : c.useEuler = true → "euler".toList ∈ fns) :
    eulerPart (env.builtWith fns) isNan x0 theta c = eulerPart env isNan x0 theta c := by
  unfold eulerPart
  cases hu : c.useEuler with
  | false => rfl
  | true =>
    have : fns.contains "euler".toList = true := by simpa using h hu
    simp only [eulerPass, SamEnv.builtWith, this, if_true]

theorem simOptimize_builtWith (env : SamEnv α (List (NDArray α))) (fns gns : List Str) (fl : SimFlags)
    (mode : Str) (start : Dict Str (NDArray α)) (theta : List α)
    (h1 : mode = "root".toList → fl.useJac = true → "root".toList ∈ fns)
    (h2 : mode = "minimize".toList → "minimize".toList ∈ fns)
    (g1 : mode = "root".toList → fl.useJac = true → "root".toList ∈ gns)
    (g2 : mode = "minimize".toList → "minimize".toList ∈ gns) :
    simOptimize (env.builtWith fns) fl mode start theta
      = simOptimize (env.builtWith gns) fl mode start theta := by
  unfold simOptimize
  by_cases hr : mode = "root".toList
  · rw [if_pos hr, if_pos hr]
    unfold solveWithRoot
    have e1 : (fl.useJac && !(env.builtWith fns).compiled.contains "root".toList) = false := by
      cases hj : fl.useJac with
      | false => rfl
      | true => simpa [SamEnv.builtWith] using h1 hr hj
    have e2 : (fl.useJac && !(env.builtWith gns).compiled.contains "root".toList) = false := by
      cases hj : fl.useJac with
      | false => rfl
      | true => simpa [SamEnv.builtWith] using g1 hr hj
    rw [e1, e2]
    rfl
  · rw [if_neg hr, if_neg hr]
    by_cases hm : mode = "minimize".toList
    · rw [if_pos hm, if_pos hm]
      unfold solveWithMinimize
      have e1 : (!(env.builtWith fns).compiled.contains "minimize".toList) = false := by
        simpa [SamEnv.builtWith] using h2 hm
      have e2 : (!(env.builtWith gns).compiled.contains "minimize".toList) = false := by
        simpa [SamEnv.builtWith] using g2 hm
      rw [e1, e2]
      rfl
    · rw [if_neg hm, if_neg hm]

theorem used_euler (c : SimCall α) (fl : SimFlags) (h : c.useEuler = true) :
    "euler".toList ∈ familiesUsed c fl := by
  unfold familiesUsed
  rw [if_pos h]
  exact List.mem_append_left _ (List.mem_append_left _ (List.mem_singleton.2 rfl))

theorem used_root (c : SimCall α) (fl : SimFlags) (h : c.useOptimizer = true)
    (hm : c.optimizerMode = "root".toList) (hj : fl.useJac = true) :
    "root".toList ∈ familiesUsed c fl := by
  unfold familiesUsed
  rw [if_pos (⟨h, hm, hj⟩ : c.useOptimizer = true ∧ c.optimizerMode = "root".toList ∧ fl.useJac = true)]
  exact List.mem_append_left _ (List.mem_append_right _ (List.mem_singleton.2 rfl))

theorem used_minimize (c : SimCall α) (fl : SimFlags) (h : c.useOptimizer = true)
    (hm : c.optimizerMode = "minimize".toList) : "minimize".toList ∈ familiesUsed c fl := by
  unfold familiesUsed
  rw [if_pos (⟨h, hm⟩ : c.useOptimizer = true ∧ c.optimizerMode = "minimize".toList)]
  exact List.mem_append_right _ (List.mem_singleton.2 rfl)

/-- The numerical part is the last thing `simulate` does, so everything before it is the same for
environments that differ only there. -/
theorem simulateCompute_congr {ρ : Type _} (env env' : SimEnv α ρ) (h : Heap (NDArray α))
    (c : SimCall α) (hv : env.variables = env'.variables) (hp : env.parameters = env'.parameters)
    (hc : env.compiled = env'.compiled) (ha : env.add = env'.add) (hm : env.mul = env'.mul)
    (hs : ∀ x0 theta, env.solve x0 theta c = env'.solve x0 theta c) :
    simulateCompute env h c = simulateCompute env' h c := by
  unfold simulateCompute
  rw [hv, hp, hc, ha, hm]
  simp only [hs]

theorem simulateCompute_error {ρ : Type _} (env : SimEnv α ρ) (h : Heap (NDArray α))
    (c : SimCall α) (hs : ∀ x0 theta, ∃ e, env.solve x0 theta c = .error e) :
    ∃ e, simulateCompute env h c = .error e := by
  unfold simulateCompute
  simp only [bind, Except.bind, throw, throwThe, MonadExceptOf.throw]
  cases env.compiled with
  | false => exact ⟨_, rfl⟩
  | true =>
    simp only [Bool.not_true, Bool.false_eq_true, if_false]
    rcases validateInitial (env.variables.map ModelObject.name ++ env.parameters.map ModelObject.name)
      (dkeys c.initial) with e | u
    · exact ⟨e, rfl⟩
    · dsimp only [pure, Except.pure]
      rcases liftPy (createFinalParamDict env.add env.mul h c.initial c.finalValues c.finalDelta
        c.finalPct).2 with e | final
      · exact ⟨e, rfl⟩
      · dsimp only
        rcases liftPy (variableDictToFlatArray (derefDict (createFinalParamDict env.add env.mul h
          c.initial c.finalValues c.finalDelta c.finalPct).1 final) env.variables env.parameters)
          with e | xt
        · exact ⟨e, rfl⟩
        · dsimp only
          obtain ⟨e, he⟩ := hs (derefDict h c.initial) xt.2
          exact ⟨.py e, by rw [he]; rfl⟩

theorem not_cached {ρ : Type _} (dir : Dir ρ) (today : Str) (c : SimCall α)
    (hf : c.overwrite = true ∨ fileExists dir (simName today c ++ ".pkl".toList) = false) :
    ¬ (!c.overwrite && fileExists dir (simName today c ++ ".pkl".toList)) = true := by
  rcases hf with hf | hf
  · rw [hf]; exact Bool.false_ne_true
  · rw [hf, Bool.and_false]; decide

/-! ## C94 -/

/-- **C94 (enough is compiled), the part that holds.**  If every family that the call uses was compiled –
and at least one was – `simulate` does exactly what it does on the model with all functions: same
result, same files, same error.  Missing: calls that use something that was not compiled, see the
theorems below. -/
theorem C94_enough_partial (env : SamEnv α (List (NDArray α))) (isNan : α → Bool) (fl : SimFlags)
    (add mul : NDArray α → NDArray α → NDArray α) (fns : List Str) (today : Str)
    (h : Heap (NDArray α)) (c : SimCall α) (dir : Dir (SimOut α))
    (hne : fns ≠ []) (hu : ∀ f ∈ familiesUsed c fl, f ∈ fns) :
    simulate (simEnvOf (env.builtWith fns) isNan fl add mul) today h c dir
      = simulate (simEnvOf (env.builtWith allFamilies) isNan fl add mul) today h c dir := by
  have hsolve : ∀ (x0 : Dict Str (NDArray α)) (theta : List α),
      simulateSolve (env.builtWith fns) isNan fl x0 theta c
        = simulateSolve (env.builtWith allFamilies) isNan fl x0 theta c := by
    intro x0 theta
    have he : eulerPart (env.builtWith fns) isNan x0 theta c
        = eulerPart (env.builtWith allFamilies) isNan x0 theta c := by
      rw [eulerPart_builtWith, eulerPart_builtWith]
      · intro _; decide
      · exact fun hc => hu _ (used_euler c fl hc)
    unfold simulateSolve
    rw [he]
    rcases eulerPart (env.builtWith allFamilies) isNan x0 theta c with e | e
    · rfl
    dsimp only [bind, Except.bind]
    by_cases ho : c.useOptimizer = true
    · rw [if_pos ho, if_pos ho]
      rw [simOptimize_builtWith env fns allFamilies fl c.optimizerMode _ theta]
      · rfl
      · exact fun hm hj => hu _ (used_root c fl ho hm hj)
      · exact fun hm => hu _ (used_minimize c fl ho hm)
      · intro _ _; decide
      · intro _; decide
    · rw [if_neg ho, if_neg ho]
  have hc : (!fns.isEmpty) = true := by
    cases fns with
    | nil => exact absurd rfl hne
    | cons => rfl
  have hcomp : simulateCompute (simEnvOf (env.builtWith fns) isNan fl add mul) h c
      = simulateCompute (simEnvOf (env.builtWith allFamilies) isNan fl add mul) h c := by
    exact simulateCompute_congr _ _ h c rfl rfl (by show (!fns.isEmpty) = _; rw [hc]; rfl) rfl rfl
      hsolve
  unfold simulate
  rw [hcomp]

/-- **C94 (nothing is compiled).**  On a model for which nothing was compiled – `functions_to_compile=None`
or `[]`, or a `CGEModel` that was never compiled – every call of `simulate` that computes something
raises `AttributeError`: what is needed is not compiled on demand. -/
theorem C94_nothing_compiled (env : SamEnv α (List (NDArray α))) (isNan : α → Bool) (fl : SimFlags)
    (add mul : NDArray α → NDArray α → NDArray α) (today : Str) (h : Heap (NDArray α)) (c : SimCall α)
    (dir : Dir (SimOut α))
    (hf : c.overwrite = true ∨ fileExists dir (simName today c ++ ".pkl".toList) = false) :
    simulate (simEnvOf (env.builtWith []) isNan fl add mul) today h c dir
      = (dir, .error (.py .attributeError)) := by
  unfold simulate
  dsimp only
  rw [if_neg (not_cached dir today c hf)]
  rfl

/-- **C94 (something is missing).**  A computing call that uses a family which was not compiled never returns
a result and never writes a file. -/
theorem C94_missing_raises (env : SamEnv α (List (NDArray α))) (isNan : α → Bool) (fl : SimFlags)
    (add mul : NDArray α → NDArray α → NDArray α) (fns : List Str) (today : Str)
    (h : Heap (NDArray α)) (c : SimCall α) (dir : Dir (SimOut α))
    (hf : c.overwrite = true ∨ fileExists dir (simName today c ++ ".pkl".toList) = false)
    (hm : ∃ f ∈ familiesUsed c fl, f ∉ fns) :
    ∃ e, simulate (simEnvOf (env.builtWith fns) isNan fl add mul) today h c dir = (dir, .error e) := by
  have hsolve : ∀ (x0 : Dict Str (NDArray α)) (theta : List α),
      ∃ e, simulateSolve (env.builtWith fns) isNan fl x0 theta c = .error e := by
    intro x0 theta
    obtain ⟨f, hfu, hfn⟩ := hm
    unfold simulateSolve
    rcases he : eulerPart (env.builtWith fns) isNan x0 theta c with e | e
    · exact ⟨e, rfl⟩
    · simp only [bind, Except.bind]
      simp only [familiesUsed, List.mem_append] at hfu
      rcases hfu with (hfu | hfu) | hfu
      · split at hfu
        · rename_i hu
          rw [List.mem_singleton] at hfu
          subst hfu
          have hc : fns.contains "euler".toList = false := by simpa using hfn
          exfalso
          unfold eulerPart eulerPass at he
          rw [if_pos hu] at he
          simp only [SamEnv.builtWith, hc, bind, Except.bind, Except.map] at he
          cases he
        · simp at hfu
      · split at hfu
        · rename_i hu
          rw [List.mem_singleton] at hfu
          subst hfu
          have hc : fns.contains "root".toList = false := by simpa using hfn
          rw [if_pos hu.1]
          unfold simOptimize solveWithRoot
          rw [if_pos hu.2.1, show (env.builtWith fns).compiled = fns from rfl, hc, hu.2.2]
          exact ⟨_, rfl⟩
        · simp at hfu
      · split at hfu
        · rename_i hu
          rw [List.mem_singleton] at hfu
          subst hfu
          have hc : fns.contains "minimize".toList = false := by simpa using hfn
          rw [if_pos hu.1]
          unfold simOptimize solveWithMinimize
          rw [if_neg (by rw [hu.2]; decide), if_pos hu.2,
            show (env.builtWith fns).compiled = fns from rfl, hc]
          exact ⟨_, rfl⟩
        · simp at hfu
  have hcomp : ∃ e, simulateCompute (simEnvOf (env.builtWith fns) isNan fl add mul) h c = .error e :=
    simulateCompute_error _ h c hsolve
  obtain ⟨e, he⟩ := hcomp
  refine ⟨e, ?_⟩
  unfold simulate
  dsimp only
  rw [if_neg (not_cached dir today c hf), he]

/-- **C94 (how the refusal looks).**  Once the request has been found valid: without the Euler function a
call that uses Euler steps is a `TypeError` (`None` is called); without the functions of the root finder
or the minimizer the call is a `ValueError`, but only after the Euler pass has been made – so an error of
the Euler pass comes first. -/
theorem C94_kinds (env : SamEnv α (List (NDArray α))) (isNan : α → Bool) (fl : SimFlags)
    (fns : List Str) (x0 : Dict Str (NDArray α)) (theta : List α) (c : SimCall α) :
    (c.useEuler = true → "euler".toList ∉ fns →
      simulateSolve (env.builtWith fns) isNan fl x0 theta c = .error .typeError) ∧
    (c.useOptimizer = true →
      ((c.optimizerMode = "root".toList ∧ fl.useJac = true ∧ "root".toList ∉ fns) ∨
        (c.optimizerMode = "minimize".toList ∧ "minimize".toList ∉ fns) ∨
        (c.optimizerMode ≠ "root".toList ∧ c.optimizerMode ≠ "minimize".toList)) →
      (∀ e, eulerPart (env.builtWith fns) isNan x0 theta c = .error e →
        simulateSolve (env.builtWith fns) isNan fl x0 theta c = .error e) ∧
      (∀ p, eulerPart (env.builtWith fns) isNan x0 theta c = .ok p →
        simulateSolve (env.builtWith fns) isNan fl x0 theta c = .error .valueError)) := by
  constructor
  · intro hu hn
    have hc : fns.contains "euler".toList = false := by simpa using hn
    unfold simulateSolve eulerPart eulerPass
    rw [if_pos hu]
    simp only [SamEnv.builtWith, hc, bind, Except.bind, Except.map]
    rfl
  · intro ho hm
    constructor
    · intro e he
      unfold simulateSolve
      rw [he]
      rfl
    · intro p he
      unfold simulateSolve
      rw [he]
      dsimp only [bind, Except.bind]
      rw [if_pos ho]
      unfold simOptimize
      rcases hm with ⟨hm, hj, hn⟩ | ⟨hm, hn⟩ | ⟨h1, h2⟩
      · have hc : fns.contains "root".toList = false := by simpa using hn
        unfold solveWithRoot
        rw [if_pos hm, show (env.builtWith fns).compiled = fns from rfl, hc, hj]
        rfl
      · have hc : fns.contains "minimize".toList = false := by simpa using hn
        unfold solveWithMinimize
        rw [if_neg (by rw [hm]; decide), if_pos hm,
          show (env.builtWith fns).compiled = fns from rfl, hc]
        rfl
      · rw [if_neg h1, if_neg h2]

/-- A call with the default options uses Euler steps and the root finder with its Jacobian. -/
example : familiesUsed ({ initial := [] } : SimCall Nat) {} = ["euler".toList, "root".toList] := by decide

/-- The root finder without Jacobian uses none of the optional functions. -/
example : familiesUsed ({ initial := [], useEuler := false } : SimCall Nat) { useJac := false } = [] := by
  decide

/-- Only the functions of the root finder: enough for the root finder alone, not for Euler steps. -/
example : (∀ f ∈ familiesUsed ({ initial := [], useEuler := false } : SimCall Nat) {}, f ∈ ["root".toList]) ∧
    ∃ f ∈ familiesUsed ({ initial := [] } : SimCall Nat) {}, f ∉ ["root".toList] := by decide

end Verif
