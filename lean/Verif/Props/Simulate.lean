import Verif.Model.Simulate
import Verif.Props.Results
import Verif.Props.Flat
import Verif.Props.Scenario

/-!
# C13, C18, C24: `simulate`
-/

namespace Verif

variable {α ρ : Type _}

/-! ## C13 -/

/-- **C13 (validation).**  For every model and every dict of initial values: validation passes if and
only if the initial state has exactly the names of the model; otherwise it reports the missing names
if there are any, and the unknown names if not. -/
theorem C13_validation_exact (modelNames initialNames : List Str) :
    (validateInitial modelNames initialNames = .ok () ↔
      (∀ x ∈ modelNames, x ∈ initialNames) ∧ (∀ x ∈ initialNames, x ∈ modelNames)) ∧
    ((∃ x ∈ modelNames, x ∉ initialNames) →
      ∃ l, validateInitial modelNames initialNames = .error (.missing l) ∧
        ∀ x, x ∈ l ↔ x ∈ modelNames ∧ x ∉ initialNames) ∧
    ((∀ x ∈ modelNames, x ∈ initialNames) → (∃ x ∈ initialNames, x ∉ modelNames) →
      ∃ l, validateInitial modelNames initialNames = .error (.unknown l) ∧
        ∀ x, x ∈ l ↔ x ∈ initialNames ∧ x ∉ modelNames) := by
  have hall : (modelNames.all fun x => decide (x ∈ initialNames)) = true ↔
      ∀ x ∈ modelNames, x ∈ initialNames := by simp
  have hany : (initialNames.any fun x => decide (x ∉ modelNames)) = true ↔
      ∃ x ∈ initialNames, x ∉ modelNames := by simp
  refine ⟨?_, ?_, ?_⟩
  · unfold validateInitial
    constructor
    · intro h
      split at h
      · cases h
      · next h1 =>
        split at h
        · cases h
        · next h2 =>
          refine ⟨hall.1 (by simpa using h1), ?_⟩
          intro x hx
          apply Classical.byContradiction
          intro hn
          exact h2 (hany.2 ⟨x, hx, hn⟩)
    · rintro ⟨h1, h2⟩
      rw [hall.2 h1, if_neg (by simp), if_neg]
      rw [hany]
      rintro ⟨x, hx, hn⟩
      exact hn (h2 x hx)
  · rintro ⟨x, hx, hn⟩
    refine ⟨modelNames.filter fun x => decide (x ∉ initialNames), ?_, ?_⟩
    · unfold validateInitial
      rw [if_pos]
      have : ¬ (modelNames.all fun x => decide (x ∈ initialNames)) = true := by
        rw [hall]; intro h; exact hn (h x hx)
      simpa using this
    · intro y; simp
  · intro h1 h2
    refine ⟨initialNames.filter fun x => decide (x ∉ modelNames), ?_, ?_⟩
    · unfold validateInitial
      rw [hall.2 h1, if_neg (by simp), if_pos (hany.2 h2)]
    · intro y; simp

example : validateInitial ["P", "X"] ["P"] = .error (.missing ["X"]) ∧
    validateInitial ["P", "X"] ["P", "X", "z"] = .error (.unknown ["z"]) ∧
    validateInitial ["P", "X"] ["X", "P"] = .ok () := by decide

/-- **C13 (in `simulate`).**  When no saved result is picked up, a compiled model refuses every
initial state that does not have exactly the model's names, with the error of the previous theorem,
and the directory is left as it was. -/
theorem C13_simulate_rejects_partial (env : SimEnv α ρ) (today : Str) (h : Heap (NDArray α))
    (c : SimCall α) (dir : Dir ρ) (hcomp : env.compiled = true)
    (hnc : c.overwrite = true ∨ simName today c ++ ".pkl".toList ∉ dkeys (filesOf dir))
    (e : SimErr)
    (hbad : validateInitial (env.variables.map ModelObject.name ++
      env.parameters.map ModelObject.name) (dkeys c.initial) = .error e) :
    simulate env today h c dir = (dir, .error e) := by
  have hc : (!c.overwrite && fileExists dir (simName today c ++ ".pkl".toList)) = false := by
    rcases hnc with h1 | h1
    · rw [h1]; rfl
    · have : fileExists dir (simName today c ++ ".pkl".toList) = false := decide_eq_false h1
      rw [this, Bool.and_false]
  unfold simulate
  simp only [hc, Bool.false_eq_true, if_false]
  have : simulateCompute env h c = .error e := by
    unfold simulateCompute
    simp only [hcomp, Bool.not_true, Bool.false_eq_true, if_false, hbad, bind, Except.bind, pure,
      Except.pure]
  rw [this]

/-- A one-variable, one-parameter environment whose "solution" is `theta`. -/
def exEnv : SimEnv Int (List Int) where
  variables := [{ name := "P" }]
  parameters := [{ name := "alpha", dims := ["i"] }]
  compiled := true
  add := fun a b => ⟨a.shape, List.zipWith (· + ·) a.data b.data⟩
  mul := fun a b => ⟨a.shape, List.zipWith (· * ·) a.data b.data⟩
  solve := fun _ theta _ => .ok theta
def exInitial : Dict Str (PyVal (NDArray Int)) :=
  [("P", .num ⟨[], [1]⟩), ("alpha", .num ⟨[2], [5, 6]⟩)]

example : (simulate exEnv "d" [] { initial := [("P", .num ⟨[], [1]⟩)] } none)
    = (none, .error (.missing ["alpha"])) := rfl

/-- **C13 (converse).**  With exactly the right names, validation is passed: the only errors left are
those of the scenario, of packing and of the solver. -/
theorem C13_simulate_accepts (env : SimEnv α ρ) (h : Heap (NDArray α)) (c : SimCall α)
    (hcomp : env.compiled = true)
    (h1 : ∀ x ∈ env.variables.map ModelObject.name ++ env.parameters.map ModelObject.name,
      x ∈ dkeys c.initial)
    (h2 : ∀ x ∈ dkeys c.initial, x ∈ env.variables.map ModelObject.name ++
      env.parameters.map ModelObject.name) :
    (∀ l, simulateCompute env h c ≠ .error (.missing l)) ∧
    (∀ l, simulateCompute env h c ≠ .error (.unknown l)) := by
  have hv := (C13_validation_exact _ _).1.2 ⟨h1, h2⟩
  have hne : ∀ e, simulateCompute env h c = .error e → ∃ e', e = .py e' := by
    intro e he
    unfold simulateCompute at he
    simp only [hcomp, Bool.not_true, Bool.false_eq_true, if_false, hv, bind, Except.bind, pure,
      Except.pure] at he
    have lift : ∀ {β : Type _} (r : Res β) (e : SimErr), liftPy r = .error e → ∃ e', e = .py e' := by
      intro β r e hr
      cases r with
      | ok b => cases hr
      | error e' => cases hr; exact ⟨e', rfl⟩
    split at he
    · next e1 hs => cases he; exact lift _ _ hs
    · split at he
      · next e1 hs => cases he; exact lift _ _ hs
      · exact lift _ _ he
  constructor
  · intro l hl
    obtain ⟨e', he'⟩ := hne _ hl
    cases he'
  · intro l hl
    obtain ⟨e', he'⟩ := hne _ hl
    cases he'

example : simulateCompute exEnv []
    { initial := exInitial, finalValues := some [("alpha", .num ⟨[2], [7, 8]⟩)] }
      = .ok [7, 8] := rfl

/-- **C13 (negation).**  When a file with the simulation's name exists and `overwrite` is not set,
`simulate` accepts an initial state that lacks model names and returns the stored result. -/
theorem C13_cache_skips_validation :
    ∃ (dir : Dir (List Int)) (c : SimCall Int),
      validateInitial ["P", "alpha"] (dkeys c.initial) = .error (.missing ["P", "alpha"]) ∧
      simulate exEnv "d" [] c dir = (dir, .ok [42]) :=
  ⟨some [("run.pkl", [42])], { initial := [], simulationName := some "run" }, by decide, rfl⟩

/-! ## C18 -/

/-- **C18 (one call).**  If `overwrite` is set or there is no file with the simulation's name, the
result of `simulate` is the solution computed for the arguments of that very call, whether or not it
is saved. -/
theorem C18_no_cached_file_partial (env : SimEnv α ρ) (today : Str) (h : Heap (NDArray α))
    (c : SimCall α) (dir : Dir ρ)
    (hnc : c.overwrite = true ∨ simName today c ++ ".pkl".toList ∉ dkeys (filesOf dir)) :
    (simulate env today h c dir).2 = simulateCompute env h c := by
  have hc : (!c.overwrite && fileExists dir (simName today c ++ ".pkl".toList)) = false := by
    rcases hnc with h1 | h1
    · rw [h1]; rfl
    · have : fileExists dir (simName today c ++ ".pkl".toList) = false := decide_eq_false h1
      rw [this, Bool.and_false]
  unfold simulate
  simp only [hc, Bool.false_eq_true, if_false]
  cases hr : simulateCompute env h c with
  | error e => rfl
  | ok r =>
    dsimp only
    split
    · cases how : c.overwrite with
      | false =>
        obtain ⟨dir', _, hw, _⟩ := C15_save_preserves dir today (some (simName today c)) r
        rw [hw]
      | true =>
        have : ∃ d', writeResults dir today (some (simName today c)) true r = some d' := by
          unfold writeResults
          simp only [Bool.not_true, Bool.false_eq_true, if_false]
          generalize splitext _ = p
          obtain ⟨base, ext⟩ := p
          exact ⟨_, rfl⟩
        obtain ⟨d', hd'⟩ := this
        rw [hd']
    · rfl

example : (simulate exEnv "d" []
    { initial := exInitial, saveResults := true, finalDelta := some [("alpha", .num ⟨[2], [1, 1]⟩)] }
      none).2 = .ok [6, 7] := rfl

/-- A history of `simulate` calls in one directory. -/
def runSims (env : SimEnv α ρ) (today : Str) (h : Heap (NDArray α)) :
    List (SimCall α) → Dir ρ → List (Except SimErr ρ)
  | [], _ => []
  | c :: cs, dir =>
      let p := simulate env today h c dir
      p.2 :: runSims env today h cs p.1

/-- **C18 (histories with different names).**  In any history of calls whose simulation names are
plain and pairwise different, started in an empty directory, every call returns its own solution.
Missing: two calls with the same name, see the next theorem. -/
theorem C18_distinct_names_partial (env : SimEnv α ρ) (today : Str) (h : Heap (NDArray α))
    (cs : List (SimCall α)) (hplain : ∀ c ∈ cs, PlainName (simName today c))
    (hnd : (cs.map (simName today)).Nodup) :
    runSims env today h cs none = cs.map (simulateCompute env h) := by
  suffices gen : ∀ (cs : List (SimCall α)) (dir : Dir ρ),
      (∀ c ∈ cs, PlainName (simName today c)) → (cs.map (simName today)).Nodup →
      (∀ c ∈ cs, simName today c ++ ".pkl".toList ∉ dkeys (filesOf dir)) →
      runSims env today h cs dir = cs.map (simulateCompute env h) from
    gen cs none hplain hnd (by intro c _; simp [filesOf, dkeys])
  intro cs
  induction cs with
  | nil => intros; rfl
  | cons c cs ih =>
    intro dir hp hn hf
    have h1 := C18_no_cached_file_partial env today h c dir (Or.inr (hf c (by simp)))
    simp only [runSims, List.map_cons, h1]
    congr 1
    simp only [List.map_cons, List.nodup_cons] at hn
    apply ih
    · exact fun c hc => hp c (by simp [hc])
    · exact hn.2
    · -- the files afterwards are the old ones and possibly `name.pkl`
      intro c' hc' hmem
      have hfc : simName today c ++ ".pkl".toList ∉ dkeys (filesOf dir) := hf c (by simp)
      have hne : simName today c' ≠ simName today c := by
        intro he
        exact hn.1 (he ▸ List.mem_map_of_mem (f := simName today) hc')
      have hold : simName today c' ++ ".pkl".toList ∉ dkeys (filesOf dir) := hf c' (by simp [hc'])
      have hcond : (!c.overwrite && fileExists dir (simName today c ++ ".pkl".toList)) = false := by
        have : fileExists dir (simName today c ++ ".pkl".toList) = false := decide_eq_false hfc
        rw [this, Bool.and_false]
      unfold simulate at hmem
      simp only [hcond, Bool.false_eq_true, if_false] at hmem
      cases hr : simulateCompute env h c with
      | error e => rw [hr] at hmem; exact hold hmem
      | ok r =>
        rw [hr] at hmem
        dsimp only at hmem
        split at hmem
        · have htarget : writeResults dir today (some (simName today c)) c.overwrite r
              = some (some (dset (filesOf dir) (simName today c ++ ".pkl".toList) r)) := by
            rw [writeResults_plain _ _ _ _ _ (hp c (by simp))]
            cases c.overwrite with
            | true => rfl
            | false =>
              simp only [Bool.not_false, if_true, freshName]
              rw [if_neg hfc]
              rfl
          rw [htarget] at hmem
          rcases (mem_dkeys_dset _ _ _ _).1 hmem with he | he
          · exact hne (List.append_cancel_right he)
          · exact hold he
        · exact hold hmem

example : (([{ initial := exInitial, simulationName := some "a" },
    { initial := exInitial, simulationName := some "b", saveResults := true }] :
      List (SimCall Int)).map (simName "d")).Nodup := by decide

/-- **C18 (negation).**  After a call that saved its result under a plain name, *every* later call
with the same name and no `overwrite` returns that first result – whatever its initial state,
scenario, options or `save_results`. -/
theorem C18_same_name_returns_old_result (env : SimEnv α ρ) (today : Str) (h h' : Heap (NDArray α))
    (c c' : SimCall α) (r : ρ) (hp : PlainName (simName today c))
    (hr : simulateCompute env h c = .ok r) (hs : c.saveResults = true)
    (hn : simName today c' = simName today c) (ho : c'.overwrite = false) :
    (simulate env today h' c' (simulate env today h c none).1).2 = .ok r := by
  have h1 : (simulate env today h c none).1
      = some [(simName today c ++ ".pkl".toList, r)] := by
    have hfe : fileExists (none : Dir ρ) (simName today c ++ ".pkl".toList) = false := by
      simp [fileExists, filesOf, dkeys]
    unfold simulate
    simp only [hfe, Bool.and_false, Bool.false_eq_true, if_false, hr, hs, if_true]
    rw [writeResults_plain _ _ _ _ _ hp]
    cases c.overwrite <;> rfl
  rw [h1]
  unfold simulate
  rw [hn, ho]
  simp only [fileExists, filesOf, dkeys, Bool.not_false, Bool.true_and, Option.getD_some,
    List.map_cons, List.map_nil, List.mem_singleton, decide_true, if_true]
  have hread : readResults (some [(simName today c ++ ".pkl".toList, r)]) (simName today c) = .ok r := by
    have hmatch : ∀ n, matchNumbered (simName today c) (simName today c ++ ".pkl".toList) ≠ some n := by
      intro n hm
      obtain ⟨d, _, _, he, _⟩ := matchNumbered_some hm
      have := List.append_cancel_left he
      simp at this
    unfold readResults
    simp only [hp.1, Bool.not_false, if_true]
    have hz : maxSuffix (simName today c) (dkeys [(simName today c ++ ".pkl".toList, r)]) = 0 := by
      simp only [maxSuffix, dkeys, List.map_cons, List.map_nil, List.foldl_cons, List.foldl_nil]
      split
      · next n hm => exact absurd hm (hmatch n)
      · rfl
    rw [hz]
    simp [dget_cons]
  rw [hread]
  rfl

/-- Two different scenarios under the same (default) name: the second call returns the first
solution `[6, 7]` although its own solution is `[5, 60]`. -/
example :
    let c0 : SimCall Int := { initial := exInitial, useEuler := false }
    let c1 := { c0 with saveResults := true, finalDelta := some [("alpha", .num ⟨[2], [1, 1]⟩)] }
    let c2 := { c0 with finalPct := some [("alpha", .num ⟨[2], [1, 10]⟩)] }
    simulateCompute exEnv [] c2 = .ok [5, 60] ∧
    (simulate exEnv "d" [] c2 (simulate exEnv "d" [] c1 none).1).2 = .ok [6, 7] := ⟨rfl, rfl⟩

/-- **C18 (default names).**  The default name does not depend on the initial state or on the
scenario, so two unnamed scenarios run on the same day with the same options share one name. -/
theorem C18_default_name_ignores_scenario (today : Str) (c : SimCall α)
    (initial : Dict Str (PyVal (NDArray α)))
    (v d p : Option (Dict Str (PyVal (NDArray α)))) (hn : c.simulationName = none) :
    simName today { c with initial := initial, finalValues := v, finalDelta := d, finalPct := p }
      = simName today c := by
  unfold simName
  rw [show ({ c with initial := initial, finalValues := v, finalDelta := d, finalPct := p } :
    SimCall α).simulationName = c.simulationName from rfl, hn]
  rfl

example : simName "2026-01-01" { initial := exInitial } =
    ("Simulation_2026-01-01_Euler[steps=10000]_root[]" : Str) := by decide

/-! ### What is computed -/

theorem dget_derefDict (h : Heap (NDArray α)) (d : Dict Str (PyVal (NDArray α)))
    (hn : (dkeys d).Nodup) (k : Str) : dget (derefDict h d) k = seen h d k := by
  induction d with
  | nil => rfl
  | cons p d ih =>
    obtain ⟨k', v⟩ := p
    simp only [dkeys, List.map_cons, List.nodup_cons] at hn
    have ih := ih hn.2
    unfold derefDict at ih ⊢
    unfold seen at ih ⊢
    rw [List.filterMap_cons, dget_cons]
    cases hv : readVal h v with
    | some a =>
      simp only [hv, Option.map_some]
      rw [dget_cons]
      by_cases hk : k' = k
      · rw [if_pos hk, if_pos hk]; simp [hv]
      · rw [if_neg hk, if_neg hk, ih]
    | none =>
      simp only [hv, Option.map_none]
      rw [ih]
      by_cases hk : k' = k
      · subst hk
        rw [if_pos rfl, (dget_eq_none_iff d k').2 hn.1]
        simp [hv]
      · rw [if_neg hk]

theorem createFinalParamDict_nodup {β : Type _} (add mul : β → β → β) (h : Heap β)
    (initial : Dict Str (PyVal β)) (values delta pct : Option (Dict Str (PyVal β)))
    (hn : (dkeys initial).Nodup) (vi : ValidRefs h initial) (h' : Heap β)
    (d' : Dict Str (PyVal β))
    (hok : createFinalParamDict add mul h initial values delta pct = (h', .ok d')) :
    (dkeys d').Nodup := by
  obtain ⟨-, hk, -, -⟩ := deepcopyLoop_spec h.length initial h [] (Nat.le_refl _) vi
    (by intro r r' hr; cases hr)
  have hk' : dkeys (deepcopyDict h initial).2 = dkeys initial := hk
  unfold createFinalParamDict at hok
  dsimp only at hok
  split at hok
  · cases hok
  · split at hok
    · cases hok
    · split at hok
      · cases hok
      · next h1 d1 e1 =>
        rw [(inplaceLoop_keys _ _ _ _ _ _ hok).1, (inplaceLoop_keys _ _ _ _ _ _ e1).1]
        apply nodup_dkeys_dupdate
        rw [hk']; exact hn

/-- What is computed: the dictionary of the caller's values, and the wanted parameters. -/
theorem runs_requested_scenario (env : SimEnv α ρ) (h : Heap (NDArray α)) (c : SimCall α)
    (hcomp : env.compiled = true) (hv : env.variables ≠ []) (hp : env.parameters ≠ [])
    (hi : (dkeys c.initial).Nodup)
    (hi1 : ∀ x ∈ env.variables.map ModelObject.name ++ env.parameters.map ModelObject.name,
      x ∈ dkeys c.initial)
    (hi2 : ∀ x ∈ dkeys c.initial, x ∈ env.variables.map ModelObject.name ++
      env.parameters.map ModelObject.name)
    (hdist : (dkeys (c.finalValues.getD []) ++ dkeys (c.finalDelta.getD []) ++
      dkeys (c.finalPct.getD [])).Nodup)
    (hne : dkeys (c.finalValues.getD []) ++ dkeys (c.finalDelta.getD []) ++
      dkeys (c.finalPct.getD []) ≠ [])
    (hknown : ∀ k ∈ dkeys (c.finalDelta.getD []) ++ dkeys (c.finalPct.getD []), k ∈ dkeys c.initial)
    (vi : ValidRefs h c.initial) (vv : ValidRefs h (c.finalValues.getD []))
    (vd : ValidRefs h (c.finalDelta.getD [])) (vp : ValidRefs h (c.finalPct.getD []))
    (hshare : (refsOf c.initial).Nodup) :
    ∃ thetas : List (List α),
      simulateCompute env h c = liftPy (env.solve (derefDict h c.initial) thetas.flatten c) ∧
      (∀ n, dget (derefDict h c.initial) n = seen h c.initial n) ∧
      thetas.map some = env.parameters.map fun p =>
        (wantedScenario env.add env.mul (seen h c.initial) (seen h (c.finalValues.getD []))
          (seen h (c.finalDelta.getD [])) (seen h (c.finalPct.getD [])) p.name).map NDArray.data := by
  obtain ⟨h', d', hok, hseen⟩ := C10_scenario_exact_partial env.add env.mul h c.initial c.finalValues
    c.finalDelta c.finalPct hdist hne hknown vi vv vd vp hshare
  have hnd := createFinalParamDict_nodup _ _ _ _ _ _ _ hi vi _ _ hok
  have hsome : ∀ n ∈ dkeys c.initial, ∃ a, dget (derefDict h' d') n = some a ∧
      wantedScenario env.add env.mul (seen h c.initial) (seen h (c.finalValues.getD []))
          (seen h (c.finalDelta.getD [])) (seen h (c.finalPct.getD [])) n = some a := by
    intro n hn
    obtain ⟨v, hv⟩ := (mem_dkeys_iff _ _).1 hn
    obtain ⟨x, hx⟩ := readVal_some_of_bound (h := h) (d := c.initial) (k := n) (v := v)
      (fun k r hr => vi r (mem_refsOf.2 ⟨k, mem_of_dget _ hr⟩)) hv
    have hx' : seen h c.initial n = some x := by simp [seen, hv, hx]
    have hw : ∃ a, wantedScenario env.add env.mul (seen h c.initial) (seen h (c.finalValues.getD []))
          (seen h (c.finalDelta.getD [])) (seen h (c.finalPct.getD [])) n = some a := by
      unfold wantedScenario
      rw [hx']
      cases seen h (c.finalValues.getD []) n <;> cases seen h (c.finalDelta.getD []) n <;>
        cases seen h (c.finalPct.getD []) n <;> exact ⟨_, rfl⟩
    obtain ⟨a, ha⟩ := hw
    exact ⟨a, by rw [dget_derefDict _ _ hnd, hseen, ha], ha⟩
  have hrav : ∀ objs : List ModelObject, (∀ o ∈ objs, o.name ∈ dkeys c.initial) →
      ∃ bs, ravelNamed (derefDict h' d') objs = .ok bs ∧
        bs.map some = objs.map fun p =>
          (wantedScenario env.add env.mul (seen h c.initial) (seen h (c.finalValues.getD []))
          (seen h (c.finalDelta.getD [])) (seen h (c.finalPct.getD [])) p.name).map NDArray.data := by
    intro objs
    induction objs with
    | nil => intro _; exact ⟨[], rfl, rfl⟩
    | cons o objs ih =>
      intro ho
      obtain ⟨bs, h1, h2⟩ := ih fun o h => ho o (by simp [h])
      obtain ⟨a, ha, hw⟩ := hsome o.name (ho o (by simp))
      refine ⟨a.data :: bs, ?_, by simp [h2, hw]⟩
      unfold ravelNamed at h1 ⊢
      rw [List.mapM_cons, h1]
      simp only [dgetE, ha, Except.map, bind, Except.bind, pure, Except.pure]
  obtain ⟨xs, hx1, hx2⟩ := hrav env.variables
    (fun o ho => hi1 _ (List.mem_append_left _ (List.mem_map_of_mem ho)))
  obtain ⟨ts, ht1, ht2⟩ := hrav env.parameters
    (fun o ho => hi1 _ (List.mem_append_right _ (List.mem_map_of_mem ho)))
  have hxne : xs ≠ [] := by
    rintro rfl
    have := congrArg List.length hx2
    simp only [List.map_nil, List.length_nil, List.length_map] at this
    exact hv (List.length_eq_zero_iff.1 this.symm)
  have htne : ts ≠ [] := by
    rintro rfl
    have := congrArg List.length ht2
    simp only [List.map_nil, List.length_nil, List.length_map] at this
    exact hp (List.length_eq_zero_iff.1 this.symm)
  refine ⟨ts, ?_, fun n => dget_derefDict _ _ hi n, ht2⟩
  have hval := (C13_validation_exact _ _).1.2 ⟨hi1, hi2⟩
  have hpack : variableDictToFlatArray (derefDict h' d') env.variables env.parameters
      = .ok (xs.flatten, ts.flatten) := by
    simp only [variableDictToFlatArray, hx1, ht1, npConcatenate_ok hxne, npConcatenate_ok htne, bind,
      Except.bind, pure, Except.pure]
  unfold simulateCompute
  simp only [hcomp, Bool.not_true, Bool.false_eq_true, if_false, hval, hok, hpack, liftPy, bind,
    Except.bind, pure, Except.pure]

/-- **C18 (what is computed).**  For an initial state with exactly the model's names and a scenario that
names nothing twice and only known names (and no two initial values that are one array object): the
numerical work gets the caller's initial values, and as `theta` the wanted values of the parameters (the
given value, initial value plus offset, or initial value times factor), in declaration order. -/
theorem C18_runs_requested_scenario_partial (env : SimEnv α ρ) (h : Heap (NDArray α)) (c : SimCall α)
    (hcomp : env.compiled = true) (hv : env.variables ≠ []) (hp : env.parameters ≠ [])
    (hi : (dkeys c.initial).Nodup)
    (hi1 : ∀ x ∈ env.variables.map ModelObject.name ++ env.parameters.map ModelObject.name,
      x ∈ dkeys c.initial)
    (hi2 : ∀ x ∈ dkeys c.initial, x ∈ env.variables.map ModelObject.name ++
      env.parameters.map ModelObject.name)
    (hdist : (dkeys (c.finalValues.getD []) ++ dkeys (c.finalDelta.getD []) ++
      dkeys (c.finalPct.getD [])).Nodup)
    (hne : dkeys (c.finalValues.getD []) ++ dkeys (c.finalDelta.getD []) ++
      dkeys (c.finalPct.getD []) ≠ [])
    (hknown : ∀ k ∈ dkeys (c.finalDelta.getD []) ++ dkeys (c.finalPct.getD []), k ∈ dkeys c.initial)
    (vi : ValidRefs h c.initial) (vv : ValidRefs h (c.finalValues.getD []))
    (vd : ValidRefs h (c.finalDelta.getD [])) (vp : ValidRefs h (c.finalPct.getD []))
    (hshare : (refsOf c.initial).Nodup) :
    ∃ (x0 : Dict Str (NDArray α)) (thetas : List (List α)),
      simulateCompute env h c = liftPy (env.solve x0 thetas.flatten c) ∧
      (∀ n, dget x0 n = seen h c.initial n) ∧
      thetas.map some = env.parameters.map fun p =>
        (wantedScenario env.add env.mul (seen h c.initial) (seen h (c.finalValues.getD []))
          (seen h (c.finalDelta.getD [])) (seen h (c.finalPct.getD [])) p.name).map NDArray.data := by
  obtain ⟨ts, h1, h2, h3⟩ := runs_requested_scenario env h c hcomp hv hp hi hi1 hi2 hdist hne hknown vi vv
    vd vp hshare
  exact ⟨_, ts, h1, h2, h3⟩

/-- The hypotheses are met with an array that is shifted and a number that is kept; the solver gets the
shifted values. -/
example :
    let c : SimCall Int := { initial := [("P", .num ⟨[], [1]⟩), ("alpha", .ref 0)], finalDelta := some [("alpha", .ref 1)] }
    let h : Heap (NDArray Int) := [⟨[2], [5, 6]⟩, ⟨[2], [10, 20]⟩]
    ValidRefs h c.initial ∧ ValidRefs h (c.finalDelta.getD []) ∧ (refsOf c.initial).Nodup ∧
      simulateCompute exEnv h c = .ok [15, 26] := by
  refine ⟨?_, ?_, by decide, rfl⟩ <;> unfold ValidRefs <;> decide

theorem append_cons_inj {β : Type _} {a a' s s' : List β} {x : β} (ha : x ∉ a) (ha' : x ∉ a')
    (h : a ++ x :: s = a' ++ x :: s') : a = a' ∧ s = s' := by
  induction a generalizing a' with
  | nil =>
    cases a' with
    | nil => simpa using h
    | cons y a' => simp at h ha'; exact absurd h.1 ha'.1
  | cons y a ih =>
    cases a' with
    | nil => simp at h ha; exact absurd h.1.symm ha.1
    | cons z a' =>
      simp only [List.cons_append, List.cons.injEq] at h
      obtain ⟨h1, h2⟩ := ih (by simp at ha; exact ha.2) (by simp at ha'; exact ha'.2) h.2
      exact ⟨by rw [h.1, h1], h2⟩

theorem natStr_noBracket (n : Nat) : ']' ∉ natStr n := by
  intro h
  have := natStr_isDigit h
  revert this
  decide

/-- **C18 (default names tell the options apart).**  Two unnamed calls on one day share their name only if
they agree on whether the Euler pass runs and with how many steps, and on whether the optimizer runs, in
which mode and with which keyword arguments (as printed).  `optimizer_mode` is assumed to be free of
brackets and not to start with `E`, as "root" and "minimize" are. -/
theorem C18_default_name_options (today : Str) (c c' : SimCall α)
    (hn : c.simulationName = none) (hn' : c'.simulationName = none)
    (hm : '[' ∉ c.optimizerMode) (hm' : '[' ∉ c'.optimizerMode)
    (hE : c.optimizerMode.head? ≠ some 'E') (hE' : c'.optimizerMode.head? ≠ some 'E')
    (h : simName today c = simName today c') :
    c.useEuler = c'.useEuler ∧ (c.useEuler = true → c.nIterEuler = c'.nIterEuler) ∧
    c.useOptimizer = c'.useOptimizer ∧
    (c.useOptimizer = true → c.optimizerMode = c'.optimizerMode ∧
      joinStr ",".toList (c.optimizerKwargs.map fun p => p.1 ++ "=".toList ++ p.2)
        = joinStr ",".toList (c'.optimizerKwargs.map fun p => p.1 ++ "=".toList ++ p.2)) := by
  unfold simName at h
  rw [hn, hn', Option.getD_none, Option.getD_none] at h
  unfold defaultSimName at h
  generalize joinStr ",".toList (c.optimizerKwargs.map fun p => p.1 ++ "=".toList ++ p.2) = K at *
  generalize joinStr ",".toList (c'.optimizerKwargs.map fun p => p.1 ++ "=".toList ++ p.2) = K' at *
  have hsplit : "_Euler[steps=".toList = '_' :: 'E' :: "uler[steps=".toList := rfl
  have hu : "_".toList = ['_'] := rfl
  have hb : "[".toList = ['['] := rfl
  have hc : "]".toList = [']'] := rfl
  -- the optimizer parts
  have opt : ∀ (b b' : Bool) (pre : Str),
      (if b then pre ++ "_".toList ++ c.optimizerMode ++ "[".toList ++ K ++ "]".toList else pre)
      = (if b' then pre ++ "_".toList ++ c'.optimizerMode ++ "[".toList ++ K' ++ "]".toList else pre) →
      b = b' ∧ (b = true → c.optimizerMode = c'.optimizerMode ∧ K = K') := by
    intro b b' pre h
    cases b <;> cases b'
    · simp
    · have := congrArg List.length h; simp at this
    · have := congrArg List.length h; simp at this
    · refine ⟨rfl, fun _ => ?_⟩
      simp only [if_true, hb, List.append_assoc, List.append_cancel_left_eq, List.singleton_append]
        at h
      obtain ⟨h1, h2⟩ := append_cons_inj hm hm' h
      exact ⟨h1, List.append_cancel_right h2⟩
  have mixed : ∀ (c c' : SimCall α) (pre s K' : Str) (b' : Bool),
      c'.optimizerMode.head? ≠ some 'E' →
      pre ++ "_Euler[steps=".toList ++ s
        ≠ (if b' then pre ++ "_".toList ++ c'.optimizerMode ++ "[".toList ++ K' ++ "]".toList
            else pre) := by
    intro c c' pre s K' b' hE' h
    cases b'
    · have := congrArg List.length h; simp at this
    · simp only [if_true, hsplit, hu, List.append_assoc, List.append_cancel_left_eq, List.cons_append,
        List.nil_append, List.cons.injEq, true_and] at h
      cases hmo : c'.optimizerMode with
      | nil => rw [hmo, hb] at h; simp at h
      | cons x xs =>
        rw [hmo] at h hE'
        simp only [List.cons_append, List.cons.injEq] at h
        exact hE' (by rw [← h.1]; rfl)
  cases he : c.useEuler <;> cases he' : c'.useEuler <;>
    simp only [he, he', if_true, Bool.false_eq_true, if_false] at h
  · obtain ⟨h1, h2⟩ := opt _ _ _ h
    exact ⟨rfl, by simp, h1, h2⟩
  · exfalso
    cases ho : c'.useOptimizer <;> simp only [ho, if_true, Bool.false_eq_true, if_false] at h
    · exact mixed c' c _ (natStr c'.nIterEuler ++ "]".toList) K c.useOptimizer hE
        (by rw [h]; simp only [List.append_assoc])
    · exact mixed c' c _ (natStr c'.nIterEuler ++ "]".toList ++ "_".toList ++ c'.optimizerMode ++
        "[".toList ++ K' ++ "]".toList) K c.useOptimizer hE
        (by rw [h]; simp only [List.append_assoc])
  · exfalso
    cases ho : c.useOptimizer <;> simp only [ho, if_true, Bool.false_eq_true, if_false] at h
    · exact mixed c c' _ (natStr c.nIterEuler ++ "]".toList) K' c'.useOptimizer hE'
        (by rw [← h]; simp only [List.append_assoc])
    · exact mixed c c' _ (natStr c.nIterEuler ++ "]".toList ++ "_".toList ++ c.optimizerMode ++
        "[".toList ++ K ++ "]".toList) K' c'.useOptimizer hE'
        (by rw [← h]; simp only [List.append_assoc])
  · have key : ∀ s s' : Str, "Simulation_".toList ++ today ++ "_Euler[steps=".toList ++
        natStr c.nIterEuler ++ "]".toList ++ s = "Simulation_".toList ++ today ++
        "_Euler[steps=".toList ++ natStr c'.nIterEuler ++ "]".toList ++ s' →
        c.nIterEuler = c'.nIterEuler := by
      intro s s' h
      simp only [hc, List.append_assoc, List.append_cancel_left_eq, List.singleton_append] at h
      exact natStr_inj (append_cons_inj (natStr_noBracket _) (natStr_noBracket _) h).1
    have hiter : c.nIterEuler = c'.nIterEuler := by
      cases ho : c.useOptimizer <;> cases ho' : c'.useOptimizer <;>
        simp only [ho, ho', if_true, Bool.false_eq_true, if_false] at h
      · exact key [] [] (by simpa only [List.append_nil] using h)
      · exact key [] ("_".toList ++ c'.optimizerMode ++ "[".toList ++ K' ++ "]".toList)
          (by simpa only [List.append_nil, List.append_assoc] using h)
      · exact key ("_".toList ++ c.optimizerMode ++ "[".toList ++ K ++ "]".toList) []
          (by simpa only [List.append_nil, List.append_assoc] using h)
      · exact key ("_".toList ++ c.optimizerMode ++ "[".toList ++ K ++ "]".toList)
          ("_".toList ++ c'.optimizerMode ++ "[".toList ++ K' ++ "]".toList)
          (by simpa only [List.append_assoc] using h)
    rw [hiter] at h
    obtain ⟨h1, h2⟩ := opt _ _ _ h
    exact ⟨rfl, fun _ => hiter, h1, h2⟩

example : simName "d" { initial := exInitial, nIterEuler := 10 }
    ≠ simName "d" { initial := exInitial, nIterEuler := 100 } ∧
  simName "d" { initial := exInitial, optimizerMode := "minimize" }
    ≠ simName "d" { initial := exInitial } := by decide

/-! ## C24 -/

theorem survivors_replicate {β : Type _} (l : List β) (k : Nat) :
    survivors (l.map some ++ List.replicate k none) = l.zipIdx.map fun p => (p.2, p.1) := by
  unfold survivors
  rw [List.zipIdx_append, List.filterMap_append]
  have h1 : ∀ (l : List β) n, ((l.map some).zipIdx n).filterMap
      (fun p => p.1.map fun b => (p.2, b)) = (l.zipIdx n).map fun p => (p.2, p.1) := by
    intro l
    induction l with
    | nil => intro n; rfl
    | cons a l ih => intro n; simp [ih]
  have h2 : ∀ (k n : Nat), ((List.replicate k (none : Option β)).zipIdx n).filterMap
      (fun p => p.1.map fun b => (p.2, b)) = [] := by
    intro k
    induction k with
    | zero => intro n; rfl
    | succ k ih => intro n; simp [List.replicate_succ, ih]
  rw [h1, h2, List.append_nil]

theorem maxLabel_zipIdx {β : Type _} (l : List β) (h : l ≠ []) :
    maxLabel (l.zipIdx.map fun p => (p.2, p.1)) = .ok (l.length - 1) := by
  cases l with
  | nil => exact absurd rfl h
  | cons a l =>
    simp only [List.zipIdx_cons, List.map_cons, maxLabel, Except.ok.injEq]
    have : ∀ (l : List β) (n m : Nat), m ≤ n →
        (((l.zipIdx (n + 1)).map fun p => (p.2, p.1)).foldl
          (fun m q => max m q.1) m) = if l.length = 0 then m else n + l.length := by
      intro l
      induction l with
      | nil => intro n m _; simp
      | cons b l ih =>
        intro n m hm
        simp only [List.zipIdx_cons, List.map_cons, List.foldl_cons]
        rw [ih (n + 1) _ (by omega)]
        simp only [List.length_cons]
        split <;> simp <;> omega
    rw [this l 0 0 (Nat.le_refl _)]
    simp only [List.length_cons]
    split <;> omega

/-- The result of the hand-over when the finite rows of each group come first. -/
theorem eulerHandoff_prefix {β : Type _} (rows : List (EulerRow β)) (vs ps : List β) (k k' : Nat)
    (hv : rows.map EulerRow.vars = vs.map some ++ List.replicate k none)
    (hp : rows.map EulerRow.params = ps.map some ++ List.replicate k' none)
    (h1 : vs ≠ []) (h2 : ps ≠ []) (nIter : Nat) :
    ∃ v p, vs[min vs.length ps.length - 1]? = some v ∧ ps[min vs.length ps.length - 1]? = some p ∧
      eulerHandoff rows nIter = .ok ((v, p), decide (min vs.length ps.length ≠ nIter)) := by
  have l1 : 0 < vs.length := List.length_pos_iff.2 h1
  have l2 : 0 < ps.length := List.length_pos_iff.2 h2
  have b1 : min vs.length ps.length - 1 < vs.length := by omega
  have b2 : min vs.length ps.length - 1 < ps.length := by omega
  refine ⟨vs[min vs.length ps.length - 1], ps[min vs.length ps.length - 1],
    List.getElem?_eq_getElem b1, List.getElem?_eq_getElem b2, ?_⟩
  have hm : min (vs.length - 1) (ps.length - 1) = min vs.length ps.length - 1 := by omega
  unfold eulerHandoff
  rw [hv, hp, survivors_replicate, survivors_replicate]
  simp only [maxLabel_zipIdx _ h1, maxLabel_zipIdx _ h2, bind, Except.bind, pure, Except.pure, hm, List.getElem?_map, List.getElem?_zipIdx,
    List.getElem?_eq_getElem b1, List.getElem?_eq_getElem b2, Option.map_some]
  congr 2
  apply decide_eq_decide.2
  omega

/-- **C24 (hand-over).**  If the variables are finite exactly in the first `vs.length` rows and the
parameters exactly in the first `ps.length` rows, the optimizer is started from the last row in which
both are finite: that row holds the values handed over, and no later row is finite.  The warning is
issued exactly when that row is not row number `n_iter_euler` (counting from one).
Missing: NaNs that are not at the end (the code fails or picks another row, see below), and the
warning for back-ends whose trajectory has `n_iter_euler + 1` rows (also below). -/
theorem C24_last_finite_row_partial {β : Type _} (rows : List (EulerRow β)) (vs ps : List β)
    (k k' : Nat) (hv : rows.map EulerRow.vars = vs.map some ++ List.replicate k none)
    (hp : rows.map EulerRow.params = ps.map some ++ List.replicate k' none)
    (h1 : vs ≠ []) (h2 : ps ≠ []) (nIter : Nat) :
    ∃ (last : Nat) (v p : β), rows[last]? = some ⟨some v, some p⟩ ∧
      (∀ (j : Nat) r, last < j → rows[j]? = some r → r.vars = none ∨ r.params = none) ∧
      eulerHandoff rows nIter = .ok ((v, p), decide (last + 1 ≠ nIter)) := by
  obtain ⟨v, p, e1, e2, e3⟩ := eulerHandoff_prefix rows vs ps k k' hv hp h1 h2 nIter
  have l1 : 0 < vs.length := List.length_pos_iff.2 h1
  have l2 : 0 < ps.length := List.length_pos_iff.2 h2
  have av : ∀ j : Nat, (rows[j]?).map EulerRow.vars = (vs.map some ++ List.replicate k none)[j]? := by
    intro j; rw [← hv, List.getElem?_map]
  have ap : ∀ j : Nat, (rows[j]?).map EulerRow.params = (ps.map some ++ List.replicate k' none)[j]? := by
    intro j; rw [← hp, List.getElem?_map]
  have nov : ∀ (j : Nat) r, vs.length ≤ j → rows[j]? = some r → r.vars = none := by
    intro j r hj hr
    have := av j
    rw [hr, List.getElem?_append_right (by simpa using hj)] at this
    simp only [Option.map_some, List.getElem?_replicate] at this
    split at this
    · exact Option.some.inj this
    · cases this
  have nop : ∀ (j : Nat) r, ps.length ≤ j → rows[j]? = some r → r.params = none := by
    intro j r hj hr
    have := ap j
    rw [hr, List.getElem?_append_right (by simpa using hj)] at this
    simp only [Option.map_some, List.getElem?_replicate] at this
    split at this
    · exact Option.some.inj this
    · cases this
  refine ⟨min vs.length ps.length - 1, v, p, ?_, ?_, ?_⟩
  · have a1 := av (min vs.length ps.length - 1)
    have a2 := ap (min vs.length ps.length - 1)
    rw [List.getElem?_append_left (by simp; omega), List.getElem?_map] at a1 a2
    rw [e1] at a1
    rw [e2] at a2
    cases hr : rows[min vs.length ps.length - 1]? with
    | none => rw [hr] at a1; cases a1
    | some r =>
      rw [hr] at a1 a2
      simp only [Option.map_some, Option.some.injEq] at a1 a2
      obtain ⟨rv, rp⟩ := r
      simp only at a1 a2
      rw [a1, a2]
  · intro j r hj hr
    rcases Nat.le_total vs.length ps.length with h | h
    · exact Or.inl (nov j r (by omega) hr)
    · exact Or.inr (nop j r (by omega) hr)
  · rw [e3]
    congr 2
    apply decide_eq_decide.2
    omega

example : eulerHandoff (β := Nat) [⟨some 1, some 10⟩, ⟨some 2, some 20⟩, ⟨none, some 30⟩] 3
    = .ok ((2, 20), true) := by decide

/-- **C24 (python loop).**  For a trajectory with exactly `n_iter_euler` rows of this form, the
warning says exactly that the trajectory contains a row that is not finite. -/
theorem C24_warning_iff_nan_partial {β : Type _} (rows : List (EulerRow β)) (vs ps : List β)
    (k k' : Nat) (hv : rows.map EulerRow.vars = vs.map some ++ List.replicate k none)
    (hp : rows.map EulerRow.params = ps.map some ++ List.replicate k' none)
    (h1 : vs ≠ []) (h2 : ps ≠ []) (nIter : Nat) (hn : rows.length = nIter) :
    ∃ s w, eulerHandoff rows nIter = .ok (s, w) ∧
      (w = true ↔ ∃ r ∈ rows, r.vars = none ∨ r.params = none) := by
  obtain ⟨last, v, p, e1, e2, e3⟩ := C24_last_finite_row_partial rows vs ps k k' hv hp h1 h2 nIter
  obtain ⟨v', p', _, _, e3'⟩ := eulerHandoff_prefix rows vs ps k k' hv hp h1 h2 nIter
  refine ⟨_, _, e3', ?_⟩
  have lv := congrArg List.length hv
  have lp := congrArg List.length hp
  simp only [List.length_map, List.length_append, List.length_replicate] at lv lp
  have memv : ∀ r ∈ rows, r.vars ∈ rows.map EulerRow.vars := fun r hr => List.mem_map_of_mem hr
  simp only [ne_eq, decide_eq_true_eq]
  constructor
  · intro hne
    rcases Nat.eq_zero_or_pos k with hk | hk
    · have hk' : 0 < k' := by omega
      have : (none : Option β) ∈ rows.map EulerRow.params := by
        rw [hp]; simp; omega
      obtain ⟨r, hr, h⟩ := List.mem_map.1 this
      exact ⟨r, hr, Or.inr h⟩
    · have : (none : Option β) ∈ rows.map EulerRow.vars := by
        rw [hv]; simp; omega
      obtain ⟨r, hr, h⟩ := List.mem_map.1 this
      exact ⟨r, hr, Or.inl h⟩
  · rintro ⟨r, hr, h⟩ heq
    have hk : k = 0 := by omega
    have hk' : k' = 0 := by omega
    rcases h with h | h
    · have := List.mem_map_of_mem (f := EulerRow.vars) hr
      rw [hv, hk, h] at this
      simp at this
    · have := List.mem_map_of_mem (f := EulerRow.params) hr
      rw [hp, hk', h] at this
      simp at this

example : eulerHandoff (β := Nat) [⟨some 1, some 10⟩, ⟨some 2, some 20⟩] 2
    = .ok ((2, 20), false) := by decide

/-- **C24 (negation: false alarm).**  A trajectory of `n_iter_euler + 1` rows – what the numba
back-end returns – gives the warning although every row is finite. -/
theorem C24_numba_always_warns {β : Type _} (good : List (β × β)) (nIter : Nat)
    (hn : good.length = nIter + 1) :
    ∃ s, eulerHandoff (good.map fun p => (⟨some p.1, some p.2⟩ : EulerRow β)) nIter
      = .ok (s, true) := by
  have hne : good ≠ [] := by rintro rfl; simp at hn
  obtain ⟨v, p, _, _, e⟩ := eulerHandoff_prefix
    (good.map fun p => (⟨some p.1, some p.2⟩ : EulerRow β)) (good.map Prod.fst) (good.map Prod.snd)
    0 0 (by simp [Function.comp_def]) (by simp [Function.comp_def]) (by simpa using hne)
    (by simpa using hne) nIter
  refine ⟨(v, p), e.trans ?_⟩
  congr 2
  simp [hn]

example : eulerHandoff (β := Nat) [⟨some 0, some 5⟩, ⟨some 1, some 10⟩, ⟨some 2, some 20⟩] 2
    = .ok ((2, 20), true) := by decide

/-- **C24 (negation: missed failure).**  With the same `n_iter_euler + 1` rows, a NaN in the last row
is not reported, and the optimizer starts from the row before. -/
theorem C24_numba_misses_last_nan {β : Type _} (good : List (β × β)) (o : Option β) (nIter : Nat)
    (hn : good.length = nIter) (hpos : 0 < nIter) :
    ∃ s, eulerHandoff (good.map (fun p => (⟨some p.1, some p.2⟩ : EulerRow β)) ++ [⟨none, o⟩]) nIter
      = .ok (s, false) := by
  have hne : good ≠ [] := by rintro rfl; simp at hn; omega
  cases o with
  | none =>
    obtain ⟨v, p, _, _, e⟩ := eulerHandoff_prefix
      (good.map (fun p => (⟨some p.1, some p.2⟩ : EulerRow β)) ++ [⟨none, none⟩])
      (good.map Prod.fst) (good.map Prod.snd)
      1 1 (by simp [Function.comp_def, List.replicate]) (by simp [Function.comp_def, List.replicate])
      (by simpa using hne) (by simpa using hne) nIter
    refine ⟨(v, p), e.trans ?_⟩
    congr 2
    simp [hn]
  | some q =>
    obtain ⟨v, p, _, _, e⟩ := eulerHandoff_prefix
      (good.map (fun p => (⟨some p.1, some p.2⟩ : EulerRow β)) ++ [⟨none, some q⟩])
      (good.map Prod.fst) (good.map Prod.snd ++ [q])
      1 0 (by simp [Function.comp_def, List.replicate]) (by simp [Function.comp_def])
      (by simpa using hne) (by simp) nIter
    refine ⟨(v, p), e.trans ?_⟩
    congr 2
    simp [hn]

example : eulerHandoff (β := Nat) [⟨some 0, some 5⟩, ⟨some 1, some 10⟩, ⟨none, some 20⟩] 2
    = .ok ((1, 10), false) := by decide

/-- **C24 (negation: gaps).**  When a NaN row is followed by finite rows, the label of the last finite
row is used as a position among the surviving rows: the hand-over raises `IndexError`, or – when the
gap is in one group only – combines variables and parameters of different steps. -/
theorem C24_gap_breaks_handoff :
    eulerHandoff (β := Nat) [⟨some 1, some 10⟩, ⟨none, some 20⟩, ⟨some 3, some 30⟩] 3
      = .error .indexError ∧
    eulerHandoff (β := Nat) [⟨some 1, some 10⟩, ⟨none, some 20⟩, ⟨some 3, none⟩, ⟨some 4, none⟩] 4
      = .ok ((3, 20), true) := by decide

end Verif
