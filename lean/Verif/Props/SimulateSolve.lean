import Verif.Lemmas.SimulateSolve
import Verif.Props.Scalarise
import Mathlib.Analysis.SpecialFunctions.Sqrt
import Mathlib.Tactic.Positivity
import Mathlib.Tactic.Linarith

/-!
# C72: the state `simulate` reports solves the equations that were written
-/

namespace Verif

variable {α : Type _}

/-- Any `optimizer_mode` other than "root" and "minimize" is refused with `ValueError`, after the Euler pass
if there is one. -/
theorem C72_unknown_mode (env : SamEnv α (List (NDArray α))) (isNan : α → Bool) (fl : SimFlags)
    (add mul : NDArray α → NDArray α → NDArray α) (h : Heap (NDArray α)) (c : SimCall α)
    (hv : env.variables ≠ []) (hp : env.parameters ≠ []) (hcomp : env.compiled ≠ [])
    (hr : RequestOK env.coords env.variables env.parameters add mul h c)
    (hopt : c.useOptimizer = true) (hroot : c.optimizerMode ≠ "root".toList)
    (hmin : c.optimizerMode ≠ "minimize".toList) :
    (∀ out, simulateCompute (simEnvOf env isNan fl add mul) h c ≠ .ok out) ∧
    (c.useEuler = false →
      simulateCompute (simEnvOf env isNan fl add mul) h c = .error (.py .valueError)) := by
  obtain ⟨thetas, hsim, -, -⟩ := runs_requested_scenario
    (simEnvOf env isNan fl add mul) h c (by simp [simEnvOf, hcomp]) hv hp hr.nodup
    (fun n hn => (hr.exact n).2 (by simpa [simEnvOf] using hn))
    (fun n hn => by simpa [simEnvOf] using (hr.exact n).1 hn) hr.distinct hr.some_change hr.known
    hr.valid.1 hr.valid.2.1 hr.valid.2.2.1 hr.valid.2.2.2 hr.unshared
  have e : ∀ x0 theta, (simEnvOf env isNan fl add mul).solve x0 theta c =
      (eulerPart env isNan x0 theta c).bind fun _ => .error .valueError := by
    intro x0 theta
    show simulateSolve env isNan fl x0 theta c = _
    unfold simulateSolve
    simp only [hopt, if_true, simOptimize, if_neg hroot, if_neg hmin]
    rfl
  rw [hsim, e]
  constructor
  · intro out hout
    cases hx : eulerPart env isNan (derefDict h c.initial) thetas.flatten c with
    | error e => rw [hx] at hout; cases hout
    | ok v => rw [hx] at hout; cases hout
  · intro hu
    rw [eulerPart, if_neg (by simp [hu])]
    rfl

/-- What `simulate` with an optimizer returns, whatever the functions: one labelled result, whose step 0
is the caller's initial state and whose step 1 is the optimizer's answer followed by the requested
parameters; there is a warning if the optimizer reported failure. -/
theorem C72_report_partial (env : SamEnv α (List (NDArray α))) (isNan : α → Bool) (fl : SimFlags)
    (add mul : NDArray α → NDArray α → NDArray α) (h : Heap (NDArray α)) (c : SimCall α)
    (hl : Labelled env.coords env.variables env.parameters) (hv : env.variables ≠ [])
    (hp : env.parameters ≠ []) (hcomp : env.compiled ≠ [])
    (hr : RequestOK env.coords env.variables env.parameters add mul h c) (hE : EulerArrays env)
    (hopt : c.useOptimizer = true) (out : SimOut α)
    (hout : simulateCompute (simEnvOf env isNan fl add mul) h c = .ok out)
    (hlen : ∀ start theta res, simOptimize env fl c.optimizerMode start theta = .ok res →
      ∀ x t, variableDictToFlatArray start env.variables env.parameters = .ok (x, t) →
        res.x.length = x.length) :
    ∃ start theta res r, simOptimize env fl c.optimizerMode start theta = .ok res ∧
      (∀ o ∈ env.variables ++ env.parameters, DataFor env.coords start o) ∧
      out.optimizer = some r ∧ out.optimRes = some res ∧ out.warnedOptimizer = !res.success ∧
      res.x.length = totalSize env.coords env.variables ∧
      theta.length = totalSize env.coords env.parameters ∧
      reportedAt 1 r env.variables env.parameters = res.x ++ theta ∧
      (∀ o ∈ env.variables, ∀ a, seen h c.initial o.name = some a → blockAt 0 r.1 o = a.data) ∧
      (∀ o ∈ env.parameters, ∀ a, seen h c.initial o.name = some a → blockAt 0 r.2 o = a.data) ∧
      (∀ p ∈ env.parameters, ∀ a, wantedValue add mul h c p.name = some a →
        blockAt 1 r.2 p = a.data) := by
  obtain ⟨thetas, hsim, hx0, hth⟩ := runs_requested_scenario
    (simEnvOf env isNan fl add mul) h c (by simp [simEnvOf, hcomp]) hv hp hr.nodup
    (fun n hn => (hr.exact n).2 (by simpa [simEnvOf] using hn))
    (fun n hn => by simpa [simEnvOf] using (hr.exact n).1 hn) hr.distinct hr.some_change hr.known
    hr.valid.1 hr.valid.2.1 hr.valid.2.2.1 hr.valid.2.2.2 hr.unshared
  rw [hsim] at hout
  have hkeys := initial_keys hr hl.names
  generalize derefDict h c.initial = x0 at hsim hx0 hout hkeys
  have hdata : ∀ o ∈ env.variables ++ env.parameters, DataFor env.coords x0 o := by
    intro o ho
    obtain ⟨a, h1, h2, h3⟩ := hr.shaped o ho
    exact ⟨a, by rw [hx0, h1], h2, h3⟩
  have hth' : ∀ (k : Nat) p, env.parameters[k]? = some p → ∃ a, wantedValue add mul h c p.name = some a ∧
      thetas[k]? = some a.data ∧ a.data.length = specSize env.coords p := by
    intro k p hk
    obtain ⟨a, h1, h2⟩ := hr.sized p (List.mem_of_getElem? hk)
    refine ⟨a, h1, ?_, h2⟩
    have := congrArg (fun l => l[k]?) hth
    simp only [List.getElem?_map] at this
    have e : (simEnvOf env isNan fl add mul).parameters = env.parameters := rfl
    rw [e, hk] at this
    have h1' : wantedScenario (simEnvOf env isNan fl add mul).add (simEnvOf env isNan fl add mul).mul
      (seen h c.initial) (seen h (c.finalValues.getD [])) (seen h (c.finalDelta.getD []))
      (seen h (c.finalPct.getD [])) p.name = some a := h1
    simp only [Option.map_some, h1'] at this
    cases ht : thetas[k]? with
    | none => rw [ht] at this; cases this
    | some t => rw [ht] at this; cases this; rfl
  have hlens : thetas.map List.length = env.parameters.map (specSize env.coords) := by
    apply List.ext_getElem?
    intro k
    rw [List.getElem?_map, List.getElem?_map]
    cases hk : env.parameters[k]? with
    | none =>
      have hln : thetas.length = env.parameters.length := by
        have := congrArg List.length hth
        simpa [simEnvOf] using this
      rw [List.getElem?_eq_none (by rw [hln]; simpa using hk)]
      rfl
    | some p =>
      obtain ⟨a, -, h2, h3⟩ := hth' k p hk
      rw [h2]
      simp [h3]
  have htl : thetas.flatten.length = totalSize env.coords env.parameters := by
    rw [List.length_flatten, hlens]; rfl
  have hsol : simulateSolve env isNan fl x0 thetas.flatten c = .ok out := by
    have e : (simEnvOf env isNan fl add mul).solve x0 thetas.flatten c =
      simulateSolve env isNan fl x0 thetas.flatten c := rfl
    rw [e] at hout
    cases hs : simulateSolve env isNan fl x0 thetas.flatten c with
    | error e => rw [hs] at hout; cases hout
    | ok o => rw [hs] at hout; cases hout; rfl
  clear hout hsim
  unfold simulateSolve at hsol
  simp only [bind, Except.bind, pure, Except.pure, hopt, if_true] at hsol
  obtain ⟨e, he, hstart⟩ : ∃ e, eulerPart env isNan x0 thetas.flatten c = .ok e ∧
      ∀ o ∈ env.variables ++ env.parameters,
        DataFor env.coords ((e.map EulerPass.start).getD x0) o := by
    unfold eulerPart at hsol ⊢
    by_cases hu : c.useEuler = true
    · rw [if_pos hu] at hsol ⊢
      cases hp : eulerPass env isNan x0 thetas.flatten c.nIterEuler with
      | error e => rw [hp] at hsol; cases hsol
      | ok e => exact ⟨some e, rfl, eulerPass_start hl hv hE hkeys hdata htl hp⟩
    · rw [if_neg hu]
      exact ⟨none, rfl, hdata⟩
  rw [he] at hsol
  simp only at hsol
  generalize hst : (e.map EulerPass.start).getD x0 = start at hsol hstart
  cases hres : simOptimize env fl c.optimizerMode start thetas.flatten with
  | error e => rw [hres] at hsol; cases hsol
  | ok res =>
    rw [hres] at hsol
    simp only at hsol
    obtain ⟨bv, hbv, hbl, -⟩ := ravelNamed_ok start env.coords env.variables
      (fun o ho => hstart o (by simp [ho]))
    obtain ⟨bp, hbp, hbpl, -⟩ := ravelNamed_ok start env.coords env.parameters
      (fun o ho => hstart o (by simp [ho]))
    have hne1 : bv ≠ [] := by
      rintro rfl; exact hv (by simpa using hbl.symm)
    have hne2 : bp ≠ [] := by
      rintro rfl; exact hp (by simpa using hbpl.symm)
    have hflat : variableDictToFlatArray start env.variables env.parameters =
        .ok (bv.flatten, bp.flatten) := by
      unfold variableDictToFlatArray
      rw [hbv, hbp]
      simp only [bind, Except.bind, npConcatenate_ok hne1, npConcatenate_ok hne2]
      rfl
    have hxl : res.x.length = totalSize env.coords env.variables := by
      rw [hlen _ _ _ hres _ _ hflat]
      exact flatVars_length hstart hflat
    obtain ⟨V, P, hid, -, -, hV, hP⟩ := C51_optimizer_partial env.coords env.variables env.parameters
      res.x thetas.flatten x0 hl hxl htl hdata
    rw [hid] at hsol
    cases hsol
    have bV : ∀ (k : Nat) o, env.variables[k]? = some o → blockAt 1 V o =
        (res.x.drop (offsetOf env.coords env.variables k)).take (specSize env.coords o) := by
      intro k o ho
      obtain ⟨a, ha, -⟩ := hdata o (by simp [List.mem_of_getElem? ho])
      obtain ⟨v, h1, h2⟩ := hV k o a ho ha
      exact h2.block1 V h1 (by rw [hxl]; exact offset_add_size_le _ _ _ _ ho)
    have bP : ∀ (k : Nat) o, env.parameters[k]? = some o → blockAt 1 P o =
        (thetas.flatten.drop (offsetOf env.coords env.parameters k)).take (specSize env.coords o) := by
      intro k o ho
      obtain ⟨a, ha, -⟩ := hdata o (by simp [List.mem_of_getElem? ho])
      obtain ⟨v, h1, h2⟩ := hP k o a ho ha
      exact h2.block1 P h1 (by rw [htl]; exact offset_add_size_le _ _ _ _ ho)
    refine ⟨start, thetas.flatten, res, (V, P), hres, hstart, rfl, rfl, rfl, hxl, htl, ?_, ?_, ?_, ?_⟩
    · unfold reportedAt
      rw [flatMap_blocks env.coords _ _ _ hxl bV, flatMap_blocks env.coords _ _ _ htl bP]
    · intro o ho a ha
      obtain ⟨k, hk, rfl⟩ := List.getElem_of_mem ho
      obtain ⟨a', h1, h2, h3⟩ := hr.shaped _ (List.mem_append_left _ ho)
      rw [ha] at h1
      cases h1
      obtain ⟨v, g1, g2⟩ := hV k _ a (List.getElem?_eq_getElem hk) (by rw [hx0, ha])
      exact g2.block0 h2 h3 V g1
    · intro o ho a ha
      obtain ⟨k, hk, rfl⟩ := List.getElem_of_mem ho
      obtain ⟨a', h1, h2, h3⟩ := hr.shaped _ (List.mem_append_right _ ho)
      rw [ha] at h1
      cases h1
      obtain ⟨v, g1, g2⟩ := hP k _ a (List.getElem?_eq_getElem hk) (by rw [hx0, ha])
      exact g2.block0 h2 h3 P g1
    · intro p hpm a ha
      obtain ⟨k, hk, rfl⟩ := List.getElem_of_mem hpm
      have hk' := List.getElem?_eq_getElem hk
      obtain ⟨a', h1, h2, h3⟩ := hth' k _ hk'
      rw [ha] at h1
      cases h1
      rw [bP k _ hk']
      have hsp : splitBlocks (thetas.map List.length) thetas.flatten = thetas := by
        simpa using splitBlocks_flatten thetas []
      have hkl : k < (thetas.map List.length).length := by rw [hlens]; simpa using hk
      have := getElem?_splitBlocks (thetas.map List.length) thetas.flatten k hkl
      rw [hsp, h2] at this
      have e1 : ((thetas.map List.length).take k).sum = offsetOf env.coords env.parameters k := by
        rw [hlens, ← List.map_take]; rfl
      have e2 : (thetas.map List.length)[k] = specSize env.coords env.parameters[k] := by
        simp only [hlens, List.getElem_map]
      rw [e1, e2] at this
      exact (Option.some.inj this).symm

/-! ### With functions that compute given residuals -/

/-- The model and its compiled functions, as `simulate` uses them: the residuals at the flat vector are
those of `G`, the objective is half the sum of their squares. -/
structure RunsOn (coords : Coords) (vars params : List ModelObject) (G : List ℝ → List ℝ)
    (env : SamEnv ℝ (List (NDArray ℝ))) : Prop where
  labelled : Labelled coords vars params
  some_variable : vars ≠ []
  some_parameter : params ≠ []
  coords_eq : env.coords = coords
  variables_eq : env.variables = vars
  parameters_eq : env.parameters = params
  compiled : env.compiled ≠ []
  residuals : ∀ x theta : List ℝ, x.length = totalSize coords vars →
    theta.length = totalSize coords params →
    env.fSystem.forScipy vars params coords x theta = .ok (G (x ++ theta))
  objective : ∀ x theta : List ℝ, x.length = totalSize coords vars →
    theta.length = totalSize coords params →
    env.fResid.forScipy vars params coords x theta =
      .ok ((1 / 2) * ((G (x ++ theta)).map (· ^ 2)).sum)

/-- The root finder, whatever the back-end. -/
theorem simulate_root {coords : Coords} {vs params : List ModelObject} {G : List ℝ → List ℝ}
    (env : SamEnv ℝ (List (NDArray ℝ)))
    (hm : RunsOn coords vs params G env) (isNan : ℝ → Bool) (fl : SimFlags)
    (add mul : NDArray ℝ → NDArray ℝ → NDArray ℝ) (h : Heap (NDArray ℝ)) (c : SimCall ℝ)
    (hr : RequestOK coords vs params add mul h c) (hE : EulerArrays env)
    (accept : List ℝ → Prop) (hroot : RootAccepts env accept)
    (hopt : c.useOptimizer = true) (hmode : c.optimizerMode = "root".toList) (out : SimOut ℝ)
    (hout : simulateCompute (simEnvOf env isNan fl add mul) h c = .ok out) :
    ∃ r, out.optimizer = some r ∧
      (out.warnedOptimizer = false → accept (G (reportedAt 1 r vs params))) ∧
      (∀ o ∈ vs, ∀ a, seen h c.initial o.name = some a → blockAt 0 r.1 o = a.data) ∧
      (∀ o ∈ params, ∀ a, seen h c.initial o.name = some a → blockAt 0 r.2 o = a.data) ∧
      (∀ p ∈ params, ∀ a, wantedValue add mul h c p.name = some a → blockAt 1 r.2 p = a.data) := by
  obtain ⟨hl, hv, hp, rfl, hve, hpe, hcomp, hsys, -⟩ := hm
  rw [← hve, ← hpe] at hl hr
  have hinv : ∀ start theta res, simOptimize env fl c.optimizerMode start theta = .ok res →
      ∀ x t, variableDictToFlatArray start env.variables env.parameters = .ok (x, t) →
        env.root (env.fSystem.forScipy env.variables env.parameters env.coords) x theta fl.useJac =
          .ok res := by
    intro start theta res hres x t hxt
    unfold simOptimize at hres
    rw [if_pos hmode] at hres
    unfold solveWithRoot at hres
    split at hres
    · cases hres
    · rw [hxt] at hres
      exact hres
  obtain ⟨start, theta, res, r, h1, h2, h3, -, h4, h5, h6, h7, h8, h9, h10⟩ := C72_report_partial env
    isNan fl add mul h c hl (hve ▸ hv) (hpe ▸ hp) hcomp hr hE hopt out hout
    (fun start theta res hres x t hxt => (hroot _ _ _ _ _ (hinv start theta res hres x t hxt)).1)
  rw [hve, hpe] at h7
  rw [hve] at h8
  rw [hpe] at h9 h10
  refine ⟨r, h3, ?_, h8, h9, h10⟩
  intro hw
  have hsucc : res.success = true := by
    rw [h4] at hw; simpa using hw
  have hx : ∃ x t, variableDictToFlatArray start env.variables env.parameters = .ok (x, t) := by
    unfold simOptimize at h1
    rw [if_pos hmode] at h1
    unfold solveWithRoot at h1
    split at h1
    · cases h1
    · cases hf : variableDictToFlatArray start env.variables env.parameters with
      | error e => rw [hf] at h1; cases h1
      | ok p => exact ⟨p.1, p.2, rfl⟩
  obtain ⟨x, t, hxt⟩ := hx
  obtain ⟨v, hv1, hv2⟩ := (hroot _ _ _ _ _ (hinv _ _ _ h1 _ _ hxt)).2 hsucc
  rw [hve, hpe, hsys res.x theta (by rw [h5, hve]) (by rw [h6, hpe])] at hv1
  cases hv1
  rw [h7]
  exact hv2

theorem sq_le_sum (l : List ℝ) : ∀ y ∈ l, y ^ 2 ≤ (l.map (· ^ 2)).sum := by
  induction l with
  | nil => intro y hy; cases hy
  | cons a l ih =>
    have hs : 0 ≤ (l.map (· ^ 2)).sum := by
      apply List.sum_nonneg
      intro z hz
      obtain ⟨w, -, rfl⟩ := List.mem_map.1 hz
      positivity
    intro y hy
    rw [List.map_cons, List.sum_cons]
    rcases List.mem_cons.1 hy with rfl | hy
    · linarith
    · have := ih y hy
      have ha : 0 ≤ a ^ 2 := by positivity
      linarith

/-- The minimiser, whatever the back-end. -/
theorem simulate_minimize {coords : Coords} {vs params : List ModelObject} {G : List ℝ → List ℝ}
    (env : SamEnv ℝ (List (NDArray ℝ)))
    (hm : RunsOn coords vs params G env) (isNan : ℝ → Bool) (fl : SimFlags)
    (add mul : NDArray ℝ → NDArray ℝ → NDArray ℝ) (h : Heap (NDArray ℝ)) (c : SimCall ℝ)
    (hr : RequestOK coords vs params add mul h c) (hE : EulerArrays env)
    (accept : ℝ → Prop) (hmin : MinimizeAccepts env accept)
    (hopt : c.useOptimizer = true) (hmode : c.optimizerMode = "minimize".toList) (out : SimOut ℝ)
    (hout : simulateCompute (simEnvOf env isNan fl add mul) h c = .ok out) :
    ∃ r, out.optimizer = some r ∧
      (out.warnedOptimizer = false → ∃ v, accept v ∧
        v = (1 / 2) * ((G (reportedAt 1 r vs params)).map (· ^ 2)).sum ∧
        ∀ y ∈ G (reportedAt 1 r vs params), |y| ≤ Real.sqrt (2 * v)) ∧
      (∀ o ∈ vs, ∀ a, seen h c.initial o.name = some a → blockAt 0 r.1 o = a.data) ∧
      (∀ o ∈ params, ∀ a, seen h c.initial o.name = some a → blockAt 0 r.2 o = a.data) ∧
      (∀ p ∈ params, ∀ a, wantedValue add mul h c p.name = some a → blockAt 1 r.2 p = a.data) := by
  obtain ⟨hl, hv, hp, rfl, hve, hpe, hcomp, -, hres⟩ := hm
  rw [← hve, ← hpe] at hl hr
  have hne : c.optimizerMode ≠ "root".toList := by rw [hmode]; decide
  have hinv : ∀ start theta res, simOptimize env fl c.optimizerMode start theta = .ok res →
      ∃ fl' x t, variableDictToFlatArray start env.variables env.parameters = .ok (x, t) ∧
        env.minimize (env.fResid.forScipy env.variables env.parameters env.coords) x theta fl' =
          .ok res := by
    intro start theta res hres
    unfold simOptimize at hres
    rw [if_neg hne, if_pos hmode] at hres
    unfold solveWithMinimize at hres
    split at hres
    · cases hres
    · simp only [bind, Except.bind] at hres
      split at hres
      · cases hres
      · cases hf : variableDictToFlatArray start env.variables env.parameters with
        | error e => rw [hf] at hres; cases hres
        | ok p =>
          rw [hf] at hres
          exact ⟨_, p.1, p.2, rfl, hres⟩
  obtain ⟨start, theta, res, r, h1, h2, h3, -, h4, h5, h6, h7, h8, h9, h10⟩ := C72_report_partial env
    isNan fl add mul h c hl (hve ▸ hv) (hpe ▸ hp) hcomp hr hE hopt out hout
    (fun start theta res hres x t hxt => by
      obtain ⟨fl', x', t', g1, g2⟩ := hinv start theta res hres
      rw [hxt] at g1
      cases g1
      exact (hmin _ _ _ _ _ g2).1)
  rw [hve, hpe] at h7
  rw [hve] at h8
  rw [hpe] at h9 h10
  refine ⟨r, h3, ?_, h8, h9, h10⟩
  intro hw
  have hsucc : res.success = true := by
    rw [h4] at hw; simpa using hw
  obtain ⟨fl', x, t, hxt, hm⟩ := hinv _ _ _ h1
  obtain ⟨v, hv1, hv2⟩ := (hmin _ _ _ _ _ hm).2 hsucc
  rw [hve, hpe, hres res.x theta (by rw [h5, hve]) (by rw [h6, hpe])] at hv1
  have e := (Except.ok.inj hv1).symm
  rw [h7]
  refine ⟨v, hv2, e, ?_⟩
  intro y hy
  apply Real.le_sqrt_of_sq_le
  rw [sq_abs, e]
  have := sq_le_sum _ y hy
  linarith

/-! ### With the functions of the default back-end -/

variable {coords : Coords} {vars params : List ModelObject} {numeraire : Option ModelObject}
  {eqs : List IndexedEq}

/-- `F` are the functions the default back-end makes for the model with the given indexed equations
(sets in any order). -/
def BuiltFns (coords : Coords) (vars params : List ModelObject) (numeraire : Option ModelObject)
    (eqs : List IndexedEq) (F : SympyTensorFns) : Prop :=
  ∃ (setList : List Str → List Str) (setListR : List RExpr → List RExpr)
    (order : Dict (List SIdx) (List SIdx) → List (List SIdx × List SIdx))
    (order' : Dict RExpr RExpr → List (RExpr × RExpr)) (uv up : Dict Str ModelObject)
    (syms : List RExpr) (es : List (SymExpr Str)),
    (∀ l x, x ∈ setListR l ↔ x ∈ l) ∧ (∀ d e, e ∈ order d ↔ e ∈ d) ∧ (∀ d e, e ∈ order' d ↔ e ∈ d) ∧
    unpackGroup setList coords vars = .ok uv ∧ unpackGroup setList coords params = .ok up ∧
    unpackedEquationSymbols setListR order order' coords numeraire uv up
      (eqs.map fun q => ⟨q.name.text, q.lhs, q.rhs⟩) = .ok syms ∧
    syms.mapM toScalarExpr = some es ∧
    compileSympytensor ((solvedVars numeraire vars ++ params).map ModelObject.name) coords uv up es = .ok F

/-- All differences between the two sides of the equations, with the numeraire equal to one. -/
noncomputable def imbalances (coords : Coords) (vars params : List ModelObject)
    (numeraire : Option ModelObject) (eqs : List IndexedEq) (flat : List ℝ) : List ℝ :=
  eqs.flatMap (demanded coords (numeraire.toList.map ModelObject.name)
    (solvedVars numeraire vars ++ params) flat)

theorem BuiltFns.system {F : SympyTensorFns} (hF : BuiltFns coords vars params numeraire eqs F)
    (h : IndexedModel coords vars params numeraire eqs) (vn : List Str) (x theta : List ℝ)
    (hx : x.length = totalSize coords (solvedVars numeraire vars))
    (ht : theta.length = totalSize coords params) :
    wrapForScipy (callGraphs ((solvedVars numeraire vars ++ params).map ModelObject.name) vn F.system)
        (solvedVars numeraire vars) params coords x theta =
      .ok (imbalances coords vars params numeraire eqs (x ++ theta)) := by
  obtain ⟨_, _, _, _, _, _, syms, es, h1, h2, h3, h4, h5, h6, h7, h8⟩ := hF
  exact C71_residuals_partial h h1 h2 h3 h4 h5 syms es F h6 h7 h8 vn x theta hx ht

theorem BuiltFns.loss {F : SympyTensorFns} (hF : BuiltFns coords vars params numeraire eqs F)
    (h : IndexedModel coords vars params numeraire eqs) (vn : List Str) (x theta : List ℝ)
    (hx : x.length = totalSize coords (solvedVars numeraire vars))
    (ht : theta.length = totalSize coords params) :
    wrapForScipy (callGraphs ((solvedVars numeraire vars ++ params).map ModelObject.name) vn [F.loss])
        (solvedVars numeraire vars) params coords x theta =
      .ok [(1 / 2) * ((imbalances coords vars params numeraire eqs (x ++ theta)).map (· ^ 2)).sum] := by
  obtain ⟨_, _, _, _, uv, up, syms, es, h1, h2, h3, h4, h5, h6, h7, h8⟩ := hF
  obtain ⟨syms', es', g1, g2, g3, g4⟩ := C71_scalar_equations_partial h h1 h2 h3 h4 h5
  rw [h6] at g1
  cases g1
  rw [h7] at g2
  cases g2
  have hm : ∃ m, makeUnpackedToPackedMap ((solvedVars numeraire vars ++ params).map ModelObject.name)
      coords uv up (es.flatMap SymExpr.atoms) = .ok m ∧ F.loss = packedGraph m (SymExpr.squaredLoss es) := by
    unfold compileSympytensor at h8
    cases hm : makeUnpackedToPackedMap ((solvedVars numeraire vars ++ params).map ModelObject.name)
      coords uv up (es.flatMap SymExpr.atoms) with
    | error e => rw [hm] at h8; cases h8
    | ok m =>
      rw [hm] at h8
      simp only [bind, Except.bind] at h8
      split at h8
      · cases h8
      · split at h8
        · cases h8
        · split at h8
          · cases h8
          · cases h8
            exact ⟨m, rfl, rfl⟩
  obtain ⟨m, hm, hloss⟩ := hm
  have hnames : ∀ n ∈ es.flatMap SymExpr.atoms,
      n ∈ scalarNames coords (solvedVars numeraire vars ++ params) := by
    intro n hn
    obtain ⟨e, he, hn⟩ := List.mem_flatMap.1 hn
    exact g3 e he n hn
  have := wrap_graphs (solvedModel h.scalar) m (solved_slots h.scalar h4 h5 _ hnames m hm) vn
    [SymExpr.squaredLoss es] (by
      intro e he n hn
      rw [List.mem_singleton] at he
      subst he
      exact atoms_squaredLoss es n hn) x theta hx ht
  rw [hloss]
  refine Eq.trans this ?_
  unfold imbalances
  rw [← g4 (x ++ theta)]
  simp only [List.map_cons, List.map_nil, (C37_objective es _).1, List.map_map, Function.comp_def]

/-- The model and its compiled functions, as `simulate` uses them. -/
structure OnDefaultBackend (coords : Coords) (vars params : List ModelObject)
    (numeraire : Option ModelObject) (eqs : List IndexedEq) (env : SamEnv ℝ (List (NDArray ℝ))) :
    Prop where
  model : IndexedModel coords vars params numeraire eqs
  labelled : Labelled coords (solvedVars numeraire vars) params
  some_variable : solvedVars numeraire vars ≠ []
  some_parameter : params ≠ []
  coords_eq : env.coords = coords
  variables_eq : env.variables = solvedVars numeraire vars
  parameters_eq : env.parameters = params
  compiled : env.compiled ≠ []
  functions : ∃ F vn, BuiltFns coords vars params numeraire eqs F ∧
    env.fSystem = .kw (callGraphs ((solvedVars numeraire vars ++ params).map ModelObject.name) vn
      F.system) ∧
    env.fResid = .kw fun d => (callGraphs ((solvedVars numeraire vars ++ params).map ModelObject.name) vn
      [F.loss] d).map fun l => l.headD 0

theorem OnDefaultBackend.runs {env : SamEnv ℝ (List (NDArray ℝ))}
    (hm : OnDefaultBackend coords vars params numeraire eqs env) :
    RunsOn coords (solvedVars numeraire vars) params (imbalances coords vars params numeraire eqs) env := by
  obtain ⟨hmod, hl, hv, hp, hce, hve, hpe, hcomp, F, vn, hF, hsys, hres⟩ := hm
  refine ⟨hl, hv, hp, hce, hve, hpe, hcomp, fun x theta hx ht => ?_, fun x theta hx ht => ?_⟩
  · rw [hsys]
    exact hF.system hmod vn x theta hx ht
  · have := hF.loss hmod vn x theta hx ht
    rw [hres]
    unfold CompiledFn.forScipy wrapForScipy
    unfold wrapForScipy at this
    cases hd : flatArrayToVariableDict (x ++ theta) (solvedVars numeraire vars ++ params) coords with
    | error e => rw [hd] at this; cases this
    | ok d =>
      simp only [hd, bind, Except.bind] at this ⊢
      rw [this]
      rfl

/-- **C72 (root).**  `simulate` with the root finder, with or without Euler pass: if it returns without a
warning, then the equations as written, evaluated at step 1 of the result with the numeraire equal to one,
pass the test the root finder applied; the parameters of step 1 are the requested ones, and step 0 is the
caller's initial state. -/
theorem C72_root_partial (env : SamEnv ℝ (List (NDArray ℝ)))
    (hm : OnDefaultBackend coords vars params numeraire eqs env) (isNan : ℝ → Bool) (fl : SimFlags)
    (add mul : NDArray ℝ → NDArray ℝ → NDArray ℝ) (h : Heap (NDArray ℝ)) (c : SimCall ℝ)
    (hr : RequestOK coords (solvedVars numeraire vars) params add mul h c) (hE : EulerArrays env)
    (accept : List ℝ → Prop) (hroot : RootAccepts env accept)
    (hopt : c.useOptimizer = true) (hmode : c.optimizerMode = "root".toList) (out : SimOut ℝ)
    (hout : simulateCompute (simEnvOf env isNan fl add mul) h c = .ok out) :
    ∃ r, out.optimizer = some r ∧
      (out.warnedOptimizer = false → accept (imbalances coords vars params numeraire eqs
        (reportedAt 1 r (solvedVars numeraire vars) params))) ∧
      (∀ o ∈ solvedVars numeraire vars, ∀ a, seen h c.initial o.name = some a →
        blockAt 0 r.1 o = a.data) ∧
      (∀ o ∈ params, ∀ a, seen h c.initial o.name = some a → blockAt 0 r.2 o = a.data) ∧
      (∀ p ∈ params, ∀ a, wantedValue add mul h c p.name = some a → blockAt 1 r.2 p = a.data) :=
  simulate_root env hm.runs isNan fl add mul h c hr hE accept hroot hopt hmode out hout

/-- **C72 (minimise).**  The same with the minimiser, as far as it goes: without a warning the objective
at step 1 passes the test the minimiser applied to it; it is half the sum of the squares of the imbalances
of the equations as written, so each of these is at most the root of twice the objective. -/
theorem C72_minimize_partial (env : SamEnv ℝ (List (NDArray ℝ)))
    (hm : OnDefaultBackend coords vars params numeraire eqs env) (isNan : ℝ → Bool) (fl : SimFlags)
    (add mul : NDArray ℝ → NDArray ℝ → NDArray ℝ) (h : Heap (NDArray ℝ)) (c : SimCall ℝ)
    (hr : RequestOK coords (solvedVars numeraire vars) params add mul h c) (hE : EulerArrays env)
    (accept : ℝ → Prop) (hmin : MinimizeAccepts env accept)
    (hopt : c.useOptimizer = true) (hmode : c.optimizerMode = "minimize".toList) (out : SimOut ℝ)
    (hout : simulateCompute (simEnvOf env isNan fl add mul) h c = .ok out) :
    ∃ r, out.optimizer = some r ∧
      (out.warnedOptimizer = false → ∃ v, accept v ∧
        v = (1 / 2) * ((imbalances coords vars params numeraire eqs
          (reportedAt 1 r (solvedVars numeraire vars) params)).map (· ^ 2)).sum ∧
        ∀ y ∈ imbalances coords vars params numeraire eqs
          (reportedAt 1 r (solvedVars numeraire vars) params), |y| ≤ Real.sqrt (2 * v)) ∧
      (∀ o ∈ solvedVars numeraire vars, ∀ a, seen h c.initial o.name = some a →
        blockAt 0 r.1 o = a.data) ∧
      (∀ o ∈ params, ∀ a, seen h c.initial o.name = some a → blockAt 0 r.2 o = a.data) ∧
      (∀ p ∈ params, ∀ a, wantedValue add mul h c p.name = some a → blockAt 1 r.2 p = a.data) :=
  simulate_minimize env hm.runs isNan fl add mul h c hr hE accept hmin hopt hmode out hout

/-! ### Both theorems applied, and why the second says less -/

/-- `x * x = p`. -/
def sqVars : List ModelObject := [{ name := "x" }]
def sqParams : List ModelObject := [{ name := "p" }]
def sqEqs : List IndexedEq :=
  [⟨[.lit "square".toList], .mul (.sym "x".toList) (.sym "x".toList), .sym "p".toList⟩]

theorem sqModel : IndexedModel [] sqVars sqParams none sqEqs where
  scalar :=
    { known := by decide +kernel
      dims := by decide +kernel
      fresh := by decide +kernel
      labels := by decide +kernel
      names := by decide +kernel
      scalars := by decide +kernel }
  coords_nodup := by decide +kernel
  dim_names := by decide +kernel
  label_names := by intro i ls h; cases h
  numeraire_mem := by rintro o ⟨⟩
  sides := by
    have hsym : ∀ s : Str, s = "x".toList ∨ s = "p".toList →
        ∃ o ∈ solvedVars none sqVars ++ sqParams ++ (none : Option ModelObject).toList,
          o.name = s ∧ o.dims = [] := by
      rintro s hs
      rcases hs with rfl | rfl <;> decide +kernel
    intro q hq
    simp only [sqEqs, List.mem_cons, List.not_mem_nil, or_false] at hq
    subst hq
    refine ⟨⟨⟨trivial, trivial⟩, ⟨?_, fun v hv => ?_⟩, fun o ho => (nomatch ho), fun o ho => (nomatch ho)⟩,
      ⟨trivial, ⟨?_, fun v hv => (nomatch hv)⟩, fun o ho => (nomatch ho), fun o ho => (nomatch ho)⟩⟩
    · intro x hx
      simp only [RExpr.syms, List.mem_append, List.mem_singleton, or_self] at hx
      exact hsym x (Or.inl hx)
    · simp [RExpr.indexeds] at hv
    · intro x hx
      simp only [RExpr.syms, List.mem_singleton] at hx
      exact hsym x (Or.inr hx)
  clean := by
    intro q hq
    simp only [sqEqs, List.mem_cons, List.not_mem_nil, or_false] at hq
    subst hq
    decide +kernel
  markers := by decide +kernel
  names := by decide +kernel

theorem sqBuilt : ∃ F, BuiltFns [] sqVars sqParams none sqEqs F :=
  ⟨_, id, id, id, id, _, _, _, _, fun _ _ => Iff.rfl, fun _ _ => Iff.rfl, fun _ _ => Iff.rfl, rfl, rfl,
    rfl, rfl, rfl⟩

theorem scBuilt : ∃ F, BuiltFns scCoords scVars scParams (some scNum) scEqs F :=
  ⟨_, id, id, id, id, _, _, _, _, fun _ _ => Iff.rfl, fun _ _ => Iff.rfl, fun _ _ => Iff.rfl, rfl, rfl,
    rfl, rfl, rfl⟩

/-- The environment for given functions; there is no Euler function. -/
noncomputable def envOf (coords : Coords) (vars params : List ModelObject) (F : SympyTensorFns)
    (root : (List ℝ → List ℝ → Res (List ℝ)) → List ℝ → List ℝ → Bool → Res (OptResult ℝ))
    (minimize : (List ℝ → List ℝ → Res ℝ) → List ℝ → List ℝ → Bool × Bool × Bool → Res (OptResult ℝ)) :
    SamEnv ℝ (List (NDArray ℝ)) :=
  ⟨vars, params, coords, ["root".toList, "minimize".toList],
    .kw (callGraphs ((vars ++ params).map ModelObject.name) [] F.system),
    .kw fun d => (callGraphs ((vars ++ params).map ModelObject.name) [] [F.loss] d).map
      fun l => l.headD 0,
    [], root, minimize, fun _ _ _ => .error .attributeError⟩

open Classical in
/-- A perfect minimiser for this objective: it answers 0 when that is a global minimum. -/
noncomputable def bestMinimize (f : List ℝ → List ℝ → Res ℝ) (x0 theta : List ℝ)
    (_ : Bool × Bool × Bool) : Res (OptResult ℝ) :=
  if x0.length = 1 ∧ ∃ v, f [0] theta = .ok v ∧ ∀ y w, y.length = 1 → f y theta = .ok w → v ≤ w then
    .ok ⟨[0], true⟩
  else .error .valueError

/-- `x = 1`, `p = 1`, an equilibrium; `p` becomes `-1`. -/
def sqCall : SimCall ℝ where
  initial := [("x".toList, .num ⟨[], [1]⟩), ("p".toList, .num ⟨[], [1]⟩)]
  finalValues := some [("p".toList, .num ⟨[], [-1]⟩)]
  useEuler := false
  optimizerMode := "minimize".toList

theorem sqRequest (add mul : NDArray ℝ → NDArray ℝ → NDArray ℝ) :
    RequestOK [] (solvedVars none sqVars) sqParams add mul [] sqCall where
  nodup := by simp [sqCall, dkeys]
  exact := by intro n; simp [sqCall, dkeys, sqVars, sqParams, solvedVars]
  distinct := by simp [sqCall, dkeys]
  some_change := by simp [sqCall, dkeys]
  known := by simp [sqCall, dkeys]
  valid := by simp [sqCall, ValidRefs, refsOf]
  unshared := by simp [sqCall, refsOf]
  shaped := by
    intro o ho
    have : o = { name := "x" } ∨ o = { name := "p" } := by
      simpa [sqVars, sqParams, solvedVars] using ho
    rcases this with rfl | rfl
    · exact ⟨⟨[], [1]⟩, rfl, rfl, rfl⟩
    · exact ⟨⟨[], [1]⟩, rfl, rfl, rfl⟩
  sized := by
    intro o ho
    have : o = { name := "p" } := by simpa [sqParams] using ho
    subst this
    exact ⟨⟨[], [-1]⟩, rfl, rfl⟩

theorem sqImbalances (x p : ℝ) : imbalances [] sqVars sqParams none sqEqs [x, p] = [x * x - p] := rfl

/-- An accepted request with the misspelt mode "roots". -/
example (F : SympyTensorFns) (isNan : ℝ → Bool) (add mul : NDArray ℝ → NDArray ℝ → NDArray ℝ) :
    simulateCompute (simEnvOf (envOf [] (solvedVars none sqVars) sqParams F (fun _ _ _ _ => .error .valueError)
      (fun _ _ _ _ => .error .valueError)) isNan {} add mul) []
      { sqCall with optimizerMode := "roots".toList } = .error (.py .valueError) := by
  obtain ⟨a1, a2, a3, a4, a5, a6, a7, a8, a9⟩ := sqRequest add mul
  exact (C72_unknown_mode _ _ _ _ _ _ { sqCall with optimizerMode := "roots".toList } (List.cons_ne_nil _ _) (List.cons_ne_nil _ _) (List.cons_ne_nil _ _)
    ⟨a1, a2, a3, a4, a5, a6, a7, a8, a9⟩ rfl (by decide) (by decide)).2 rfl

/-- **The minimiser can succeed without solving the equations.**  For `x * x = p` with `p` changed from 1
to -1 a minimiser that returns a global minimum of the objective, and reports success, gives a result
without a warning in which the two sides of the equation differ by 1. -/
theorem C72_minimize_counterexample (isNan : ℝ → Bool)
    (add mul : NDArray ℝ → NDArray ℝ → NDArray ℝ) :
    ∃ (env : SamEnv ℝ (List (NDArray ℝ))) (out : SimOut ℝ) (r : XDataset ℝ × XDataset ℝ),
      OnDefaultBackend [] sqVars sqParams none sqEqs env ∧
      RequestOK [] (solvedVars none sqVars) sqParams add mul [] sqCall ∧ EulerArrays env ∧
      (∀ f x0 theta flags res, env.minimize f x0 theta flags = .ok res → res.x.length = x0.length ∧
        ∃ v, f res.x theta = .ok v ∧ ∀ y w, y.length = x0.length → f y theta = .ok w → v ≤ w) ∧
      simulateCompute (simEnvOf env isNan {} add mul) [] sqCall = .ok out ∧
      out.warnedOptimizer = false ∧ out.optimizer = some r ∧
      imbalances [] sqVars sqParams none sqEqs (reportedAt 1 r (solvedVars none sqVars) sqParams)
        = [1] := by
  obtain ⟨F, hF⟩ := sqBuilt
  have hloss : ∀ x p : ℝ, (envOf [] sqVars sqParams F (fun _ _ _ _ => .error .valueError)
      bestMinimize).fResid.forScipy sqVars sqParams [] [x] [p] = .ok ((1 / 2) * (x * x - p) ^ 2) := by
    intro x p
    have := hF.loss sqModel [] [x] [p] rfl rfl
    unfold wrapForScipy at this
    unfold CompiledFn.forScipy envOf wrapForScipy
    simp only [bind, Except.bind] at this ⊢
    cases hd : flatArrayToVariableDict ([x] ++ [p]) (sqVars ++ sqParams) [] with
    | error e =>
      have : flatArrayToVariableDict ([x] ++ [p]) (sqVars ++ sqParams) [] =
        .ok [("x".toList, ⟨[], [x]⟩), ("p".toList, ⟨[], [p]⟩)] := rfl
      rw [this] at hd
      cases hd
    | ok d =>
      have hd' : flatArrayToVariableDict ([x] ++ [p]) (solvedVars none sqVars ++ sqParams) [] = .ok d := hd
      rw [hd'] at this
      simp only at this ⊢
      have e : (solvedVars none sqVars ++ sqParams) = sqVars ++ sqParams := rfl
      rw [e] at this
      rw [this]
      simp [Except.map, sqImbalances]
  have hbest : bestMinimize ((envOf [] sqVars sqParams F (fun _ _ _ _ => .error .valueError)
      bestMinimize).fResid.forScipy sqVars sqParams []) [1] [-1] (true, false, true) =
      .ok ⟨[0], true⟩ := by
    unfold bestMinimize
    rw [if_pos]
    refine ⟨rfl, _, hloss 0 (-1), ?_⟩
    intro y w hy hw
    obtain ⟨y, rfl⟩ := List.length_eq_one_iff.1 hy
    obtain rfl := Except.ok.inj ((hloss y (-1)).symm.trans hw)
    nlinarith [sq_nonneg (y * y), mul_self_nonneg y]
  refine ⟨envOf [] sqVars sqParams F (fun _ _ _ _ => .error .valueError) bestMinimize,
    ⟨none, some ([("x".toList, (["step".toList], ⟨[2], [1, 0]⟩))],
      [("p".toList, (["step".toList], ⟨[2], [1, -1]⟩))]), some ⟨[0], true⟩, false⟩, _,
    ⟨sqModel, ?_, by decide +kernel, by decide +kernel, rfl, rfl, rfl, List.cons_ne_nil _ _, F, [], hF, rfl, rfl⟩,
    sqRequest _ _, ?_, ?_, ?_, rfl, rfl, ?_⟩
  · exact ⟨by decide +kernel, by decide +kernel, by decide +kernel, by decide +kernel⟩
  · intro x0 theta n arrays _ _ _ h
    cases h
  · intro f x0 theta flags res hres
    have : bestMinimize f x0 theta flags = .ok res := hres
    unfold bestMinimize at this
    split at this
    · next hc =>
      cases this
      refine ⟨hc.1.symm, ?_⟩
      rw [hc.1]
      exact hc.2
    · cases this
  · have e : simulateCompute (simEnvOf (envOf [] sqVars sqParams F (fun _ _ _ _ => .error .valueError)
        bestMinimize) isNan {} add mul) [] sqCall = liftPy ((bestMinimize ((envOf [] sqVars sqParams F
          (fun _ _ _ _ => .error .valueError) bestMinimize).fResid.forScipy sqVars sqParams []) [1] [-1]
          (true, false, true)).bind fun res => (optimizerResultToIdata res.x [-1]
            [("x".toList, ⟨[], [1]⟩), ("p".toList, ⟨[], [1]⟩)] sqVars sqParams []).bind fun idata =>
              .ok ⟨none, some idata, some res, !res.success⟩) := rfl
    rw [e, hbest]
    rfl
  · show imbalances [] sqVars sqParams none sqEqs [0, -1] = [1]
    rw [sqImbalances]
    norm_num

open Classical in
/-- A root finder that answers the parameters followed by 1 when that is a root. -/
noncomputable def exactRoot (f : List ℝ → List ℝ → Res (List ℝ)) (x0 theta : List ℝ) (_ : Bool) :
    Res (OptResult ℝ) :=
  if (theta ++ [1]).length = x0.length ∧ ∃ v, f (theta ++ [1]) theta = .ok v ∧ ∀ y ∈ v, y = 0 then
    .ok ⟨theta ++ [1], true⟩
  else .ok ⟨x0, false⟩

theorem exactRoot_accepts (coords : Coords) (vars params : List ModelObject) (F : SympyTensorFns)
    (minimize : (List ℝ → List ℝ → Res ℝ) → List ℝ → List ℝ → Bool × Bool × Bool → Res (OptResult ℝ)) :
    RootAccepts (envOf coords vars params F exactRoot minimize) fun v => ∀ y ∈ v, y = 0 := by
  intro f x0 theta uj r h
  have : exactRoot f x0 theta uj = .ok r := h
  unfold exactRoot at this
  split at this
  · next hc =>
    cases this
    exact ⟨hc.1, fun _ => hc.2⟩
  · cases this
    exact ⟨rfl, fun h => (nomatch h)⟩

/-- `x[i] = A[i] * p`, `y = Sum(p * x[i])`, `y = p` with the numeraire `p`, from `A = (1/2, 1/2)`,
`x = A`, `y = 1` to `A = (1/4, 3/4)`. -/
noncomputable def scCall : SimCall ℝ where
  initial := [("x".toList, .num ⟨[2], [1/2, 1/2]⟩), ("y".toList, .num ⟨[], [1]⟩),
    ("A".toList, .ref 0)]
  finalValues := some [("A".toList, .ref 1)]
  useEuler := false

noncomputable def scHeap : Heap (NDArray ℝ) := [⟨[2], [1/2, 1/2]⟩, ⟨[2], [1/4, 3/4]⟩]

theorem scRequest (add mul : NDArray ℝ → NDArray ℝ → NDArray ℝ) :
    RequestOK scCoords (solvedVars (some scNum) scVars) scParams add mul scHeap scCall where
  nodup := by simp [scCall, dkeys]
  exact := by
    intro n
    have e : (solvedVars (some scNum) scVars ++ scParams).map ModelObject.name =
      ["x".toList, "y".toList, "A".toList] := by decide +kernel
    rw [e]
    simp [scCall, dkeys]
  distinct := by simp [scCall, dkeys]
  some_change := by simp [scCall, dkeys]
  known := by simp [scCall, dkeys]
  valid := by simp [scCall, ValidRefs, refsOf, scHeap]
  unshared := by simp [scCall, refsOf]
  shaped := by
    intro o ho
    have e : solvedVars (some scNum) scVars ++ scParams =
      [{ name := "x", dims := ["i".toList] }, { name := "y" }, { name := "A", dims := ["i".toList] }] := by
      decide +kernel
    rw [e] at ho
    simp only [List.mem_cons, List.not_mem_nil, or_false] at ho
    rcases ho with rfl | rfl | rfl
    · exact ⟨⟨[2], [1/2, 1/2]⟩, rfl, rfl, rfl⟩
    · exact ⟨⟨[], [1]⟩, rfl, rfl, rfl⟩
    · exact ⟨⟨[2], [1/2, 1/2]⟩, rfl, rfl, rfl⟩
  sized := by
    intro o ho
    simp only [scParams, List.mem_singleton] at ho
    subst ho
    exact ⟨⟨[2], [1/4, 3/4]⟩, rfl, rfl⟩

/-- The hypotheses of `C72_root_partial` with a result without a warning: the equations of the example
hold exactly at the reported state. -/
example (isNan : ℝ → Bool) (add mul : NDArray ℝ → NDArray ℝ → NDArray ℝ) :
    ∃ (env : SamEnv ℝ (List (NDArray ℝ))) (out : SimOut ℝ),
      OnDefaultBackend scCoords scVars scParams (some scNum) scEqs env ∧ EulerArrays env ∧
      RootAccepts env (fun v => ∀ y ∈ v, y = 0) ∧
      simulateCompute (simEnvOf env isNan {} add mul) scHeap scCall = .ok out ∧
      out.warnedOptimizer = false := by
  obtain ⟨F, hF⟩ := scBuilt
  let env := envOf scCoords (solvedVars (some scNum) scVars) scParams F exactRoot
    fun _ _ _ _ => .error .valueError
  have hroot : exactRoot (env.fSystem.forScipy env.variables env.parameters env.coords)
      [1/2, 1/2, 1] [1/4, 3/4] true = .ok ⟨[1/4, 3/4, 1], true⟩ := by
    unfold exactRoot
    rw [if_pos]
    · rfl
    · refine ⟨rfl, _, hF.system scModel [] ([1/4, 3/4] ++ [1]) [1/4, 3/4] rfl rfl, ?_⟩
      intro y hy
      have e : imbalances scCoords scVars scParams (some scNum) scEqs
          ([1/4, 3/4] ++ [1] ++ [1/4, 3/4] : List ℝ) =
        [1/4 - 1/4 * 1, 3/4 - 3/4 * 1, 1 - (1 * (1/4) + (1 * (3/4) + 0)), 1 - 1] := rfl
      rw [e] at hy
      simp only [List.mem_cons, List.not_mem_nil, or_false] at hy
      rcases hy with rfl | rfl | rfl | rfl <;> norm_num
  have e : simulateCompute (simEnvOf env isNan {} add mul) scHeap scCall =
      liftPy ((exactRoot (env.fSystem.forScipy env.variables env.parameters env.coords)
        [1/2, 1/2, 1] [1/4, 3/4] true).bind fun res => (optimizerResultToIdata res.x [1/4, 3/4]
          [("x".toList, ⟨[2], [1/2, 1/2]⟩), ("y".toList, ⟨[], [1]⟩), ("A".toList, ⟨[2], [1/2, 1/2]⟩)]
          env.variables env.parameters env.coords).bind fun idata =>
            .ok ⟨none, some idata, some res, !res.success⟩) := rfl
  rw [hroot] at e
  refine ⟨env, _, ⟨scModel, ⟨by decide +kernel, by decide +kernel, by decide +kernel,
    by decide +kernel⟩, by decide +kernel, by decide +kernel, rfl, rfl, rfl, List.cons_ne_nil _ _, F, [], hF,
    rfl, rfl⟩, ?_, exactRoot_accepts _ _ _ _ _, e.trans rfl, rfl⟩
  intro x0 theta n arrays _ _ _ h
  cases h

end Verif
