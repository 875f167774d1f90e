import Verif.Model.GenerateSam
import Verif.Props.Flat
import Mathlib.Tactic.Set

/-!
# C58: `generate_SAM`

"The returned values are the solution the optimizer found, for the parameters that were given, and the
variables listed in `fixed_values` are held at the given values."

The first half is `C58_solution_returned_partial`.  The second half is false of the code: the values in
`fixed_values` are never read (`C58_fixed_values_never_read`), the solver still moves the fixed variables,
and the remaining variables are cut out of the solution at the wrong places
(`C58_fixed_address`, `C58_fixed_wrong_variable`).
-/

namespace Verif

variable {α β ρ : Type _}

/-- Residuals of the model at a dictionary of values, computed as `check_for_equilibrium` does
(base/cge.py:1134-1140). -/
def SamEnv.residuals (env : SamEnv α ρ) (d : Dict Str (NDArray α)) : Res (List α) :=
  match env.fSystem with
  | .kw f => f d
  | .flat f => do
    let xt ← variableDictToFlatArray d env.variables env.parameters
    f xt.1 xt.2

/-- A keyword function does not see the order of its keywords. -/
def CompiledFn.OrderFree (f : CompiledFn α β) : Prop :=
  match f with
  | .kw f => ∀ d d', (∀ k, dget d k = dget d' k) → f d = f d'
  | .flat _ => True

theorem ravelNamed_congr (d d' : Dict Str (NDArray α)) (objs : List ModelObject)
    (h : ∀ o ∈ objs, dget d o.name = dget d' o.name) : ravelNamed d objs = ravelNamed d' objs := by
  unfold ravelNamed
  induction objs with
  | nil => rfl
  | cons o objs ih =>
    rw [List.mapM_cons, List.mapM_cons, ih (fun o' ho' => h o' (by simp [ho'])), dgetE, dgetE,
      h o (by simp)]

/-- The hypotheses about the data of a `generate_SAM` call: the model is well formed, every parameter
has a value in `param_dict` and every variable a starting value of the right shape. -/
structure SamInputs (env : SamEnv α ρ) (paramDict guess : Dict Str (NDArray α)) : Prop where
  known : ∀ o ∈ env.variables ++ env.parameters, KnownDims env.coords o
  names : ((env.variables ++ env.parameters).map ModelObject.name).Nodup
  hasVars : env.variables ≠ []
  hasParams : env.parameters ≠ []
  paramData : ∀ p ∈ env.parameters, DataFor env.coords paramDict p
  guessData : ∀ v ∈ env.variables, DataFor env.coords guess v
  guessKeys : (dkeys guess).Nodup
  guessOnly : ∀ p ∈ env.parameters, p.name ∉ dkeys guess
  paramOnly : ∀ k ∈ dkeys paramDict, k ∈ env.parameters.map ModelObject.name

/-- What the optimizer is started with: the packed guess and the packed parameters. -/
def StartedWith (env : SamEnv α ρ) (paramDict guess : Dict Str (NDArray α)) (x0 theta : List α) :
    Prop :=
  ∃ dx dtheta, flatArrayToVariableDict x0 env.variables env.coords = .ok dx ∧
    flatArrayToVariableDict theta env.parameters env.coords = .ok dtheta ∧
    (∀ v ∈ env.variables, dget dx v.name = dget guess v.name) ∧
    (∀ p ∈ env.parameters, dget dtheta p.name = dget paramDict p.name) ∧
    x0.length = totalSize env.coords env.variables ∧
    theta.length = totalSize env.coords env.parameters

/-- The solution is reported faithfully: every variable (and nothing else) has an array of its
declared shape, these arrays are the optimizer's vector, and the model's residuals at these values and
the given parameters are the residuals the optimizer saw. -/
def Reported (env : SamEnv α ρ) (paramDict : Dict Str (NDArray α)) (theta : List α)
    (x : List α) (D : Dict Str (NDArray α)) : Prop :=
  dkeys D = env.variables.map ModelObject.name ∧
  (∀ v ∈ env.variables, DataFor env.coords D v) ∧
  variableDictToFlatArray (dupdate paramDict D) env.variables env.parameters = .ok (x, theta) ∧
  env.residuals (dupdate paramDict D) =
    env.fSystem.forScipy env.variables env.parameters env.coords x theta

theorem joint_pack (env : SamEnv α ρ) (paramDict guess : Dict Str (NDArray α))
    (h : SamInputs env paramDict guess) :
    ∃ x0 theta, StartedWith env paramDict guess x0 theta ∧
      variableDictToFlatArray (dupdate paramDict guess) env.variables env.parameters
        = .ok (x0, theta) := by
  have gv : ∀ v ∈ env.variables, dget (dupdate paramDict guess) v.name = dget guess v.name := by
    intro v hv
    obtain ⟨a, ha, _⟩ := h.guessData v hv
    rw [dget_dupdate _ _ h.guessKeys, ha]; rfl
  have gp : ∀ p ∈ env.parameters, dget (dupdate paramDict guess) p.name = dget paramDict p.name := by
    intro p hp
    rw [dget_dupdate _ _ h.guessKeys, (dget_eq_none_iff _ _).2 (h.guessOnly p hp)]; rfl
  have hd : ∀ o ∈ env.variables ++ env.parameters,
      DataFor env.coords (dupdate paramDict guess) o := by
    intro o ho
    rcases List.mem_append.1 ho with ho | ho
    · obtain ⟨a, ha, hs⟩ := h.guessData o ho
      exact ⟨a, by rw [gv o ho, ha], hs⟩
    · obtain ⟨a, ha, hs⟩ := h.paramData o ho
      exact ⟨a, by rw [gp o ho, ha], hs⟩
  obtain ⟨bv, hbv, hlv, -⟩ := ravelNamed_ok (dupdate paramDict guess) env.coords env.variables
    (fun o ho => hd o (by simp [ho]))
  obtain ⟨bp, hbp, hlp, -⟩ := ravelNamed_ok (dupdate paramDict guess) env.coords env.parameters
    (fun o ho => hd o (by simp [ho]))
  obtain ⟨x0, theta, dx, dt, _, h1, h2, h3, _, h5, h6, _⟩ :=
    C01_unpack_of_pack env.coords env.variables env.parameters (dupdate paramDict guess) h.known h.names
      h.hasVars h.hasParams hd
  have hv' : bv ≠ [] := by
    rintro rfl
    have : env.variables.length = 0 := by simpa using (congrArg List.length hlv).symm
    exact h.hasVars (List.length_eq_zero_iff.1 this)
  have hp' : bp ≠ [] := by
    rintro rfl
    have : env.parameters.length = 0 := by simpa using (congrArg List.length hlp).symm
    exact h.hasParams (List.length_eq_zero_iff.1 this)
  have h1' := h1
  simp only [variableDictToFlatArray, hbv, hbp, npConcatenate_ok hv', npConcatenate_ok hp', bind,
    Except.bind, pure, Except.pure, Except.ok.injEq, Prod.mk.injEq] at h1'
  refine ⟨x0, theta, ⟨dx, dt, h2, h3, fun v hv => (h5 v hv).trans (gv v hv),
    fun p hp => (h6 p hp).trans (gp p hp), ?_, ?_⟩, h1⟩
  · rw [← h1'.1, List.length_flatten, hlv]; rfl
  · rw [← h1'.2, List.length_flatten, hlp]; rfl

theorem reported_of_unpack (env : SamEnv α ρ) (paramDict guess : Dict Str (NDArray α))
    (h : SamInputs env paramDict guess) (hf : env.fSystem.OrderFree) (x0 theta x : List α)
    (hs : StartedWith env paramDict guess x0 theta)
    (hx : x.length = totalSize env.coords env.variables) :
    ∃ D, flatArrayToVariableDict x env.variables env.coords = .ok D ∧
      Reported env paramDict theta x D := by
  have hnv : (env.variables.map ModelObject.name).Nodup := by
    have := h.names; rw [List.map_append] at this; exact (List.nodup_append.1 this).1
  have hkeys : dkeys (flatPairs env.coords env.variables x) = env.variables.map ModelObject.name :=
    map_fst_flatPairs _ _ _
  have hnk : (dkeys (flatPairs env.coords env.variables x)).Nodup := by rw [hkeys]; exact hnv
  have hun : flatArrayToVariableDict x env.variables env.coords
      = .ok (flatPairs env.coords env.variables x) := by
    rw [flatArrayToVariableDict,
      flatToDictLoop_ok _ _ _ (fun o ho => h.known o (by simp [ho])) _ _ (by omega), List.drop_zero]
    exact congrArg Except.ok (dofPairs_of_nodup _ (by rw [map_fst_flatPairs]; exact hnv))
  have hdata : ∀ v ∈ env.variables, DataFor env.coords (flatPairs env.coords env.variables x) v := by
    intro v hv
    obtain ⟨m, hm, hmv⟩ := List.getElem_of_mem hv
    have hm' : env.variables[m]? = some v := by rw [List.getElem?_eq_getElem hm, hmv]
    refine ⟨_, dget_of_mem_nodup _ hnk
      (List.mem_of_getElem? (flatPairs_getElem? env.coords env.variables x m v hm')), rfl, ?_⟩
    show List.length _ = _
    rw [List.length_take, List.length_drop]
    have htot : offsetOf env.coords env.variables m + specSize env.coords v
        ≤ totalSize env.coords env.variables := by
      have e := congrArg (totalSize env.coords) (List.take_append_drop m env.variables)
      rw [totalSize_append, List.drop_eq_getElem_cons hm, hmv] at e
      simp only [totalSize, List.map_cons, List.sum_cons] at e
      simp only [offsetOf, totalSize]
      omega
    show min _ _ = specSize env.coords v
    omega
  have gv : ∀ v ∈ env.variables,
      dget (dupdate paramDict (flatPairs env.coords env.variables x)) v.name
        = dget (flatPairs env.coords env.variables x) v.name := by
    intro v hv
    obtain ⟨a, ha, _⟩ := hdata v hv
    rw [dget_dupdate _ _ hnk, ha]; rfl
  have hdisj : ∀ p ∈ env.parameters, p.name ∉ dkeys (flatPairs env.coords env.variables x) := by
    intro p hp hmem
    rw [hkeys] at hmem
    have := h.names
    rw [List.map_append] at this
    exact (List.nodup_append.1 this).2.2 _ hmem _ (List.mem_map_of_mem hp) rfl
  have gp : ∀ p ∈ env.parameters,
      dget (dupdate paramDict (flatPairs env.coords env.variables x)) p.name
        = dget paramDict p.name := by
    intro p hp
    rw [dget_dupdate _ _ hnk, (dget_eq_none_iff _ _).2 (hdisj p hp)]; rfl
  have hd : ∀ o ∈ env.variables ++ env.parameters,
      DataFor env.coords (dupdate paramDict (flatPairs env.coords env.variables x)) o := by
    intro o ho
    rcases List.mem_append.1 ho with ho | ho
    · obtain ⟨a, ha, hs⟩ := hdata o ho
      exact ⟨a, by rw [gv o ho, ha], hs⟩
    · obtain ⟨a, ha, hs⟩ := h.paramData o ho
      exact ⟨a, by rw [gp o ho, ha], hs⟩
  obtain ⟨x', theta', dx', dt', dall, h1, h2, h3, h4, h5, h6, h7, h8, h9, h10⟩ :=
    C01_unpack_of_pack env.coords env.variables env.parameters _ h.known h.names h.hasVars h.hasParams hd
  obtain ⟨dx, dt, hs1, hs2, hs3, hs4, hs5, hs6⟩ := hs
  -- the packed parameters are `theta`
  have hpack : variableDictToFlatArray (dupdate paramDict (flatPairs env.coords env.variables x))
      env.variables env.parameters = .ok (x, theta) := by
    obtain ⟨d, hd1, hd2⟩ := C01_pack_of_unpack env.coords env.variables env.parameters x theta h.known
      h.names h.hasVars h.hasParams hx hs6
    rw [← hd2]
    unfold variableDictToFlatArray
    have hall : d = flatPairs env.coords (env.variables ++ env.parameters) (x ++ theta) := by
      rw [flatArrayToVariableDict, flatToDictLoop_ok _ _ _ h.known _ _ (by
        rw [totalSize_append, List.length_append]; omega), List.drop_zero] at hd1
      rw [← Except.ok.inj hd1]
      exact dofPairs_of_nodup _ (by rw [map_fst_flatPairs]; exact h.names)
    have hnd : (dkeys d).Nodup := by
      rw [hall]; unfold dkeys; rw [map_fst_flatPairs]; exact h.names
    have ev : ∀ v ∈ env.variables,
        dget (dupdate paramDict (flatPairs env.coords env.variables x)) v.name = dget d v.name := by
      intro v hv
      obtain ⟨m, hm, hmv⟩ := List.getElem_of_mem hv
      have hm' : env.variables[m]? = some v := by rw [List.getElem?_eq_getElem hm, hmv]
      have ha := flatPairs_getElem? env.coords env.variables x m v hm'
      have hb := flatPairs_getElem? env.coords (env.variables ++ env.parameters) (x ++ theta) m v
        (by rw [List.getElem?_append_left hm]; exact hm')
      rw [gv v hv, dget_of_mem_nodup _ hnk (List.mem_of_getElem? ha),
        dget_of_mem_nodup d hnd (hall ▸ List.mem_of_getElem? hb)]
      have ho : offsetOf env.coords (env.variables ++ env.parameters) m
          = offsetOf env.coords env.variables m := by
        unfold offsetOf; rw [List.take_append_of_le_length (by omega)]
      have htot : offsetOf env.coords env.variables m + specSize env.coords v
          ≤ totalSize env.coords env.variables := by
        have e := congrArg (totalSize env.coords) (List.take_append_drop m env.variables)
        rw [totalSize_append, List.drop_eq_getElem_cons hm, hmv] at e
        simp only [totalSize, List.map_cons, List.sum_cons] at e
        simp only [offsetOf, totalSize]
        omega
      rw [ho, List.drop_append_of_le_length (by omega), List.take_append_of_le_length (by
        rw [List.length_drop]; omega)]
    have ep : ∀ p ∈ env.parameters,
        dget (dupdate paramDict (flatPairs env.coords env.variables x)) p.name = dget d p.name := by
      intro p hp
      rw [gp p hp, ← hs4 p hp]
      obtain ⟨m, hm, hmv⟩ := List.getElem_of_mem hp
      have hm' : env.parameters[m]? = some p := by rw [List.getElem?_eq_getElem hm, hmv]
      have hnp : (env.parameters.map ModelObject.name).Nodup := by
        have := h.names; rw [List.map_append] at this; exact (List.nodup_append.1 this).2.1
      have hdt : dt = flatPairs env.coords env.parameters theta := by
        rw [flatArrayToVariableDict, flatToDictLoop_ok _ _ _ (fun o ho => h.known o (by simp [ho])) _ _
          (by omega), List.drop_zero] at hs2
        rw [← Except.ok.inj hs2]
        exact dofPairs_of_nodup _ (by rw [map_fst_flatPairs]; exact hnp)
      have ha := flatPairs_getElem? env.coords env.parameters theta m p hm'
      have hb := flatPairs_getElem? env.coords (env.variables ++ env.parameters) (x ++ theta)
        (env.variables.length + m) p
        (by rw [List.getElem?_append_right (by omega)]; rw [← hm']; congr 1; omega)
      rw [dget_of_mem_nodup dt (by rw [hdt]; unfold dkeys; rw [map_fst_flatPairs]; exact hnp)
        (hdt ▸ List.mem_of_getElem? ha), dget_of_mem_nodup d hnd (hall ▸ List.mem_of_getElem? hb)]
      have ho : offsetOf env.coords (env.variables ++ env.parameters) (env.variables.length + m)
          = x.length + offsetOf env.coords env.parameters m := by
        unfold offsetOf
        rw [List.take_append, totalSize_append, hx, List.take_of_length_le (by omega)]
        congr 3; omega
      rw [ho, ← List.drop_drop, List.drop_left]
    rw [ravelNamed_congr _ _ _ ev, ravelNamed_congr _ _ _ ep]
  rw [hpack] at h1
  obtain ⟨rfl, rfl⟩ := Prod.mk.inj (Except.ok.inj h1)
  refine ⟨_, hun, hkeys, hdata, hpack, ?_⟩
  unfold SamEnv.residuals CompiledFn.forScipy
  cases hfs : env.fSystem with
  | flat f => simp only [hpack, bind, Except.bind]
  | kw f =>
    rw [hfs] at hf
    simp only [wrapForScipy, h4, bind, Except.bind]
    apply hf
    intro k
    by_cases hm : k ∈ (env.variables ++ env.parameters).map ModelObject.name
    · obtain ⟨o, ho, rfl⟩ := List.mem_map.1 hm
      exact (h7 o ho).symm
    · have hk : k ∉ dkeys (dupdate paramDict (flatPairs env.coords env.variables x)) := by
        intro hk
        rcases (mem_dkeys_dupdate _ _ _).1 hk with hk | hk
        · exact hm (by rw [List.map_append]; exact List.mem_append_right _ (h.paramOnly k hk))
        · rw [map_fst_flatPairs] at hk
          exact hm (by rw [List.map_append]; exact List.mem_append_left _ hk)
      rw [(dget_eq_none_iff _ _).2 hk, (dget_eq_none_iff _ _).2 (by rw [h10]; exact hm)]

theorem filter_none_fixed (vars : List ModelObject) :
    (vars.filter fun v => decide (v.name ∉ dkeys ((none : Option (Dict Str (NDArray α))).getD [])))
      = vars := by
  apply List.filter_eq_self.2
  intro v _
  simp [dkeys]

/-- **C58 (partial: no `fixed_values`; root finder).**  The root finder is started at the packed guess
with the packed `param_dict`; whatever solution of the model's length it reports, the returned
dictionary has exactly the model's variables with their declared shapes, is that solution, the model's
residuals at these values and the given parameters are the residuals the root finder saw, and a warning
is given exactly when the root finder did not report success.  An exception of the root finder is passed
on.  Missing: `fixed_values`, for which the claim is false (`C58_fixed_wrong_variable`). -/
theorem C58_root_solution_returned_partial (env : SamEnv α ρ) (paramDict guess : Dict Str (NDArray α))
    (h : SamInputs env paramDict guess) (hf : env.fSystem.OrderFree) (c : SamCall)
    (hm : c.solveMethod = "root".toList) (hj : c.useJac = true → "root".toList ∈ env.compiled) :
    ∃ x0 theta, StartedWith env paramDict guess x0 theta ∧
      (∀ e, env.root (env.fSystem.forScipy env.variables env.parameters env.coords) x0 theta c.useJac
          = .error e → generateSam env paramDict guess none c = .error e) ∧
      ∀ r, env.root (env.fSystem.forScipy env.variables env.parameters env.coords) x0 theta c.useJac
          = .ok r → r.x.length = totalSize env.coords env.variables →
        ∃ D, generateSam env paramDict guess none c = .ok (.state D (!r.success)) ∧
          Reported env paramDict theta r.x D := by
  obtain ⟨x0, theta, hs, hp⟩ := joint_pack env paramDict guess h
  have hb : ¬ (c.useJac && !env.compiled.contains "root".toList) = true := by
    cases hu : c.useJac with
    | false => simp
    | true =>
      rw [Bool.true_and, List.contains_iff_mem.2 (hj hu)]; simp
  have hsolve : solveWithRoot env (dupdate paramDict guess) theta c.useJac
      = env.root (env.fSystem.forScipy env.variables env.parameters env.coords) x0 theta c.useJac := by
    unfold solveWithRoot
    rw [if_neg hb, hp]
    rfl
  have hgen : generateSam env paramDict guess none c =
      (env.root (env.fSystem.forScipy env.variables env.parameters env.coords) x0 theta c.useJac).bind
        (samOfResult env.variables env.coords) := by
    unfold generateSam
    rw [if_neg (by rw [hm]; simp)]
    dsimp only
    rw [filter_none_fixed, hp]
    simp only [bind, Except.bind, hm, if_true, hsolve]
  refine ⟨x0, theta, hs, ?_, ?_⟩
  · intro e he
    rw [hgen, he]; rfl
  · intro r hr hx
    obtain ⟨D, hD, hrep⟩ := reported_of_unpack env paramDict guess h hf x0 theta r.x hs hx
    refine ⟨D, ?_, hrep⟩
    rw [hgen, hr]
    simp only [Except.bind, samOfResult, hD, bind, pure, Except.pure]

/-- **C58 (partial: no `fixed_values`; minimizer).**  The same for the minimizer, with the flags of
`get_method_defaults`. -/
theorem C58_minimize_solution_returned_partial (env : SamEnv α ρ)
    (paramDict guess : Dict Str (NDArray α))
    (h : SamInputs env paramDict guess) (hf : env.fSystem.OrderFree) (c : SamCall)
    (hm : c.solveMethod = "minimize".toList) (hj : "minimize".toList ∈ env.compiled)
    (hp : c.useHessp = some true) :
    ∃ x0 theta, StartedWith env paramDict guess x0 theta ∧
      ∀ r, env.minimize (env.fResid.forScipy env.variables env.parameters env.coords) x0 theta
          (c.useJac, false, true) = .ok r → r.x.length = totalSize env.coords env.variables →
        ∃ D, generateSam env paramDict guess none c = .ok (.state D (!r.success)) ∧
          Reported env paramDict theta r.x D := by
  obtain ⟨x0, theta, hs, hpk⟩ := joint_pack env paramDict guess h
  refine ⟨x0, theta, hs, ?_⟩
  intro r hr hx
  obtain ⟨D, hD, hrep⟩ := reported_of_unpack env paramDict guess h hf x0 theta r.x hs hx
  refine ⟨D, ?_, hrep⟩
  have hb : ¬ (!env.compiled.contains "minimize".toList) = true := by
    rw [List.contains_iff_mem.2 hj]; simp
  have hflags : getMethodDefaults env.methodTable (some c.useJac) (some c.useHess) (some true)
      c.minimizeMethod = .ok (c.useJac, false, true) := by
    unfold getMethodDefaults
    cases c.useHess <;> rfl
  have hsolve : solveWithMinimize env (dupdate paramDict guess) theta (some c.useJac)
      (some c.useHess) (some true) c.minimizeMethod = .ok r := by
    unfold solveWithMinimize
    rw [if_neg hb, hflags, hpk]
    simp only [bind, Except.bind, Bool.and_false, Bool.false_eq_true, if_false]
    exact hr
  unfold generateSam
  rw [if_neg (by rw [hm]; simp)]
  dsimp only
  rw [filter_none_fixed, hpk]
  simp only [bind, Except.bind]
  rw [if_neg (by rw [hm]; decide), if_pos hm, hp, hsolve]
  simp only [samOfResult, hD, bind, Except.bind, pure, Except.pure]

/-- An unknown method is rejected whatever the data. -/
theorem C58_unknown_method_rejected (env : SamEnv α ρ) (paramDict guess : Dict Str (NDArray α))
    (fixed : Option (Dict Str (NDArray α))) (c : SamCall)
    (h : c.solveMethod ≠ "root".toList ∧ c.solveMethod ≠ "minimize".toList ∧
      c.solveMethod ≠ "euler".toList) :
    generateSam env paramDict guess fixed c = .error .valueError := by
  unfold generateSam
  rw [if_pos (by simpa using h)]

/-- **C58 (negation, 1).**  The values in `fixed_values` are never read: two calls which fix the same
names at different values return the same. -/
theorem C58_fixed_values_never_read (env : SamEnv α ρ) (paramDict guess : Dict Str (NDArray α))
    (fixed fixed' : Dict Str (NDArray α)) (h : dkeys fixed = dkeys fixed') (c : SamCall) :
    generateSam env paramDict guess (some fixed) c = generateSam env paramDict guess (some fixed') c := by
  unfold generateSam
  simp only [Option.getD_some, h]

/-- **C58 (negation, 2).**  Where the returned values come from: free variable number `m` is cut out of
the optimizer's vector - which ranges over *all* variables - at the place it would have if only the free
variables were there. -/
theorem C58_fixed_address (env : SamEnv α ρ) (paramDict guess : Dict Str (NDArray α))
    (fixed : Dict Str (NDArray α)) (c : SamCall) (D : Dict Str (NDArray α)) (w : Bool)
    (hk : ∀ o ∈ env.variables, KnownDims env.coords o)
    (hn : (env.variables.map ModelObject.name).Nodup) (hm : c.solveMethod = "root".toList)
    (h : generateSam env paramDict guess (some fixed) c = .ok (.state D w)) :
    ∃ x0 theta r, env.root (env.fSystem.forScipy env.variables env.parameters env.coords) x0 theta
        c.useJac = .ok r ∧ w = (!r.success) ∧ ∀ (m : Nat) (o : ModelObject),
      (env.variables.filter fun v => decide (v.name ∉ dkeys fixed))[m]? = some o →
      dget D o.name = some ⟨specShape env.coords o,
        (r.x.drop (offsetOf env.coords
          (env.variables.filter fun v => decide (v.name ∉ dkeys fixed)) m)).take
            (specSize env.coords o)⟩ := by
  set free := env.variables.filter fun v => decide (v.name ∉ dkeys fixed) with hfree
  have hex : ∃ x0 theta r, env.root (env.fSystem.forScipy env.variables env.parameters env.coords) x0
      theta c.useJac = .ok r ∧ w = (!r.success) ∧
      flatArrayToVariableDict r.x free env.coords = .ok D := by
    unfold generateSam at h
    rw [if_neg (by rw [hm]; simp)] at h
    simp only [Option.getD_some, ← hfree] at h
    cases hp : variableDictToFlatArray (dupdate paramDict guess) free env.parameters with
    | error e => rw [hp] at h; cases h
    | ok xt =>
      rw [hp] at h
      simp only [bind, Except.bind, hm, if_true] at h
      unfold solveWithRoot at h
      split at h
      · cases h
      · next r hr =>
        split at hr
        · cases hr
        · simp only [bind, Except.bind] at hr
          split at hr
          · cases hr
          · next xt' _ =>
            refine ⟨_, _, r, hr, ?_⟩
            unfold samOfResult at h
            simp only [bind, Except.bind, pure, Except.pure] at h
            split at h
            · cases h
            · next d hd =>
              simp only [Except.ok.injEq, SamOut.state.injEq] at h
              exact ⟨h.2.symm, by rw [hd, h.1]⟩
  obtain ⟨x0, theta, r, hr, hw, hx⟩ := hex
  have hkf : ∀ o ∈ free, KnownDims env.coords o := fun o ho => hk o (List.mem_filter.1 ho).1
  have hnf : (free.map ModelObject.name).Nodup :=
    hn.sublist (List.Sublist.map _ List.filter_sublist)
  refine ⟨x0, theta, r, hr, hw, fun m o ho => ?_⟩
  have hlen := (C04_accepted_iff env.coords free r.x hkf).1 ⟨D, hx⟩
  rw [flatArrayToVariableDict, flatToDictLoop_ok _ _ _ hkf _ _ (by omega), List.drop_zero] at hx
  have hD : D = flatPairs env.coords free r.x := by
    rw [← Except.ok.inj hx]
    exact dofPairs_of_nodup _ (by rw [map_fst_flatPairs]; exact hnf)
  rw [hD]
  exact dget_of_mem_nodup _ (by unfold dkeys; rw [map_fst_flatPairs]; exact hnf)
    (List.mem_of_getElem? (flatPairs_getElem? env.coords free r.x m o ho))

/-- **C58 (negation, 4).**  Fixing every variable raises instead of returning the fixed values. -/
theorem C58_all_fixed_raises (env : SamEnv α ρ) (paramDict guess : Dict Str (NDArray α))
    (fixed : Dict Str (NDArray α)) (c : SamCall) (h : ∀ v ∈ env.variables, v.name ∈ dkeys fixed) :
    generateSam env paramDict guess (some fixed) c = .error .valueError := by
  unfold generateSam
  split
  · rfl
  · dsimp only
    have : (env.variables.filter fun v => decide (v.name ∉ dkeys ((some fixed).getD []))) = [] := by
      rw [List.filter_eq_nil_iff]
      intro v hv
      simpa using h v hv
    rw [this]
    rfl

/-! ## Example and counterexample: `a = p`, `b = 2 p` -/

/-- Two scalar variables `a`, `b`, one parameter `p`; the root finder knows the exact solution
`a = p`, `b = 2 p` of the system `a - p = 0`, `b - 2 p = 0`. -/
def exSamEnv : SamEnv Int Unit where
  variables := [{ name := "a" }, { name := "b" }]
  parameters := [{ name := "p" }]
  coords := []
  compiled := ["root".toList]
  fSystem := .kw fun d => do
    let a ← dgetE d "a".toList
    let b ← dgetE d "b".toList
    let p ← dgetE d "p".toList
    pure [a.data.sum - p.data.sum, b.data.sum - 2 * p.data.sum]
  fResid := .flat fun _ _ => .ok 0
  methodTable := []
  root := fun _ _ theta _ => .ok ⟨[theta.sum, 2 * theta.sum], true⟩
  minimize := fun _ x0 _ _ => .ok ⟨x0, false⟩
  euler := fun _ _ _ => .ok ()

def exSamParams : Dict Str (NDArray Int) := [("p".toList, ⟨[], [5]⟩)]
def exSamGuess : Dict Str (NDArray Int) := [("a".toList, ⟨[], [1]⟩), ("b".toList, ⟨[], [1]⟩)]

theorem exSam_inputs : SamInputs exSamEnv exSamParams exSamGuess where
  known := by decide
  names := by decide
  hasVars := by decide
  hasParams := by decide
  paramData := by
    intro p hp
    simp only [exSamEnv, List.mem_cons, List.not_mem_nil, or_false] at hp
    subst hp
    exact ⟨⟨[], [5]⟩, by decide, by decide, by decide⟩
  guessData := by
    intro v hv
    simp only [exSamEnv, List.mem_cons, List.not_mem_nil, or_false] at hv
    rcases hv with rfl | rfl
    · exact ⟨⟨[], [1]⟩, by decide, by decide, by decide⟩
    · exact ⟨⟨[], [1]⟩, by decide, by decide, by decide⟩
  guessKeys := by decide
  guessOnly := by decide
  paramOnly := by decide

theorem exSam_orderFree : exSamEnv.fSystem.OrderFree := by
  intro d d' h
  simp only [exSamEnv, dgetE, h]

/-- The example meets the hypotheses of the theorems above: the root finder … -/
example := C58_root_solution_returned_partial exSamEnv exSamParams exSamGuess exSam_inputs exSam_orderFree {} rfl
  (by decide)

/-- … an unknown method … -/
example : generateSam exSamEnv exSamParams exSamGuess none { solveMethod := "newton".toList } = .error .valueError :=
  C58_unknown_method_rejected _ _ _ _ _ (by decide)

/-- … other values for the same fixed variables … -/
example : generateSam exSamEnv exSamParams exSamGuess (some [("a".toList, ⟨[], [5]⟩)]) {} =
    generateSam exSamEnv exSamParams exSamGuess (some [("a".toList, ⟨[], [-700]⟩)]) {} :=
  C58_fixed_values_never_read _ _ _ _ _ rfl _

/-- … the first variable fixed, where the other is cut out of the wrong place … -/
example := C58_fixed_address exSamEnv exSamParams exSamGuess [("a".toList, ⟨[], [5]⟩)] {} [("b".toList, ⟨[], [5]⟩)]
  false (by decide) (by decide) rfl rfl

/-- … and both variables fixed. -/
example : generateSam exSamEnv exSamParams exSamGuess (some exSamGuess) {} = .error .valueError :=
  C58_all_fixed_raises _ _ _ _ _ (by decide)

/-- Without `fixed_values` the solution is returned. -/
example : generateSam exSamEnv exSamParams exSamGuess none {}
    = .ok (.state [("a".toList, ⟨[], [5]⟩), ("b".toList, ⟨[], [10]⟩)] false) := by rfl

/-- The minimizer of the example gives up at once: its starting point is returned, with a warning. -/
example : generateSam { exSamEnv with compiled := ["minimize".toList] } exSamParams exSamGuess none
      { solveMethod := "minimize".toList }
    = .ok (.state [("a".toList, ⟨[], [1]⟩), ("b".toList, ⟨[], [1]⟩)] true) := by rfl

example : generateSam exSamEnv exSamParams exSamGuess none { solveMethod := "newton".toList }
    = .error .valueError := by rfl

example : ∀ v ∈ exSamEnv.variables, v.name ∈ dkeys exSamGuess := by decide

/-- **C58 (negation, 3).**  With the first variable fixed at the value it has in the solution, the
root finder returning an exact solution and reporting success, and no warning, the dictionary returned
gives the *other* variable the fixed variable's value: `b = 5` where every solution has `b = 10`. -/
theorem C58_fixed_wrong_variable :
    ∃ (env : SamEnv Int Unit) (params guess fixed : Dict Str (NDArray Int)) (D : Dict Str (NDArray Int)),
      SamInputs env params guess ∧
      (∀ x0 theta, ∃ r, env.root (env.fSystem.forScipy env.variables env.parameters env.coords)
          x0 theta true = .ok r ∧ (theta.length = 1 →
            env.fSystem.forScipy env.variables env.parameters env.coords r.x theta = .ok [0, 0])) ∧
      generateSam env params guess (some fixed) {} = .ok (.state D false) ∧
      dget D "b".toList = some ⟨[], [5]⟩ ∧
      (∀ v : Int, ∀ w : Int,
        env.residuals (params ++ [("a".toList, ⟨[], [v]⟩), ("b".toList, ⟨[], [w]⟩)]) = .ok [0, 0] →
        w = 10) ∧
      ∃ a, dget fixed "a".toList = some a ∧ a.data = [5] := by
  refine ⟨exSamEnv, exSamParams, exSamGuess, [("a".toList, ⟨[], [5]⟩)],
    [("b".toList, ⟨[], [5]⟩)], ?_, ?_, by rfl, by decide, ?_, ⟨_, rfl, rfl⟩⟩
  · exact {
      known := by decide
      names := by decide
      hasVars := by decide
      hasParams := by decide
      paramData := by
        intro p hp
        simp only [exSamEnv, List.mem_cons, List.not_mem_nil, or_false] at hp
        subst hp
        exact ⟨⟨[], [5]⟩, by decide, by decide, by decide⟩
      guessData := by
        intro v hv
        simp only [exSamEnv, List.mem_cons, List.not_mem_nil, or_false] at hv
        rcases hv with rfl | rfl
        · exact ⟨⟨[], [1]⟩, by decide, by decide, by decide⟩
        · exact ⟨⟨[], [1]⟩, by decide, by decide, by decide⟩
      guessKeys := by decide
      guessOnly := by decide
      paramOnly := by decide }
  · intro x0 theta
    refine ⟨⟨[theta.sum, 2 * theta.sum], true⟩, rfl, ?_⟩
    intro ht
    obtain ⟨t, rfl⟩ := List.length_eq_one_iff.1 ht
    show Except.ok [[t + 0].sum - [t].sum, [2 * (t + 0)].sum - 2 * [t].sum] = _
    simp
  · intro v w hres
    have : Except.ok (ε := PyErr) [[v].sum - [(5 : Int)].sum, [w].sum - 2 * [(5 : Int)].sum]
        = .ok [0, 0] := hres
    simp at this
    omega

/-- **C58 (Euler).**  The Euler pass gets all the data and the packed parameters as its end point, and its
result is returned unchanged. -/
theorem C58_euler_returned (env : SamEnv α ρ) (paramDict guess : Dict Str (NDArray α))
    (h : SamInputs env paramDict guess) (c : SamCall) (hm : c.solveMethod = "euler".toList) :
    ∃ x0 theta, StartedWith env paramDict guess x0 theta ∧
      generateSam env paramDict guess none c =
        (env.euler (dupdate paramDict guess) theta c.nSteps).map SamOut.trajectory := by
  obtain ⟨x0, theta, hs, hp⟩ := joint_pack env paramDict guess h
  refine ⟨x0, theta, hs, ?_⟩
  unfold generateSam
  rw [if_neg (by rw [hm]; decide)]
  dsimp only
  rw [filter_none_fixed, hp]
  rw [show (do let xt ← (Except.ok (x0, theta) : Res _); _ : Res (SamOut α ρ)) = _ from rfl]
  dsimp only [bind, Except.bind]
  rw [if_neg (by rw [hm]; decide), if_neg (by rw [hm]; decide)]
  cases env.euler (dupdate paramDict guess) theta c.nSteps <;> rfl

/-- **C58.**  A Jacobian can be asked of the root finder only if the model was compiled for it. -/
theorem C58_uncompiled_rejected (env : SamEnv α ρ) (paramDict guess : Dict Str (NDArray α))
    (h : SamInputs env paramDict guess) (c : SamCall) :
    (c.solveMethod = "root".toList → c.useJac = true → "root".toList ∉ env.compiled →
      generateSam env paramDict guess none c = .error .valueError) ∧
    (c.solveMethod = "minimize".toList → "minimize".toList ∉ env.compiled →
      generateSam env paramDict guess none c = .error .valueError) := by
  obtain ⟨x0, theta, hs, hp⟩ := joint_pack env paramDict guess h
  constructor
  · intro hm hj hc
    unfold generateSam
    rw [if_neg (by rw [hm]; decide)]
    dsimp only
    rw [filter_none_fixed, hp]
    dsimp only [bind, Except.bind]
    rw [if_pos hm]
    unfold solveWithRoot
    rw [if_pos (by rw [hj, List.contains_eq_mem, decide_eq_false hc]; rfl)]
  · intro hm hc
    unfold generateSam
    rw [if_neg (by rw [hm]; decide)]
    dsimp only
    rw [filter_none_fixed, hp]
    dsimp only [bind, Except.bind]
    rw [if_neg (by rw [hm]; decide), if_pos hm]
    unfold solveWithMinimize
    rw [if_pos (by rw [List.contains_eq_mem, decide_eq_false hc]; rfl)]

/-- **C58.**  The minimizer is never asked to use a Hessian without a gradient: replacing it by one that
differs only on such calls changes nothing. -/
theorem C58_no_hessian_without_gradient (env : SamEnv α ρ) (paramDict guess : Dict Str (NDArray α))
    (fixed : Option (Dict Str (NDArray α))) (c : SamCall)
    (m : (List α → List α → Res α) → List α → List α → Bool × Bool × Bool → Res (OptResult α))
    (hm : ∀ f x theta fl, (fl.2.1 = true → fl.1 = true) → m f x theta fl = env.minimize f x theta fl) :
    generateSam { env with minimize := m } paramDict guess fixed c =
      generateSam env paramDict guess fixed c := by
  have key : ∀ data theta uj uh uhp meth,
      solveWithMinimize { env with minimize := m } data theta uj uh uhp meth =
        solveWithMinimize env data theta uj uh uhp meth := by
    intro data theta uj uh uhp meth
    unfold solveWithMinimize
    dsimp only
    split
    · rfl
    · cases getMethodDefaults env.methodTable uj uh uhp meth with
      | error e => rfl
      | ok fl =>
        dsimp only [bind, Except.bind]
        cases variableDictToFlatArray data env.variables env.parameters with
        | error e => rfl
        | ok xt =>
          dsimp only
          apply hm
          obtain ⟨a, b, d⟩ := fl
          cases a <;> cases b <;> simp
  unfold generateSam
  dsimp only
  simp only [key]
  rfl

/-- The example without its root finder being compiled, and solved by the Euler approximation. -/
example : generateSam { exSamEnv with compiled := [] } exSamParams exSamGuess none {} = .error .valueError :=
  (C58_uncompiled_rejected { exSamEnv with compiled := [] } exSamParams exSamGuess ⟨exSam_inputs.known,
    exSam_inputs.names, exSam_inputs.hasVars, exSam_inputs.hasParams, exSam_inputs.paramData, exSam_inputs.guessData,
    exSam_inputs.guessKeys, exSam_inputs.guessOnly, exSam_inputs.paramOnly⟩ {}).1 rfl rfl (by simp)

example := C58_euler_returned exSamEnv exSamParams exSamGuess exSam_inputs { solveMethod := "euler".toList } rfl

/-- A minimizer that crashes when it is given a Hessian and no gradient makes no difference. -/
example (fixed : Option (Dict Str (NDArray Int))) (c : SamCall) :
    generateSam { exSamEnv with minimize := (fun f x t fl => if fl.2.1 && !fl.1 then .error .valueError else
        exSamEnv.minimize f x t fl) } exSamParams exSamGuess fixed c =
      generateSam exSamEnv exSamParams exSamGuess fixed c :=
  C58_no_hessian_without_gradient _ _ _ _ _ _ fun f x t fl h => by
    obtain ⟨a, b, d⟩ := fl
    cases a <;> cases b <;> simp at h ⊢

end Verif
