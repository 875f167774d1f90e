import Verif.Model.InitialState
import Verif.Lemmas.SimulateSolve
import Verif.Lemmas.SympyTensor
import Verif.Props.Calibrate
import Verif.Spec.Scalarise
import Verif.Props.SimulateEuler

/-!
# C79: the forms of `initial_state`
-/

namespace Verif

variable {α : Type _}

theorem dict_eq_of_lookup {κ ν : Type _} [DecidableEq κ] : ∀ (a b : Dict κ ν), (dkeys a).Nodup →
    dkeys a = dkeys b → (∀ k ∈ dkeys a, dget a k = dget b k) → a = b
  | [], [], _, _, _ => rfl
  | [], _ :: _, _, h, _ => by simp [dkeys] at h
  | _ :: _, [], _, h, _ => by simp [dkeys] at h
  | (k, v) :: a, (k', v') :: b, hn, hk, hg => by
    have hk' : k = k' ∧ dkeys a = dkeys b := by simpa [dkeys] using hk
    obtain ⟨rfl, hk2⟩ := hk'
    have hn' : k ∉ dkeys a ∧ (dkeys a).Nodup := by simpa [dkeys] using hn
    have h0 := hg k (by simp [dkeys])
    have hv : v = v' := by simpa [dget] using h0
    rw [hv, dict_eq_of_lookup a b hn'.2 hk2]
    intro q hq
    have hne : k ≠ q := fun h => hn'.1 (h ▸ hq)
    have := hg q (by simp only [dkeys, List.map_cons, List.mem_cons]; exact Or.inr hq)
    simpa [dget, hne] using this

/-- For a dict, `simulateFrom` is the function that the other properties are about. -/
theorem simulateFrom_dict (env : SamEnv α (List (NDArray α))) (isNan : α → Bool) (fl : SimFlags)
    (add mul : NDArray α → NDArray α → NDArray α) (h : Heap (NDArray α)) (c : SimCall α) :
    simulateFrom env isNan fl add mul h (.dict c.initial) c =
      simulateCompute (simEnvOf env isNan fl add mul) h c := by
  unfold simulateFrom simulateCompute
  cases hc : env.compiled.isEmpty with
  | true => simp [simEnvOf, hc, bind, Except.bind, throw, throwThe, MonadExceptOf.throw]
  | false => rfl

variable {coords : Coords} {vars params : List ModelObject}

/-- The `Result` and the dict of a request say the same: the same names in the same order, and the same
numbers. -/
structure SameNumbers (h : Heap (NDArray α)) (d : Dict Str (PyVal (NDArray α))) (r : ResultObj α) :
    Prop where
  names : dkeys d = r.names
  length : r.fittedValues.length = r.names.length
  numbers : ∀ (i : Nat) n v, r.names[i]? = some n → r.fittedValues[i]? = some v →
    seen h d n = some ⟨[], [v]⟩

theorem SameNumbers.dict {h : Heap (NDArray α)} {d : Dict Str (PyVal (NDArray α))} {r : ResultObj α}
    (hs : SameNumbers h d r) (hn : (dkeys d).Nodup) :
    r.fitted = r.names.zip (r.fittedValues.map fun v => .num ⟨[], [v]⟩) ∧ dkeys r.fitted = r.names ∧
      ∀ n, seen h r.fitted n = seen h d n := by
  have h1 : r.fitted = r.names.zip (r.fittedValues.map fun v => .num ⟨[], [v]⟩) := by
    unfold ResultObj.fitted
    apply dofPairs_of_nodup
    rw [List.map_fst_zip (by rw [List.length_map, hs.length]), ← hs.names]
    exact hn
  have h2 : dkeys r.fitted = r.names := by
    rw [h1]
    unfold dkeys
    rw [List.map_fst_zip (by rw [List.length_map, hs.length])]
  refine ⟨h1, h2, fun n => ?_⟩
  by_cases hm : n ∈ r.names
  · obtain ⟨i, hi⟩ := List.mem_iff_getElem?.1 hm
    have hlt : i < r.fittedValues.length := by
      rw [hs.length]; exact (List.getElem?_eq_some_iff.1 hi).1
    rw [hs.numbers i n _ hi (List.getElem?_eq_getElem hlt)]
    unfold seen
    have hg : dget r.fitted n = some (.num ⟨[], [r.fittedValues[i]]⟩) := by
      apply dget_of_mem_nodup
      · rw [h2, ← hs.names]; exact hn
      · rw [h1, List.mem_iff_getElem?]
        exact ⟨i, by rw [List.getElem?_zip_eq_some]; simp [hi, hlt]⟩
    rw [hg]
    rfl
  · unfold seen
    rw [(dget_eq_none_iff _ _).2 (by rw [h2]; exact hm), (dget_eq_none_iff _ _).2 (by rw [hs.names]; exact hm)]

theorem refsOf_nums (l : List Str) (vs : List (NDArray α)) :
    refsOf (l.zip (vs.map PyVal.num)) = [] := by
  induction l generalizing vs with
  | nil => rfl
  | cons a l ih =>
    cases vs with
    | nil => rfl
    | cons v vs => exact ih vs

theorem SameNumbers.request {add mul : NDArray α → NDArray α → NDArray α} {h : Heap (NDArray α)}
    {c : SimCall α} {r : ResultObj α} (hs : SameNumbers h c.initial r)
    (hr : RequestOK coords vars params add mul h c) :
    RequestOK coords vars params add mul h { c with initial := r.fitted } := by
  obtain ⟨h1, h2, h3⟩ := hs.dict hr.nodup
  have hk : dkeys r.fitted = dkeys c.initial := by rw [h2, hs.names]
  have href : refsOf r.fitted = [] := by
    rw [h1]
    have := refsOf_nums r.names (r.fittedValues.map fun v => (⟨[], [v]⟩ : NDArray α))
    rwa [List.map_map] at this
  have hseen : seen h r.fitted = seen h c.initial := funext h3
  refine ⟨?_, ?_, hr.distinct, hr.some_change, fun k hkm => ?_, ⟨?_, hr.valid.2⟩, ?_, ?_, ?_⟩
  · show (dkeys r.fitted).Nodup
    rw [hk]
    exact hr.nodup
  · intro n
    show n ∈ dkeys r.fitted ↔ _
    rw [hk]
    exact hr.exact n
  · show k ∈ dkeys r.fitted
    rw [hk]
    exact hr.known k hkm
  · intro q hq
    have hq' : q ∈ refsOf r.fitted := hq
    rw [href] at hq'
    simp at hq'
  · show (refsOf r.fitted).Nodup
    rw [href]
    exact List.nodup_nil
  · intro o ho
    show ∃ a, seen h r.fitted o.name = some a ∧ _
    rw [hseen]
    exact hr.shaped o ho
  · intro p hp
    unfold wantedValue
    show ∃ a, wantedScenario add mul (seen h r.fitted) _ _ _ _ = some a ∧ _
    rw [hseen]
    exact hr.sized p hp

theorem derefDict_eq {h : Heap (NDArray α)} {d : Dict Str (PyVal (NDArray α))} (hn : (dkeys d).Nodup)
    (hv : ∀ n ∈ dkeys d, ∃ a, seen h d n = some a) :
    dkeys (derefDict h d) = dkeys d := by
  have hsub := dkeys_derefDict_sublist h d
  apply hsub.eq_of_length
  apply List.Perm.length_eq
  rw [List.perm_ext_iff_of_nodup (hsub.nodup hn) hn]
  intro n
  refine ⟨fun hm => hsub.subset hm, fun hm => ?_⟩
  obtain ⟨a, ha⟩ := hv n hm
  rw [mem_dkeys_iff]
  exact ⟨a, by rw [dget_derefDict _ _ hn, ha]⟩

/-- What both calls come down to. -/
theorem result_call (env : SamEnv α (List (NDArray α))) (isNan : α → Bool) (fl : SimFlags)
    (add mul : NDArray α → NDArray α → NDArray α) (h : Heap (NDArray α)) (c : SimCall α)
    (r : ResultObj α) (hcomp : env.compiled ≠ []) (hv : env.variables ≠ []) (hp : env.parameters ≠ [])
    (hr : RequestOK env.coords env.variables env.parameters add mul h c)
    (hs : SameNumbers h c.initial r) :
    ∃ x0 theta, simulateFrom env isNan fl add mul h (.dict c.initial) c =
        liftPy (simulateSolveBy (fun n => dgetE x0 n) env isNan fl x0 theta c) ∧
      simulateFrom env isNan fl add mul h (.result r) c =
        liftPy (simulateSolveBy (fun _ => .error .typeError) env isNan fl x0 theta c) := by
  have hr' := hs.request hr
  obtain ⟨-, hk, hseen⟩ := hs.dict hr.nodup
  have hne : env.compiled.isEmpty = false := by
    cases hc : env.compiled with
    | nil => exact absurd hc hcomp
    | cons a l => rfl
  obtain ⟨th1, e1, -, t1⟩ := runs_requested_scenario
    { simEnvOf env isNan fl add mul with
      solve := simulateSolveBy ((InitialState.dict c.initial).item h) env isNan fl } h c
    (by simp [simEnvOf, hne]) hv hp hr.nodup
    (fun n hn => (hr.exact n).2 (by simpa [simEnvOf] using hn))
    (fun n hn => by simpa [simEnvOf] using (hr.exact n).1 hn) hr.distinct hr.some_change hr.known
    hr.valid.1 hr.valid.2.1 hr.valid.2.2.1 hr.valid.2.2.2 hr.unshared
  obtain ⟨th2, e2, -, t2⟩ := runs_requested_scenario
    { simEnvOf env isNan fl add mul with
      solve := simulateSolveBy ((InitialState.result r).item h) env isNan fl } h
    { c with initial := r.fitted }
    (by simp [simEnvOf, hne]) hv hp hr'.nodup
    (fun n hn => (hr'.exact n).2 (by simpa [simEnvOf] using hn))
    (fun n hn => by simpa [simEnvOf] using (hr'.exact n).1 hn) hr'.distinct hr'.some_change hr'.known
    hr'.valid.1 hr'.valid.2.1 hr'.valid.2.2.1 hr'.valid.2.2.2 hr'.unshared
  have hth : th1 = th2 := by
    have : th1.map some = th2.map some := by
      rw [t1, t2]
      rw [show seen h r.fitted = seen h c.initial from funext hseen]
    exact List.map_injective_iff.2 (Option.some_injective _) this
  have hread : ∀ n ∈ dkeys c.initial, ∃ a, seen h c.initial n = some a := by
    intro n hn
    obtain ⟨o, ho, rfl⟩ := List.mem_map.1 ((hr.exact n).1 hn)
    obtain ⟨a, ha, -⟩ := hr.shaped o ho
    exact ⟨a, ha⟩
  have hx : derefDict h r.fitted = derefDict h c.initial := by
    have k1 := derefDict_eq (h := h) (d := c.initial) hr.nodup hread
    have k2 := derefDict_eq (h := h) (d := r.fitted) (by rw [hk, ← hs.names]; exact hr.nodup)
      (by intro n hn; rw [hseen]; exact hread n (by rw [hs.names, ← hk]; exact hn))
    apply dict_eq_of_lookup
    · rw [k2, hk, ← hs.names]; exact hr.nodup
    · rw [k1, k2, hk, hs.names]
    · intro n _
      rw [dget_derefDict _ _ (by rw [hk, ← hs.names]; exact hr.nodup), dget_derefDict _ _ hr.nodup, hseen]
  refine ⟨derefDict h c.initial, th1.flatten, ?_, ?_⟩
  · unfold simulateFrom
    simp only [hne, Bool.false_eq_true, if_false, bind, Except.bind, pure, Except.pure,
      InitialState.values, liftPy]
    exact e1
  · unfold simulateFrom
    simp only [hne, Bool.false_eq_true, if_false, bind, Except.bind, pure, Except.pure,
      InitialState.values, liftPy]
    rw [e2, ← hth]
    show liftPy (simulateSolveBy _ env isNan fl (derefDict h r.fitted) _ _) = _
    rw [hx]
    rfl

/-- **C79 (a `Result`).**  Without the optimizer, `simulate` does with a `Result` exactly what it does with
a dict of the same names and numbers: the same trajectory and state, or the same exception. -/
theorem C79_result_partial (env : SamEnv α (List (NDArray α))) (isNan : α → Bool) (fl : SimFlags)
    (add mul : NDArray α → NDArray α → NDArray α) (h : Heap (NDArray α)) (c : SimCall α)
    (r : ResultObj α) (hcomp : env.compiled ≠ []) (hv : env.variables ≠ []) (hp : env.parameters ≠ [])
    (hr : RequestOK env.coords env.variables env.parameters add mul h c)
    (hs : SameNumbers h c.initial r) (hopt : c.useOptimizer = false) :
    simulateFrom env isNan fl add mul h (.result r) c =
      simulateFrom env isNan fl add mul h (.dict c.initial) c := by
  obtain ⟨x0, theta, h1, h2⟩ := result_call env isNan fl add mul h c r hcomp hv hp hr hs
  rw [h1, h2]
  unfold simulateSolveBy
  rw [hopt]
  rfl

theorem stackPairsBy_error (e : PyErr) (result : Dict Str (NDArray α)) (objs : List ModelObject)
    (hne : objs ≠ []) : stackPairsBy (fun _ => .error e) result objs = .error e := by
  cases objs with
  | nil => exact absurd rfl hne
  | cons o l => rfl

/-- **C79 is false for a `Result` with the optimizer**, which is the default.  Whenever the dict of the same
names and numbers gives a result, the `Result` raises `TypeError`, after the Euler pass and the optimizer
have run: `initial_state[...]` is evaluated for the labelled output. -/
theorem C79_result_optimizer_counterexample (env : SamEnv α (List (NDArray α))) (isNan : α → Bool)
    (fl : SimFlags) (add mul : NDArray α → NDArray α → NDArray α) (h : Heap (NDArray α)) (c : SimCall α)
    (r : ResultObj α) (hcomp : env.compiled ≠ []) (hv : env.variables ≠ []) (hp : env.parameters ≠ [])
    (hr : RequestOK env.coords env.variables env.parameters add mul h c)
    (hs : SameNumbers h c.initial r) (hopt : c.useOptimizer = true) (out : SimOut α)
    (hok : simulateFrom env isNan fl add mul h (.dict c.initial) c = .ok out) :
    simulateFrom env isNan fl add mul h (.result r) c = .error (.py .typeError) := by
  obtain ⟨x0, theta, h1, h2⟩ := result_call env isNan fl add mul h c r hcomp hv hp hr hs
  rw [h1] at hok
  rw [h2]
  unfold simulateSolveBy at hok ⊢
  rw [hopt] at hok ⊢
  simp only [bind, Except.bind, if_true] at hok ⊢
  cases he : eulerPart env isNan x0 theta c with
  | error e => rw [he] at hok; cases hok
  | ok e =>
    rw [he] at hok
    dsimp only at hok ⊢
    cases ho : simOptimize env fl c.optimizerMode ((e.map EulerPass.start).getD x0) theta with
    | error e' => rw [ho] at hok; cases hok
    | ok res =>
      rw [ho] at hok
      dsimp only at hok ⊢
      unfold optimizerResultToIdataBy at hok ⊢
      simp only [bind, Except.bind] at hok ⊢
      cases hf : flatArrayToVariableDict (res.x ++ theta) (env.variables ++ env.parameters)
          (dset env.coords stepName (rangeLabels 2)) with
      | error e' => rw [hf] at hok; cases hok
      | ok result =>
        dsimp only
        rw [stackPairsBy_error _ _ _ hv]
        rfl

/-- With the optimizer a `Result` is never accepted, whatever it contains. -/
theorem C79_result_never (env : SamEnv α (List (NDArray α))) (isNan : α → Bool) (fl : SimFlags)
    (add mul : NDArray α → NDArray α → NDArray α) (h : Heap (NDArray α)) (c : SimCall α)
    (r : ResultObj α) (hv : env.variables ≠ []) (hopt : c.useOptimizer = true) (out : SimOut α) :
    simulateFrom env isNan fl add mul h (.result r) c ≠ .ok out := by
  have key : ∀ x0 theta (c' : SimCall α), c'.useOptimizer = true → ∀ o,
      simulateSolveBy ((InitialState.result r).item h) env isNan fl x0 theta c' ≠ .ok o := by
    intro x0 theta c' hc' o hok
    unfold simulateSolveBy at hok
    rw [hc'] at hok
    simp only [bind, Except.bind, if_true] at hok
    split at hok
    · cases hok
    · split at hok
      · cases hok
      · unfold optimizerResultToIdataBy at hok
        simp only [bind, Except.bind] at hok
        split at hok
        · cases hok
        · next heq =>
          split at heq
          · cases heq
          · rw [show (InitialState.result r).item h = fun _ => .error .typeError from rfl,
              stackPairsBy_error _ _ _ hv] at heq
            cases heq
  intro hok
  unfold simulateFrom at hok
  cases hc : env.compiled.isEmpty with
  | true =>
    simp [hc, bind, Except.bind, throw, throwThe, MonadExceptOf.throw] at hok
  | false =>
    simp only [hc, Bool.false_eq_true, if_false, bind, Except.bind, pure, Except.pure,
      InitialState.values, liftPy] at hok
    unfold simulateCompute at hok
    simp only [simEnvOf, hc, bind, Except.bind, pure, Except.pure] at hok
    split at hok
    · cases hok
    · split at hok
      · cases hok
      · split at hok
        · cases hok
        · split at hok
          · cases hok
          · unfold liftPy at hok
            split at hok
            · next heq => exact key _ _ _ hopt _ heq
            · cases hok

/-! ### The `Result` of `calibrate` -/

theorem product_ne_nil : ∀ ls : List (List Str), (∀ l ∈ ls, l ≠ []) → product ls ≠ []
  | [], _ => by simp [product]
  | l :: ls, h => by
    obtain ⟨a, l', rfl⟩ := List.exists_cons_of_ne_nil (h l (by simp))
    obtain ⟨x, xs, hx⟩ := List.exists_cons_of_ne_nil (product_ne_nil ls fun l hl => h l (by simp [hl]))
    simp [product, hx]

theorem length_joinStr_lt (n a : Str) (l : List Str) :
    n.length < (joinStr "_".toList (n :: a :: l)).length := by
  simp [joinStr]

theorem exists_longest : ∀ l : List ModelObject, l ≠ [] →
    ∃ o ∈ l, ∀ q ∈ l, q.name.length ≤ o.name.length
  | [], h => absurd rfl h
  | [a], _ => ⟨a, by simp, by simp⟩
  | a :: b :: l, _ => by
    obtain ⟨o, ho, hmax⟩ := exists_longest (b :: l) (by simp)
    rcases Nat.le_total a.name.length o.name.length with h | h
    · refine ⟨o, List.mem_cons_of_mem _ ho, fun q hq => ?_⟩
      rcases List.mem_cons.1 hq with rfl | hq
      · exact h
      · exact hmax q hq
    · refine ⟨a, by simp, fun q hq => ?_⟩
      rcases List.mem_cons.1 hq with rfl | hq
      · exact Nat.le_refl _
      · exact (hmax q hq).trans h

/-- The scalar names of a model without clashes are its names only if nothing has dims. -/
theorem scalarNames_eq_names (hm : ScalarModel coords vars params)
    (hne : ∀ o ∈ vars ++ params, ∀ d ∈ o.dims, labelsOf coords d ≠ []) (N : List Str)
    (hN : ∀ n ∈ N, n ∈ (vars ++ params).map ModelObject.name)
    (hsub : ∀ n ∈ scalarNames coords (vars ++ params), n ∈ N) : ∀ o ∈ vars ++ params, o.dims = [] := by
  by_contra hcon
  push Not at hcon
  -- the object with dims whose name is longest
  obtain ⟨o, ho, hmax⟩ := exists_longest ((vars ++ params).filter fun o => decide (o.dims ≠ [])) (by
    obtain ⟨o, ho, hd⟩ := hcon
    exact List.ne_nil_of_mem (List.mem_filter.2 ⟨ho, by simpa using hd⟩))
  obtain ⟨ho, hd⟩ := List.mem_filter.1 ho
  have hd : o.dims ≠ [] := by simpa using hd
  obtain ⟨ls, hls⟩ := List.exists_mem_of_ne_nil _ (product_ne_nil (o.dims.map (labelsOf coords)) (by
    intro l hl
    obtain ⟨d, hd, rfl⟩ := List.mem_map.1 hl
    exact hne o ho d hd))
  have hlen : ls.length = o.dims.length := by simpa using length_of_mem_product hls
  have hin : joinStr "_".toList (o.name :: ls) ∈ scalarNames coords (vars ++ params) :=
    List.mem_flatMap.2 ⟨o, ho, List.mem_map.2 ⟨ls, hls, rfl⟩⟩
  obtain ⟨q, hq, hqn⟩ := List.mem_map.1 (hN _ (hsub _ hin))
  have hlong : o.name.length < q.name.length := by
    rw [hqn]
    cases ls with
    | nil => exact absurd (List.length_eq_zero_iff.1 hlen.symm) hd
    | cons a l => exact length_joinStr_lt _ _ _
  have hqd : q.dims = [] := by
    by_contra hqd
    have := hmax q (List.mem_filter.2 ⟨hq, by simpa using hqd⟩)
    omega
  have hpw := (List.nodup_flatMap.1 hm.scalars).2
  haveI : Std.Symm (Function.onFun List.Disjoint fun o : ModelObject =>
      (product (o.dims.map (labelsOf coords))).map fun ls => joinStr "_".toList (o.name :: ls)) :=
    ⟨fun _ _ h => List.Disjoint.symm h⟩
  have hdis := hpw.forall ho hq (by rintro rfl; exact hd hqd)
  refine hdis (List.mem_map.2 ⟨ls, hls, rfl⟩) (List.mem_map.2 ⟨[], ?_, ?_⟩)
  · simp [hqd, product]
  · simpa [joinStr] using hqn

theorem scalarNames_scalars (objs : List ModelObject) (h : ∀ o ∈ objs, o.dims = []) :
    scalarNames coords objs = objs.map ModelObject.name := by
  unfold scalarNames
  rw [List.map_eq_flatMap]
  apply List.flatMap_congr
  intro o ho
  simp [h o ho, product, joinStr]

/-- How `simulate` refuses an initial state with the wrong names. -/
theorem simulateFrom_validated (env : SamEnv α (List (NDArray α))) (isNan : α → Bool) (fl : SimFlags)
    (add mul : NDArray α → NDArray α → NDArray α) (h : Heap (NDArray α)) (c : SimCall α)
    (s : InitialState α) (d : Dict Str (PyVal (NDArray α))) (hcomp : env.compiled ≠ [])
    (hd : s.values env.variables env.parameters = .ok d) :
    (∀ e, validateInitial ((env.variables ++ env.parameters).map ModelObject.name) (dkeys d) = .error e →
      simulateFrom env isNan fl add mul h s c = .error e) ∧
    (validateInitial ((env.variables ++ env.parameters).map ModelObject.name) (dkeys d) = .ok () →
      ∀ l, simulateFrom env isNan fl add mul h s c ≠ .error (.missing l) ∧
        simulateFrom env isNan fl add mul h s c ≠ .error (.unknown l)) := by
  have hne : env.compiled.isEmpty = false := by
    cases hc : env.compiled with
    | nil => exact absurd hc hcomp
    | cons a l => rfl
  have e1 : simulateFrom env isNan fl add mul h s c =
      simulateCompute { simEnvOf env isNan fl add mul with
        solve := simulateSolveBy (s.item h) env isNan fl } h { c with initial := d } := by
    unfold simulateFrom
    simp only [hne, Bool.false_eq_true, if_false, bind, Except.bind, pure, Except.pure, hd, liftPy]
  rw [e1]
  constructor
  · intro e he
    unfold simulateCompute
    rw [List.map_append] at he
    simp only [simEnvOf, hne, he, bind, Except.bind, pure, Except.pure]
    rfl
  · intro hok l
    rw [(C13_validation_exact _ _).1] at hok
    rw [List.map_append] at hok
    have := C13_simulate_accepts { simEnvOf env isNan fl add mul with
        solve := simulateSolveBy (s.item h) env isNan fl } h { c with initial := d }
      (by simp [simEnvOf, hne]) hok.1 hok.2
    exact ⟨this.1 l, this.2 l⟩

/-- **C79 (the `Result` of `calibrate`).**  Let no two scalars of the model share a name and no dim be
empty.  The `Result` that `calibrate` returns has the names of the scalars (`unpacked_variable_names` and
`unpacked_parameter_names`).  `simulate` of a compiled model accepts these names if and only if no variable
or parameter has dims and there is no numeraire; otherwise it raises the `ValueError` about missing or
unknown names. -/
theorem C79_calibrated_iff (env : SamEnv α (List (NDArray α))) (isNan : α → Bool) (fl : SimFlags)
    (add mul : NDArray α → NDArray α → NDArray α) (h : Heap (NDArray α)) (c : SimCall α)
    (numeraire : Option ModelObject) (hm : ScalarModel coords vars params)
    (hne : ∀ o ∈ vars ++ params, ∀ d ∈ o.dims, labelsOf coords d ≠ [])
    (hnum : ∀ o, numeraire = some o → o ∈ vars)
    (hve : env.variables = solvedVars numeraire vars) (hpe : env.parameters = params)
    (hcomp : env.compiled ≠ []) (setList : List Str → List Str) (uv up : Dict Str ModelObject)
    (huv : unpackGroup setList coords vars = .ok uv) (hup : unpackGroup setList coords params = .ok up)
    (S : SymSolver Str) (m : CalibModel) (hmv : m.varNames = dkeys uv) (hmp : m.parNames = dkeys up)
    (data : Dict Str ℚ) (maxIter : Nat) (r : CalibResult)
    (hr : calibrate S m (some data) maxIter = .ok r) (cast : Option ℚ → α) :
    (∃ l, simulateFrom env isNan fl add mul h (.result (r.toObj cast)) c = .error (.missing l) ∨
        simulateFrom env isNan fl add mul h (.result (r.toObj cast)) c = .error (.unknown l)) ↔
      (∃ o ∈ vars ++ params, o.dims ≠ []) ∨ numeraire ≠ none := by
  obtain ⟨solved, -, rfl⟩ := calibrate_inv S m data maxIter r hr
  have hsc := hm.scalars
  rw [scalarNames_append] at hsc
  obtain ⟨-, -, -, ku, -⟩ := unpackGroup_scalars setList coords vars
    (fun o ho => hm.known o (by simp [ho])) (fun o ho => hm.dims o (by simp [ho]))
    (fun o ho => hm.fresh o (by simp [ho])) (List.nodup_append.1 hsc).1 uv huv
  obtain ⟨-, -, -, kp, -⟩ := unpackGroup_scalars setList coords params
    (fun o ho => hm.known o (by simp [ho])) (fun o ho => hm.dims o (by simp [ho]))
    (fun o ho => hm.fresh o (by simp [ho])) (List.nodup_append.1 hsc).2.1 up hup
  have hnames : m.varNames ++ m.parNames = scalarNames coords (vars ++ params) := by
    rw [hmv, hmp, ku, kp, scalarNames_append]
  generalize hro : CalibResult.toObj cast _ = ro
  have hkeys : dkeys ro.fitted = scalarNames coords (vars ++ params) := by
    rw [← hro]
    unfold ResultObj.fitted CalibResult.toObj
    dsimp only
    rw [dofPairs_of_nodup]
    · unfold dkeys
      rw [List.map_fst_zip (by simp), hnames]
    · rw [List.map_fst_zip (by simp), hnames]
      exact hm.scalars
  obtain ⟨v1, v2⟩ := simulateFrom_validated env isNan fl add mul h c (.result ro) ro.fitted hcomp rfl
  rw [hkeys, hve, hpe] at v1 v2
  have hN : ∀ n ∈ (solvedVars numeraire vars ++ params).map ModelObject.name,
      n ∈ (vars ++ params).map ModelObject.name := by
    intro n hn
    obtain ⟨o, ho, rfl⟩ := List.mem_map.1 hn
    refine List.mem_map_of_mem ?_
    rcases List.mem_append.1 ho with h | h
    · exact List.mem_append_left _ (List.mem_filter.1 h).1
    · exact List.mem_append_right _ h
  constructor
  · rintro ⟨l, hl⟩
    by_contra hcon
    push Not at hcon
    obtain ⟨hd, rfl⟩ := hcon
    have hsv : solvedVars none vars = vars := by simp [solvedVars]
    have hval := (C13_validation_exact ((solvedVars none vars ++ params).map ModelObject.name)
      (scalarNames coords (vars ++ params))).1.2 (by
        rw [hsv, scalarNames_scalars _ hd]
        exact ⟨fun _ h => h, fun _ h => h⟩)
    obtain ⟨w1, w2⟩ := v2 hval l
    rcases hl with hl | hl
    · exact w1 hl
    · exact w2 hl
  · intro hbad
    have hnot : ¬ ((∀ x ∈ (solvedVars numeraire vars ++ params).map ModelObject.name,
          x ∈ scalarNames coords (vars ++ params)) ∧
        (∀ x ∈ scalarNames coords (vars ++ params),
          x ∈ (solvedVars numeraire vars ++ params).map ModelObject.name)) := by
      rintro ⟨-, g2⟩
      have hd := scalarNames_eq_names hm hne _ hN g2
      rcases hbad with ⟨o, ho, hod⟩ | hnn
      · exact hod (hd o ho)
      · obtain ⟨q, rfl⟩ := Option.ne_none_iff_exists'.1 hnn
        rw [scalarNames_scalars _ hd] at g2
        have hq := hnum q rfl
        obtain ⟨q', hq', hqn⟩ := List.mem_map.1
          (g2 q.name (List.mem_map_of_mem (List.mem_append_left _ hq)))
        rcases List.mem_append.1 hq' with h | h
        · have := (List.mem_filter.1 h).2
          simp [hqn] at this
        · have hnn := hm.names
          rw [List.map_append] at hnn
          exact (List.nodup_append.1 hnn).2.2 _ (List.mem_map_of_mem hq) _ (List.mem_map_of_mem h)
            hqn.symm
    by_cases hmis : ∃ x ∈ (solvedVars numeraire vars ++ params).map ModelObject.name,
        x ∉ scalarNames coords (vars ++ params)
    · obtain ⟨l, hl, -⟩ := (C13_validation_exact _ (scalarNames coords (vars ++ params))).2.1 hmis
      exact ⟨l, Or.inl (v1 _ hl)⟩
    · push Not at hmis
      have hunk : ∃ x ∈ scalarNames coords (vars ++ params),
          x ∉ (solvedVars numeraire vars ++ params).map ModelObject.name := by
        by_contra hc
        push Not at hc
        exact hnot ⟨hmis, hc⟩
      obtain ⟨l, hl, -⟩ := (C13_validation_exact _ _).2.2 hmis hunk
      exact ⟨l, Or.inr (v1 _ hl)⟩

/-! ### Datasets and other objects -/

/-- **C79 is false for an `xr.Dataset`.**  A dataset in which nothing is called `parameters` is refused by
every compiled model with a parameter: with `KeyError` if a variable is missing, else with
`AttributeError`.  Any other object, like the `InferenceData` that `simulate` itself returns, is refused with
`ValueError`. -/
theorem C79_dataset_counterexample (env : SamEnv α (List (NDArray α))) (isNan : α → Bool) (fl : SimFlags)
    (add mul : NDArray α → NDArray α → NDArray α) (h : Heap (NDArray α)) (c : SimCall α)
    (ds : DatasetObj α) (hcomp : env.compiled ≠ []) (hp : env.parameters ≠ [])
    (hds : ds.parametersAttr = none) :
    simulateFrom env isNan fl add mul h (.dataset ds) c =
        (if ∀ o ∈ env.variables, o.name ∈ dkeys ds.arrays then .error (.py .attributeError)
          else .error (.py .keyError)) ∧
      simulateFrom env isNan fl add mul h .other c = .error (.py .valueError) := by
  have hne : env.compiled.isEmpty = false := by
    cases hc : env.compiled with
    | nil => exact absurd hc hcomp
    | cons a l => rfl
  constructor
  · have hval : ds.values env.variables env.parameters =
        if ∀ o ∈ env.variables, o.name ∈ dkeys ds.arrays then .error .attributeError
          else .error .keyError := by
      have hv : ∀ l : List ModelObject,
          (l.mapM fun o => (dgetE ds.arrays o.name).map fun a => (o.name, PyVal.num a)) =
            .error .keyError ∧ (∃ o ∈ l, o.name ∉ dkeys ds.arrays) ∨
          (∃ v, (l.mapM fun o => (dgetE ds.arrays o.name).map fun a => (o.name, PyVal.num a)) = .ok v) ∧
            ∀ o ∈ l, o.name ∈ dkeys ds.arrays := by
        intro l
        induction l with
        | nil => exact Or.inr ⟨⟨[], rfl⟩, by simp⟩
        | cons o l ih =>
          rw [List.mapM_cons]
          unfold dgetE at ih ⊢
          cases ho : dget ds.arrays o.name with
          | none =>
            left
            exact ⟨rfl, o, by simp, (dget_eq_none_iff _ _).1 ho⟩
          | some a =>
            have hok : o.name ∈ dkeys ds.arrays := (mem_dkeys_iff _ _).2 ⟨a, ho⟩
            rcases ih with ⟨h1, q, hq, hqn⟩ | ⟨⟨v, h1⟩, h2⟩
            · left
              refine ⟨?_, q, by simp [hq], hqn⟩
              rw [h1]
              rfl
            · right
              refine ⟨⟨(o.name, PyVal.num a) :: v, ?_⟩, ?_⟩
              · rw [h1]
                rfl
              · intro q hq
                rcases List.mem_cons.1 hq with rfl | hq
                · exact hok
                · exact h2 q hq
      unfold DatasetObj.values
      rcases hv env.variables with ⟨h1, o, ho, hon⟩ | ⟨⟨v, h1⟩, h2⟩
      · rw [h1, if_neg (fun hall => hon (hall o ho))]
        rfl
      · rw [h1, if_pos h2]
        obtain ⟨p, l, hpl⟩ := List.exists_cons_of_ne_nil hp
        rw [hpl, List.mapM_cons]
        unfold DatasetObj.parameters
        rw [hds]
        rfl
    unfold simulateFrom
    simp only [hne, Bool.false_eq_true, if_false, bind, Except.bind, pure, Except.pure,
      InitialState.values, hval]
    by_cases hall : ∀ o ∈ env.variables, o.name ∈ dkeys ds.arrays
    · rw [if_pos hall, if_pos hall]
      rfl
    · rw [if_neg hall, if_neg hall]
      rfl
  · unfold simulateFrom
    simp only [hne, Bool.false_eq_true, if_false, bind, Except.bind, pure, Except.pure,
      InitialState.values, liftPy]

/-! ### The model `x = p` -/

/-- The optimizer returns its start. -/
def formsEnv : SamEnv ℚ (List (NDArray ℚ)) :=
  ⟨gapVars, gapParams, [], ["root".toList, "euler".toList],
    .flat fun x t => .ok (List.zipWith (· - ·) x t), .flat fun _ _ => .error .attributeError, [],
    fun _ x _ _ => .ok ⟨x, true⟩, fun _ _ _ _ => .error .attributeError,
    fun x0 theta _ => .ok [⟨[2], flatOf x0 gapVars ++ flatOf x0 gapVars⟩,
      ⟨[2], flatOf x0 gapParams ++ theta⟩]⟩

def formsResult : ResultObj ℚ := ⟨["x".toList, "p".toList], [1, 1], [2, 1]⟩

theorem formsSame : SameNumbers [] (gapCall 2).initial formsResult where
  names := rfl
  length := rfl
  numbers := by
    intro i n v hn hv
    match i with
    | 0 => cases hn; cases hv; rfl
    | 1 => cases hn; cases hv; rfl
    | i + 2 => cases hn

/-- With the optimizer: the dict gives a result, the `Result` of the same numbers raises. -/
example (fl : SimFlags) (add mul : NDArray ℚ → NDArray ℚ → NDArray ℚ) :
    (∃ out, simulateFrom formsEnv (fun _ => false) fl add mul [] (.dict (gapCall 2).initial)
      { gapCall 2 with useOptimizer := true, useEuler := false } = .ok out) ∧
    simulateFrom formsEnv (fun _ => false) fl add mul [] (.result formsResult)
      { gapCall 2 with useOptimizer := true, useEuler := false } = .error (.py .typeError) := by
  have hr := gapRequest 2 add mul
  have hok : ∃ out, simulateFrom formsEnv (fun _ => false) fl add mul [] (.dict (gapCall 2).initial)
      { gapCall 2 with useOptimizer := true, useEuler := false } = .ok out := by
    cases fl with
    | mk j _ _ _ => cases j <;> exact ⟨_, rfl⟩
  refine ⟨hok, ?_⟩
  obtain ⟨out, hout⟩ := hok
  exact C79_result_optimizer_counterexample formsEnv (fun _ => false) fl add mul []
    { gapCall 2 with useOptimizer := true, useEuler := false } formsResult (by simp [formsEnv])
    (by simp [formsEnv, gapVars]) (by simp [formsEnv, gapParams])
    ⟨hr.nodup, hr.exact, hr.distinct, hr.some_change, hr.known, hr.valid, hr.unshared, hr.shaped, hr.sized⟩
    formsSame rfl out hout

/-- Without it: the same result. -/
example (fl : SimFlags) (add mul : NDArray ℚ → NDArray ℚ → NDArray ℚ) :
    simulateFrom formsEnv (fun _ => false) fl add mul [] (.result formsResult) (gapCall 2) =
        simulateFrom formsEnv (fun _ => false) fl add mul [] (.dict (gapCall 2).initial) (gapCall 2) ∧
      ∃ out, simulateFrom formsEnv (fun _ => false) fl add mul [] (.result formsResult) (gapCall 2) =
        .ok out :=
  ⟨C79_result_partial formsEnv (fun _ => false) fl add mul [] (gapCall 2) formsResult (by simp [formsEnv])
    (by simp [formsEnv, gapVars]) (by simp [formsEnv, gapParams]) (gapRequest 2 add mul) formsSame rfl,
    ⟨_, rfl⟩⟩

/-- The model `x[i] = p[i]` with one label: `calibrate` finds `x_a = 2`, and `simulate` refuses its
`Result`, which has the names `x_a` and `p_a` instead of `x` and `p`. -/
example (fl : SimFlags) (add mul : NDArray ℚ → NDArray ℚ → NDArray ℚ) (c : SimCall ℚ)
    (env : SamEnv ℚ (List (NDArray ℚ)))
    (hve : env.variables = solvedVars none [{ name := "x", dims := ["i"] }])
    (hpe : env.parameters = [{ name := "p", dims := ["i"] }]) (hcomp : env.compiled ≠ []) :
    ∃ r, calibrate exTwo ⟨true, true, ["x_a".toList], ["p_a".toList],
        [.add (.sym "x_a".toList) (.mul (.num (-1)) (.sym "p_a".toList))], true⟩
        (some [("p_a".toList, 2)]) 100 = .ok r ∧
      ∃ l, simulateFrom env (fun _ => false) fl add mul [] (.result (r.toObj fun v => v.getD 0)) c =
          .error (.missing l) ∨
        simulateFrom env (fun _ => false) fl add mul [] (.result (r.toObj fun v => v.getD 0)) c =
          .error (.unknown l) := by
  have hrs : recursiveSolve exTwo
      [.add (.sym "x_a".toList) (.mul (.num (-1)) (.sym "p_a".toList))]
      (some [("p_a".toList, 2)]) 100 = .ok [("p_a".toList, 2), ("x_a".toList, 2)] := by decide +kernel
  have hc : ∃ r, calibrate exTwo ⟨true, true, ["x_a".toList], ["p_a".toList],
      [.add (.sym "x_a".toList) (.mul (.num (-1)) (.sym "p_a".toList))], true⟩
      (some [("p_a".toList, 2)]) 100 = .ok r := by
    unfold calibrate
    rw [if_neg (by simp), if_neg (by simp)]
    dsimp only
    rw [if_neg (by simp [dkeys]), hrs]
    dsimp only
    rw [if_neg (by simp)]
    exact ⟨_, rfl⟩
  obtain ⟨r, hr⟩ := hc
  refine ⟨r, hr, ?_⟩
  refine (C79_calibrated_iff (coords := [("i".toList, ["a".toList])])
    (vars := [{ name := "x", dims := ["i"] }]) (params := [{ name := "p", dims := ["i"] }])
    env (fun _ => false) fl add mul [] c none ?_ (by decide +kernel) (by simp) hve hpe hcomp id
    [("x_a".toList, { name := "x", dims := ["i"], dimVals := [("i".toList, "a".toList)] })]
    [("p_a".toList, { name := "p", dims := ["i"], dimVals := [("i".toList, "a".toList)] })]
    (by decide +kernel) (by decide +kernel) exTwo _ rfl rfl _ 100 r hr _).2
    (Or.inl ⟨{ name := "x", dims := ["i"] }, by simp, by simp⟩)
  exact ⟨by decide +kernel, by decide +kernel, by decide +kernel, by decide +kernel, by decide +kernel,
    by decide +kernel⟩

end Verif
