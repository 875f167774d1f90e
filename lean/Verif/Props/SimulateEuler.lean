import Verif.Lemmas.SimulateSolve
import Verif.Props.Euler

/-!
# C73: what `simulate` does when the initial state is not an equilibrium
-/

namespace Verif

variable {K : Type _} [Field K]

/-- What the caller of `simulate` gave for some objects, flat. -/
def initialFlat (h : Heap (NDArray K)) (c : SimCall K) (objs : List ModelObject) : List K :=
  objs.flatMap fun o => ((seen h c.initial o.name).map NDArray.data).getD []

/-- What the caller wants for some objects, flat. -/
def wantedFlat (add mul : NDArray K → NDArray K → NDArray K) (h : Heap (NDArray K)) (c : SimCall K)
    (objs : List ModelObject) : List K :=
  objs.flatMap fun o => ((wantedValue add mul h c o.name).map NDArray.data).getD []

/-- **There is no check.**  Without the optimizer, the functions that compute the model's equations can be
replaced by any others: `simulate` returns the same result or raises the same exception.  So nothing it
does depends on whether the initial state satisfies the equations. -/
theorem C73_not_checked (env : SamEnv K (List (NDArray K))) (f : CompiledFn K (List K))
    (g : CompiledFn K K) (isNan : K → Bool) (fl : SimFlags)
    (add mul : NDArray K → NDArray K → NDArray K) (h : Heap (NDArray K)) (c : SimCall K)
    (hopt : c.useOptimizer = false) :
    simulateCompute (simEnvOf { env with fSystem := f, fResid := g } isNan fl add mul) h c =
      simulateCompute (simEnvOf env isNan fl add mul) h c := by
  have e : ∀ x0 theta, simulateSolve { env with fSystem := f, fResid := g } isNan fl x0 theta c =
      simulateSolve env isNan fl x0 theta c := by
    intro x0 theta
    unfold simulateSolve
    rw [hopt]
    rfl
  unfold simulateCompute simEnvOf
  simp only [e]

theorem trajArrays_wf (coords : Coords) (objs : List ModelObject) (rows : List (List K))
    (hrow : ∀ r ∈ rows, r.length = totalSize coords objs) (k : Nat) (o : ModelObject) (a : NDArray K)
    (ho : objs[k]? = some o) (ha : (trajArrays coords objs rows)[k]? = some a) :
    a.shape = rows.length :: specShape coords o ∧ a.WF := by
  unfold trajArrays at ha
  rw [List.getElem?_mapIdx, ho] at ha
  simp only [Option.map_some, Option.some.injEq] at ha
  subst ha
  refine ⟨rfl, ?_⟩
  unfold NDArray.WF
  simp only [List.length_flatten, List.map_map, List.prod_cons]
  have : ∀ r ∈ rows, (List.length ∘ fun row : List K =>
      (row.drop (offsetOf coords objs k)).take (specSize coords o)) r = specSize coords o := by
    intro r hr
    have := offset_add_size_le coords objs k o ho
    simp only [Function.comp, List.length_take, List.length_drop, hrow r hr]
    omega
  rw [List.map_congr_left this, List.map_const', List.sum_replicate]
  rfl

/-- The arrays a successful run returns. -/
theorem runEuler_arrays (b : EulerBackend) (dx : StepSolve K) (coords : Coords)
    (vars params : List ModelObject) (data : Dict Str (NDArray K)) (tf : List K) (n : Nat)
    (hc : EulerCall coords vars params data tf)
    (hdx : LenOK dx (totalSize coords vars) (totalSize coords params)) (outs : List (NDArray K))
    (h : runEuler b dx vars params coords tf n data = .ok outs) :
    outs.length = vars.length + params.length ∧
    ∀ (k : Nat) o a, (vars ++ params)[k]? = some o → outs[k]? = some a →
      a.shape = (if b.keepsStart then n + 1 else n) :: specShape coords o ∧ a.WF := by
  have hsh := runEuler_shapes b dx coords vars params data tf n hc hdx outs h
  refine ⟨by simpa using congrArg List.length hsh, ?_⟩
  intro k o a ho ha
  have hsa : a.shape = (if b.keepsStart then n + 1 else n) :: specShape coords o := by
    have := congrArg (fun l => l[k]?) hsh
    simp only [List.getElem?_map, ho, ha, Option.map_some, Option.some.injEq] at this
    exact this
  refine ⟨hsa, ?_⟩
  have lx := (flatOf_spec coords data vars (fun o h => hc.shaped o (by simp [h]))).1
  have lt := (flatOf_spec coords data params (fun o h => hc.shaped o (by simp [h]))).1
  have hs : (stepVec n tf (flatOf data params)).length = totalSize coords params := by
    simp [stepVec, lt, hc.final]
  rw [runEuler_eq b dx coords vars params data tf n hc hdx] at h
  cases hR : eulerRows (jaxIncrement dx b.rk4) (stepVec n tf (flatOf data params)) n (flatOf data vars)
      (flatOf data params) with
  | error e => rw [hR] at h; cases h
  | ok R =>
    rw [hR] at h
    injection h with h
    obtain ⟨-, hrl⟩ := eulerRows_lengths (jaxIncrement dx b.rk4) _ _
      (jaxIncrement_len dx _ _ hdx b.rk4) _ hs n _ _ lx lt R hR
    subst h
    refine (trajArrays_wf coords (vars ++ params) _ ?_ k o a ho ha).2
    intro r hr
    rw [totalSize_append]
    rcases List.mem_append.1 hr with h | h
    · cases hb : b.keepsStart with
      | false => rw [hb] at h; simp at h
      | true =>
        rw [hb] at h
        simp only [if_true, List.mem_singleton] at h
        rw [h, List.length_append, lx, lt]
    · obtain ⟨q, hq, rfl⟩ := List.mem_map.1 h
      rw [List.length_append, (hrl q hq).1, (hrl q hq).2]

/-- The part of `EulerCall` that does not depend on the data. -/
structure EulerModel (coords : Coords) (vars params : List ModelObject) : Prop where
  labelled : Labelled coords vars params
  nonempty : ∀ o ∈ vars ++ params, specSize coords o ≠ 0
  someVar : vars ≠ []
  someParam : params ≠ []
  keywords : KeywordsOK vars params

theorem EulerModel.call {coords : Coords} {vars params : List ModelObject}
    (h : EulerModel coords vars params) {data : Dict Str (NDArray K)} {tf : List K}
    (hk : (dkeys data).Perm ((vars ++ params).map ModelObject.name))
    (hd : ∀ o ∈ vars ++ params, DataFor coords data o) (ht : tf.length = totalSize coords params) :
    EulerCall coords vars params data tf :=
  ⟨h.labelled.known, h.nonempty, h.someVar, h.someParam, h.keywords, hk, hd, ht⟩

/-- The environment's `f_euler` is that of back-end `b`. -/
def EulerIs (env : SamEnv K (List (NDArray K))) (b : EulerBackend) (dx : StepSolve K) : Prop :=
  env.euler = fun x0 theta n => runEuler b dx env.variables env.parameters env.coords theta n x0

/-- The back-ends' Euler functions meet the assumption of C72. -/
theorem C72_euler_arrays (env : SamEnv K (List (NDArray K))) (b : EulerBackend) (dx : StepSolve K)
    (he : EulerIs env b dx) (hm : EulerModel env.coords env.variables env.parameters)
    (hdx : LenOK dx (totalSize env.coords env.variables) (totalSize env.coords env.parameters)) :
    EulerArrays env := by
  intro x0 theta n arrays hk hd ht ha
  rw [he] at ha
  exact ⟨_, runEuler_arrays b dx _ _ _ _ _ n (hm.call hk hd ht) hdx arrays ha⟩

/-- The Euler pass of `simulate` when no number is NaN: every row is kept, the state handed over is the
state after all steps, and there is a warning exactly if the back-end's trajectory includes the start. -/
theorem eulerPass_finite (env : SamEnv K (List (NDArray K))) (b : EulerBackend) (dx : StepSolve K)
    (he : EulerIs env b dx) (hm : EulerModel env.coords env.variables env.parameters)
    (hdx : LenOK dx (totalSize env.coords env.variables) (totalSize env.coords env.parameters))
    (x0 : Dict Str (NDArray K)) (theta : List K) (n : Nat) (hn : 1 ≤ n)
    (hc : EulerCall env.coords env.variables env.parameters x0 theta) (outs : List (NDArray K))
    (h : runEuler b dx env.variables env.parameters env.coords theta n x0 = .ok outs) :
    ∃ e, eulerPass env (fun _ => false) x0 theta n = .ok e ∧ e.warned = b.keepsStart ∧
      (∀ o ∈ env.variables ++ env.parameters, DataFor env.coords e.start o) ∧
      flatOf e.start (env.variables ++ env.parameters) =
        b.stateAfter env.variables env.parameters x0 outs n := by
  obtain ⟨hlen, hshape⟩ := runEuler_arrays b dx _ _ _ _ _ n hc hdx outs h
  generalize hmdef : (if b.keepsStart then n + 1 else n) = m at hshape
  have hm1 : 1 ≤ m := by rw [← hmdef]; split <;> omega
  have hv := hm.someVar
  obtain ⟨V, P, hid, hVk, hPk, hV, hP⟩ := C51_euler_partial env.coords env.variables env.parameters
    outs m hm.labelled hv hlen (fun k o a h1 h2 => (hshape k o a h1 h2).1)
  have hv0 : 0 < env.variables.length := List.length_pos_iff.2 hv
  have ha0 : 0 < outs.length := by omega
  have hfirst : listGetE outs 0 = .ok outs[0] := by
    unfold listGetE; rw [List.getElem?_eq_getElem ha0]
  have hnd : ndLen outs[0] = .ok m := by
    obtain ⟨o, ho⟩ : ∃ o, (env.variables ++ env.parameters)[0]? = some o :=
      ⟨env.variables[0], by rw [List.getElem?_append_left hv0, List.getElem?_eq_getElem hv0]⟩
    have := (hshape 0 o outs[0] ho (List.getElem?_eq_getElem ha0)).1
    simp [ndLen, this]
  have hrow : ∀ (ds : XDataset K) k, stepRow (fun _ => false) ds k =
      some (ds.map fun p => (p.1, stepSlice k p.2.2)) := by
    intro ds k
    unfold stepRow
    rw [if_neg]
    simp
  have e1 : ((trajectoryRows (fun _ => false) (V, P) m).map EulerRow.vars) =
      ((List.range m).map fun k => V.map fun p => (p.1, stepSlice k p.2.2)).map some ++
        List.replicate 0 none := by
    simp [trajectoryRows, List.map_map, Function.comp_def, hrow]
  have e2 : ((trajectoryRows (fun _ => false) (V, P) m).map EulerRow.params) =
      ((List.range m).map fun k => P.map fun p => (p.1, stepSlice k p.2.2)).map some ++
        List.replicate 0 none := by
    simp [trajectoryRows, List.map_map, Function.comp_def, hrow]
  have hne : ∀ (ds : XDataset K), ((List.range m).map fun k => ds.map fun p => (p.1, stepSlice k p.2.2)) ≠
      [] := by
    intro ds hh
    have := congrArg List.length hh
    simp at this
    omega
  obtain ⟨rv, rp, h1, h2, h3⟩ := eulerHandoff_prefix _ _ _ 0 0 e1 e2 (hne V) (hne P) n
  simp only [List.length_map, List.length_range, Nat.min_self, List.getElem?_map,
    List.getElem?_range (show m - 1 < m by omega), Option.map_some, Option.some.injEq] at h1 h2 h3
  have hpass : ∃ v p, eulerPass env (fun _ => false) x0 theta n =
      .ok ⟨v, p, dupdate rv rp, decide (m ≠ n)⟩ := by
    refine ⟨survivors ((trajectoryRows (fun _ => false) (V, P) m).map EulerRow.vars),
      survivors ((trajectoryRows (fun _ => false) (V, P) m).map EulerRow.params), ?_⟩
    unfold eulerPass
    rw [he]
    simp only [h, bind, Except.bind, hid, hfirst, hnd, h3, pure, Except.pure]
  obtain ⟨kv, kp, hpass⟩ := hpass
  refine ⟨_, hpass, ?_, ?_, ?_⟩
  · show decide (m ≠ n) = b.keepsStart
    rw [← hmdef]
    cases b.keepsStart <;> simp
  · exact eulerPass_start hm.labelled hv (C72_euler_arrays env b dx he hm hdx) hc.keys
      hc.shaped hc.final hpass
  · have hnn := hm.labelled.names
    rw [List.map_append] at hnn
    obtain ⟨hn1, hn2, hn3⟩ := List.nodup_append.1 hnn
    have hrpk : dkeys rp = env.parameters.map ModelObject.name := by
      rw [← h2, ← hPk]; simp [dkeys, List.map_map, Function.comp_def]
    have hget : ∀ (k : Nat) o a, (env.variables ++ env.parameters)[k]? = some o → outs[k]? = some a →
        dget (dupdate rv rp) o.name = some (stepSlice (m - 1) a) := by
      intro k o a ho ha
      rw [dget_dupdate _ _ (by rw [hrpk]; exact hn2)]
      by_cases hk : k < env.variables.length
      · rw [List.getElem?_append_left hk] at ho
        have hno : dget rp o.name = none := by
          rw [dget_eq_none_iff, hrpk]
          intro hmem
          exact hn3 _ (List.mem_map_of_mem (List.mem_of_getElem? ho)) _ hmem rfl
        rw [hno, Option.none_or, ← h1]
        exact (stepRow_some (hrow V (m - 1))).2 _ _ (hV k o a ho ha) (hVk ▸ hn1)
      · rw [List.getElem?_append_right (by omega)] at ho
        have := (stepRow_some (hrow P (m - 1))).2 _ _ (hP (k - env.variables.length) o a ho
          (by rw [show env.variables.length + (k - env.variables.length) = k by omega]; exact ha))
          (hPk ▸ hn2)
        rw [h2] at this
        rw [this]
        rfl
    have hflat : flatOf (dupdate rv rp) (env.variables ++ env.parameters) = stateRow outs (m - 1) := by
      unfold flatOf stateRow
      congr 1
      apply List.ext_getElem?
      intro k
      rw [List.getElem?_map, List.getElem?_map]
      cases ho : (env.variables ++ env.parameters)[k]? with
      | none =>
        rw [List.getElem?_eq_none (by rw [hlen]; simpa using ho)]
        rfl
      | some o =>
        have hk : k < outs.length := by
          rw [hlen]
          have := (List.getElem?_eq_some_iff.1 ho).1
          simpa using this
        rw [List.getElem?_eq_getElem hk, Option.map_some, Option.map_some,
          hget k o _ ho (List.getElem?_eq_getElem hk)]
        simp [stepSlice, rowOf, slice_eq]
    show flatOf (dupdate rv rp) _ = _
    rw [hflat]
    unfold EulerBackend.stateAfter
    rw [← hmdef]
    cases b.keepsStart with
    | true => simp
    | false =>
      simp only [Bool.false_eq_true, if_false]
      rw [if_neg (by omega)]

/-- `simulate` with the Euler pass only, in terms of `runEuler`. -/
theorem simulate_euler_only (env : SamEnv K (List (NDArray K))) (b : EulerBackend) (dx : StepSolve K)
    (he : EulerIs env b dx) (hm : EulerModel env.coords env.variables env.parameters)
    (hdx : LenOK dx (totalSize env.coords env.variables) (totalSize env.coords env.parameters))
    (hcomp : env.compiled ≠ []) (fl : SimFlags) (add mul : NDArray K → NDArray K → NDArray K)
    (h : Heap (NDArray K)) (c : SimCall K)
    (hr : RequestOK env.coords env.variables env.parameters add mul h c)
    (heul : c.useEuler = true) (hopt : c.useOptimizer = false) (hn : 1 ≤ c.nIterEuler) :
    EulerCall env.coords env.variables env.parameters (derefDict h c.initial)
        (wantedFlat add mul h c env.parameters) ∧
      (∀ objs, (∀ o ∈ objs, o ∈ env.variables ++ env.parameters) →
        flatOf (derefDict h c.initial) objs = initialFlat h c objs) ∧
      ∀ outs, runEuler b dx env.variables env.parameters env.coords
          (wantedFlat add mul h c env.parameters) c.nIterEuler (derefDict h c.initial) = .ok outs →
        ∃ e, simulateCompute (simEnvOf env (fun _ => false) fl add mul) h c =
            .ok ⟨some e, none, none, false⟩ ∧ e.warned = b.keepsStart ∧
          (∀ o ∈ env.variables ++ env.parameters, DataFor env.coords e.start o) ∧
          flatOf e.start (env.variables ++ env.parameters) =
            b.stateAfter env.variables env.parameters (derefDict h c.initial) outs c.nIterEuler := by
  obtain ⟨thetas, hsim, hx0, hth⟩ := runs_requested_scenario
    (simEnvOf env (fun _ => false) fl add mul) h c (by simp [simEnvOf, hcomp]) hm.someVar hm.someParam
    hr.nodup
    (fun n hn => (hr.exact n).2 (by simpa [simEnvOf] using hn))
    (fun n hn => by simpa [simEnvOf] using (hr.exact n).1 hn) hr.distinct hr.some_change hr.known
    hr.valid.1 hr.valid.2.1 hr.valid.2.2.1 hr.valid.2.2.2 hr.unshared
  have hkeys := initial_keys hr hm.labelled.names
  have hdata : ∀ o ∈ env.variables ++ env.parameters, DataFor env.coords (derefDict h c.initial) o := by
    intro o ho
    obtain ⟨a, h1, h2, h3⟩ := hr.shaped o ho
    exact ⟨a, by rw [hx0, h1], h2, h3⟩
  have hth' : thetas.map some = env.parameters.map fun p =>
      (wantedValue add mul h c p.name).map NDArray.data := hth
  have hthf : thetas = env.parameters.map fun o =>
      ((wantedValue add mul h c o.name).map NDArray.data).getD [] := by
    have := congrArg (List.map fun o : Option (List K) => o.getD []) hth'
    simpa [List.map_map, Function.comp_def] using this
  have hflat : thetas.flatten = wantedFlat add mul h c env.parameters := by
    rw [hthf, wantedFlat, List.flatMap_def]
  have htl : (wantedFlat add mul h c env.parameters).length =
      totalSize env.coords env.parameters := by
    unfold wantedFlat totalSize
    rw [List.length_flatMap]
    congr 1
    apply List.map_congr_left
    intro o ho
    obtain ⟨a, h1, h2⟩ := hr.sized o ho
    rw [h1]
    exact h2
  rw [hflat] at hsim
  have hcall := hm.call hkeys hdata htl
  refine ⟨hcall, ?_, ?_⟩
  · intro objs hobjs
    unfold flatOf initialFlat
    rw [List.flatMap_def]
    simp only [hx0]
  · intro outs hrun
    obtain ⟨e, h1, h2, h3, h4⟩ := eulerPass_finite env b dx he hm hdx _ _ c.nIterEuler hn hcall outs hrun
    refine ⟨e, ?_, h2, h3, h4⟩
    rw [hsim]
    show liftPy (simulateSolve env (fun _ => false) fl _ _ c) = _
    unfold simulateSolve eulerPart
    rw [heul, hopt, if_pos rfl, h1]
    rfl

/-- **C73 (affine models).**  For a model `M x + N theta + c` with invertible `M`, `simulate` with the
Euler pass only accepts every initial state of the right names and shapes: it returns, the warning depends
on the back-end only, and at the last step the parameters are the requested ones and the equations are off
by exactly as much as at the initial state.  So the last step is an equilibrium if and only if the initial
state was one. -/
theorem C73_imbalance_kept [CharZero K] (env : SamEnv K (List (NDArray K))) (b : EulerBackend)
    (M : Matrix (Fin (totalSize env.coords env.variables)) (Fin (totalSize env.coords env.variables)) K)
    (N : Matrix (Fin (totalSize env.coords env.variables)) (Fin (totalSize env.coords env.parameters)) K)
    (k : Fin (totalSize env.coords env.variables) → K) (hu : IsUnit M.det)
    (he : EulerIs env b (affineJac M N).solve) (hm : EulerModel env.coords env.variables env.parameters)
    (hcomp : env.compiled ≠ []) (fl : SimFlags) (add mul : NDArray K → NDArray K → NDArray K)
    (h : Heap (NDArray K)) (c : SimCall K)
    (hr : RequestOK env.coords env.variables env.parameters add mul h c)
    (heul : c.useEuler = true) (hopt : c.useOptimizer = false) (hn : 1 ≤ c.nIterEuler) :
    ∃ e, simulateCompute (simEnvOf env (fun _ => false) fl add mul) h c = .ok ⟨some e, none, none, false⟩ ∧
      e.warned = b.keepsStart ∧
      flatOf e.start env.parameters = wantedFlat add mul h c env.parameters ∧
      M.mulVec (toVec _ (flatOf e.start env.variables)) +
          N.mulVec (toVec _ (flatOf e.start env.parameters)) + k =
        M.mulVec (toVec _ (initialFlat h c env.variables)) +
          N.mulVec (toVec _ (initialFlat h c env.parameters)) + k := by
  obtain ⟨hcall, hinit, hsim⟩ := simulate_euler_only env b _ he hm (affineJac M N).lenOK hcomp fl add
    mul h c hr heul hopt hn
  obtain ⟨outs, hrun⟩ := C21_runs b _ _ _ M N hu (derefDict h c.initial) _ c.nIterEuler hcall
  obtain ⟨e, h1, h2, h3, h4⟩ := hsim outs hrun
  obtain ⟨x, th, g1, g2, g3, g4⟩ := affine_run b _ _ _ M N hu (derefDict h c.initial) _ c.nIterEuler hcall outs hrun
    c.nIterEuler (Nat.le_refl _)
  have harr := C19_arrives b _ _ _ _ (derefDict h c.initial) _ c.nIterEuler hn hcall (affineJac M N).lenOK outs hrun
  rw [g1, List.drop_left' g2] at harr
  have lv := (flatOf_spec env.coords e.start env.variables (fun o ho => h3 o (by simp [ho]))).1
  rw [flatOf_append, g1] at h4
  obtain ⟨hx, ht⟩ := List.append_inj h4 (by rw [lv, g2])
  refine ⟨e, h1, h2, by rw [ht, harr], ?_⟩
  rw [hx, ht, g4, hinit env.variables (fun o ho => by simp [ho]),
    hinit env.parameters (fun o ho => by simp [ho])]

/-- **C73 (what a user may rely on).**  In an affine model the last step of the Euler pass is an
equilibrium if and only if the caller's initial state was one. -/
theorem C73_equilibrium_iff_partial [CharZero K] (env : SamEnv K (List (NDArray K))) (b : EulerBackend)
    (M : Matrix (Fin (totalSize env.coords env.variables)) (Fin (totalSize env.coords env.variables)) K)
    (N : Matrix (Fin (totalSize env.coords env.variables)) (Fin (totalSize env.coords env.parameters)) K)
    (k : Fin (totalSize env.coords env.variables) → K) (hu : IsUnit M.det)
    (he : EulerIs env b (affineJac M N).solve) (hm : EulerModel env.coords env.variables env.parameters)
    (hcomp : env.compiled ≠ []) (fl : SimFlags) (add mul : NDArray K → NDArray K → NDArray K)
    (h : Heap (NDArray K)) (c : SimCall K)
    (hr : RequestOK env.coords env.variables env.parameters add mul h c)
    (heul : c.useEuler = true) (hopt : c.useOptimizer = false) (hn : 1 ≤ c.nIterEuler) (out : SimOut K)
    (hout : simulateCompute (simEnvOf env (fun _ => false) fl add mul) h c = .ok out) :
    ∃ e, out.euler = some e ∧
      (M.mulVec (toVec _ (flatOf e.start env.variables)) +
          N.mulVec (toVec _ (wantedFlat add mul h c env.parameters)) + k = 0 ↔
        M.mulVec (toVec _ (initialFlat h c env.variables)) +
          N.mulVec (toVec _ (initialFlat h c env.parameters)) + k = 0) := by
  obtain ⟨e, h1, -, h3, h4⟩ := C73_imbalance_kept env b M N k hu he hm hcomp fl add mul h c hr heul hopt hn
  rw [h1] at hout
  cases hout
  refine ⟨e, rfl, ?_⟩
  rw [h3] at h4
  rw [h4]

/-! ### The model `x = p` started at `x = 2`, `p = 1` -/

def gapVars : List ModelObject := [{ name := "x" }]
def gapParams : List ModelObject := [{ name := "p" }]

/-- `p` is raised from 1 to 2. -/
def gapCall (x : ℚ) : SimCall ℚ where
  initial := [("x".toList, .num ⟨[], [x]⟩), ("p".toList, .num ⟨[], [1]⟩)]
  finalValues := some [("p".toList, .num ⟨[], [2]⟩)]
  useOptimizer := false

noncomputable def gapEnv (b : EulerBackend) : SamEnv ℚ (List (NDArray ℚ)) :=
  ⟨gapVars, gapParams, [], ["euler".toList], .flat fun x t => .ok (List.zipWith (· - ·) x t),
    .flat fun _ _ => .error .attributeError, [], fun _ _ _ _ => .error .attributeError,
    fun _ _ _ _ => .error .attributeError,
    fun x0 theta n => runEuler b (affineJac (K := ℚ) (nx := 1) (np := 1) 1 (-1)).solve gapVars gapParams []
      theta n x0⟩

theorem gapModel : EulerModel [] gapVars gapParams where
  labelled := ⟨by decide +kernel, by decide +kernel, by decide +kernel, by decide +kernel⟩
  nonempty := by decide +kernel
  someVar := by decide +kernel
  someParam := by decide +kernel
  keywords := by decide +kernel

theorem gapRequest (x : ℚ) (add mul : NDArray ℚ → NDArray ℚ → NDArray ℚ) :
    RequestOK [] gapVars gapParams add mul [] (gapCall x) where
  nodup := by simp [gapCall, dkeys]
  exact := by intro n; simp [gapCall, dkeys, gapVars, gapParams]
  distinct := by simp [gapCall, dkeys]
  some_change := by simp [gapCall, dkeys]
  known := by simp [gapCall, dkeys]
  valid := by simp [gapCall, ValidRefs, refsOf]
  unshared := by simp [gapCall, refsOf]
  shaped := by
    intro o ho
    have : o = { name := "x" } ∨ o = { name := "p" } := by
      simpa [gapVars, gapParams] using ho
    rcases this with rfl | rfl
    · exact ⟨⟨[], [x]⟩, rfl, rfl, rfl⟩
    · exact ⟨⟨[], [1]⟩, rfl, rfl, rfl⟩
  sized := by
    intro o ho
    have : o = { name := "p" } := by simpa [gapParams] using ho
    subst this
    exact ⟨⟨[], [2]⟩, rfl, rfl⟩

/-- **The documented check does not happen.**  The docstring says that an error is raised if the initial
state is not an equilibrium.  For `x = p`, started at `x = 2`, `p = 1`, `simulate` (python loop, Euler pass
only) returns without error or warning, and ends at `x = 3`, `p = 2`. -/
theorem C73_check_counterexample (fl : SimFlags) (add mul : NDArray ℚ → NDArray ℚ → NDArray ℚ) :
    RequestOK [] gapVars gapParams add mul [] (gapCall 2) ∧
    ∃ e, simulateCompute (simEnvOf (gapEnv .pytensorLoop) (fun _ => false) fl add mul) [] (gapCall 2) =
        .ok ⟨some e, none, none, false⟩ ∧ e.warned = false ∧
      flatOf e.start gapVars = [3] ∧ flatOf e.start gapParams = [2] := by
  refine ⟨gapRequest 2 add mul, ?_⟩
  have hu : IsUnit (1 : Matrix (Fin 1) (Fin 1) ℚ).det := by simp
  obtain ⟨hcall, hinit, hsim⟩ := simulate_euler_only (gapEnv .pytensorLoop) .pytensorLoop _ rfl
    gapModel (affineJac (K := ℚ) (nx := 1) (np := 1) 1 (-1)).lenOK (List.cons_ne_nil _ _) fl add mul []
    (gapCall 2) (gapRequest 2 add mul) rfl rfl (by decide)
  obtain ⟨e, h1, h2, h3, h4⟩ := C73_imbalance_kept (gapEnv .pytensorLoop) .pytensorLoop
    (1 : Matrix (Fin 1) (Fin 1) ℚ) (-1 : Matrix (Fin 1) (Fin 1) ℚ) 0 hu rfl gapModel
    (List.cons_ne_nil _ _) fl add mul [] (gapCall 2) (gapRequest 2 add mul) rfl rfl (by decide)
  have h3' : flatOf e.start gapParams = [2] := h3
  refine ⟨e, h1, h2, ?_, h3'⟩
  obtain ⟨outs, hrun⟩ := C21_runs .pytensorLoop [] gapVars gapParams (1 : Matrix (Fin 1) (Fin 1) ℚ)
    (-1 : Matrix (Fin 1) (Fin 1) ℚ) hu (derefDict [] (gapCall 2).initial) _ _ hcall
  obtain ⟨e', g1, -, g3, -⟩ := hsim outs hrun
  rw [g1] at h1
  cases h1
  have lv : (flatOf e.start gapVars).length = 1 :=
    (flatOf_spec [] e.start gapVars (fun o ho => g3 o (List.mem_append_left _ ho))).1
  obtain ⟨v, hv⟩ := List.length_eq_one_iff.1 lv
  have h4' := congrFun h4 (0 : Fin 1)
  have e1 : flatOf e.start (gapEnv .pytensorLoop).variables = [v] := hv
  have e2 : flatOf e.start (gapEnv .pytensorLoop).parameters = [2] := h3'
  have e3 : initialFlat [] (gapCall 2) (gapEnv .pytensorLoop).variables = [2] := rfl
  have e4 : initialFlat [] (gapCall 2) (gapEnv .pytensorLoop).parameters = [1] := rfl
  rw [e1, e2, e3, e4] at h4'
  have h5 : v + -2 = (2 : ℚ) + -1 := by
    have t : ∀ (r : ℚ), (toVec 1 [r] : Fin 1 → ℚ) = fun _ => r := by
      intro r; funext i; fin_cases i; rfl
    change ((1 : Matrix (Fin 1) (Fin 1) ℚ).mulVec (toVec 1 [v]) +
      (-1 : Matrix (Fin 1) (Fin 1) ℚ).mulVec (toVec 1 [2]) + 0) 0 =
      ((1 : Matrix (Fin 1) (Fin 1) ℚ).mulVec (toVec 1 [2]) +
      (-1 : Matrix (Fin 1) (Fin 1) ℚ).mulVec (toVec 1 [1]) + 0) 0 at h4'
    rw [t, t, t] at h4'
    simpa [Matrix.neg_mulVec] using h4'
  rw [hv]
  congr 1
  linarith

/-- Started at the equilibrium `x = 1` the same simulation ends in the equilibrium. -/
example (fl : SimFlags) (add mul : NDArray ℚ → NDArray ℚ → NDArray ℚ) (b : EulerBackend) :
    ∃ e, simulateCompute (simEnvOf (gapEnv b) (fun _ => false) fl add mul) [] (gapCall 1) =
      .ok ⟨some e, none, none, false⟩ ∧ e.warned = b.keepsStart := by
  have hu : IsUnit (1 : Matrix (Fin 1) (Fin 1) ℚ).det := by simp
  obtain ⟨e, h1, h2, _⟩ := C73_imbalance_kept (gapEnv b) b
    (1 : Matrix (Fin 1) (Fin 1) ℚ) (-1 : Matrix (Fin 1) (Fin 1) ℚ) 0 hu rfl gapModel
    (List.cons_ne_nil _ _) fl add mul [] (gapCall 1) (gapRequest 1 add mul) rfl rfl (by decide)
  exact ⟨e, h1, h2⟩

end Verif
