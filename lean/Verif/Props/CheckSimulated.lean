import Verif.Model.CheckSimulated
import Verif.Props.PlotLines
import Verif.Props.Equilibrium

/-!
# C78: checking the result of a simulation
-/

namespace Verif

/-! ## Which rows are looked at -/

theorem survivors_concat {β : Type _} (l : List (Option β)) (x : Option β) :
    survivors (l ++ [x]) = survivors l ++ (x.map fun b => (l.length, b)).toList := by
  unfold survivors
  rw [List.zipIdx_append, List.filterMap_append]
  congr 1
  cases x <;> simp

/-- The last survivor is the last row that is there. -/
theorem survivors_last {β : Type _} (l : List (Option β)) (p : Nat × β)
    (h : (survivors l).getLast? = some p) :
    l[p.1]? = some (some p.2) ∧ ∀ (j : Nat) b, l[j]? = some (some b) → j ≤ p.1 := by
  refine ⟨mem_survivors (List.mem_of_getLast? h), ?_⟩
  induction l using List.reverseRecOn with
  | nil => simp [survivors] at h
  | append_singleton l x ih =>
    intro j b hj
    rw [survivors_concat] at h
    cases x with
    | none =>
      simp only [Option.map_none, Option.toList_none, List.append_nil] at h
      apply ih h j b
      by_cases hlt : j < l.length
      · rwa [List.getElem?_append_left hlt] at hj
      · rw [List.getElem?_append_right (by omega)] at hj
        obtain ⟨hlt', hx⟩ := List.getElem?_eq_some_iff.1 hj
        have h0 : j - l.length = 0 := by simpa using hlt'
        simp [h0] at hx
    | some y =>
      simp only [Option.map_some, Option.toList_some, List.getLast?_append, List.getLast?_singleton,
        Option.some_or, Option.some.injEq] at h
      subst h
      have := (List.getElem?_eq_some_iff.1 hj).1
      simp at this
      dsimp only
      omega

section Rows

variable {K : Type} [Field K]

/-- One group: the last kept row holds, under each name, the slice of that row; the row has no NaN and all
later ones have one. -/
theorem group_last (isNan : K → Bool) (ds : XDataset K) (objs : List ModelObject)
    (arrs : List (NDArray K)) (m : Nat) (axes : ModelObject → List Str)
    (hk : dkeys ds = objs.map ModelObject.name) (hn : (objs.map ModelObject.name).Nodup)
    (hlen : arrs.length = objs.length)
    (hd : ∀ (k : Nat) o a, objs[k]? = some o → arrs[k]? = some a → dget ds o.name = some (axes o, a))
    (p : Nat × Dict Str (NDArray K))
    (hp : (survivors ((List.range m).map fun k => stepRow isNan ds k)).getLast? = some p) :
    p.1 < m ∧ dkeys p.2 = objs.map ModelObject.name ∧
    (∀ (k : Nat) o a, objs[k]? = some o → arrs[k]? = some a → dget p.2 o.name = some (stepSlice p.1 a)) ∧
    (∀ y ∈ (arrs.map fun a => rowOf a p.1).flatten, isNan y = false) ∧
    (∀ j, p.1 < j → j < m → ∃ y ∈ (arrs.map fun a => rowOf a j).flatten, isNan y = true) := by
  obtain ⟨h1, h2⟩ := survivors_last _ p hp
  obtain ⟨hlt, hrow⟩ := euler_row h1
  have hslice : ∀ (a : NDArray K) i, (stepSlice i a).data = rowOf a i := by
    intro a i; simp [stepSlice, rowOf, slice_eq]
  -- NaN in a row of the dataset is NaN in a row of the arrays
  have hnan : ∀ i, (ds.any fun q => (stepSlice i q.2.2).data.any isNan) = true ↔
      ∃ y ∈ (arrs.map fun a => rowOf a i).flatten, isNan y = true := by
    intro i
    rw [List.any_eq_true]
    constructor
    · rintro ⟨q, hq, hy⟩
      rw [List.any_eq_true] at hy
      obtain ⟨y, hy, hy'⟩ := hy
      have hqk : q.1 ∈ objs.map ModelObject.name := by
        rw [← hk]; exact List.mem_map.2 ⟨q, hq, rfl⟩
      obtain ⟨o, ho, hoq⟩ := List.mem_map.1 hqk
      obtain ⟨k, hk1, hk2⟩ := List.getElem_of_mem ho
      have hka : k < arrs.length := by omega
      have hg := hd k o arrs[k] (by rw [List.getElem?_eq_getElem hk1, hk2]) (List.getElem?_eq_getElem hka)
      have hg' : dget ds q.1 = some q.2 := dget_of_mem_nodup _ (by rw [hk]; exact hn) hq
      rw [← hoq, hg] at hg'
      have hq2 : q.2.2 = arrs[k] := by
        have := Option.some.inj hg'
        rw [← this]
      rw [hq2, hslice] at hy
      exact ⟨y, List.mem_flatten.2 ⟨_, List.mem_map.2 ⟨arrs[k], List.getElem_mem hka, rfl⟩, hy⟩, hy'⟩
    · rintro ⟨y, hy, hy'⟩
      obtain ⟨r, hr, hyr⟩ := List.mem_flatten.1 hy
      obtain ⟨a, ha, rfl⟩ := List.mem_map.1 hr
      obtain ⟨k, hk1, hk2⟩ := List.getElem_of_mem ha
      have hko : k < objs.length := by omega
      have hg := hd k objs[k] a (List.getElem?_eq_getElem hko) (by rw [List.getElem?_eq_getElem hk1, hk2])
      refine ⟨(objs[k].name, (axes objs[k], a)), mem_of_dget _ hg, ?_⟩
      rw [List.any_eq_true]
      exact ⟨y, by rw [hslice]; exact hyr, hy'⟩
  obtain ⟨e1, e2⟩ := stepRow_some hrow
  refine ⟨hlt, e1.trans hk, ?_, ?_, ?_⟩
  · intro k o a ho ha
    exact e2 _ _ (hd k o a ho ha) (by rw [hk]; exact hn)
  · intro y hy
    cases hb : isNan y with
    | false => rfl
    | true =>
      have := (hnan p.1).2 ⟨y, hy, hb⟩
      unfold stepRow at hrow
      rw [if_pos this] at hrow
      cases hrow
  · intro j hj hjm
    apply (hnan j).1
    by_contra hc
    have : ((List.range m).map fun k => stepRow isNan ds k)[j]? =
        some (some (ds.map fun q => (q.1, stepSlice j q.2.2))) := by
      rw [List.getElem?_map, List.getElem?_range hjm, Option.map_some]
      unfold stepRow
      rw [if_neg hc]
    have := h2 j _ this
    omega

/-- The flat values of a kept row. -/
theorem flatOf_row (d : Dict Str (NDArray K)) (objs : List ModelObject) (arrs : List (NDArray K)) (i : Nat)
    (hlen : arrs.length = objs.length)
    (hd : ∀ (k : Nat) o a, objs[k]? = some o → arrs[k]? = some a → dget d o.name = some (stepSlice i a)) :
    flatOf d objs = (arrs.map fun a => rowOf a i).flatten := by
  unfold flatOf
  congr 1
  apply List.ext_getElem?
  intro k
  rw [List.getElem?_map, List.getElem?_map]
  by_cases hk : k < objs.length
  · have hka : k < arrs.length := by omega
    rw [List.getElem?_eq_getElem hk, List.getElem?_eq_getElem hka, Option.map_some, Option.map_some,
      hd k _ _ (List.getElem?_eq_getElem hk) (List.getElem?_eq_getElem hka)]
    simp [stepSlice, rowOf, slice_eq]
  · rw [List.getElem?_eq_none (by omega), List.getElem?_eq_none (by omega)]
    rfl

end Rows

/-! ## C78 -/

section Check

variable {K : Type} [Field K]

/-- The variables in row `t` of a trajectory. -/
def variablesAt (env : SamEnv K (List (NDArray K))) (outs : List (NDArray K)) (t : Nat) : List K :=
  (stateRow outs t).take (totalSize env.coords env.variables)

/-- The parameters in row `t` of a trajectory. -/
def parametersAt (env : SamEnv K (List (NDArray K))) (outs : List (NDArray K)) (t : Nat) : List K :=
  (stateRow outs t).drop (totalSize env.coords env.variables)

/-- Of the `m` rows, `t` is the last one without a NaN. -/
structure LastWhole (isNan : K → Bool) (row : Nat → List K) (m t : Nat) : Prop where
  lt : t < m
  whole : ∀ y ∈ row t, isNan y = false
  last : ∀ j, t < j → j < m → ∃ y ∈ row j, isNan y = true

/-- The packed form of well shaped data. -/
theorem pack_flat (coords : Coords) (d : Dict Str (NDArray K)) (vars params : List ModelObject)
    (hv : vars ≠ []) (hp : params ≠ []) (hd : ∀ o ∈ vars ++ params, DataFor coords d o) :
    variableDictToFlatArray d vars params = .ok (flatOf d vars, flatOf d params) := by
  have key : ∀ objs : List ModelObject, objs ≠ [] → (∀ o ∈ objs, DataFor coords d o) →
      ∃ l, ravelNamed d objs = .ok l ∧ npConcatenate l = .ok (flatOf d objs) := by
    intro objs hne ho
    obtain ⟨-, h0, h1, h2, -⟩ := flatOf_spec coords d objs ho
    refine ⟨_, h1, ?_⟩
    have hl := length_arraysOf coords objs (flatOf d objs)
    cases hc : (arraysOf coords objs (flatOf d objs)).map NDArray.data with
    | nil =>
      have : (arraysOf coords objs (flatOf d objs)).length = 0 := by simpa using congrArg List.length hc
      exact absurd (List.length_eq_zero_iff.1 (by omega)) hne
    | cons y ys =>
      rw [hc] at h2
      show Except.ok (List.flatten (y :: ys)) = _
      rw [h2]
  obtain ⟨l1, h1, h2⟩ := key vars hv (fun o ho => hd o (by simp [ho]))
  obtain ⟨l2, g1, g2⟩ := key params hp (fun o ho => hd o (by simp [ho]))
  unfold variableDictToFlatArray
  simp only [h1, h2, g1, g2, bind, Except.bind, pure, Except.pure]

variable [LinearOrder K]

/-- **C78 (which state is checked).**  `check_for_equilibrium` on the Euler part of any simulation result
evaluates the equations at the variables of the last row in which no variable is NaN, with the parameters of
the last row in which no parameter is NaN. -/
theorem C78_euler_rows (env : SamEnv K (List (NDArray K))) (b : EulerBackend) (dx : StepSolve K)
    (he : EulerIs env b dx) (hm : EulerModel env.coords env.variables env.parameters)
    (hdx : LenOK dx (totalSize env.coords env.variables) (totalSize env.coords env.parameters))
    (hcomp : env.compiled ≠ []) (isNan : K → Bool) (fl : SimFlags)
    (add mul : NDArray K → NDArray K → NDArray K)
    (h : Heap (NDArray K)) (c : SimCall K)
    (hr : RequestOK env.coords env.variables env.parameters add mul h c)
    (heul : c.useEuler = true) (out : SimOut K)
    (hout : simulateCompute (simEnvOf env isNan fl add mul) h c = .ok out) :
    ∃ e outs iv ip, out.euler = some e ∧
      runEuler b dx env.variables env.parameters env.coords (wantedFlat add mul h c env.parameters)
        c.nIterEuler (derefDict h c.initial) = .ok outs ∧
      LastWhole isNan (variablesAt env outs) (if b.keepsStart then c.nIterEuler + 1 else c.nIterEuler) iv ∧
      LastWhole isNan (parametersAt env outs) (if b.keepsStart then c.nIterEuler + 1 else c.nIterEuler)
        ip ∧
      ∀ sys byName names tol, checkEulerGroup sys byName env.variables env.parameters env.coords names e
          tol = eqReport names (sys (variablesAt env outs iv) (parametersAt env outs ip)) tol := by
  obtain ⟨hsim, hcall, -, -⟩ := simulate_call env isNan hm hcomp fl add mul h c hr
  rw [hsim] at hout
  generalize derefDict h c.initial = x0 at *
  generalize wantedFlat add mul h c env.parameters = theta at *
  -- the Euler pass
  obtain ⟨e, hpass, hoe⟩ : ∃ e, eulerPass env isNan x0 theta c.nIterEuler = .ok e ∧
      out.euler = some e := by
    unfold simulateSolve eulerPart at hout
    rw [if_pos heul] at hout
    cases hp : eulerPass env isNan x0 theta c.nIterEuler with
    | error e => rw [hp] at hout; cases hout
    | ok e =>
      rw [hp] at hout
      refine ⟨e, rfl, ?_⟩
      simp only [Except.map, bind, Except.bind] at hout
      split at hout
      · cases hs : simOptimize env fl c.optimizerMode (((some e).map EulerPass.start).getD x0) theta with
        | error e' => rw [hs] at hout; cases hout
        | ok res =>
          rw [hs] at hout
          simp only at hout
          cases hid : optimizerResultToIdata res.x theta x0 env.variables env.parameters env.coords with
          | error e' => rw [hid] at hout; cases hout
          | ok VP => rw [hid] at hout; cases hout; rfl
      · cases hout; rfl
  cases hrun : env.euler x0 theta c.nIterEuler with
  | error e' =>
    unfold eulerPass at hpass
    rw [hrun] at hpass; cases hpass
  | ok outs =>
  have hrun' : runEuler b dx env.variables env.parameters env.coords theta c.nIterEuler x0 = .ok outs := by
    rw [← hrun, he]
  obtain ⟨hlen, hshape⟩ := runEuler_arrays b dx _ _ _ _ _ c.nIterEuler hcall hdx outs hrun'
  generalize (if b.keepsStart then c.nIterEuler + 1 else c.nIterEuler) = m at *
  have hv := hm.someVar
  obtain ⟨V, P, hid, hVk, hPk, hV, hP⟩ := C51_euler_partial env.coords env.variables env.parameters
    outs m hm.labelled hv hlen (fun k o a h1 h2 => (hshape k o a h1 h2).1)
  have hv0 : 0 < env.variables.length := List.length_pos_iff.2 hv
  have ha0 : 0 < outs.length := by omega
  have hfirst : listGetE outs 0 = .ok outs[0] := by
    unfold listGetE; rw [List.getElem?_eq_getElem ha0]
  have hnd : ndLen outs[0] = .ok m := by
    obtain ⟨o, ho⟩ : ∃ o, (env.variables ++ env.parameters)[0]? = some o :=
      ⟨env.variables[0], by rw [List.getElem?_append_left hv0, List.getElem?_eq_getElem hv0]⟩
    have := (hshape 0 o outs[0] ho (List.getElem?_eq_getElem ha0)).1
    simp [ndLen, this]
  -- what is kept
  have hkept : e.keptVars = survivors ((List.range m).map fun k => stepRow isNan V k) ∧
      e.keptParams = survivors ((List.range m).map fun k => stepRow isNan P k) ∧
      e.keptVars ≠ [] ∧ e.keptParams ≠ [] := by
    unfold eulerPass at hpass
    simp only [hrun, bind, Except.bind, hid, hfirst, hnd] at hpass
    have hr1 : ((trajectoryRows isNan (V, P) m).map EulerRow.vars) =
        (List.range m).map fun k => stepRow isNan V k := by
      simp [trajectoryRows, List.map_map, Function.comp_def]
    have hr2 : ((trajectoryRows isNan (V, P) m).map EulerRow.params) =
        (List.range m).map fun k => stepRow isNan P k := by
      simp [trajectoryRows, List.map_map, Function.comp_def]
    cases hh : eulerHandoff (trajectoryRows isNan (V, P) m) c.nIterEuler with
    | error e' => rw [hh] at hpass; cases hpass
    | ok r =>
      rw [hh] at hpass
      cases hpass
      refine ⟨by rw [hr1], by rw [hr2], ?_, ?_⟩
      · intro h0
        dsimp only at h0
        unfold eulerHandoff at hh
        rw [h0] at hh
        cases hh
      · intro h0
        dsimp only at h0
        unfold eulerHandoff at hh
        rw [h0] at hh
        simp only [bind, Except.bind] at hh
        split at hh <;> cases hh
  obtain ⟨hkv, hkp, hne1, hne2⟩ := hkept
  obtain ⟨pv, hpv⟩ : ∃ p, e.keptVars.getLast? = some p :=
    ⟨_, List.getLast?_eq_some_getLast hne1⟩
  obtain ⟨pp, hpp⟩ : ∃ p, e.keptParams.getLast? = some p :=
    ⟨_, List.getLast?_eq_some_getLast hne2⟩
  have hnn := hm.labelled.names
  have hnn' := hnn
  rw [List.map_append] at hnn'
  obtain ⟨hn1, hn2, hdisj⟩ := List.nodup_append.1 hnn'
  -- the two halves of the arrays
  have hl1 : (outs.take env.variables.length).length = env.variables.length := by
    rw [List.length_take]; omega
  have hl2 : (outs.drop env.variables.length).length = env.parameters.length := by
    rw [List.length_drop]; omega
  have hg1 : ∀ (k : Nat) o a, env.variables[k]? = some o → (outs.take env.variables.length)[k]? = some a →
      outs[k]? = some a := by
    intro k o a ho ha
    have hk := (List.getElem?_eq_some_iff.1 ho).1
    rwa [List.getElem?_take_of_lt hk] at ha
  have hg2 : ∀ (k : Nat) a, (outs.drop env.variables.length)[k]? = some a →
      outs[env.variables.length + k]? = some a := by
    intro k a ha
    rwa [List.getElem?_drop] at ha
  obtain ⟨a1, a2, a3, a4, a5⟩ := group_last isNan V env.variables (outs.take env.variables.length) m
    (fun o => "step".toList :: o.dims) hVk hn1 hl1
    (fun k o a ho ha => hV k o a ho (hg1 k o a ho ha)) pv (by rw [← hkv]; exact hpv)
  obtain ⟨b1, b2, b3, b4, b5⟩ := group_last isNan P env.parameters (outs.drop env.variables.length) m
    (fun o => "step".toList :: o.dims) hPk hn2 hl2
    (fun k o a ho ha => hP k o a ho (hg2 k a ha)) pp (by rw [← hkp]; exact hpp)
  -- rows
  have hsplit : ∀ t, t < m →
      variablesAt env outs t = ((outs.take env.variables.length).map fun a => rowOf a t).flatten ∧
      parametersAt env outs t = ((outs.drop env.variables.length).map fun a => rowOf a t).flatten := by
    intro t ht
    have hlt : (((outs.take env.variables.length).map fun a => rowOf a t).flatten).length =
        totalSize env.coords env.variables := by
      rw [List.length_flatten, List.map_map]
      unfold totalSize
      congr 1
      apply List.ext_getElem?
      intro k
      rw [List.getElem?_map, List.getElem?_map]
      by_cases hk : k < env.variables.length
      · have hka : k < outs.length := by omega
        rw [List.getElem?_take_of_lt hk, List.getElem?_eq_getElem hka, List.getElem?_eq_getElem hk]
        obtain ⟨s1, s2⟩ := hshape k env.variables[k] outs[k]
          (by rw [List.getElem?_append_left hk, List.getElem?_eq_getElem hk]) (List.getElem?_eq_getElem hka)
        obtain ⟨s3, s4⟩ := stepSlice_data t _ _ _ s1 s2 ht
        have e1 : rowOf outs[k] t = (stepSlice t outs[k]).data := by
          simp [stepSlice, rowOf, slice_eq]
        simp only [Option.map_some, Function.comp_def, e1]
        rw [s4, s3]; rfl
      · rw [List.getElem?_eq_none (by omega), List.getElem?_eq_none (by omega)]; rfl
    have hcat : stateRow outs t = ((outs.take env.variables.length).map fun a => rowOf a t).flatten ++
        ((outs.drop env.variables.length).map fun a => rowOf a t).flatten := by
      unfold stateRow
      rw [← List.flatten_append, ← List.map_append, List.take_append_drop]
    unfold variablesAt parametersAt
    rw [hcat]
    exact ⟨List.take_left' hlt, List.drop_left' hlt⟩
  refine ⟨e, outs, pv.1, pp.1, hoe, hrun', ⟨a1, ?_, ?_⟩, ⟨b1, ?_, ?_⟩, ?_⟩
  · rw [(hsplit _ a1).1]; exact a4
  · intro j h1 h2; rw [(hsplit _ h2).1]; exact a5 j h1 h2
  · rw [(hsplit _ b1).2]; exact b4
  · intro j h1 h2; rw [(hsplit _ h2).2]; exact b5 j h1 h2
  intro sys byName names tol
  -- the joined dictionary
  have hdv : ∀ o ∈ env.variables, dget (dupdate pv.2 pp.2) o.name = dget pv.2 o.name := by
    intro o ho
    apply dget_dupdate_of_not_mem
    show o.name ∉ dkeys pp.2
    rw [b2]
    intro hc
    exact hdisj _ (List.mem_map_of_mem ho) _ hc rfl
  have hdp : ∀ o ∈ env.parameters, dget (dupdate pv.2 pp.2) o.name = dget pp.2 o.name := by
    intro o ho
    rw [dget_dupdate _ _ (by rw [b2]; exact hn2)]
    have : o.name ∈ dkeys pp.2 := by rw [b2]; exact List.mem_map_of_mem ho
    obtain ⟨v, hv⟩ := (mem_dkeys_iff _ _).1 this
    rw [hv]; rfl
  have gv : ∀ (k : Nat) o a, env.variables[k]? = some o →
      (outs.take env.variables.length)[k]? = some a →
      dget (dupdate pv.2 pp.2) o.name = some (stepSlice pv.1 a) := by
    intro k o a ho ha
    rw [hdv o (List.mem_of_getElem? ho)]; exact a3 k o a ho ha
  have gp : ∀ (k : Nat) o a, env.parameters[k]? = some o →
      (outs.drop env.variables.length)[k]? = some a →
      dget (dupdate pv.2 pp.2) o.name = some (stepSlice pp.1 a) := by
    intro k o a ho ha
    rw [hdp o (List.mem_of_getElem? ho)]; exact b3 k o a ho ha
  have hdata : ∀ o ∈ env.variables ++ env.parameters, DataFor env.coords (dupdate pv.2 pp.2) o := by
    intro o ho
    rcases List.mem_append.1 ho with ho | ho
    · obtain ⟨k, hk, rfl⟩ := List.getElem_of_mem ho
      have hka : k < outs.length := by omega
      have hta : (outs.take env.variables.length)[k]? = some outs[k] := by
        rw [List.getElem?_take_of_lt hk, List.getElem?_eq_getElem hka]
      obtain ⟨s1, s2⟩ := hshape k env.variables[k] outs[k]
        (by rw [List.getElem?_append_left hk, List.getElem?_eq_getElem hk]) (List.getElem?_eq_getElem hka)
      obtain ⟨s3, s4⟩ := stepSlice_data pv.1 _ _ _ s1 s2 a1
      exact ⟨_, gv k _ _ (List.getElem?_eq_getElem hk) hta, s3, s4⟩
    · obtain ⟨k, hk, rfl⟩ := List.getElem_of_mem ho
      have hka : env.variables.length + k < outs.length := by omega
      have hta : (outs.drop env.variables.length)[k]? = some outs[env.variables.length + k] := by
        rw [List.getElem?_drop, List.getElem?_eq_getElem hka]
      obtain ⟨s1, s2⟩ := hshape (env.variables.length + k) env.parameters[k] outs[env.variables.length + k]
        (by rw [List.getElem?_append_right (by omega), Nat.add_sub_cancel_left,
              List.getElem?_eq_getElem hk]) (List.getElem?_eq_getElem hka)
      obtain ⟨s3, s4⟩ := stepSlice_data pp.1 _ _ _ s1 s2 b1
      exact ⟨_, gp k _ _ (List.getElem?_eq_getElem hk) hta, s3, s4⟩
  have hstate : ModelState env.coords env.variables env.parameters (dupdate pv.2 pp.2) := by
    refine ⟨hdata, ?_⟩
    intro n hn
    rw [mem_dkeys_dupdate] at hn
    rw [List.map_append, List.mem_append]
    rcases hn with hn | hn
    · left; rwa [a2] at hn
    · right
      have : n ∈ dkeys pp.2 := hn
      rwa [b2] at this
  have hpack := pack_flat env.coords (dupdate pv.2 pp.2) env.variables env.parameters hv hm.someParam hdata
  rw [flatOf_row _ _ _ pv.1 hl1 gv, flatOf_row _ _ _ pp.1 hl2 gp, ← (hsplit _ a1).1, ← (hsplit _ b1).2]
    at hpack
  unfold checkEulerGroup lastKept
  rw [hpv, hpp]
  exact check_eq sys byName env.coords env.variables env.parameters names _ (.dict (dupdate pv.2 pp.2)) tol
    hm.labelled.known hnn hv hm.someParam hstate rfl _ _ hpack

/-- **C78 (Euler pass).**  When no number is NaN, the state that is checked is the one after the last step,
at exactly the requested parameter values. -/
theorem C78_euler_partial [CharZero K] (env : SamEnv K (List (NDArray K))) (b : EulerBackend)
    (dx : StepSolve K) (he : EulerIs env b dx) (hm : EulerModel env.coords env.variables env.parameters)
    (hdx : LenOK dx (totalSize env.coords env.variables) (totalSize env.coords env.parameters))
    (hcomp : env.compiled ≠ []) (fl : SimFlags) (add mul : NDArray K → NDArray K → NDArray K)
    (h : Heap (NDArray K)) (c : SimCall K)
    (hr : RequestOK env.coords env.variables env.parameters add mul h c)
    (heul : c.useEuler = true) (hn : 1 ≤ c.nIterEuler) (out : SimOut K)
    (hout : simulateCompute (simEnvOf env (fun _ => false) fl add mul) h c = .ok out) :
    ∃ e outs x, out.euler = some e ∧
      runEuler b dx env.variables env.parameters env.coords (wantedFlat add mul h c env.parameters)
        c.nIterEuler (derefDict h c.initial) = .ok outs ∧
      b.stateAfter env.variables env.parameters (derefDict h c.initial) outs c.nIterEuler =
        x ++ wantedFlat add mul h c env.parameters ∧
      x.length = totalSize env.coords env.variables ∧
      ∀ sys byName names tol, checkEulerGroup sys byName env.variables env.parameters env.coords names e
          tol = eqReport names (sys x (wantedFlat add mul h c env.parameters)) tol := by
  obtain ⟨-, hcall, -, -⟩ := simulate_call env (fun _ => false) hm hcomp fl add mul h c hr
  obtain ⟨e, outs, iv, ip, h1, h2, h3, h4, h5⟩ :=
    C78_euler_rows env b dx he hm hdx hcomp (fun _ => false) fl add mul h c hr heul out hout
  have hlast : ∀ (row : Nat → List K) m t, LastWhole (fun _ => false) row m t → t = m - 1 := by
    intro row m t ht
    by_contra hne
    obtain ⟨y, -, hy⟩ := ht.last (m - 1) (by have := ht.lt; omega) (by have := ht.lt; omega)
    cases hy
  have hrow : stateRow outs ((if b.keepsStart then c.nIterEuler + 1 else c.nIterEuler) - 1) =
      b.stateAfter env.variables env.parameters (derefDict h c.initial) outs c.nIterEuler := by
    unfold EulerBackend.stateAfter
    cases b.keepsStart with
    | true => simp
    | false =>
      simp only [Bool.false_eq_true, if_false]
      rw [if_neg (by omega)]
  have hivv := hlast _ _ _ h3
  have hipp := hlast _ _ _ h4
  have harr := C19_arrives b _ _ _ _ (derefDict h c.initial) _ c.nIterEuler hn hcall hdx outs h2
  obtain ⟨S, -, hS, -⟩ := stateAfter_spec b dx _ _ _ _ _ c.nIterEuler hcall hdx outs h2
  obtain ⟨hS1, hS2, -⟩ := hS c.nIterEuler (Nat.le_refl _)
  have hx : variablesAt env outs iv = (S c.nIterEuler).1 := by
    unfold variablesAt
    rw [hivv, hrow, hS1, List.take_left' hS2]
  have ht : parametersAt env outs ip = wantedFlat add mul h c env.parameters := by
    unfold parametersAt
    rw [hipp, hrow, harr]
  rw [hS1, List.drop_left' hS2] at harr
  refine ⟨e, outs, (S c.nIterEuler).1, h1, h2, by rw [hS1, harr], hS2, ?_⟩
  intro sys byName names tol
  rw [h5, hx, ht]

end Check

section Optimizer

variable {K : Type} [Field K] [LinearOrder K]

/-- **C78 (optimizer).**  The labelled optimizer result of any simulation, with or without Euler pass, is
checked at the optimizer's answer and the requested parameter values. -/
theorem C78_optimizer (env : SamEnv K (List (NDArray K))) (isNan : K → Bool)
    (hl : Labelled env.coords env.variables env.parameters) (hv : env.variables ≠ [])
    (hp : env.parameters ≠ []) (hcomp : env.compiled ≠ []) (fl : SimFlags)
    (add mul : NDArray K → NDArray K → NDArray K) (h : Heap (NDArray K)) (c : SimCall K)
    (hr : RequestOK env.coords env.variables env.parameters add mul h c)
    (hopt : c.useOptimizer = true) (out : SimOut K)
    (hout : simulateCompute (simEnvOf env isNan fl add mul) h c = .ok out)
    (hlen : ∀ res, out.optimRes = some res → res.x.length = totalSize env.coords env.variables) :
    ∃ r res, out.optimizer = some r ∧ out.optimRes = some res ∧ out.warnedOptimizer = !res.success ∧
      ∀ sys byName names tol, checkForEquilibrium sys byName env.variables env.parameters env.coords names
          (.idata r.1 r.2) tol =
        eqReport names (sys res.x (wantedFlat add mul h c env.parameters)) tol := by
  obtain ⟨thetas, hsim, hx0, hth⟩ := runs_requested_scenario
    (simEnvOf env isNan fl add mul) h c (by simp [simEnvOf, hcomp]) hv hp hr.nodup
    (fun n hn => (hr.exact n).2 (by simpa [simEnvOf] using hn))
    (fun n hn => by simpa [simEnvOf] using (hr.exact n).1 hn) hr.distinct hr.some_change hr.known
    hr.valid.1 hr.valid.2.1 hr.valid.2.2.1 hr.valid.2.2.2 hr.unshared
  have hdata : ∀ o ∈ env.variables ++ env.parameters, DataFor env.coords (derefDict h c.initial) o := by
    intro o ho
    obtain ⟨a, h1, h2, h3⟩ := hr.shaped o ho
    exact ⟨a, by rw [hx0, h1], h2, h3⟩
  have hth' : thetas.map some = env.parameters.map fun p =>
      (wantedValue add mul h c p.name).map NDArray.data := hth
  have hthf : thetas = env.parameters.map fun o =>
      ((wantedValue add mul h c o.name).map NDArray.data).getD [] := by
    have := congrArg (List.map fun o : Option (List K) => o.getD []) hth'
    simpa [List.map_map, Function.comp_def] using this
  have hflat : thetas.flatten = wantedFlat add mul h c env.parameters := by
    rw [hthf, wantedFlat, List.flatMap_def]
  have htl : (wantedFlat add mul h c env.parameters).length =
      totalSize env.coords env.parameters := by
    unfold wantedFlat totalSize
    rw [List.length_flatMap]
    congr 1
    apply List.map_congr_left
    intro o ho
    obtain ⟨a, h1, h2⟩ := hr.sized o ho
    rw [h1]
    exact h2
  rw [hflat] at hsim
  rw [hsim] at hout
  generalize derefDict h c.initial = x0 at *
  generalize wantedFlat add mul h c env.parameters = theta at *
  have hsolve : simulateSolve env isNan fl x0 theta c = .ok out := by
    have e : (simEnvOf env isNan fl add mul).solve x0 theta c = simulateSolve env isNan fl x0 theta c := rfl
    rw [e] at hout
    cases hs : simulateSolve env isNan fl x0 theta c with
    | error e => rw [hs] at hout; cases hout
    | ok o => rw [hs] at hout; cases hout; rfl
  unfold simulateSolve at hsolve
  cases he : eulerPart env isNan x0 theta c with
  | error e => rw [he] at hsolve; cases hsolve
  | ok e =>
  rw [he] at hsolve
  simp only [bind, Except.bind, hopt, if_true] at hsolve
  cases hs : simOptimize env fl c.optimizerMode ((e.map EulerPass.start).getD x0) theta with
  | error e' => rw [hs] at hsolve; cases hsolve
  | ok res =>
  rw [hs] at hsolve
  simp only at hsolve
  cases hid : optimizerResultToIdata res.x theta x0 env.variables env.parameters env.coords with
  | error e' => rw [hid] at hsolve; cases hsolve
  | ok r =>
  rw [hid] at hsolve
  cases hsolve
  refine ⟨r, res, rfl, rfl, rfl, ?_⟩
  intro sys byName names tol
  obtain ⟨V, P, h1, h2⟩ := C53_optimizer_result sys byName env.coords env.variables env.parameters names
    x0 tol hl hv hp res.x theta (hlen res rfl) htl hdata
  rw [hid] at h1
  cases h1
  exact h2

end Optimizer

/-- **C78 (no warning).**  If `simulate` with the root finder returns without a warning, and the test the
root finder applies to the residuals keeps their sum of squares below `tol`, then `check_for_equilibrium` on
the result, with that tolerance, reports an equilibrium. -/
theorem C78_no_warning_found {coords : Coords} {vs params : List ModelObject} {G : List ℝ → List ℝ}
    (env : SamEnv ℝ (List (NDArray ℝ)))
    (hm : RunsOn coords vs params G env) (isNan : ℝ → Bool) (fl : SimFlags)
    (add mul : NDArray ℝ → NDArray ℝ → NDArray ℝ) (h : Heap (NDArray ℝ)) (c : SimCall ℝ)
    (hr : RequestOK coords vs params add mul h c) (hE : EulerArrays env)
    (accept : List ℝ → Prop) (hroot : RootAccepts env accept) (tol : ℝ)
    (htol : ∀ l, accept l → (l.map (· ^ 2)).sum < tol)
    (hopt : c.useOptimizer = true) (hmode : c.optimizerMode = "root".toList) (out : SimOut ℝ)
    (hout : simulateCompute (simEnvOf env isNan fl add mul) h c = .ok out)
    (hwarn : out.warnedOptimizer = false) :
    ∃ r, out.optimizer = some r ∧ ∀ byName names,
      checkForEquilibrium (fun x theta => G (x ++ theta)) byName vs params coords names (.idata r.1 r.2) tol =
        .ok .found := by
  have hm' := hm
  obtain ⟨hl, hv, hp, rfl, hve, hpe, hcomp, hsys, -⟩ := hm'
  subst hve hpe
  have hinv : ∀ start theta res, simOptimize env fl c.optimizerMode start theta = .ok res →
      ∀ x t, variableDictToFlatArray start env.variables env.parameters = .ok (x, t) →
        env.root (env.fSystem.forScipy env.variables env.parameters env.coords) x theta fl.useJac =
          .ok res := by
    intro start theta res hres x t hxt
    unfold simOptimize at hres
    rw [if_pos hmode] at hres
    unfold solveWithRoot at hres
    split at hres
    · cases hres
    · rw [hxt] at hres
      exact hres
  obtain ⟨start, theta, res, r, h1, h2, h3, h3', h4, h5, h6, h7, -, -, h10⟩ := C72_report_partial env
    isNan fl add mul h c hl hv hp hcomp hr hE hopt out hout
    (fun start theta res hres x t hxt => (hroot _ _ _ _ _ (hinv start theta res hres x t hxt)).1)
  obtain ⟨r', res', g1, g2, g3, g4⟩ := C78_optimizer env isNan hl hv hp hcomp fl add mul h c hr hopt out hout
    (fun res' hres' => by rw [h3'] at hres'; cases hres'; exact h5)
  rw [h3] at g1
  rw [h3'] at g2
  cases g1
  cases g2
  obtain ⟨r', k1, k2, -⟩ := simulate_root env hm isNan fl add mul h c hr hE accept hroot hopt hmode out hout
  rw [h3] at k1
  cases k1
  have hw : reportedAt 1 r env.variables env.parameters =
      res.x ++ wantedFlat add mul h c env.parameters := by
    have hpar : (env.parameters.flatMap fun o => blockAt 1 r.2 o) =
        wantedFlat add mul h c env.parameters := by
      unfold wantedFlat
      rw [List.flatMap_def, List.flatMap_def]
      congr 1
      apply List.map_congr_left
      intro o ho
      obtain ⟨a, ha, -⟩ := hr.sized o ho
      rw [ha]
      exact h10 o ho a ha
    have hlw : (wantedFlat add mul h c env.parameters).length = theta.length := by
      rw [h6]
      unfold wantedFlat totalSize
      rw [List.length_flatMap]
      congr 1
      apply List.map_congr_left
      intro o ho
      obtain ⟨a, ha, hs⟩ := hr.sized o ho
      rw [ha]
      exact hs
    have h7' := h7
    unfold reportedAt at h7' ⊢
    rw [hpar] at h7' ⊢
    obtain ⟨e1, e2⟩ := List.append_inj' h7' hlw
    rw [e1]
  refine ⟨r, h3, ?_⟩
  intro byName names
  rw [g4 (fun x theta => G (x ++ theta)) byName names tol]
  have hacc := htol _ (k2 hwarn)
  rw [hw] at hacc
  unfold eqReport sumSq
  rw [if_pos hacc]

/-! ### Examples -/

/-- The test of an exact root finder keeps the sum of squares below every positive tolerance; the other
hypotheses of `C78_no_warning_found` are met by the example after `C72_root_partial`. -/
example (tol : ℝ) (ht : 0 < tol) (l : List ℝ) (h : ∀ y ∈ l, y = 0) : (l.map (· ^ 2)).sum < tol := by
  have : (l.map (· ^ 2)) = l.map fun _ => (0 : ℝ) := by
    apply List.map_congr_left
    intro y hy
    rw [h y hy]; norm_num
  rw [this]
  simpa using ht

/-- Simulate the model `x = p` with the given step function and check the Euler part of the result:
`(true, [])` if an equilibrium is reported, else `false` with the equations that are listed. -/
def followChecked (b : EulerBackend) (isNan : ℚ → Bool) (c : SimCall ℚ) (dx : StepSolve ℚ) :
    Option (Bool × List (Str × ℚ)) :=
  let env : SamEnv ℚ (List (NDArray ℚ)) := { followEnv b with
    euler := fun x0 theta n => runEuler b dx gapVars gapParams [] theta n x0 }
  match simulateCompute (simEnvOf env isNan {} (fun a _ => a) fun a _ => a) [] c with
  | .ok ⟨some e, _, _, _⟩ =>
    match checkEulerGroup (fun x t => List.zipWith (· - ·) x t) true gapVars gapParams [] ["law".toList] e
        (1 / 1000000) with
    | .ok .found => some (true, [])
    | .ok (.notFound l) => some (false, l)
    | .error _ => none
  | _ => none

/-- From `x = p = 1` to `p = 2` the check finds the equilibrium `x = p = 2`. -/
example : followChecked (.scan false) (fun _ => false) followCall followStep = some (true, []) ∧
    followChecked .pytensorLoop (fun _ => false) followCall followStep = some (true, []) ∧
    followChecked .numba (fun _ => false) followCall followStep = some (true, []) := by
  decide +kernel

/-- A step of the model `x = p`, except that at `p = at_` the computation breaks down and the increment of
`x` is `nan`. -/
def breakStep (nan at_ : ℚ) : StepSolve ℚ := fun _ t h => if t = [at_] then .ok [nan] else .ok h

/-- `x = p` from `p = 1` to `p = 3` in two steps, from a given `x`. -/
def breakCall (x : ℚ) : SimCall ℚ where
  initial := [("x".toList, .num ⟨[], [x]⟩), ("p".toList, .num ⟨[], [1]⟩)]
  finalValues := some [("p".toList, .num ⟨[], [3]⟩)]
  nIterEuler := 2
  useOptimizer := false

/-- The kept rows of that simulation, with a NaN (here: 1000 or more) in the last step. -/
def breakKept (x : ℚ) : Option (List (Nat × List ℚ) × List (Nat × List ℚ)) :=
  let env : SamEnv ℚ (List (NDArray ℚ)) := { followEnv (.scan false) with
    euler := fun x0 theta n => runEuler (.scan false) (breakStep 1000 2) gapVars gapParams [] theta n x0 }
  match simulateCompute (simEnvOf env (fun q => decide (1000 ≤ q)) {} (fun a _ => a) fun a _ => a) []
      (breakCall x) with
  | .ok ⟨some e, _, _, _⟩ => some (e.keptVars.map fun r => (r.1, flatOf r.2 gapVars),
      e.keptParams.map fun r => (r.1, flatOf r.2 gapParams))
  | _ => none

/-- **Two different steps are mixed, so an equilibrium is not found.**  From the equilibrium `x = p = 1`, with
a NaN in `x` at the last step, the rows that are kept are the equilibria `(1, 1)` and `(2, 2)`; the
check of the result looks at `x = 2` and `p = 3` and reports that there is no equilibrium. -/
theorem C78_mixed_counterexample :
    followChecked (.scan false) (fun q => decide (1000 ≤ q)) (breakCall 1) (breakStep 1000 2) =
      some (false, [("law".toList, -1)]) ∧
    breakKept 1 = some ([(0, [1]), (1, [2])], [(0, [1]), (1, [2]), (2, [3])]) := by
  decide +kernel

/-- **… and one is found where there is none.**  Started at `x = 2`, `p = 1`, which is no equilibrium, the
rows that are kept are `(2, 1)` and `(3, 2)`; neither is an equilibrium, and the requested value of `p` was
not reached together with any `x`.  The check of the result reports success. -/
theorem C78_false_success_counterexample :
    followChecked (.scan false) (fun q => decide (1000 ≤ q)) (breakCall 2) (breakStep 1000 2) =
      some (true, []) ∧
    breakKept 2 = some ([(0, [2]), (1, [3])], [(0, [1]), (1, [2]), (2, [3])]) := by
  decide +kernel

/-- **C78 (no step left).**  When a group has no whole step, the check raises an `IndexError`. -/
theorem C78_no_step {K : Type} [Ring K] [LinearOrder K] (sys : List K → List K → List K) (byName : Bool) (vars params : List ModelObject)
    (coords : Coords) (names : List Str) (e : EulerPass K) (tol : K)
    (h : e.keptVars = [] ∨ e.keptParams = []) :
    checkEulerGroup sys byName vars params coords names e tol = .error .indexError := by
  unfold checkEulerGroup lastKept
  by_cases hv : e.keptVars = []
  · rw [hv]; rfl
  · rw [h.resolve_left hv, List.getLast?_eq_some_getLast hv]; rfl

end Verif
