import Verif.Model.StepByStep
import Verif.Props.Registry
import Verif.Props.ArrayModel
import Verif.Lemmas.Euler
import Verif.Props.NumbaFns

/-!
# C99: completing a model step by step
-/

namespace Verif

variable {E : Type _}

/-- A call that declares variables or parameters. -/
inductive Declare where
  | variable (o : ModelObject) (overwrite : Bool)
  | variables (os : List ModelObject) (overwrite : Bool)
  | parameter (o : ModelObject) (overwrite : Bool)
  | parameters (os : List ModelObject) (overwrite : Bool)

/-- The call. -/
def Declare.call : Declare → AddOp
  | .variable o ow => .variable (.variable o) ow
  | .variables os ow => .variables (.many (os.map PyArg.variable)) ow
  | .parameter o ow => .parameter (.parameter o) ow
  | .parameters os ow => .parameters (.many (os.map PyArg.parameter)) ow

/-- The variables it declares. -/
def Declare.vars : Declare → List ModelObject
  | .variable o _ => [o]
  | .variables os _ => os
  | _ => []

/-- The parameters it declares. -/
def Declare.params : Declare → List ModelObject
  | .parameter o _ => [o]
  | .parameters os _ => os
  | _ => []

/-- A call of `add_equations`. -/
def equationsCall (c : List Equation × Bool) : AddOp := .equations (.many (c.1.map PyArg.equation)) c.2

theorem mapM_validateVariable (os : List ModelObject) : (os.map PyArg.variable).mapM validateVariable = .ok os := by
  induction os with
  | nil => rfl
  | cons o os ih => rw [List.map_cons, List.mapM_cons, ih]; rfl

theorem mapM_validateParameter (os : List ModelObject) : (os.map PyArg.parameter).mapM validateParameter = .ok os := by
  induction os with
  | nil => rfl
  | cons o os ih => rw [List.map_cons, List.mapM_cons, ih]; rfl

theorem mapM_validateEquation (es : List Equation) : (es.map PyArg.equation).mapM validateEquation = .ok es := by
  induction es with
  | nil => rfl
  | cons o os ih => rw [List.map_cons, List.mapM_cons, ih]; rfl

/-- Adding objects of new, different names puts them behind the others. -/
theorem addObjects_fresh (pre os : List ModelObject) (ow : Bool) (h : ((pre ++ os).map ModelObject.name).Nodup) :
    addObjects ModelObject.name (pre.map fun o => (o.name, o)) os ow
      = ((pre ++ os).map fun o => (o.name, o), .ok ()) := by
  induction os generalizing pre with
  | nil => rw [addObjects, List.append_nil]
  | cons o os ih =>
    have hn : o.name ∉ dkeys (pre.map fun o : ModelObject => (o.name, o)) := by
      intro hk
      rw [List.map_append, List.map_cons, List.nodup_append] at h
      refine h.2.2 _ ?_ o.name List.mem_cons_self rfl
      simpa [dkeys, Function.comp_def] using hk
    rw [addObjects, addObject_ok _ _ _ _ (Or.inl hn), dset_of_not_mem _ _ _ hn]
    have := ih (pre ++ [o]) (by simpa using h)
    rw [List.map_append] at this
    simpa using this

theorem declare_step (parse : Option (Parser E)) (num : Option ModelObject) (vs ps : List ModelObject)
    (q : Dict Str (StoredEq E)) (c : Declare) (hv : ((vs ++ c.vars).map ModelObject.name).Nodup)
    (hp : ((ps ++ c.params).map ModelObject.name).Nodup) :
    addStep parse num ⟨vs.map fun o => (o.name, o), ps.map fun o => (o.name, o), q⟩ c.call
      = (⟨(vs ++ c.vars).map fun o => (o.name, o), (ps ++ c.params).map fun o => (o.name, o), q⟩, .ok ()) := by
  cases c with
  | «variable» o ow =>
    have := addObjects_fresh vs [o] ow hv
    rw [addObjects] at this
    simp only [Declare.call, addStep, addVariable, validateVariable, Declare.vars, Declare.params, List.append_nil]
    cases h : addObject ModelObject.name (vs.map fun o => (o.name, o)) o ow with
    | error e => rw [h] at this; injection this with _ h2; cases h2
    | ok d =>
      rw [h] at this
      simp only [addObjects, Prod.mk.injEq, and_true] at this
      rw [this]
  | «variables» os ow =>
    simp only [Declare.call, addStep, addVariables, ensureSeq, mapM_validateVariable, Declare.vars, Declare.params,
      List.append_nil]
    rw [addObjects_fresh vs os ow hv]
  | parameter o ow =>
    have := addObjects_fresh ps [o] ow hp
    rw [addObjects] at this
    simp only [Declare.call, addStep, addParameter, validateParameter, Declare.vars, Declare.params, List.append_nil]
    cases h : addObject ModelObject.name (ps.map fun o => (o.name, o)) o ow with
    | error e => rw [h] at this; injection this with _ h2; cases h2
    | ok d =>
      rw [h] at this
      simp only [addObjects, Prod.mk.injEq, and_true] at this
      rw [this]
  | parameters os ow =>
    simp only [Declare.call, addStep, addParameters, ensureSeq, mapM_validateParameter, Declare.vars, Declare.params,
      List.append_nil]
    rw [addObjects_fresh ps os ow hp]

theorem declare_run (parse : Option (Parser E)) (num : Option ModelObject) (q : Dict Str (StoredEq E)) :
    ∀ (cs : List Declare) (vs ps : List ModelObject),
      ((vs ++ cs.flatMap Declare.vars).map ModelObject.name).Nodup →
      ((ps ++ cs.flatMap Declare.params).map ModelObject.name).Nodup →
      runOps parse num ⟨vs.map fun o => (o.name, o), ps.map fun o => (o.name, o), q⟩ (cs.map Declare.call)
        = ⟨(vs ++ cs.flatMap Declare.vars).map fun o => (o.name, o),
            (ps ++ cs.flatMap Declare.params).map fun o => (o.name, o), q⟩
  | [], vs, ps, _, _ => by simp [runOps]
  | c :: cs, vs, ps, hv, hp => by
    rw [List.flatMap_cons, ← List.append_assoc] at hv hp
    have hv' : ((vs ++ c.vars).map ModelObject.name).Nodup := by
      rw [List.map_append] at hv
      exact (List.nodup_append.1 hv).1
    have hp' : ((ps ++ c.params).map ModelObject.name).Nodup := by
      rw [List.map_append] at hp
      exact (List.nodup_append.1 hp).1
    have ih := declare_run parse num q cs (vs ++ c.vars) (ps ++ c.params) hv hp
    unfold runOps at ih ⊢
    rw [List.map_cons, List.foldl_cons, declare_step parse num vs ps q c hv' hp', ih]
    simp [List.append_assoc]

theorem equationsLoop_overwrite (parse : Option (Parser E)) (num : Option ModelObject) (ow : Bool) :
    ∀ (es : List Equation) (r r' : Reg E), addEquationsLoop parse num r es false = (r', .ok ()) →
      addEquationsLoop parse num r es ow = (r', .ok ())
  | [], r, r', h => h
  | e :: es, r, r', h => by
    rw [addEquationsLoop] at h ⊢
    cases hq : makeEquation parse r num e with
    | error x => rw [hq] at h; cases h
    | ok q =>
      rw [hq] at h
      dsimp only at h ⊢
      rcases addObject_cases StoredEq.name r.equations q false with ⟨h', -, -⟩ | h'
      · rw [h'] at h; cases h
      · have hn : q.name ∉ dkeys r.equations := by
          intro hk
          rw [addObject_error _ _ _ hk] at h'
          cases h'
        rw [h'] at h
        rw [addObject_ok _ _ _ _ (Or.inl hn)]
        exact equationsLoop_overwrite parse num ow es _ _ h

theorem equationsLoop_append (parse : Option (Parser E)) (num : Option ModelObject) :
    ∀ (es es' : List Equation) (r r' : Reg E), addEquationsLoop parse num r (es ++ es') false = (r', .ok ()) →
      ∃ r1, addEquationsLoop parse num r es false = (r1, .ok ()) ∧
        addEquationsLoop parse num r1 es' false = (r', .ok ())
  | [], es', r, r', h => ⟨r, rfl, h⟩
  | e :: es, es', r, r', h => by
    rw [List.cons_append, addEquationsLoop] at h
    rw [addEquationsLoop]
    cases hq : makeEquation parse r num e with
    | error x => rw [hq] at h; cases h
    | ok q =>
      rw [hq] at h
      dsimp only at h ⊢
      cases hd : addObject StoredEq.name r.equations q false with
      | error x => rw [hd] at h; cases h
      | ok d =>
        rw [hd] at h
        exact equationsLoop_append parse num es es' _ _ h

theorem equations_run (parse : Option (Parser E)) (num : Option ModelObject) :
    ∀ (chunks : List (List Equation × Bool)) (r r' : Reg E),
      addEquationsLoop parse num r (chunks.flatMap Prod.fst) false = (r', .ok ()) →
      runOps parse num r (chunks.map equationsCall) = r'
  | [], r, r', h => by
    simp only [List.flatMap_nil, addEquationsLoop, Prod.mk.injEq, and_true] at h
    simpa [runOps] using h
  | c :: cs, r, r', h => by
    rw [List.flatMap_cons] at h
    obtain ⟨r1, h1, h2⟩ := equationsLoop_append parse num _ _ _ _ h
    have ih := equations_run parse num cs r1 r' h2
    unfold runOps at ih ⊢
    rw [List.map_cons, List.foldl_cons]
    have : (addStep parse num r (equationsCall c)).1 = r1 := by
      simp only [equationsCall, addStep, addEquations, ensureSeq, mapM_validateEquation]
      rw [equationsLoop_overwrite parse num c.2 _ _ _ h1]
    rw [this, ih]

/-- **C99 (what is registered).**  A model made without any object and completed by calls – the variables and
parameters in any chunks and mixed in any way, then the equations in any chunks, each call with or without
`overwrite` – holds the same variables, parameters and equations in the same order as the model that was given all of
them at once. -/
theorem C99_registered (setList : List Str → List Str) (subst : E → Str → Str → E) (parse : Option (Parser E))
    (coords : Coords) (cs : List Declare) (chunks : List (List Equation × Bool)) (m : CGE E)
    (h : construct setList subst parse coords
      (some (.many ((cs.flatMap Declare.vars).map PyArg.variable)))
      (some (.many ((cs.flatMap Declare.params).map PyArg.parameter)))
      (some (.many ((chunks.flatMap Prod.fst).map PyArg.equation))) none = .ok m) :
    ∃ m0, construct setList subst parse coords none none none none = .ok m0 ∧
      (m0.afterAdding parse (cs.map Declare.call ++ chunks.map equationsCall)).reg = m.reg := by
  refine ⟨_, rfl, ?_⟩
  obtain ⟨vs, ps, hvs, hps, hvn, hpn, -⟩ := construct_spec _ _ _ _ _ _ _ _ m h
  have hv : ((cs.flatMap Declare.vars).map ModelObject.name).Nodup := by
    rcases hvs with ⟨h1, -⟩ | h1
    · cases h1
    · injection h1 with h1
      injection h1 with h1
      have : cs.flatMap Declare.vars = vs := List.map_injective_iff.2 (fun a b hab => by injection hab) h1
      rwa [this]
  have hp : ((cs.flatMap Declare.params).map ModelObject.name).Nodup := by
    rcases hps with ⟨h1, -⟩ | h1
    · cases h1
    · injection h1 with h1
      injection h1 with h1
      have : cs.flatMap Declare.params = ps := List.map_injective_iff.2 (fun a b hab => by injection hab) h1
      rwa [this]
  have hrun := declare_run parse (none : Option ModelObject) ([] : Dict Str (StoredEq E)) cs [] [] (by simpa using hv)
    (by simpa using hp)
  simp only [List.map_nil, List.nil_append] at hrun
  have e1 : initVariables (E := E) (some (.many ((cs.flatMap Declare.vars).map PyArg.variable)))
      = .ok ⟨(cs.flatMap Declare.vars).map fun o => (o.name, o), [], []⟩ := by
    have := addObjects_fresh [] (cs.flatMap Declare.vars) false (by simpa using hv)
    simp only [List.map_nil, List.nil_append] at this
    simp only [initVariables, addVariables, ensureSeq, mapM_validateVariable, orRaise, this, Except.map]
  have e2 : initParameters (E := E) ⟨(cs.flatMap Declare.vars).map fun o => (o.name, o), [], []⟩
        (some (.many ((cs.flatMap Declare.params).map PyArg.parameter)))
      = .ok ⟨(cs.flatMap Declare.vars).map fun o => (o.name, o),
          (cs.flatMap Declare.params).map fun o => (o.name, o), []⟩ := by
    have := addObjects_fresh [] (cs.flatMap Declare.params) false (by simpa using hp)
    simp only [List.map_nil, List.nil_append] at this
    simp only [initParameters, addParameters, ensureSeq, mapM_validateParameter, orRaise, this, Except.map]
  unfold construct at h
  simp only [bind, Except.bind, e1] at h
  cases hu : initUnpack setList coords (some (.many ((cs.flatMap Declare.vars).map PyArg.variable))) with
  | error e => rw [hu] at h; cases h
  | ok uv =>
    rw [hu] at h
    simp only [initNumeraire, e2] at h
    cases hup : initUnpack setList coords (some (.many ((cs.flatMap Declare.params).map PyArg.parameter))) with
    | error e => rw [hup] at h; cases h
    | ok up =>
      rw [hup] at h
      dsimp only at h
      cases he : addEquationsLoop parse none (⟨(cs.flatMap Declare.vars).map fun o => (o.name, o),
          (cs.flatMap Declare.params).map fun o => (o.name, o), []⟩ : Reg E) (chunks.flatMap Prod.fst) false with
      | mk r3 res =>
        have e3 : initEquations parse none (⟨(cs.flatMap Declare.vars).map fun o => (o.name, o),
            (cs.flatMap Declare.params).map fun o => (o.name, o), []⟩ : Reg E)
            (some (.many ((chunks.flatMap Prod.fst).map PyArg.equation))) = res.map fun _ => r3 := by
          simp only [initEquations, addEquations, ensureSeq, mapM_validateEquation, orRaise, he]
        rw [e3] at h
        cases res with
        | error e => cases h
        | ok u =>
          cases u
          simp only [Except.map] at h
          have hm : m.reg = r3 := by
            revert h
            cases initEqNames subst parse coords r3
              (some (.many ((chunks.flatMap Prod.fst).map PyArg.equation))) with
            | error e => intro h; cases h
            | ok ue =>
              dsimp only
              split
              · intro h; cases h
              · intro h
                injection h with h
                rw [← h]
                rfl
          rw [hm]
          have hq := equations_run parse none chunks _ _ he
          show runOps parse none ⟨[], [], []⟩ (cs.map Declare.call ++ chunks.map equationsCall) = r3
          unfold runOps at hrun hq ⊢
          rw [List.foldl_append, hrun, hq]

/-- Two variables, one of them indexed, and a parameter are declared in two calls; two equations are added in two
more. -/
def sbsDeclare : List Declare :=
  [.variables [{ name := "x", dims := ["i"] }, { name := "y" }] false, .parameter { name := "p" } true]

def sbsEquations : List (List Equation × Bool) :=
  [([⟨"eq <dim:i>", "x = p"⟩], false), ([⟨"eq2", "y = 1"⟩], true)]

def sbsParse : Option (Parser Unit) :=
  some fun _ _ _ e => .ok ((), if e.name = "eq <dim:i>".toList then ["i".toList] else [])

theorem sbs_construct : ∃ m : CGE Unit, construct id (fun e _ _ => e) sbsParse [("i".toList, ["a".toList, "b".toList])]
      (some (.many ((sbsDeclare.flatMap Declare.vars).map PyArg.variable)))
      (some (.many ((sbsDeclare.flatMap Declare.params).map PyArg.parameter)))
      (some (.many ((sbsEquations.flatMap Prod.fst).map PyArg.equation))) none = .ok m ∧ m.nVariables ≠ 0 :=
  ⟨_, rfl, by decide⟩

example : ∃ (m m0 : CGE Unit),
    construct id (fun e _ _ => e) sbsParse [("i".toList, ["a".toList, "b".toList])] none none none none = .ok m0 ∧
    (m0.afterAdding sbsParse (sbsDeclare.map Declare.call ++ sbsEquations.map equationsCall)).reg = m.reg ∧
    m.nVariables ≠ 0 := by
  obtain ⟨m, h, hm⟩ := sbs_construct
  obtain ⟨m0, h0, hr⟩ := C99_registered _ _ _ _ sbsDeclare sbsEquations m h
  exact ⟨m, m0, h0, hr, hm⟩

/-! ## What is not brought up to date -/

theorem mem_dset_cases {V : Type _} : ∀ (d : Dict Str V) (k : Str) (v : V) (p : Str × V), p ∈ dset d k v →
    p = (k, v) ∨ p ∈ d
  | [], k, v, p, h => Or.inl (by simpa [dset] using h)
  | (k', v') :: d, k, v, p, h => by
    rw [dset] at h
    split at h
    · rcases List.mem_cons.1 h with h | h
      · left; rw [h]; simp_all
      · exact Or.inr (List.mem_cons_of_mem _ h)
    · rcases List.mem_cons.1 h with h | h
      · exact Or.inr (by rw [h]; exact List.mem_cons_self)
      · rcases mem_dset_cases d k v p h with h | h
        · exact Or.inl h
        · exact Or.inr (List.mem_cons_of_mem _ h)

theorem mem_dupdate_cases {V : Type _} : ∀ (e : List (Str × V)) (d : Dict Str V) (p : Str × V), p ∈ dupdate d e →
    p ∈ e ∨ p ∈ d
  | [], d, p, h => Or.inr h
  | q :: e, d, p, h => by
    rw [dupdate_cons] at h
    rcases mem_dupdate_cases e _ p h with h | h
    · exact Or.inl (List.mem_cons_of_mem _ h)
    · rcases mem_dset_cases _ _ _ _ h with h | h
      · exact Or.inl (by rw [h]; exact List.mem_cons_self)
      · exact Or.inr h

theorem unpackGroup_named (setList : List Str → List Str) (coords : Coords) (objs : List ModelObject)
    (D : Dict Str ModelObject) (h : unpackGroup setList coords objs = .ok D) :
    (dkeys D).Nodup ∧ ∀ p ∈ D, makeIndexedName p.2 = p.1 := by
  unfold unpackGroup at h
  cases hu : unpackObjects setList coords objs with
  | error e => rw [hu] at h; cases h
  | ok us =>
    rw [hu] at h
    injection h with h
    subst h
    refine ⟨nodup_dkeys_dofPairs _, ?_⟩
    intro p hp
    rcases mem_dupdate_cases _ _ _ hp with hz | hp
    · clear hu hp
      induction us with
      | nil => cases hz
      | cons u us ih =>
        rw [List.map_cons, List.zip_cons_cons] at hz
        rcases List.mem_cons.1 hz with rfl | hz
        · rfl
        · exact ih hz
    · cases hp

theorem unpacked_lookup (D : Dict Str ModelObject) (hn : (dkeys D).Nodup) :
    (dkeys D).mapM (dgetE D) = .ok (dvalues D) := by
  refine mapM_dgetE_of_mem D hn _ _ (by simp [dkeys, dvalues]) ?_
  have : (dkeys D).zip (dvalues D) = D := by
    clear hn
    induction D with
    | nil => rfl
    | cons p D ih =>
      simp only [dkeys, dvalues, List.map_cons, List.zip_cons_cons] at ih ⊢
      rw [ih]
  rw [this]
  exact fun p hp => hp

/-- **C99 (the listings).**  In every model that was constructed, whatever was added since, the unpacked variables
belong to the unpacked names in order, no name is listed twice, and their number is `n_variables`; likewise for the
parameters; the unpacked equations are as many as `n_equations` says, and as many as the unpacked variables. -/
theorem C99_listings (setList : List Str → List Str) (subst : E → Str → Str → E) (parse : Option (Parser E))
    (coords : Coords) (vs ps es : Option SeqArg) (numeraire : Option NumArg) (m : CGE E)
    (h : construct setList subst parse coords vs ps es numeraire = .ok m) (ops : List AddOp) :
    (∃ us, (m.afterAdding parse ops).unpackedVariableObjs = .ok us ∧
      us.map makeIndexedName = (m.afterAdding parse ops).unpackedVariableNames ∧
      us.length = (m.afterAdding parse ops).nVariables ∧ (us.map makeIndexedName).Nodup) ∧
    (∃ us, (m.afterAdding parse ops).unpackedParameterObjs = .ok us ∧
      us.map makeIndexedName = (m.afterAdding parse ops).unpackedParameterNames ∧
      us.length = (m.afterAdding parse ops).nParameters ∧ (us.map makeIndexedName).Nodup) ∧
    (m.afterAdding parse ops).unpackedEquationNames.length = (m.afterAdding parse ops).nEquations ∧
    (m.afterAdding parse ops).nEquations = (m.afterAdding parse ops).nVariables ∧
    (m.afterAdding parse ops).unpackedEquationList parse
      = if parse.isSome then .ok (m.afterAdding parse ops).unpackedEquationNames else .error .notImplemented := by
  obtain ⟨_, _, -, -, -, -, -, hgv, hgp, -, hlen, hnv, hne, hnp, -⟩ := construct_spec _ _ _ _ _ _ _ _ m h
  have key : ∀ (objs : List ModelObject) (D : Dict Str ModelObject), unpackGroup setList coords objs = .ok D →
      ∃ us, (dkeys D).mapM (dgetE D) = .ok us ∧ us.map makeIndexedName = dkeys D ∧ us.length = D.length ∧
        (us.map makeIndexedName).Nodup := by
    intro objs D hD
    obtain ⟨hn, hnames⟩ := unpackGroup_named _ _ _ _ hD
    have hk : (dvalues D).map makeIndexedName = dkeys D := by
      simp only [dvalues, dkeys, List.map_map]
      exact List.map_congr_left fun p hp => hnames p hp
    exact ⟨dvalues D, unpacked_lookup D hn, hk, by simp [dvalues], by rw [hk]; exact hn⟩
  obtain ⟨us, h1, h2, h3, h4⟩ := key _ _ hgv
  obtain ⟨us', h1', h2', h3', h4'⟩ := key _ _ hgp
  refine ⟨⟨us, h1, h2, h3.trans hnv.symm, h4⟩, ⟨us', h1', h2', h3'.trans hnp.symm, h4'⟩, hne.symm, ?_, ?_⟩
  · exact (hne.trans hlen.symm).trans hnv.symm
  · cases parse <;> rfl

example : ∃ m : CGE Unit, m.nVariables ≠ 0 ∧ ∀ ops : List AddOp, ∃ us,
    (m.afterAdding sbsParse ops).unpackedVariableObjs = .ok us ∧ us.length = (m.afterAdding sbsParse ops).nVariables := by
  obtain ⟨m, h, hm⟩ := sbs_construct
  refine ⟨m, hm, fun ops => ?_⟩
  obtain ⟨⟨us, h1, -, h2, -⟩, -⟩ := C99_listings _ _ _ _ _ _ _ _ m h ops
  exact ⟨us, h1, h2⟩

/-- **C99 (nothing added is unpacked).**  No sequence of calls changes the unpacked names, objects and equations, the
three counts, or any answer of `get_symbol` and `get_unpacked_parent_object`. -/
theorem C99_unpacked_unchanged (parse : Option (Parser E)) (m : CGE E) (ops : List AddOp) :
    (m.afterAdding parse ops).unpackedVariableNames = m.unpackedVariableNames ∧
    (m.afterAdding parse ops).unpackedVariableObjs = m.unpackedVariableObjs ∧
    (m.afterAdding parse ops).unpackedParameterNames = m.unpackedParameterNames ∧
    (m.afterAdding parse ops).unpackedParameterObjs = m.unpackedParameterObjs ∧
    (m.afterAdding parse ops).unpackedEquationNames = m.unpackedEquationNames ∧
    (m.afterAdding parse ops).nVariables = m.nVariables ∧ (m.afterAdding parse ops).nEquations = m.nEquations ∧
    (m.afterAdding parse ops).nParameters = m.nParameters ∧
    (∀ names, getSymbolNames (m.afterAdding parse ops) names = getSymbolNames m names) ∧
    (∀ n, getUnpackedParent (m.afterAdding parse ops) n = getUnpackedParent m n) :=
  ⟨rfl, rfl, rfl, rfl, rfl, rfl, rfl, rfl, fun _ => rfl, fun _ => rfl⟩

example : ∃ m : CGE Unit, m.nVariables ≠ 0 ∧
    (m.afterAdding sbsParse [.variable (.variable { name := "z" }) false]).unpackedVariableNames
      = m.unpackedVariableNames ∧
    (m.afterAdding sbsParse [.variable (.variable { name := "z" }) false]).variableNames ≠ m.variableNames :=
  ⟨_, sbs_construct.choose_spec.2, (C99_unpacked_unchanged _ _ _).1, by
    have h := sbs_construct.choose_spec.1
    intro hk
    revert hk
    generalize sbs_construct.choose = m at h
    injection h with h
    rw [← h]
    decide⟩

/-- **C99 (negation).**  Hence for *every* model with at least one scalar variable the one completed by calls is not
the same model: it holds the same objects, but has no unpacked variables, counts zero variables and equations, and
`get_symbol` refuses every name. -/
theorem C99_not_the_same (setList : List Str → List Str) (subst : E → Str → Str → E) (parse : Option (Parser E))
    (coords : Coords) (cs : List Declare) (chunks : List (List Equation × Bool)) (m : CGE E)
    (h : construct setList subst parse coords
      (some (.many ((cs.flatMap Declare.vars).map PyArg.variable)))
      (some (.many ((cs.flatMap Declare.params).map PyArg.parameter)))
      (some (.many ((chunks.flatMap Prod.fst).map PyArg.equation))) none = .ok m) (hpos : m.nVariables ≠ 0) :
    ∃ m0, construct setList subst parse coords none none none none = .ok m0 ∧
      (m0.afterAdding parse (cs.map Declare.call ++ chunks.map equationsCall)).reg = m.reg ∧
      (m0.afterAdding parse (cs.map Declare.call ++ chunks.map equationsCall)).nVariables = 0 ∧
      (m0.afterAdding parse (cs.map Declare.call ++ chunks.map equationsCall)).nEquations = 0 ∧
      (m0.afterAdding parse (cs.map Declare.call ++ chunks.map equationsCall)).unpackedVariableNames = [] ∧
      (∀ n, getSymbolNames (m0.afterAdding parse (cs.map Declare.call ++ chunks.map equationsCall)) [n]
        = .error .valueError) ∧
      ∃ n, n ∈ m.unpackedVariableNames ∧ ∃ f, getSymbolNames m [n] = .ok f := by
  obtain ⟨m0, h0, hreg⟩ := C99_registered setList subst parse coords cs chunks m h
  have hm0 := h0
  have h00 : m0 = ⟨coords, {}, none, [], [], [], 0, 0, 0⟩ := by
    injection h0 with h0
    rw [← h0]
    rfl
  refine ⟨m0, hm0, hreg, by rw [h00]; rfl, by rw [h00]; rfl, by rw [h00]; rfl, fun n => by rw [h00]; rfl, ?_⟩
  obtain ⟨vs, ps, -, -, -, -, -, -, -, -, -, hnv, -⟩ := construct_spec _ _ _ _ _ _ _ _ m h
  rw [hnv] at hpos
  cases hD : m.unpackedVariables with
  | nil => rw [hD] at hpos; exact absurd rfl hpos
  | cons p D =>
    have hk : p.1 ∈ dkeys m.unpackedVariables := by rw [hD]; simp [dkeys]
    refine ⟨p.1, hk, ?_⟩
    obtain ⟨o, ho⟩ := (mem_dkeys_iff _ _).1 hk
    unfold getSymbolNames
    rw [List.mapM_cons]
    unfold getSymbolOne
    cases hp : dget m.unpackedParameters p.1 with
    | some o' => exact ⟨_, rfl⟩
    | none => rw [ho]; exact ⟨_, rfl⟩

example : ∃ m0 : CGE Unit,
    (m0.afterAdding sbsParse (sbsDeclare.map Declare.call ++ sbsEquations.map equationsCall)).nVariables = 0 := by
  obtain ⟨m, h, hm⟩ := sbs_construct
  obtain ⟨m0, -, -, h0, -⟩ := C99_not_the_same _ _ _ _ sbsDeclare sbsEquations m h hm
  exact ⟨m0, h0⟩

/-- **C99 (one more variable).**  A new scalar variable added to a constructed model is found by `get`, but its symbol
is not: `get_symbol` and `get_unpacked_parent_object` raise `ValueError`. -/
theorem C99_added_variable (parse : Option (Parser E)) (m : CGE E) (o : ModelObject)
    (hn : o.name ∉ m.variableNames) (hv : o.name ∉ m.unpackedVariableNames) (hp : o.name ∉ m.unpackedParameterNames)
    (ow : Bool) :
    getNames (m.afterAdding parse [.variable (.variable o) ow]).reg [o.name] = .ok (.single (.variable o)) ∧
    getSymbolNames (m.afterAdding parse [.variable (.variable o) ow]) [o.name] = .error .valueError ∧
    getUnpackedParent (m.afterAdding parse [.variable (.variable o) ow]) o.name = .error .valueError := by
  have hreg : (m.afterAdding parse [.variable (.variable o) ow]).reg
      = { m.reg with «variables» := dset m.reg.«variables» o.name o } := by
    show (addStep parse m.numeraire m.reg (.variable (.variable o) ow)).1 = _
    simp only [addStep, addVariable, validateVariable, addObject_ok ModelObject.name m.reg.«variables» o ow (Or.inl hn)]
  have h1 : dget m.unpackedVariables o.name = none := (dget_eq_none_iff _ _).2 hv
  have h2 : dget m.unpackedParameters o.name = none := (dget_eq_none_iff _ _).2 hp
  refine ⟨?_, ?_, ?_⟩
  · rw [hreg]
    unfold getNames
    rw [List.mapM_cons]
    unfold getOne
    rw [dget_dset_self]
    rfl
  · show getSymbolNames m [o.name] = _
    unfold getSymbolNames
    rw [List.mapM_cons]
    unfold getSymbolOne
    rw [h1, h2]
    rfl
  · show getUnpackedParent m o.name = _
    unfold getUnpackedParent
    rw [h1, h2]

example : getSymbolNames ((⟨[], {}, none, [], [], [], 0, 0, 0⟩ : CGE Unit).afterAdding none
    [.variable (.variable { name := "z" }) false]) ["z".toList] = .error .valueError :=
  (C99_added_variable none _ { name := "z" } (by decide) (by decide) (by decide) false).2.1

/-- **C99 (one more equation, array texts).**  On the pytensor back-end the residual vector is required to have the
length counted at construction: when the model as constructed (equations `es`) has residuals at some data, and the
equations added since (`es'`) have any residual there, every call with these data raises `AssertionError`. -/
theorem C99_added_equation (inputs : List Str) (nEq : Nat) (es es' : List PExpr) (d : Dict Str (NDArray ℝ))
    (v : List ℝ) (h : callTextSystem inputs nEq es d = .ok v) (arrs' : List Arr)
    (h' : es'.mapM (evalArr fun x => (lookupName d x).map Arr.ofNDArray) = .ok arrs')
    (hne : arrs'.flatMap Arr.entries ≠ []) :
    callTextSystem inputs nEq (es ++ es') d = .error .assertion := by
  unfold callTextSystem at h ⊢
  split at h
  · cases h
  · rename_i hk
    rw [if_neg hk]
    simp only [bind, Except.bind] at h ⊢
    rw [List.mapM_append, h']
    cases ha : es.mapM (evalArr fun x => (lookupName d x).map Arr.ofNDArray) with
    | error e => rw [ha] at h; cases h
    | ok arrs =>
      rw [ha] at h
      simp only [bind, Except.bind, pure, Except.pure] at h ⊢
      cases arrs with
      | nil => cases h
      | cons a arrs =>
        simp only [flattenEquations, List.map_cons, npConcatenate, List.cons_append] at h ⊢
        split at h
        · rename_i hl
          rw [if_neg]
          intro hl'
          apply hne
          have : (arrs'.flatMap Arr.entries).length = 0 := by
            simp only [List.flatten_cons, List.length_append, List.map_append, List.flatten_append, List.map_map,
              Function.comp_def, List.flatMap, List.length_flatten] at hl hl' ⊢
            omega
          exact List.eq_nil_of_length_eq_zero this
        · cases h

example : callTextSystem ["x".toList] 1 ([PExpr.var "x".toList] ++ [.sub (.var "x".toList) (.num "1".toList)])
    [("x".toList, ⟨[], [2]⟩)] = .error .assertion := by
  refine C99_added_equation _ 1 _ _ _ [2] ?_ _ rfl ?_
  · rfl
  · simp [Arr.entries, Arr.const, product]

/-- **C99 (one more variable, numba).**  The numba functions of a model are written for the unpacked names.  After a
new variable with at least one entry is added, the flat vector of the variables is longer than these names, and the
residual function refuses it, whatever the parameters are. -/
theorem C99_added_variable_numba (setList : List Str → List Str) (subst : E → Str → Str → E)
    (parse : Option (Parser E)) (coords : Coords) (vs ps es : Option SeqArg) (m : CGE E)
    (h : construct setList subst parse coords vs ps es none = .ok m)
    (hv : ∀ us, unpackObjects setList coords m.variables = .ok us → (us.map makeIndexedName).Nodup)
    (o : ModelObject) (hn : o.name ∉ m.variableNames) (hpos : totalSize coords [o] ≠ 0) (ow : Bool)
    (eqs : List (SymExpr Str)) (x theta : List ℝ)
    (hx : x.length = totalSize coords (m.afterAdding parse [.variable (.variable o) ow]).variables) :
    ∃ K, compileNumba m.unpackedVariableNames eqs = .ok K ∧
      callNumba m.unpackedVariableNames m.unpackedParameterNames K.system x theta = .error .assertion := by
  obtain ⟨vs', ps', -, -, -, -, -, hgv, -, -, -, -, -, -, -, hnum⟩ := construct_spec _ _ _ _ _ _ _ _ m h
  have hvars : m.variables = vs' := by
    rcases hnum with ⟨-, -, h1⟩ | ⟨n, o, h1, _⟩
    · unfold CGE.variables; rw [h1]; simp [dvalues, Function.comp_def]
    · cases h1
  have hnew : (m.afterAdding parse [.variable (.variable o) ow]).variables = m.variables ++ [o] := by
    show dvalues (addStep parse m.numeraire m.reg (.variable (.variable o) ow)).1.«variables» = _
    simp only [addStep, addVariable, validateVariable, addObject_ok ModelObject.name m.reg.«variables» o ow (Or.inl hn)]
    rw [dset_of_not_mem _ _ _ hn]
    simp [CGE.variables, dvalues]
  have hlen : m.unpackedVariables.length = totalSize coords m.variables := by
    rw [hvars] at hv ⊢
    cases hu : unpackObjects setList coords vs' with
    | error e => unfold unpackGroup at hgv; rw [hu] at hgv; cases hgv
    | ok us => exact unpackGroup_length setList coords vs' us _ hu (hv us hu) hgv
  have hne : x.length ≠ m.unpackedVariableNames.length := by
    rw [hx, hnew]
    have : totalSize coords (m.variables ++ [o]) = totalSize coords m.variables + totalSize coords [o] := by
      simp [totalSize]
    rw [this, CGE.unpackedVariableNames, dkeys, List.length_map, hlen]
    omega
  obtain ⟨hp, -, hK⟩ := compileNumba_ok m.unpackedVariableNames eqs
  refine ⟨_, hK, ?_⟩
  unfold callNumba
  rw [C55_length_checked _ _ _ _ (Or.inl hne)]
  rfl

example : ∃ m : CGE Unit, ∀ (eqs : List (SymExpr Str)) (x theta : List ℝ), x.length = 4 →
    ∃ K, compileNumba m.unpackedVariableNames eqs = .ok K ∧
      callNumba m.unpackedVariableNames m.unpackedParameterNames K.system x theta = .error .assertion := by
  obtain ⟨m, h, -⟩ := sbs_construct
  refine ⟨m, fun eqs x theta hx => ?_⟩
  have hm := h
  injection hm with hm
  refine C99_added_variable_numba _ _ _ _ _ _ _ m h ?_ { name := "z" } ?_ (by decide) false eqs x theta ?_
  · intro us hus
    rw [← hm] at hus
    injection hus with hus
    rw [← hus]
    decide
  · rw [← hm]; decide
  · rw [hx, ← hm]; decide

end Verif
