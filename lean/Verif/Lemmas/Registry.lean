import Verif.Model.Registry
import Verif.Spec.Registry
import Verif.Lemmas.Expand

namespace Verif

section Group

variable {O : Type _} (nameOf : O → Str)

theorem addObject_ok (d : Dict Str O) (o : O) (ow : Bool) (h : nameOf o ∉ dkeys d ∨ ow = true) :
    addObject nameOf d o ow = .ok (dset d (nameOf o) o) := by
  unfold addObject
  rw [if_neg]
  · rfl
  · rintro ⟨h1, h2⟩
    rcases h with h | h
    · exact h h1
    · rw [h] at h2; cases h2

theorem addObject_error (d : Dict Str O) (o : O) (h : nameOf o ∈ dkeys d) :
    addObject nameOf d o false = .error .valueError := by
  unfold addObject
  rw [if_pos ⟨h, rfl⟩]

theorem addObject_cases (d : Dict Str O) (o : O) (ow : Bool) :
    (addObject nameOf d o ow = .error .valueError ∧ nameOf o ∈ dkeys d ∧ ow = false) ∨
    addObject nameOf d o ow = .ok (dset d (nameOf o) o) := by
  by_cases h : nameOf o ∈ dkeys d ∧ ow = false
  · left
    exact ⟨by unfold addObject; rw [if_pos h], h.1, h.2⟩
  · right
    unfold addObject
    rw [if_neg h]
    rfl

theorem dkeys_dset_prefix (d : Dict Str O) (k : Str) (v : O) : dkeys d <+: dkeys (dset d k v) := by
  rw [dkeys_dset]
  split
  · exact List.prefix_rfl
  · exact List.prefix_append _ _

theorem addObjects_prefix (d : Dict Str O) (os : List O) (ow : Bool) :
    dkeys d <+: dkeys (addObjects nameOf d os ow).1 := by
  induction os generalizing d with
  | nil => exact List.prefix_rfl
  | cons o os ih =>
    rw [addObjects]
    rcases addObject_cases nameOf d o ow with ⟨h, -, -⟩ | h <;> rw [h]
    · exact List.prefix_rfl
    · exact (dkeys_dset_prefix d _ _).trans (ih _)

theorem addObjects_nodup (d : Dict Str O) (os : List O) (ow : Bool) (hd : (dkeys d).Nodup) :
    (dkeys (addObjects nameOf d os ow).1).Nodup := by
  induction os generalizing d with
  | nil => exact hd
  | cons o os ih =>
    rw [addObjects]
    rcases addObject_cases nameOf d o ow with ⟨h, -, -⟩ | h <;> rw [h]
    · exact hd
    · exact ih _ (nodup_dkeys_dset d _ _ hd)

theorem map_name_dset (d : Dict Str O) (o : O) (h : (dvalues d).map nameOf = dkeys d) :
    (dvalues (dset d (nameOf o) o)).map nameOf = dkeys (dset d (nameOf o) o) := by
  induction d with
  | nil => rfl
  | cons p d ih =>
    obtain ⟨k, v⟩ := p
    simp only [dvalues, dkeys, List.map_cons, List.cons.injEq] at h
    rw [dset]
    split
    · rename_i hk
      simp only [dvalues, dkeys, List.map_cons, List.cons.injEq]
      exact ⟨hk.symm, h.2⟩
    · simp only [dvalues, dkeys, List.map_cons, List.cons.injEq]
      exact ⟨h.1, ih h.2⟩

theorem addObjects_names (d : Dict Str O) (os : List O) (ow : Bool)
    (h : (dvalues d).map nameOf = dkeys d) :
    (dvalues (addObjects nameOf d os ow).1).map nameOf = dkeys (addObjects nameOf d os ow).1 := by
  induction os generalizing d with
  | nil => exact h
  | cons o os ih =>
    rw [addObjects]
    rcases addObject_cases nameOf d o ow with ⟨h', -, -⟩ | h' <;> rw [h']
    · exact h
    · exact ih _ (map_name_dset nameOf d o h)

/-- A successful addition: the new names come after the old ones, in order, and each name now stands for
the last object given under it. -/
theorem addObjects_success (d : Dict Str O) (os : List O) (ow : Bool)
    (hs : (addObjects nameOf d os ow).2 = .ok ()) :
    dkeys (addObjects nameOf d os ow).1 = dkeys d ++ firstAdded (dkeys d) (os.map nameOf) ∧
    (∀ n, dget (addObjects nameOf d os ow).1 n = (lastNamed nameOf os n).or (dget d n)) := by
  induction os generalizing d with
  | nil => exact ⟨by simp [addObjects, firstAdded], fun n => rfl⟩
  | cons o os ih =>
    rw [addObjects] at hs ⊢
    rcases addObject_cases nameOf d o ow with ⟨h', -, -⟩ | h' <;> rw [h'] at hs ⊢
    · cases hs
    · obtain ⟨h1, h2⟩ := ih _ hs
      constructor
      · show dkeys (addObjects nameOf (dset d (nameOf o) o) os ow).1 = _
        rw [h1, dkeys_dset, List.map_cons, firstAdded]
        split
        · rfl
        · rw [List.append_assoc]; rfl
      · intro n
        show dget (addObjects nameOf (dset d (nameOf o) o) os ow).1 n = _
        rw [h2, dget_dset]
        unfold lastNamed
        rw [List.filter_cons]
        by_cases hn : nameOf o = n
        · simp only [hn, decide_true, if_true]
          rw [List.getLast?_cons]
          cases (List.filter (fun o => decide (nameOf o = n)) os).getLast? <;> simp
        · simp [hn]

/-- A failed addition: what was stored is what adding the objects before the offending one stores. -/
theorem addObjects_failure (d : Dict Str O) (os : List O) (ow : Bool) (e : PyErr)
    (hs : (addObjects nameOf d os ow).2 = .error e) :
    ow = false ∧ e = .valueError ∧ ∃ (k : Nat) (o : O), os[k]? = some o ∧
      (nameOf o ∈ dkeys d ∨ nameOf o ∈ (os.take k).map nameOf) ∧
      (addObjects nameOf d (os.take k) ow).2 = .ok () ∧
      (addObjects nameOf d os ow).1 = (addObjects nameOf d (os.take k) ow).1 := by
  induction os generalizing d with
  | nil => cases hs
  | cons o os ih =>
    rcases addObject_cases nameOf d o ow with ⟨h', h'', hf⟩ | h'
    · refine ⟨hf, ?_, 0, o, rfl, Or.inl h'', rfl, ?_⟩
      · rw [addObjects, h'] at hs; injection hs with hs; exact hs.symm
      · rw [addObjects, h']; rfl
    · rw [addObjects, h'] at hs
      obtain ⟨h1, h2, k, q, h3, h4, h5, h6⟩ := ih _ hs
      refine ⟨h1, h2, k + 1, q, by simpa using h3, ?_, ?_, ?_⟩
      · rw [mem_dkeys_dset] at h4
        rw [List.take_succ_cons, List.map_cons, List.mem_cons]
        rcases h4 with (h4 | h4) | h4
        · first | exact Or.inr (Or.inl h4) | exact Or.inl h4
        · first | exact Or.inl h4 | exact Or.inr (Or.inl h4)
        · exact Or.inr (Or.inr h4)
      · rw [List.take_succ_cons, addObjects, h']; exact h5
      · rw [List.take_succ_cons, addObjects, addObjects, h']; exact h6

end Group

variable {E : Type _}

theorem makeEquation_name (parse : Option (Parser E)) (r : Reg E) (num : Option ModelObject)
    (e : Equation) (q : StoredEq E) (h : makeEquation parse r num e = .ok q) : q.name = e.name := by
  unfold makeEquation at h
  cases parse with
  | none => injection h with h; rw [← h]; rfl
  | some p =>
    cases hp : p r.variables r.parameters num e with
    | error x => simp only [hp, Except.map] at h; cases h
    | ok out => simp only [hp, Except.map] at h; injection h with h; rw [← h]; rfl

theorem addEquationsLoop_eq (parse : Option (Parser E)) (num : Option ModelObject) (r : Reg E)
    (es : List Equation) (ow : Bool) :
    ∃ qs : List (StoredEq E), qs.map StoredEq.name <+: es.map Equation.name ∧
      (addEquationsLoop parse num r es ow).1
        = { r with equations := (addObjects StoredEq.name r.equations qs ow).1 } ∧
      ((addEquationsLoop parse num r es ow).2 = .ok () →
        qs.map StoredEq.name = es.map Equation.name ∧
          (addObjects StoredEq.name r.equations qs ow).2 = .ok ()) := by
  induction es generalizing r with
  | nil => exact ⟨[], List.prefix_rfl, rfl, fun _ => ⟨rfl, rfl⟩⟩
  | cons e es ih =>
    rw [addEquationsLoop]
    cases hq : makeEquation parse r num e with
    | error x => exact ⟨[], List.nil_prefix, rfl, fun h => by cases h⟩
    | ok q =>
      have hn := makeEquation_name parse r num e q hq
      dsimp only
      rcases addObject_cases StoredEq.name r.equations q ow with ⟨h', -, -⟩ | h'
      · rw [h']
        refine ⟨[q], ?_, ?_, fun h => by cases h⟩
        · rw [List.map_cons, List.map_cons, hn]
          exact (List.prefix_cons_inj _).2 List.nil_prefix
        · rw [addObjects, h']
      · rw [h']
        obtain ⟨qs, h1, h2, h3⟩ := ih { r with equations := dset r.equations q.name q }
        refine ⟨q :: qs, ?_, ?_, ?_⟩
        · rw [List.map_cons, List.map_cons, hn]
          exact (List.prefix_cons_inj _).2 h1
        · rw [addObjects, h']; exact h2
        · intro h
          obtain ⟨h4, h5⟩ := h3 h
          refine ⟨by rw [List.map_cons, List.map_cons, h4, hn], ?_⟩
          rw [addObjects, h']; exact h5

/-- Every call acts on each group as adding a list of objects does. -/
theorem addStep_groups (parse : Option (Parser E)) (num : Option ModelObject) (r : Reg E) (op : AddOp) :
    (∃ os ow, (addStep parse num r op).1.variables
        = (addObjects ModelObject.name r.variables os ow).1) ∧
    (∃ os ow, (addStep parse num r op).1.parameters
        = (addObjects ModelObject.name r.parameters os ow).1) ∧
    (∃ qs ow, (addStep parse num r op).1.equations
        = (addObjects StoredEq.name r.equations qs ow).1) := by
  have nilV : ∃ (os : List ModelObject) (ow : Bool), r.variables
      = (addObjects ModelObject.name r.variables os ow).1 := ⟨[], false, rfl⟩
  have nilP : ∃ (os : List ModelObject) (ow : Bool), r.parameters
      = (addObjects ModelObject.name r.parameters os ow).1 := ⟨[], false, rfl⟩
  have nilQ : ∃ (os : List (StoredEq E)) (ow : Bool), r.equations
      = (addObjects StoredEq.name r.equations os ow).1 := ⟨[], false, rfl⟩
  cases op with
  | «variable» a ow =>
    unfold addStep addVariable
    dsimp only
    cases validateVariable a with
    | error e => exact ⟨nilV, nilP, nilQ⟩
    | ok o =>
      dsimp only
      rcases addObject_cases ModelObject.name r.variables o ow with ⟨h', -, -⟩ | h'
      · rw [h']; exact ⟨nilV, nilP, nilQ⟩
      · rw [h']
        refine ⟨⟨[o], ow, ?_⟩, nilP, nilQ⟩
        rw [addObjects, h']; rfl
  | «variables» as ow =>
    unfold addStep addVariables
    dsimp only
    cases (ensureSeq as).mapM validateVariable with
    | error e => exact ⟨nilV, nilP, nilQ⟩
    | ok os => exact ⟨⟨os, ow, rfl⟩, nilP, nilQ⟩
  | parameter a ow =>
    unfold addStep addParameter
    dsimp only
    cases validateParameter a with
    | error e => exact ⟨nilV, nilP, nilQ⟩
    | ok o =>
      dsimp only
      rcases addObject_cases ModelObject.name r.parameters o ow with ⟨h', -, -⟩ | h'
      · rw [h']; exact ⟨nilV, nilP, nilQ⟩
      · rw [h']
        refine ⟨nilV, ⟨[o], ow, ?_⟩, nilQ⟩
        rw [addObjects, h']; rfl
  | parameters as ow =>
    unfold addStep addParameters
    dsimp only
    cases (ensureSeq as).mapM validateParameter with
    | error e => exact ⟨nilV, nilP, nilQ⟩
    | ok os => exact ⟨nilV, ⟨os, ow, rfl⟩, nilQ⟩
  | equations as ow =>
    unfold addStep addEquations
    dsimp only
    cases (ensureSeq as).mapM validateEquation with
    | error e => exact ⟨nilV, nilP, nilQ⟩
    | ok es =>
      dsimp only
      obtain ⟨qs, -, h2, -⟩ := addEquationsLoop_eq parse num r es ow
      rw [h2]
      exact ⟨nilV, nilP, ⟨qs, ow, rfl⟩⟩

/-! ## The constructor -/

theorem validateVariable_many (as : List PyArg) (os : List ModelObject)
    (h : as.mapM validateVariable = .ok os) : as = os.map PyArg.variable := by
  induction as generalizing os with
  | nil => cases h; rfl
  | cons a as ih =>
    rw [List.mapM_cons] at h
    simp only [bind, Except.bind] at h
    cases a with
    | «variable» o =>
      dsimp only [validateVariable] at h
      cases hm : as.mapM validateVariable with
      | error e => rw [hm] at h; cases h
      | ok os' =>
        rw [hm] at h
        cases h
        rw [List.map_cons, ih os' hm]
    | parameter o => cases h
    | equation e => cases h
    | other => cases h

theorem validateParameter_many (as : List PyArg) (os : List ModelObject)
    (h : as.mapM validateParameter = .ok os) : as = os.map PyArg.parameter := by
  induction as generalizing os with
  | nil => cases h; rfl
  | cons a as ih =>
    rw [List.mapM_cons] at h
    simp only [bind, Except.bind] at h
    cases a with
    | parameter o =>
      dsimp only [validateParameter] at h
      cases hm : as.mapM validateParameter with
      | error e => rw [hm] at h; cases h
      | ok os' =>
        rw [hm] at h
        cases h
        rw [List.map_cons, ih os' hm]
    | «variable» o => cases h
    | equation e => cases h
    | other => cases h

/-- Adding without overwriting to the empty group. -/
theorem addObjects_nil {O : Type _} (nameOf : O → Str) (os : List O)
    (h : (addObjects nameOf [] os false).2 = .ok ()) :
    (os.map nameOf).Nodup ∧ (addObjects nameOf [] os false).1 = os.map fun o => (nameOf o, o) := by
  have gen : ∀ (os done : List O), (done.map nameOf).Nodup →
      (addObjects nameOf (done.map fun o => (nameOf o, o)) os false).2 = .ok () →
      ((done ++ os).map nameOf).Nodup ∧
      (addObjects nameOf (done.map fun o => (nameOf o, o)) os false).1
        = (done ++ os).map fun o => (nameOf o, o) := by
    intro os
    induction os with
    | nil => intro done hd _; rw [List.append_nil]; exact ⟨hd, rfl⟩
    | cons o os ih =>
      intro done hd hs
      have hk : dkeys (done.map fun o => (nameOf o, o)) = done.map nameOf := by simp [dkeys]
      by_cases hm : nameOf o ∈ dkeys (done.map fun o => (nameOf o, o))
      · rw [addObjects, addObject_error nameOf _ _ hm] at hs; cases hs
      · have hok := addObject_ok nameOf _ o false (Or.inl hm)
        rw [addObjects, hok] at hs ⊢
        rw [dset_of_not_mem _ _ _ hm] at hs ⊢
        have e1 : (done.map fun o => (nameOf o, o)) ++ [(nameOf o, o)]
            = (done ++ [o]).map fun o => (nameOf o, o) := by simp
        rw [e1] at hs ⊢
        have hd' : ((done ++ [o]).map nameOf).Nodup := by
          rw [hk] at hm
          rw [List.map_append, List.nodup_append]
          refine ⟨hd, by simp, ?_⟩
          intro a ha b hb
          simp only [List.map_cons, List.map_nil, List.mem_singleton] at hb
          rintro rfl
          exact hm (hb ▸ ha)
        have := ih (done ++ [o]) hd' hs
        rw [List.append_assoc] at this
        exact this
  have := gen os [] (by simp) h
  simpa using this

theorem addVariables_nil (a : SeqArg) (r : Reg E) (h : orRaise (addVariables {} a false) = .ok r) :
    ∃ vs : List ModelObject, ensureSeq a = vs.map PyArg.variable ∧ (vs.map ModelObject.name).Nodup ∧
      r = { variables := vs.map fun o => (o.name, o) } := by
  unfold orRaise addVariables at h
  cases hm : (ensureSeq a).mapM validateVariable with
  | error e => rw [hm] at h; simp only [Except.map] at h; cases h
  | ok vs =>
    rw [hm] at h
    dsimp only at h
    cases hs : (addObjects ModelObject.name [] vs false).2 with
    | error e => rw [hs] at h; simp only [Except.map] at h; cases h
    | ok u =>
      cases u
      rw [hs] at h
      simp only [Except.map] at h
      injection h with h
      obtain ⟨h1, h2⟩ := addObjects_nil _ _ hs
      refine ⟨vs, validateVariable_many _ _ hm, h1, ?_⟩
      rw [← h, h2]

theorem addParameters_fresh (a : SeqArg) (r0 r : Reg E) (hr0 : r0.parameters = [])
    (h : orRaise (addParameters r0 a false) = .ok r) :
    ∃ vs : List ModelObject, ensureSeq a = vs.map PyArg.parameter ∧ (vs.map ModelObject.name).Nodup ∧
      r = { r0 with parameters := vs.map fun o => (o.name, o) } := by
  unfold orRaise addParameters at h
  cases hm : (ensureSeq a).mapM validateParameter with
  | error e => rw [hm] at h; simp only [Except.map] at h; cases h
  | ok vs =>
    rw [hm] at h
    dsimp only at h
    rw [hr0] at h
    cases hs : (addObjects ModelObject.name [] vs false).2 with
    | error e => rw [hs] at h; simp only [Except.map] at h; cases h
    | ok u =>
      cases u
      rw [hs] at h
      simp only [Except.map] at h
      injection h with h
      obtain ⟨h1, h2⟩ := addObjects_nil _ _ hs
      refine ⟨vs, validateParameter_many _ _ hm, h1, ?_⟩
      rw [← h, h2]

theorem unpackArg_variables (setList : List Str → List Str) (coords : Coords) (a : SeqArg)
    (vs : List ModelObject) (ha : ensureSeq a = vs.map PyArg.variable) (d : Dict Str ModelObject)
    (h : unpackArg setList coords a = .ok d) :
    a = .many (vs.map PyArg.variable) ∧ unpackGroup setList coords vs = .ok d := by
  cases a with
  | one a => cases h
  | many as =>
    simp only [ensureSeq] at ha
    refine ⟨by rw [ha], ?_⟩
    rw [← h]
    unfold unpackArg
    dsimp only
    rw [ha, List.filterMap_map]
    congr 1
    exact (List.filterMap_some).symm

theorem unpackArg_parameters (setList : List Str → List Str) (coords : Coords) (a : SeqArg)
    (vs : List ModelObject) (ha : ensureSeq a = vs.map PyArg.parameter) (d : Dict Str ModelObject)
    (h : unpackArg setList coords a = .ok d) :
    a = .many (vs.map PyArg.parameter) ∧ unpackGroup setList coords vs = .ok d := by
  cases a with
  | one a => cases h
  | many as =>
    simp only [ensureSeq] at ha
    refine ⟨by rw [ha], ?_⟩
    rw [← h]
    unfold unpackArg
    dsimp only
    rw [ha, List.filterMap_map]
    congr 1
    exact (List.filterMap_some).symm

theorem addEquations_groups (parse : Option (Parser E)) (num : Option ModelObject) (r r' : Reg E)
    (a : SeqArg) (h : orRaise (addEquations parse num r a false) = .ok r') :
    r'.variables = r.variables ∧ r'.parameters = r.parameters := by
  unfold orRaise addEquations at h
  cases hm : (ensureSeq a).mapM validateEquation with
  | error e => rw [hm] at h; simp only [Except.map] at h; cases h
  | ok es =>
    rw [hm] at h
    dsimp only at h
    obtain ⟨qs, -, h2, -⟩ := addEquationsLoop_eq parse num r es false
    cases hs : (addEquationsLoop parse num r es false).2 with
    | error e => rw [hs] at h; simp only [Except.map] at h; cases h
    | ok u =>
      rw [hs] at h
      simp only [Except.map] at h
      injection h with h
      rw [← h, h2]
      exact ⟨rfl, rfl⟩

theorem unpackGroup_nil (setList : List Str → List Str) (coords : Coords) :
    unpackGroup setList coords [] = .ok [] := rfl

theorem unpackEqNames_nil (subst : E → Str → Str → E) (parse : Option (Parser E)) (coords : Coords)
    (r : Reg E) (h : r.equations = []) : unpackEqNames subst parse coords r = .ok [] := by
  unfold unpackEqNames
  cases parse with
  | none => rw [h]; rfl
  | some p => rw [h]; rfl

/-- What a successful construction has done. -/
theorem construct_spec (setList : List Str → List Str) (subst : E → Str → Str → E)
    (parse : Option (Parser E)) (coords : Coords) (variables parameters equations : Option SeqArg)
    (numeraire : Option NumArg) (m : CGE E)
    (h : construct setList subst parse coords variables parameters equations numeraire = .ok m) :
    ∃ vs ps : List ModelObject,
      (variables = none ∧ vs = [] ∨ variables = some (.many (vs.map PyArg.variable))) ∧
      (parameters = none ∧ ps = [] ∨ parameters = some (.many (ps.map PyArg.parameter))) ∧
      (vs.map ModelObject.name).Nodup ∧ (ps.map ModelObject.name).Nodup ∧
      m.coords = coords ∧
      unpackGroup setList coords vs = .ok m.unpackedVariables ∧
      unpackGroup setList coords ps = .ok m.unpackedParameters ∧
      unpackEqNames subst parse coords m.reg = .ok m.unpackedEquationNames ∧
      m.unpackedVariables.length = m.unpackedEquationNames.length ∧
      m.nVariables = m.unpackedVariables.length ∧ m.nEquations = m.unpackedEquationNames.length ∧
      m.nParameters = m.unpackedParameters.length ∧
      m.reg.parameters = (ps.map fun o => (o.name, o)) ∧
      (numeraire = none ∧ m.numeraire = none ∧ m.reg.variables = (vs.map fun o => (o.name, o)) ∨
       ∃ n o, numeraire = some (.name n) ∧ o ∈ vs ∧ o.name = n ∧ m.numeraire = some o ∧
         m.reg.variables = if n = [] then (vs.map fun o => (o.name, o))
           else ddel (vs.map fun o => (o.name, o)) n) := by
  unfold construct at h
  simp only [bind, Except.bind] at h
  -- variables
  obtain ⟨vs, r1, uv, hr1, huv, hv, hvn, hr1v, hgv⟩ : ∃ (vs : List ModelObject) (r1 : Reg E)
      (uv : Dict Str ModelObject),
      initVariables variables = .ok r1 ∧ initUnpack setList coords variables = .ok uv ∧
      (variables = none ∧ vs = [] ∨ variables = some (.many (vs.map PyArg.variable))) ∧
      (vs.map ModelObject.name).Nodup ∧ r1 = { variables := vs.map fun o => (o.name, o) } ∧
      unpackGroup setList coords vs = .ok uv := by
    cases variables with
    | none => exact ⟨[], {}, [], rfl, rfl, Or.inl ⟨rfl, rfl⟩, by simp, rfl, rfl⟩
    | some a =>
      simp only [initVariables, initUnpack, initParameters, initEquations, initEqNames] at h ⊢
      cases hx : orRaise (addVariables ({} : Reg E) a false) with
      | error e => rw [hx] at h; cases h
      | ok r1 =>
        rw [hx] at h
        dsimp only at h
        cases hy : unpackArg setList coords a with
        | error e => rw [hy] at h; cases h
        | ok uv =>
          obtain ⟨vs, h1, h2, h3⟩ := addVariables_nil a r1 hx
          obtain ⟨h4, h5⟩ := unpackArg_variables setList coords a vs h1 uv hy
          exact ⟨vs, r1, uv, rfl, rfl, Or.inr (by rw [h4]), h2, h3, h5⟩
  rw [hr1] at h
  dsimp only at h
  rw [huv] at h
  dsimp only at h
  -- numeraire
  obtain ⟨num, hnum, hnumcase⟩ : ∃ num : Option ModelObject,
      initNumeraire r1 numeraire = .ok num ∧
      (numeraire = none ∧ num = none ∨ ∃ n o, numeraire = some (.name n) ∧ o ∈ vs ∧ o.name = n ∧
        num = some o) := by
    cases numeraire with
    | none => exact ⟨none, rfl, Or.inl ⟨rfl, rfl⟩⟩
    | some na =>
      cases na with
      | object o => cases h
      | name n =>
        simp only [initNumeraire] at h ⊢
        cases hg : dget r1.variables n with
        | none => rw [hg] at h; cases h
        | some o =>
          have hmem := mem_of_dget _ hg
          rw [hr1v] at hmem
          simp only [List.mem_map, Prod.mk.injEq] at hmem
          obtain ⟨o', ho', h1, h2⟩ := hmem
          subst h2
          exact ⟨some o', rfl, Or.inr ⟨n, o', rfl, ho', h1, rfl⟩⟩
  rw [hnum] at h
  dsimp only at h
  -- parameters
  obtain ⟨ps, r2, up, hr2, hup, hp, hpn, hr2v, hgp⟩ : ∃ (ps : List ModelObject) (r2 : Reg E)
      (up : Dict Str ModelObject),
      initParameters r1 parameters = .ok r2 ∧ initUnpack setList coords parameters = .ok up ∧
      (parameters = none ∧ ps = [] ∨ parameters = some (.many (ps.map PyArg.parameter))) ∧
      (ps.map ModelObject.name).Nodup ∧ r2 = { r1 with parameters := ps.map fun o => (o.name, o) } ∧
      unpackGroup setList coords ps = .ok up := by
    cases parameters with
    | none => exact ⟨[], r1, [], rfl, rfl, Or.inl ⟨rfl, rfl⟩, by simp, by rw [hr1v]; rfl, rfl⟩
    | some a =>
      simp only [initVariables, initUnpack, initParameters, initEquations, initEqNames] at h ⊢
      cases hx : orRaise (addParameters r1 a false) with
      | error e => rw [hx] at h; cases h
      | ok r2 =>
        rw [hx] at h
        dsimp only at h
        cases hy : unpackArg setList coords a with
        | error e => rw [hy] at h; cases h
        | ok up =>
          obtain ⟨ps, h1, h2, h3⟩ := addParameters_fresh a r1 r2 (by rw [hr1v]) hx
          obtain ⟨h4, h5⟩ := unpackArg_parameters setList coords a ps h1 up hy
          exact ⟨ps, r2, up, rfl, rfl, Or.inr (by rw [h4]), h2, h3, h5⟩
  rw [hr2] at h
  dsimp only at h
  rw [hup] at h
  dsimp only at h
  -- equations
  obtain ⟨r3, ue, hr3, hue, h3v, h3p, h3e⟩ : ∃ (r3 : Reg E) (ue : List Str),
      initEquations parse num r2 equations = .ok r3 ∧
      initEqNames subst parse coords r3 equations = .ok ue ∧
      r3.variables = r2.variables ∧ r3.parameters = r2.parameters ∧
      unpackEqNames subst parse coords r3 = .ok ue := by
    cases equations with
    | none =>
      exact ⟨r2, [], rfl, rfl, rfl, rfl, unpackEqNames_nil _ _ _ _ (by rw [hr2v, hr1v])⟩
    | some a =>
      simp only [initVariables, initUnpack, initParameters, initEquations, initEqNames] at h ⊢
      cases hx : orRaise (addEquations parse num r2 a false) with
      | error e => rw [hx] at h; cases h
      | ok r3 =>
        rw [hx] at h
        dsimp only at h
        cases hy : unpackEqNames subst parse coords r3 with
        | error e => rw [hy] at h; cases h
        | ok ue =>
          obtain ⟨h1, h2⟩ := addEquations_groups parse num r2 r3 a hx
          exact ⟨r3, ue, rfl, hy, h1, h2, hy⟩
  rw [hr3] at h
  dsimp only at h
  rw [hue] at h
  dsimp only at h
  have h3v' : r3.variables = vs.map fun o => (o.name, o) := by rw [h3v, hr2v, hr1v]
  have h3p' : r3.parameters = ps.map fun o => (o.name, o) := by rw [h3p, hr2v]
  by_cases hlen : uv.length ≠ ue.length
  · rw [if_pos hlen] at h; cases h
  · rw [if_neg hlen] at h
    injection h with h
    have hlen' : uv.length = ue.length := by simpa using hlen
    have huneq : ∀ q : Dict Str ModelObject, unpackEqNames subst parse coords { r3 with variables := q }
        = unpackEqNames subst parse coords r3 := by
      intro q; unfold unpackEqNames; cases parse <;> rfl
    rcases hnumcase with ⟨hn1, hn2⟩ | ⟨n, o, hn1, hn2, hn3, hn4⟩
    · subst hn1
      subst h
      exact ⟨vs, ps, hv, hp, hvn, hpn, rfl, hgv, hgp, h3e, hlen', rfl, rfl, rfl, h3p',
        Or.inl ⟨rfl, hn2, h3v'⟩⟩
    · subst hn1
      simp only [dropNumeraire] at h
      by_cases hnil : n = []
      · rw [if_pos hnil] at h
        subst h
        exact ⟨vs, ps, hv, hp, hvn, hpn, rfl, hgv, hgp, h3e, hlen', rfl, rfl, rfl, h3p',
          Or.inr ⟨n, o, rfl, hn2, hn3, hn4, by rw [if_pos hnil]; exact h3v'⟩⟩
      · rw [if_neg hnil] at h
        subst h
        exact ⟨vs, ps, hv, hp, hvn, hpn, rfl, hgv, hgp, by rw [← h3e]; exact huneq _, hlen', rfl, rfl, rfl,
          h3p', Or.inr ⟨n, o, rfl, hn2, hn3, hn4, by
            rw [if_neg hnil]; show ddel r3.variables n = _; rw [h3v']⟩⟩

/-! ## Sizes -/

theorem mapM_length {α β ε : Type _} (f : α → Except ε β) (l : List α) (r : List β)
    (h : l.mapM f = .ok r) : r.length = l.length := by
  induction l generalizing r with
  | nil => cases h; rfl
  | cons a l ih =>
    rw [List.mapM_cons] at h
    simp only [bind, Except.bind] at h
    cases ha : f a with
    | error e => rw [ha] at h; cases h
    | ok b =>
      rw [ha] at h
      dsimp only at h
      cases hl : l.mapM f with
      | error e => rw [hl] at h; cases h
      | ok r' =>
        rw [hl] at h
        cases h
        rw [List.length_cons, List.length_cons, ih r' hl]

theorem mapM_labels_of_ok (coords : Coords) (ds : List Str) (ls : List (List Str))
    (h : ds.mapM (dgetE coords) = .ok ls) : ls = ds.map (labelsOf coords) := by
  by_cases hk : ∀ d ∈ ds, d ∈ dkeys coords
  · rw [mapM_labels coords ds hk] at h
    injection h with h
    exact h.symm
  · rw [mapM_labels_error coords ds (by simpa using hk)] at h
    cases h

theorem expandObj_length (setList : List Str → List Str) (coords : Coords) (o : ModelObject)
    (us : List ModelObject) (h : expandObjByIndices setList o coords none .ignore = .ok us) :
    us.length = specSize coords o := by
  unfold expandObjByIndices at h
  rw [Option.getD_none, validateDims_sub _ _ _ _ (fun d hd => hd)] at h
  simp only [bind, Except.bind] at h
  cases hl : o.dims.mapM (dgetE coords) with
  | error e => rw [hl] at h; cases h
  | ok ls =>
    rw [hl] at h
    dsimp only at h
    rw [mapM_length _ _ _ h, length_product, mapM_labels_of_ok _ _ _ hl, List.map_map]
    rfl

theorem mapM_flatten_length {α β ε : Type _} (f : α → Except ε (List β)) (size : α → Nat)
    (hf : ∀ a us, f a = .ok us → us.length = size a) (l : List α) (r : List (List β))
    (h : l.mapM f = .ok r) : r.flatten.length = (l.map size).sum := by
  induction l generalizing r with
  | nil => cases h; rfl
  | cons a l ih =>
    rw [List.mapM_cons] at h
    simp only [bind, Except.bind] at h
    cases ha : f a with
    | error e => rw [ha] at h; cases h
    | ok b =>
      rw [ha] at h
      dsimp only at h
      cases hl : l.mapM f with
      | error e => rw [hl] at h; cases h
      | ok r' =>
        rw [hl] at h
        cases h
        rw [List.flatten_cons, List.length_append, hf a b ha, ih r' hl, List.map_cons, List.sum_cons]

theorem unpackObjects_length (setList : List Str → List Str) (coords : Coords)
    (objs us : List ModelObject) (h : unpackObjects setList coords objs = .ok us) :
    us.length = totalSize coords objs := by
  unfold unpackObjects at h
  cases hm : objs.mapM (fun o => expandObjByIndices setList o coords none .ignore) with
  | error e => rw [hm] at h; cases h
  | ok r =>
    rw [hm] at h
    injection h with h
    rw [← h]
    exact mapM_flatten_length _ _ (fun a us => expandObj_length setList coords a us) _ _ hm

theorem expandEq_length (subst : E → Str → Str → E) (coords : Coords) (q : SymEquation E)
    (us : List (SymEquation E)) (h : expandEq subst coords q = .ok us) :
    us.length = (q.dims.map fun d => (labelsOf coords d).length).prod := by
  unfold expandEq at h
  simp only [bind, Except.bind] at h
  cases hl : q.dims.mapM (dgetE coords) with
  | error e => rw [hl] at h; cases h
  | ok ls =>
    rw [hl] at h
    dsimp only at h
    rw [mapM_length _ _ _ h, length_product, mapM_labels_of_ok _ _ _ hl, List.map_map]
    rfl

end Verif
