import Verif.Lemmas.Registry
import Verif.Props.Expand
import Mathlib.Tactic.ByContra

/-!
# C27 – C31: the registry of variables, parameters and equations

The theorems hold for every parser of equations (`parse`, which may raise), every order in which Python
lists a set (`setList`) and every substitution of index values (`subst`).
-/

namespace Verif

variable {E : Type _}

/-! ## C27 -/

/-- The registry is in order: in each group every name occurs once, and each object stands under its
own name. -/
structure Reg.InOrder (r : Reg E) : Prop where
  variables : (dkeys r.variables).Nodup ∧ (dvalues r.variables).map ModelObject.name = dkeys r.variables
  parameters : (dkeys r.parameters).Nodup ∧ (dvalues r.parameters).map ModelObject.name = dkeys r.parameters
  equations : (dkeys r.equations).Nodup ∧ (dvalues r.equations).map StoredEq.name = dkeys r.equations

theorem Reg.InOrder.empty : ({} : Reg E).InOrder := ⟨by simp [dkeys, dvalues], by simp [dkeys, dvalues],
  by simp [dkeys, dvalues]⟩

/-- **C27 (map).**  After any sequence of add calls, raising or not, every name occurs once in its group
and the objects, in the order in which they make up flat vectors, are listed in the order of the
names. -/
theorem C27_names_unique (parse : Option (Parser E)) (num : Option ModelObject) (r : Reg E)
    (hr : r.InOrder) (ops : List AddOp) : (runOps parse num r ops).InOrder := by
  unfold runOps
  induction ops generalizing r with
  | nil => exact hr
  | cons op ops ih =>
    refine ih _ ?_
    obtain ⟨⟨os, ow, h1⟩, ⟨ps, pw, h2⟩, ⟨qs, qw, h3⟩⟩ := addStep_groups parse num r op
    refine ⟨?_, ?_, ?_⟩
    · rw [h1]; exact ⟨addObjects_nodup _ _ _ _ hr.1.1, addObjects_names _ _ _ _ hr.1.2⟩
    · rw [h2]; exact ⟨addObjects_nodup _ _ _ _ hr.2.1, addObjects_names _ _ _ _ hr.2.2⟩
    · rw [h3]; exact ⟨addObjects_nodup _ _ _ _ hr.3.1, addObjects_names _ _ _ _ hr.3.2⟩

/-- **C27 (stable order).**  No sequence of add calls moves or removes a name: the old names are an
initial part of the new ones, in every group. -/
theorem C27_order_stable (parse : Option (Parser E)) (num : Option ModelObject) (r : Reg E)
    (ops : List AddOp) :
    dkeys r.variables <+: dkeys (runOps parse num r ops).variables ∧
    dkeys r.parameters <+: dkeys (runOps parse num r ops).parameters ∧
    dkeys r.equations <+: dkeys (runOps parse num r ops).equations := by
  unfold runOps
  induction ops generalizing r with
  | nil => exact ⟨List.prefix_rfl, List.prefix_rfl, List.prefix_rfl⟩
  | cons op ops ih =>
    obtain ⟨⟨os, ow, h1⟩, ⟨ps, pw, h2⟩, ⟨qs, qw, h3⟩⟩ := addStep_groups parse num r op
    obtain ⟨i1, i2, i3⟩ := ih (addStep parse num r op).1
    refine ⟨List.IsPrefix.trans ?_ i1, List.IsPrefix.trans ?_ i2, List.IsPrefix.trans ?_ i3⟩
    · rw [h1]; exact addObjects_prefix _ _ _ _
    · rw [h2]; exact addObjects_prefix _ _ _ _
    · rw [h3]; exact addObjects_prefix _ _ _ _

/-- **C27 (adding).**  A successful `add_variables` appends the new names in the order given, gives every
name the last object listed under it, and touches nothing else.  (The same for parameters.) -/
theorem C27_add_variables_effect (r : Reg E) (vs : List ModelObject) (ow : Bool)
    (hs : (addVariables r (.many (vs.map PyArg.variable)) ow).2 = .ok ()) :
    let r' := (addVariables r (.many (vs.map PyArg.variable)) ow).1
    dkeys r'.variables = dkeys r.variables ++ firstAdded (dkeys r.variables) (vs.map ModelObject.name) ∧
    (∀ n, dget r'.variables n = (lastNamed ModelObject.name vs n).or (dget r.variables n)) ∧
    r'.parameters = r.parameters ∧ r'.equations = r.equations := by
  have hm : (vs.map PyArg.variable).mapM validateVariable = .ok vs := by
    induction vs with
    | nil => rfl
    | cons v vs ih =>
      rw [List.map_cons, List.mapM_cons]
      have : (vs.map PyArg.variable).mapM validateVariable = .ok vs := by
        clear hs ih
        induction vs with
        | nil => rfl
        | cons v vs ih => rw [List.map_cons, List.mapM_cons, ih]; rfl
      rw [this]; rfl
  unfold addVariables at hs ⊢
  simp only [ensureSeq, hm] at hs ⊢
  obtain ⟨h1, h2⟩ := addObjects_success _ _ _ _ hs
  exact ⟨h1, h2, trivial, trivial⟩

theorem C27_add_parameters_effect (r : Reg E) (vs : List ModelObject) (ow : Bool)
    (hs : (addParameters r (.many (vs.map PyArg.parameter)) ow).2 = .ok ()) :
    let r' := (addParameters r (.many (vs.map PyArg.parameter)) ow).1
    dkeys r'.parameters = dkeys r.parameters ++ firstAdded (dkeys r.parameters) (vs.map ModelObject.name) ∧
    (∀ n, dget r'.parameters n = (lastNamed ModelObject.name vs n).or (dget r.parameters n)) ∧
    r'.variables = r.variables ∧ r'.equations = r.equations := by
  have hm : (vs.map PyArg.parameter).mapM validateParameter = .ok vs := by
    clear hs
    induction vs with
    | nil => rfl
    | cons v vs ih => rw [List.map_cons, List.mapM_cons, ih]; rfl
  unfold addParameters at hs ⊢
  simp only [ensureSeq, hm] at hs ⊢
  obtain ⟨h1, h2⟩ := addObjects_success _ _ _ _ hs
  exact ⟨h1, h2, trivial, trivial⟩

/-- **C27 (clash).**  Adding an object whose name is taken, without `overwrite`, raises and changes
nothing. -/
theorem C27_clash_raises (r : Reg E) (o : ModelObject) :
    (o.name ∈ dkeys r.variables → addVariable r (.variable o) false = (r, .error .valueError)) ∧
    (o.name ∈ dkeys r.parameters → addParameter r (.parameter o) false = (r, .error .valueError)) := by
  constructor
  · intro h
    simp only [addVariable, validateVariable, addObject_error ModelObject.name _ o h]
  · intro h
    simp only [addParameter, validateParameter, addObject_error ModelObject.name _ o h]

/-- **C27 (overwriting).**  With `overwrite` the new object takes the place of the old one: the list of
names is unchanged, and only that name now stands for another object. -/
theorem C27_overwrite_in_place (r : Reg E) (o : ModelObject) :
    (o.name ∈ dkeys r.variables →
      (addVariable r (.variable o) true).2 = .ok () ∧
      dkeys (addVariable r (.variable o) true).1.variables = dkeys r.variables ∧
      ∀ n, dget (addVariable r (.variable o) true).1.variables n
        = if n = o.name then some o else dget r.variables n) ∧
    (o.name ∈ dkeys r.parameters →
      (addParameter r (.parameter o) true).2 = .ok () ∧
      dkeys (addParameter r (.parameter o) true).1.parameters = dkeys r.parameters ∧
      ∀ n, dget (addParameter r (.parameter o) true).1.parameters n
        = if n = o.name then some o else dget r.parameters n) := by
  constructor
  · intro h
    simp only [addVariable, validateVariable, addObject_ok ModelObject.name _ o true (Or.inr rfl)]
    refine ⟨trivial, by rw [dkeys_dset, if_pos h], fun n => ?_⟩
    rw [dget_dset]
    by_cases hn : n = o.name
    · rw [if_pos hn, if_pos hn.symm]
    · rw [if_neg hn, if_neg (Ne.symm hn)]
  · intro h
    simp only [addParameter, validateParameter, addObject_ok ModelObject.name _ o true (Or.inr rfl)]
    refine ⟨trivial, by rw [dkeys_dset, if_pos h], fun n => ?_⟩
    rw [dget_dset]
    by_cases hn : n = o.name
    · rw [if_pos hn, if_pos hn.symm]
    · rw [if_neg hn, if_neg (Ne.symm hn)]

/-- A history with a clash, an overwrite and a type error. -/
example : (runOps (E := Unit) none none {}
    [.variables (.many [.variable { name := "x" }, .variable { name := "y" }]) false,
     .variable (.variable { name := "x", dims := ["i"] }) true,
     .variable (.variable { name := "y", dims := ["i"] }) false,
     .variables (.many [.variable { name := "z" }, .parameter { name := "p" }]) false]).variables
    = [("x".toList, { name := "x", dims := ["i"] }), ("y".toList, { name := "y" })] := by decide

/-! ## C28 -/

/-- **C28 (negation).**  `add_variables` that raises may have added objects. -/
theorem C28_not_atomic :
    ∃ (r : Reg Unit) (vs : List PyArg), (addVariables r (.many vs) false).2 = .error .valueError ∧
      (dkeys (addVariables r (.many vs) false).1.variables).length = (dkeys r.variables).length + 1 :=
  ⟨{ variables := [("y", { name := "y" })] }, [.variable { name := "x" }, .variable { name := "y" }],
    by decide, by decide⟩

/-- **C28 (partial).**  What holds instead: if `add_variables` raises, either an argument had the wrong
type and nothing changed, or some object clashed and exactly the objects before it were added.  Missing:
undoing those additions. -/
theorem C28_failure_adds_prefix_partial (r : Reg E) (a : SeqArg) (ow : Bool) (e : PyErr)
    (hs : (addVariables r a ow).2 = .error e) :
    ((addVariables r a ow).1 = r ∧ ∃ x ∈ ensureSeq a, ∀ o, x ≠ .variable o) ∨
    ∃ (vs : List ModelObject) (k : Nat) (o : ModelObject), ensureSeq a = vs.map PyArg.variable ∧
      ow = false ∧ vs[k]? = some o ∧
      (o.name ∈ dkeys r.variables ∨ o.name ∈ (vs.take k).map ModelObject.name) ∧
      (addVariables r (.many ((vs.take k).map PyArg.variable)) ow).2 = .ok () ∧
      (addVariables r a ow).1 = (addVariables r (.many ((vs.take k).map PyArg.variable)) ow).1 := by
  have hval : ∀ vs : List ModelObject, (vs.map PyArg.variable).mapM validateVariable = .ok vs := by
    intro vs
    induction vs with
    | nil => rfl
    | cons v vs ih => rw [List.map_cons, List.mapM_cons, ih]; rfl
  cases hm : (ensureSeq a).mapM validateVariable with
  | error x =>
    left
    refine ⟨by unfold addVariables; rw [hm], ?_⟩
    by_contra hcon
    have hno : ∀ x ∈ ensureSeq a, ∃ o, x = .variable o := by
      intro x hx
      by_contra hx'
      exact hcon ⟨x, hx, fun o ho => hx' ⟨o, ho⟩⟩
    obtain ⟨vs, hvs⟩ : ∃ vs : List ModelObject, ensureSeq a = vs.map PyArg.variable := by
      generalize ensureSeq a = l at hno
      clear hm hs hcon
      induction l with
      | nil => exact ⟨[], rfl⟩
      | cons b l ih =>
        obtain ⟨o, ho⟩ := hno b (by simp)
        obtain ⟨vs, hvs⟩ := ih (fun x hx => hno x (by simp [hx]))
        exact ⟨o :: vs, by rw [List.map_cons, ho, hvs]⟩
    rw [hvs, hval] at hm
    cases hm
  | ok vs =>
    right
    have hvs := validateVariable_many _ _ hm
    have h0 : addVariables r a ow = ({ r with variables := (addObjects ModelObject.name r.variables vs ow).1 },
        (addObjects ModelObject.name r.variables vs ow).2) := by
      unfold addVariables; rw [hm]
    rw [h0] at hs
    obtain ⟨h1, -, k, o, h3, h4, h5, h6⟩ := addObjects_failure _ _ _ _ _ hs
    have hk : ∀ ws, addVariables r (.many (ws.map PyArg.variable)) ow
        = ({ r with variables := (addObjects ModelObject.name r.variables ws ow).1 },
          (addObjects ModelObject.name r.variables ws ow).2) := by
      intro ws; unfold addVariables; simp only [ensureSeq, hval]
    refine ⟨vs, k, o, hvs, h1, h3, h4, ?_, ?_⟩
    · rw [hk]; exact h5
    · rw [hk, h0, h6]

/-- **C28 (partial).**  Adding one object, and adding objects of the right type with `overwrite`, is all
or nothing. -/
theorem C28_single_atomic_partial (r : Reg E) (a : PyArg) (ow : Bool) (e : PyErr) :
    ((addVariable r a ow).2 = .error e → (addVariable r a ow).1 = r) ∧
    ((addParameter r a ow).2 = .error e → (addParameter r a ow).1 = r) ∧
    (∀ vs : List ModelObject, (addVariables r (.many (vs.map PyArg.variable)) true).2 = .ok ()) := by
  refine ⟨?_, ?_, ?_⟩
  · unfold addVariable
    cases validateVariable a with
    | error x => intro _; rfl
    | ok o =>
      dsimp only
      cases addObject ModelObject.name r.variables o ow with
      | error x => intro _; rfl
      | ok d => intro h; cases h
  · unfold addParameter
    cases validateParameter a with
    | error x => intro _; rfl
    | ok o =>
      dsimp only
      cases addObject ModelObject.name r.parameters o ow with
      | error x => intro _; rfl
      | ok d => intro h; cases h
  · intro vs
    cases hs : (addVariables r (.many (vs.map PyArg.variable)) true).2 with
    | ok u => cases u; rfl
    | error e =>
      rcases C28_failure_adds_prefix_partial r _ _ _ hs with ⟨-, x, hx, hno⟩ | ⟨_, _, _, _, h, _⟩
      · simp only [ensureSeq, List.mem_map] at hx
        obtain ⟨o, -, rfl⟩ := hx
        exact absurd rfl (hno o)
      · cases h

/-! ## C29 -/

/-- **C29 (negation).**  When a variable and a parameter share a name – which the constructor accepts –
`get` gives the variable and `get_symbol` the parameter. -/
theorem C29_shared_name_disagrees :
    ∃ (m : CGE Unit) (n : Str),
      construct id (fun e _ _ => e) (some fun _ _ _ _ => .ok ((), [])) []
        (some (.many [.variable { name := "x" }])) (some (.many [.parameter { name := "x" }]))
        (some (.many [.equation ⟨"eq", "x = 1"⟩])) none = .ok m ∧
      getNames m.reg [n] = .ok (.single (.variable { name := "x" })) ∧
      getSymbolNames m [n] = .ok (.single (.parameter { name := "x" })) ∧
      summaryItem m.reg n = .ok (.parameter { name := "x" }) :=
  ⟨_, "x".toList, rfl, rfl, rfl, rfl⟩

/-- **C29 (partial: one name).**  If no name is used both for a variable and for a parameter, all routes
agree: `get`, `get_variable`/`get_parameter`, `summary`; and an unknown name raises on every route. -/
theorem C29_routes_agree_partial (r : Reg E)
    (hdisj : ∀ n, n ∈ dkeys r.variables → n ∉ dkeys r.parameters) (n : Str) :
    (∀ o, dget r.variables n = some o → getNames r [n] = .ok (.single (.variable o)) ∧
      getVariable r n = .ok o ∧ summaryItem r n = .ok (.variable o)) ∧
    (∀ o, dget r.parameters n = some o → getNames r [n] = .ok (.single (.parameter o)) ∧
      getParameter r n = .ok o ∧ summaryItem r n = .ok (.parameter o)) ∧
    (n ∉ dkeys r.variables → n ∉ dkeys r.parameters → getNames r [n] = .error .valueError ∧
      getVariable r n = .error .keyError ∧ getParameter r n = .error .keyError ∧
      summaryItem r n = .error .valueError) := by
  have getEq : ∀ f, getOne r n = f → getNames r [n] = f.map fun x => .single x := by
    intro f hf
    unfold getNames
    rw [List.mapM_cons, hf]
    cases f <;> rfl
  refine ⟨?_, ?_, ?_⟩
  · intro o ho
    have hp : dget r.parameters n = none :=
      (dget_eq_none_iff _ _).2 (hdisj n ((mem_dkeys_iff _ _).2 ⟨o, ho⟩))
    refine ⟨?_, ?_, ?_⟩
    · rw [getEq (.ok (.variable o)) (by unfold getOne; rw [ho])]; rfl
    · unfold getVariable dgetE; rw [ho]
    · unfold summaryItem; rw [hp]; dsimp only; rw [ho]
  · intro o ho
    have hv : dget r.variables n = none := by
      rw [dget_eq_none_iff]
      intro hmem
      exact hdisj n hmem ((mem_dkeys_iff _ _).2 ⟨o, ho⟩)
    refine ⟨?_, ?_, ?_⟩
    · rw [getEq (.ok (.parameter o)) (by unfold getOne; rw [hv]; dsimp only; rw [ho])]; rfl
    · unfold getParameter dgetE; rw [ho]
    · unfold summaryItem; rw [ho]
  · intro h1 h2
    have hv := (dget_eq_none_iff r.variables n).2 h1
    have hp := (dget_eq_none_iff r.parameters n).2 h2
    refine ⟨?_, ?_, ?_, ?_⟩
    · rw [getEq (.error .valueError) (by unfold getOne; rw [hv]; dsimp only; rw [hp])]; rfl
    · unfold getVariable dgetE; rw [hv]
    · unfold getParameter dgetE; rw [hp]
    · unfold summaryItem; rw [hp]; dsimp only; rw [hv]

/-- **C29 (partial: scalar names).**  In a constructed model without shared unpacked names, the object
behind `get_symbol` of an unpacked name is the one `get_unpacked_parent_object` gives, and it carries
the declared object's name and dims. -/
theorem C29_symbol_routes_partial (m : CGE E)
    (hdisj : ∀ n, n ∈ dkeys m.unpackedVariables → n ∉ dkeys m.unpackedParameters) (n : Str) :
    getSymbolOne m n = getUnpackedParent m n := by
  unfold getSymbolOne getUnpackedParent
  cases hv : dget m.unpackedVariables n with
  | none => rfl
  | some o =>
    have hp : dget m.unpackedParameters n = none :=
      (dget_eq_none_iff _ _).2 (hdisj n ((mem_dkeys_iff _ _).2 ⟨o, hv⟩))
    rw [hp]

/-- **C29 (lists).**  `get` with several names gives the objects in the order of the names, each the one
found under that name alone. -/
theorem C29_get_list (r : Reg E) (names : List Str) (h2 : names.length ≠ 1) (fs : List Found) :
    getNames r names = .ok (.list fs) ↔
      fs.length = names.length ∧
        ∀ (i : Nat) n, names[i]? = some n → ∃ f, fs[i]? = some f ∧ getNames r [n] = .ok (.single f) := by
  have single : ∀ n f, getNames r [n] = .ok (.single f) ↔ getOne r n = .ok f := by
    intro n f
    unfold getNames
    rw [List.mapM_cons]
    cases getOne r n with
    | error e => constructor <;> (intro h; cases h)
    | ok g =>
      constructor
      · intro h; cases h; rfl
      · intro h; cases h; rfl
  have unwrap : ∀ gs : List Found, gs.length = names.length → unwrapSingle gs = .list gs := by
    intro gs hg
    match gs, hg with
    | [], _ => rfl
    | [g], hg => exact absurd hg.symm h2
    | g :: g' :: gs, _ => rfl
  constructor
  · intro h
    unfold getNames at h
    cases hm : names.mapM (getOne r) with
    | error e => rw [hm] at h; cases h
    | ok gs =>
      rw [hm] at h
      simp only [Except.map] at h
      injection h with h
      have hl := mapM_length _ _ _ hm
      rw [unwrap gs hl] at h
      injection h with h
      subst h
      refine ⟨hl, ?_⟩
      clear h2 hl unwrap
      intro i n hn
      induction names generalizing gs i with
      | nil => simp at hn
      | cons a names ih =>
        rw [List.mapM_cons] at hm
        simp only [bind, Except.bind] at hm
        cases ha : getOne r a with
        | error e => rw [ha] at hm; cases hm
        | ok g =>
          rw [ha] at hm
          dsimp only at hm
          cases hrest : names.mapM (getOne r) with
          | error e => rw [hrest] at hm; cases hm
          | ok gs' =>
            rw [hrest] at hm
            cases hm
            cases i with
            | zero =>
              simp only [List.getElem?_cons_zero, Option.some.injEq] at hn
              subst hn
              exact ⟨g, rfl, (single _ _).2 ha⟩
            | succ i =>
              rw [List.getElem?_cons_succ] at hn ⊢
              exact ih gs' hrest i hn
  · rintro ⟨hl, hf⟩
    have hm : names.mapM (getOne r) = .ok fs := by
      apply mapM_ok_pointwise _ _ _ hl
      intro j n hj
      obtain ⟨f, h1, h3⟩ := hf j n hj
      exact ⟨f, h1, (single _ _).1 h3⟩
    unfold getNames
    rw [hm]
    simp only [Except.map]
    rw [unwrap fs hl]

/-- An unknown name among several makes the whole call raise. -/
theorem C29_unknown_raises (r : Reg E) (names : List Str)
    (h : ∃ n ∈ names, n ∉ dkeys r.variables ∧ n ∉ dkeys r.parameters) :
    getNames r names = .error .valueError := by
  have : names.mapM (getOne r) = .error .valueError := by
    obtain ⟨n, hn, h1, h2⟩ := h
    have hone : ∀ a e, getOne r a = .error e → e = .valueError := by
      intro a e he
      unfold getOne at he
      cases hv : dget r.variables a with
      | some o => rw [hv] at he; cases he
      | none =>
        rw [hv] at he
        dsimp only at he
        cases hp : dget r.parameters a with
        | some o => rw [hp] at he; cases he
        | none => rw [hp] at he; injection he with he; exact he.symm
    have hbad : getOne r n = .error .valueError := by
      unfold getOne
      rw [(dget_eq_none_iff _ _).2 h1]; dsimp only
      rw [(dget_eq_none_iff _ _).2 h2]
    induction names with
    | nil => simp at hn
    | cons a names ih =>
      rw [List.mapM_cons]
      simp only [bind, Except.bind]
      cases ha : getOne r a with
      | error e => rw [hone a e ha]
      | ok g =>
        dsimp only
        rcases List.mem_cons.1 hn with rfl | hn
        · rw [hbad] at ha; cases ha
        · rw [ih hn]
  unfold getNames
  rw [this]; rfl

example : getNames (E := Unit) { variables := [("x", { name := "x" })], parameters := [("p", { name := "p" })] }
    ["p", "x"] = .ok (.list [.parameter { name := "p" }, .variable { name := "x" }]) := by decide

/-- **C29 (everything).**  `get()` without names gives the parameters and then the variables, in the order
in which they were declared, each exactly once, when no name is shared and there is not exactly one
object in all. -/
theorem C29_get_all (r : Reg E) (hv : (dkeys r.variables).Nodup) (hp : (dkeys r.parameters).Nodup)
    (hdisj : ∀ n ∈ dkeys r.variables, n ∉ dkeys r.parameters)
    (h1 : r.parameters.length + r.variables.length ≠ 1) :
    getAll r = .ok (.list ((dvalues r.parameters).map .parameter ++
      (dvalues r.variables).map .variable)) := by
  have hm : (dkeys r.parameters ++ dkeys r.variables).mapM (getOne r)
      = .ok ((dvalues r.parameters).map .parameter ++ (dvalues r.variables).map .variable) := by
    apply mapM_ok_pointwise
    · simp [dkeys, dvalues]
    · intro j n hj
      rw [List.getElem?_append] at hj
      rw [List.getElem?_append]
      have hl : (dkeys r.parameters).length = r.parameters.length := by simp [dkeys]
      have hl' : ((dvalues r.parameters).map Found.parameter).length = r.parameters.length := by
        simp [dvalues]
      rw [hl] at hj
      rw [hl']
      split at hj
      · next hlt =>
        rw [if_pos hlt]
        have hq := List.getElem?_eq_getElem hlt
        obtain ⟨⟨k, o⟩, hq⟩ : ∃ q, r.parameters[j]? = some q := ⟨_, hq⟩
        have hk : k = n := by
          simp only [dkeys, List.getElem?_map, hq, Option.map_some, Option.some.injEq] at hj
          exact hj
        subst hk
        have hmem : (k, o) ∈ r.parameters := List.mem_of_getElem? hq
        have hd : dget r.parameters k = some o := dget_of_mem_nodup _ hp hmem
        have hnv : dget r.variables k = none := by
          rw [dget_eq_none_iff]
          intro hm
          exact hdisj k hm ((mem_dkeys_iff _ _).2 ⟨o, hd⟩)
        refine ⟨.parameter o, by simp [dvalues, hq], ?_⟩
        unfold getOne
        rw [hnv]; dsimp only; rw [hd]
      · next hlt =>
        rw [if_neg hlt]
        have hlen : j - r.parameters.length < r.variables.length := by
          have := (List.getElem?_eq_some_iff.1 hj).1
          simpa [dkeys] using this
        have hq := List.getElem?_eq_getElem hlen
        obtain ⟨⟨k, o⟩, hq⟩ : ∃ q, r.variables[j - r.parameters.length]? = some q := ⟨_, hq⟩
        have hk : k = n := by
          simp only [dkeys, List.getElem?_map, hq, Option.map_some, Option.some.injEq] at hj
          exact hj
        subst hk
        have hmem : (k, o) ∈ r.variables := List.mem_of_getElem? hq
        have hd : dget r.variables k = some o := dget_of_mem_nodup _ hv hmem
        refine ⟨.variable o, by simp [dvalues, hq], ?_⟩
        unfold getOne
        rw [hd]
  unfold getAll getNames
  rw [hm]
  have unwrap : ∀ gs : List Found, gs.length ≠ 1 → unwrapSingle gs = .list gs := by
    intro gs hg
    match gs, hg with
    | [], _ => rfl
    | [g], hg => exact absurd rfl hg
    | g :: g' :: gs, _ => rfl
  simp only [Except.map]
  rw [unwrap _ (by simpa [dvalues] using h1)]

example : getAll (E := Unit) { variables := [("x", { name := "x" }), ("y", { name := "y" })], parameters := [("p", { name := "p" })] }
    = .ok (.list [.parameter { name := "p" }, .variable { name := "x" },
        .variable { name := "y" }]) := by decide

/-! ## C30 -/

/-- The equations that were parsed. -/
def Reg.parsedEquations (r : Reg E) : List (SymEquation E) :=
  (dvalues r.equations).filterMap fun
    | .parsed q => some q
    | .raw _ => none

/-- Number of scalar equations an equation stands for. -/
def eqSize (coords : Coords) (q : SymEquation E) : Nat :=
  (q.dims.map fun d => (labelsOf coords d).length).prod

theorem unpackGroup_length (setList : List Str → List Str) (coords : Coords)
    (objs us : List ModelObject) (D : Dict Str ModelObject)
    (hus : unpackObjects setList coords objs = .ok us) (hn : (us.map makeIndexedName).Nodup)
    (hD : unpackGroup setList coords objs = .ok D) : D.length = totalSize coords objs := by
  obtain ⟨D', h1, -, h3⟩ := C05_names_in_order_partial setList coords objs us hus hn
  rw [hD] at h1
  injection h1 with h1
  subst h1
  have := congrArg List.length h3
  rw [dvalues, List.length_map] at this
  rw [this, unpackObjects_length _ _ _ _ hus]

theorem unpackEqNames_length (subst : E → Str → Str → E) (p : Parser E) (coords : Coords) (r : Reg E)
    (es : List (List (SymEquation E))) (he : r.parsedEquations.mapM (expandEq subst coords) = .ok es)
    (hen : (es.flatten.map SymEquation.name).Nodup) (names : List Str)
    (h : unpackEqNames subst (some p) coords r = .ok names) :
    names.length = (r.parsedEquations.map (eqSize coords)).sum := by
  have h' : (unpackEquationsSympy subst coords r.parsedEquations).map dkeys = .ok names := h
  unfold unpackEquationsSympy at h'
  rw [he] at h'
  simp only [Except.map] at h'
  injection h' with h'
  have hz : (es.flatten.map SymEquation.name).zip es.flatten
      = es.flatten.map fun q => (q.name, q) := by
    generalize es.flatten = l
    induction l with
    | nil => rfl
    | cons a l ih => rw [List.map_cons, List.zip_cons_cons, ih, List.map_cons]
  rw [dofPairs_of_nodup _ (by rw [hz]; simpa [Function.comp_def] using hen)] at h'
  rw [← h', dkeys, List.length_map, hz, List.length_map]
  exact mapM_flatten_length _ _ (fun q us hu => expandEq_length subst coords q us hu) _ _ he

/-- **C30 (partial: square).**  A model that was constructed without numeraire, and in which no two
scalars (and no two scalar equations) share a name, has exactly as many scalar equations as entries in
its flat vector of variables.  Missing: models with merged names, with a numeraire, and after later
additions – see the negations below. -/
theorem C30_square_partial (setList : List Str → List Str) (subst : E → Str → Str → E) (p : Parser E)
    (coords : Coords) (variables parameters equations : Option SeqArg) (m : CGE E)
    (h : construct setList subst (some p) coords variables parameters equations none = .ok m)
    (hv : ∀ us, unpackObjects setList coords (dvalues m.reg.variables) = .ok us →
      (us.map makeIndexedName).Nodup)
    (he : ∀ es, m.reg.parsedEquations.mapM (expandEq subst coords) = .ok es →
      (es.flatten.map SymEquation.name).Nodup) :
    totalSize coords (dvalues m.reg.variables) = (m.reg.parsedEquations.map (eqSize coords)).sum ∧
    m.nVariables = totalSize coords (dvalues m.reg.variables) ∧
    m.nEquations = (m.reg.parsedEquations.map (eqSize coords)).sum := by
  obtain ⟨vs, ps, -, -, -, -, -, hgv, -, hge, hlen, hnv, hne, -, -, hnum⟩ :=
    construct_spec setList subst (some p) coords variables parameters equations none m h
  have hvars : dvalues m.reg.variables = vs := by
    rcases hnum with ⟨-, -, h1⟩ | ⟨n, o, h1, _⟩
    · rw [h1]; simp [dvalues, Function.comp_def]
    · cases h1
  rw [hvars] at hv ⊢
  obtain ⟨us, hus⟩ : ∃ us, unpackObjects setList coords vs = .ok us := by
    unfold unpackGroup at hgv
    cases hx : unpackObjects setList coords vs with
    | error e => rw [hx] at hgv; cases hgv
    | ok us => exact ⟨us, rfl⟩
  have hV := unpackGroup_length setList coords vs us _ hus (hv us hus) hgv
  obtain ⟨es, hes⟩ : ∃ es, m.reg.parsedEquations.mapM (expandEq subst coords) = .ok es := by
    have h' : (unpackEquationsSympy subst coords m.reg.parsedEquations).map dkeys
      = .ok m.unpackedEquationNames := hge
    unfold unpackEquationsSympy at h'
    cases hx : m.reg.parsedEquations.mapM (expandEq subst coords) with
    | error e => rw [hx] at h'; cases h'
    | ok es => exact ⟨es, rfl⟩
  have hE := unpackEqNames_length subst p coords m.reg es hes (he es hes) _ hge
  exact ⟨by omega, by omega, by omega⟩

/-- **C30 (negation: numeraire).**  *Every* model constructed with a numeraire (and without merged names)
is left with fewer entries in its flat vector of variables than equations: the counts were compared
before the numeraire was taken out of the variables. -/
theorem C30_numeraire_never_square (setList : List Str → List Str) (subst : E → Str → Str → E)
    (p : Parser E) (coords : Coords) (vs : List ModelObject) (parameters equations : Option SeqArg)
    (n : Str) (hn : n ≠ []) (m : CGE E)
    (h : construct setList subst (some p) coords (some (.many (vs.map PyArg.variable))) parameters
      equations (some (.name n)) = .ok m)
    (hv : ∀ us, unpackObjects setList coords vs = .ok us → (us.map makeIndexedName).Nodup)
    (he : ∀ es, m.reg.parsedEquations.mapM (expandEq subst coords) = .ok es →
      (es.flatten.map SymEquation.name).Nodup) :
    ∃ o ∈ vs, o.name = n ∧
      totalSize coords (dvalues m.reg.variables) + specSize coords o
        = (m.reg.parsedEquations.map (eqSize coords)).sum := by
  obtain ⟨vs', ps, hvs, -, hvn, -, -, hgv, -, hge, hlen, hnv, hne, -, -, hnum⟩ :=
    construct_spec setList subst (some p) coords _ parameters equations _ m h
  have : vs' = vs := by
    rcases hvs with ⟨h1, -⟩ | h1
    · cases h1
    · simp only [Option.some.injEq, SeqArg.many.injEq] at h1
      exact ((List.map_inj_right (fun a b hab => by cases hab; rfl)).1 h1).symm
  subst this
  rcases hnum with ⟨h1, -⟩ | ⟨n', o, h1, ho, hon, -, hreg⟩
  · cases h1
  · cases h1
    refine ⟨o, ho, hon, ?_⟩
    rw [if_neg hn] at hreg
    obtain ⟨us, hus⟩ : ∃ us, unpackObjects setList coords vs' = .ok us := by
      unfold unpackGroup at hgv
      cases hx : unpackObjects setList coords vs' with
      | error e => rw [hx] at hgv; cases hgv
      | ok us => exact ⟨us, rfl⟩
    have hV := unpackGroup_length setList coords vs' us _ hus (hv us hus) hgv
    obtain ⟨es, hes⟩ : ∃ es, m.reg.parsedEquations.mapM (expandEq subst coords) = .ok es := by
      have h' : (unpackEquationsSympy subst coords m.reg.parsedEquations).map dkeys
        = .ok m.unpackedEquationNames := hge
      unfold unpackEquationsSympy at h'
      cases hx : m.reg.parsedEquations.mapM (expandEq subst coords) with
      | error e => rw [hx] at h'; cases h'
      | ok es => exact ⟨es, rfl⟩
    have hE := unpackEqNames_length subst p coords m.reg es hes (he es hes) _ hge
    have hsum : totalSize coords (dvalues m.reg.variables) + specSize coords o = totalSize coords vs' := by
      rw [hreg, ← hon]
      clear hV hus hgv hreg h hv hvs
      induction vs' with
      | nil => simp at ho
      | cons v vs ih =>
        rw [List.map_cons, List.nodup_cons] at hvn
        by_cases hvo : v.name = o.name
        · have hv : v = o := by
            rcases List.mem_cons.1 ho with h | h
            · exact h.symm
            · exact absurd (List.mem_map.2 ⟨o, h, hvo.symm⟩) hvn.1
          subst hv
          have hrest : ddel (vs.map fun o => (o.name, o)) v.name = vs.map fun o => (o.name, o) := by
            unfold ddel
            rw [List.filter_eq_self]
            intro q hq
            obtain ⟨w, hw, rfl⟩ := List.mem_map.1 hq
            simp only [ne_eq, decide_eq_true_eq]
            intro hc
            exact hvn.1 (List.mem_map.2 ⟨w, hw, hc⟩)
          rw [List.map_cons]
          unfold ddel at hrest ⊢
          rw [List.filter_cons_of_neg (by simp), hrest]
          simp [totalSize, dvalues, Function.comp_def, Nat.add_comm]
        · have ho' : o ∈ vs := by
            rcases List.mem_cons.1 ho with h | h
            · exact absurd (by rw [h]) hvo
            · exact h
          have := ih hvn.2 ho'
          rw [List.map_cons]
          unfold ddel at this ⊢
          rw [List.filter_cons_of_pos (by simp [hvo])]
          simp only [totalSize, dvalues, List.map_cons, List.sum_cons] at this ⊢
          omega
    omega

/-- **C30 (negation: merged names).**  Two scalars with the same name count as one, so that a model with
two scalar variables and one equation is accepted. -/
theorem C30_merged_names_not_square :
    ∃ (coords : Coords) (m : CGE Unit),
      construct id (fun e _ _ => e) (some fun _ _ _ _ => .ok ((), [])) coords
        (some (.many [.variable { name := "a", dims := ["i"] }, .variable { name := "a_b" }])) none
        (some (.many [.equation ⟨"eq", "a_b = 1"⟩])) none = .ok m ∧
      totalSize coords (dvalues m.reg.variables) = 2 ∧
      (m.reg.parsedEquations.map (eqSize coords)).sum = 1 :=
  ⟨[("i", ["b"])], _, rfl, by decide, by decide⟩

/-- **C30 (negation: later additions).**  Adding a variable to a finished model is accepted, and the
counts that were checked are not brought up to date. -/
theorem C30_not_square_after_add :
    ∃ (m : CGE Unit) (r : Reg Unit),
      construct id (fun e _ _ => e) (some fun _ _ _ _ => .ok ((), [])) []
        (some (.many [.variable { name := "x" }])) none
        (some (.many [.equation ⟨"eq", "x = 1"⟩])) none = .ok m ∧
      addVariable m.reg (.variable { name := "y" }) false = (r, .ok ()) ∧
      totalSize [] (dvalues r.variables) = 2 ∧ (r.parsedEquations.map (eqSize [])).sum = 1 :=
  ⟨_, _, rfl, rfl, by decide, by decide⟩

/-- **C30 (refusal).**  Different counts of unpacked names are refused. -/
theorem C30_refused (setList : List Str → List Str) (subst : E → Str → Str → E)
    (parse : Option (Parser E)) (coords : Coords) (variables parameters equations : Option SeqArg)
    (numeraire : Option NumArg) (m : CGE E)
    (h : construct setList subst parse coords variables parameters equations numeraire = .ok m) :
    m.unpackedVariables.length = m.unpackedEquationNames.length ∧ m.nVariables = m.nEquations := by
  obtain ⟨vs, ps, -, -, -, -, -, -, -, -, hlen, hnv, hne, -⟩ := construct_spec _ _ _ _ _ _ _ _ m h
  exact ⟨hlen, by omega⟩

/-- A model with an indexed variable, an indexed equation and one parameter is accepted; dropping an
equation gets it refused. -/
example : (construct id (fun e _ _ => e) (some fun _ _ _ e => .ok ((), if e.name = "eq <dim:i>".toList then ["i".toList] else []))
      [("i", ["a", "b"])]
      (some (.many [.variable { name := "x", dims := ["i"] }, .variable { name := "y" }]))
      (some (.many [.parameter { name := "p" }]))
      (some (.many [.equation ⟨"eq <dim:i>", "x = p"⟩, .equation ⟨"eq2", "y = 1"⟩])) none).map
        (fun m : CGE Unit => (m.nVariables, m.nEquations, m.nParameters)) = .ok (3, 3, 1) ∧
    (construct id (fun e _ _ => e) (some fun _ _ _ e => .ok ((), if e.name = "eq <dim:i>".toList then ["i".toList] else []))
      [("i", ["a", "b"])]
      (some (.many [.variable { name := "x", dims := ["i"] }, .variable { name := "y" }])) none
      (some (.many [.equation ⟨"eq <dim:i>", "x = p"⟩])) none).map
        (fun m : CGE Unit => m.nVariables) = .error .valueError := by decide

/-! ## C31 -/

/-- **C31 (negation).**  In *every* model constructed with a numeraire, the numeraire's scalars are still
among the unpacked variables. -/
theorem C31_numeraire_stays_unpacked (setList : List Str → List Str) (subst : E → Str → Str → E)
    (parse : Option (Parser E)) (coords : Coords) (vs : List ModelObject)
    (parameters equations : Option SeqArg) (n : Str) (m : CGE E)
    (h : construct setList subst parse coords (some (.many (vs.map PyArg.variable))) parameters
      equations (some (.name n)) = .ok m) :
    unpackGroup setList coords vs = .ok m.unpackedVariables ∧
    (∀ o ∈ vs, o.name = n → o.dims = [] → o.dimVals = [] → n ∈ dkeys m.unpackedVariables) := by
  obtain ⟨vs', ps, hvs, -, hvn, -, -, hgv, -⟩ :=
    construct_spec setList subst parse coords _ parameters equations _ m h
  have : vs' = vs := by
    rcases hvs with ⟨h1, -⟩ | h1
    · cases h1
    · simp only [Option.some.injEq, SeqArg.many.injEq] at h1
      exact ((List.map_inj_right (fun a b hab => by cases hab; rfl)).1 h1).symm
  subst this
  refine ⟨hgv, ?_⟩
  intro o ho hon hdims hvals
  unfold unpackGroup at hgv
  cases hx : unpackObjects setList coords vs' with
  | error e => rw [hx] at hgv; cases hgv
  | ok us =>
    rw [hx] at hgv
    simp only [Except.map] at hgv
    injection hgv with hgv
    have hmem : o ∈ us := by
      unfold unpackObjects at hx
      cases hm : vs'.mapM (fun o => expandObjByIndices setList o coords none .ignore) with
      | error e => rw [hm] at hx; cases hx
      | ok bs =>
        rw [hm] at hx
        injection hx with hx
        rw [← hx]
        have hexp : expandObjByIndices setList o coords none .ignore = .ok [o] := by
          unfold expandObjByIndices
          rw [Option.getD_none, validateDims_sub _ _ _ _ (fun d hd => hd), hdims]
          rfl
        clear hgv hx hvn hvs h
        induction vs' generalizing bs with
        | nil => simp at ho
        | cons v vs ih =>
          rw [List.mapM_cons] at hm
          simp only [bind, Except.bind] at hm
          cases hv : expandObjByIndices setList v coords none .ignore with
          | error e => rw [hv] at hm; cases hm
          | ok b =>
            rw [hv] at hm
            dsimp only at hm
            cases hr : vs.mapM (fun o => expandObjByIndices setList o coords none .ignore) with
            | error e => rw [hr] at hm; cases hm
            | ok bs' =>
              rw [hr] at hm
              cases hm
              rw [List.flatten_cons, List.mem_append]
              rcases List.mem_cons.1 ho with h | h
              · left
                rw [← h, hexp] at hv
                cases hv
                simp
              · exact Or.inr (ih h bs' hr)
    have hname : makeIndexedName o = n := by
      unfold makeIndexedName
      rw [hvals, ← hon]
      simp [dvalues, joinStr]
    rw [← hgv]
    unfold dofPairs
    rw [mem_dkeys_dupdate]
    right
    rw [List.map_fst_zip (by simp)]
    exact List.mem_map.2 ⟨o, hmem, hname⟩

/-- **C31 (partial).**  What holds: the numeraire is gone from `variables` (and so from the flat vector),
all other variables keep their objects and their order; nothing else is affected.  Missing: the unpacked
variables and the counts (see the negation). -/
theorem C31_removed_from_variables_partial (setList : List Str → List Str) (subst : E → Str → Str → E)
    (parse : Option (Parser E)) (coords : Coords) (vs : List ModelObject)
    (parameters equations : Option SeqArg) (n : Str) (hn : n ≠ []) (m : CGE E)
    (h : construct setList subst parse coords (some (.many (vs.map PyArg.variable))) parameters
      equations (some (.name n)) = .ok m) :
    n ∉ dkeys m.reg.variables ∧
    dvalues m.reg.variables = vs.filter (fun o => o.name ≠ n) ∧
    (∃ o ∈ vs, o.name = n ∧ m.numeraire = some o) := by
  obtain ⟨vs', ps, hvs, -, hvn, -, -, hgv, -, -, -, -, -, -, -, hnum⟩ :=
    construct_spec setList subst parse coords _ parameters equations _ m h
  have : vs' = vs := by
    rcases hvs with ⟨h1, -⟩ | h1
    · cases h1
    · simp only [Option.some.injEq, SeqArg.many.injEq] at h1
      exact ((List.map_inj_right (fun a b hab => by cases hab; rfl)).1 h1).symm
  subst this
  rcases hnum with ⟨h1, -⟩ | ⟨n', o, h1, ho, hon, hmn, hreg⟩
  · cases h1
  · cases h1
    rw [if_neg hn] at hreg
    refine ⟨?_, ?_, o, ho, hon, hmn⟩
    · rw [hreg, dkeys_ddel]; simp
    · rw [hreg]
      unfold ddel dvalues
      rw [List.filter_map, List.map_map]
      simp [Function.comp_def]

/-- **C31 (unknown numeraire).**  A numeraire that is not the name of a variable raises; so does a
`Variable` object, although that is the documented type of the argument. -/
theorem C31_unknown_raises (setList : List Str → List Str) (subst : E → Str → Str → E)
    (parse : Option (Parser E)) (coords : Coords) (vs : List ModelObject)
    (parameters equations : Option SeqArg) (num : NumArg)
    (hnum : ∀ n, num = .name n → n ∉ vs.map ModelObject.name) (m : CGE E) :
    construct setList subst parse coords (some (.many (vs.map PyArg.variable))) parameters
      equations (some num) ≠ .ok m := by
  intro h
  obtain ⟨vs', ps, hvs, -, hvn, -, -, hgv, -, -, -, -, -, -, -, hcase⟩ :=
    construct_spec setList subst parse coords _ parameters equations _ m h
  have : vs' = vs := by
    rcases hvs with ⟨h1, -⟩ | h1
    · cases h1
    · simp only [Option.some.injEq, SeqArg.many.injEq] at h1
      exact ((List.map_inj_right (fun a b hab => by cases hab; rfl)).1 h1).symm
  subst this
  rcases hcase with ⟨h1, -⟩ | ⟨n, o, h1, ho, hon, -⟩
  · cases h1
  · injection h1 with h1
    exact hnum n h1 (List.mem_map.2 ⟨o, ho, hon⟩)

/-- A model with a numeraire. -/
example : (construct id (fun e _ _ => e) (some fun _ _ _ _ => .ok ((), [])) []
      (some (.many [.variable { name := "x" }, .variable { name := "num" }, .variable { name := "y" }])) none
      (some (.many [.equation ⟨"e1", "x = 1"⟩, .equation ⟨"e2", "y = 1"⟩, .equation ⟨"e3", "num = 1"⟩]))
      (some (.name "num"))).map (fun m : CGE Unit => (dkeys m.reg.variables, dkeys m.unpackedVariables, m.nVariables))
    = .ok (["x".toList, "y".toList], ["x".toList, "num".toList, "y".toList], 3) := by decide

/-- **Constructor arguments.**  A single object, documented for `variables`, always raises: it is added,
but cannot be unpacked. -/
theorem C27_single_argument_raises (setList : List Str → List Str) (subst : E → Str → Str → E)
    (parse : Option (Parser E)) (coords : Coords) (a : PyArg) (parameters equations : Option SeqArg)
    (numeraire : Option NumArg) (m : CGE E) :
    construct setList subst parse coords (some (.one a)) parameters equations numeraire ≠ .ok m := by
  intro h
  obtain ⟨vs, ps, hvs, -⟩ := construct_spec setList subst parse coords _ parameters equations _ m h
  rcases hvs with ⟨h1, -⟩ | h1
  · cases h1
  · cases h1

/-- **C31 (unknown numeraire).**  If the model is accepted without numeraire, then asking for one that is
not the name of a variable is a `ValueError`. -/
theorem C31_unknown_value_error (setList : List Str → List Str) (subst : E → Str → Str → E)
    (parse : Option (Parser E)) (coords : Coords) (vs : List ModelObject)
    (parameters equations : Option SeqArg) (num : NumArg)
    (hnum : ∀ n, num = .name n → n ∉ vs.map ModelObject.name) (m : CGE E)
    (h : construct setList subst parse coords (some (.many (vs.map PyArg.variable))) parameters
      equations none = .ok m) :
    construct setList subst parse coords (some (.many (vs.map PyArg.variable))) parameters
      equations (some num) = .error .valueError := by
  unfold construct at h ⊢
  simp only [bind, Except.bind] at h ⊢
  cases hr : initVariables (E := E) (some (.many (vs.map PyArg.variable))) with
  | error e => rw [hr] at h; cases h
  | ok r1 =>
    rw [hr] at h
    dsimp only at h ⊢
    cases hu : initUnpack setList coords (some (.many (vs.map PyArg.variable))) with
    | error e => rw [hu] at h; cases h
    | ok uv =>
      dsimp only
      obtain ⟨vs', h1, -, h3⟩ := addVariables_nil _ r1 hr
      have : vs' = vs := ((List.map_inj_right (fun a b hab => by cases hab; rfl)).1 h1).symm
      subst this
      have : initNumeraire r1 (some num) = .error .valueError := by
        cases num with
        | object o => rfl
        | name n =>
          simp only [initNumeraire]
          rw [(dget_eq_none_iff _ _).2]
          rw [h3]
          unfold dkeys
          rw [List.map_map]
          exact hnum n rfl
      rw [this]

example : ((construct id (fun e _ _ => e) (some fun _ _ _ _ => .ok ((), [])) []
      (some (.many [.variable { name := "x" }])) none
      (some (.many [.equation ⟨"e1", "x = 1"⟩])) none).map fun m : CGE Unit => m.nVariables) = .ok 1 := by
  decide

end Verif
