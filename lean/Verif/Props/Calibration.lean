import Verif.Model.Calibration
import Verif.Model.Simulate
import Verif.Props.Flat
import Verif.Props.Registry
import Verif.Props.Simulate

/-!
# C59: `finalize_calibration` collects a complete, correctly shaped state

The statement a user relies on ("automatically collect the variables in a function context, check shapes,
and return a dictionary of results; if anything was not declared, it will give a reminder",
docs/source/examples/getting_started/rbc.ipynb).
-/

namespace Verif

variable {α E : Type _}

/-! ## Vocabulary -/

/-- The model's objects. -/
def Reg.objects (r : Reg E) : List ModelObject := dvalues r.variables ++ dvalues r.parameters

/-- A declared model: every object is stored under its own name, all names are different and all dims
have labels. -/
structure Declared (r : Reg E) (coords : Coords) : Prop where
  vars : dkeys r.variables = (dvalues r.variables).map ModelObject.name
  params : dkeys r.parameters = (dvalues r.parameters).map ModelObject.name
  names : (r.objects.map ModelObject.name).Nodup
  known : ∀ o ∈ r.objects, KnownDims coords o

/-- The value is usable for the object: it has the object's shape, or the object is a scalar and the
value is an array with one element on one axis. -/
def Fits (coords : Coords) (o : ModelObject) (a : NDArray α) : Prop :=
  a.shape = specShape coords o ∨ (specShape coords o = [] ∧ a.shape = [1])

instance (coords : Coords) (o : ModelObject) (a : NDArray α) : Decidable (Fits coords o a) := by
  unfold Fits; infer_instance

/-- The caller has a value for the object (the name `_` never counts). -/
def Given (callerLocals : Dict Str (CallerLocal α)) (o : ModelObject) (v : CallerLocal α) : Prop :=
  o.name ≠ "_".toList ∧ dget callerLocals o.name = some v

/-- The value pandas has under the label(s). -/
def CallerLocal.atLabels : CallerLocal α → List Str → Option α
  | .series index values, [l] => dget (index.zip values) l
  | .frame index columns values, [r, c] =>
      if r ∈ index ∧ c ∈ columns then values[index.idxOf r * columns.length + columns.idxOf c]? else none
  | _, _ => none

/-! ## Facts about the loop -/

theorem getOne_obj (r : Reg E) (coords : Coords) (h : Declared r coords) (o : ModelObject)
    (ho : o ∈ r.objects) : ∃ f, getOne r o.name = .ok f ∧ f.obj = o := by
  have hn := h.names
  unfold Reg.objects at hn ho
  rw [List.map_append, ← h.vars, ← h.params, List.nodup_append] at hn
  have key : ∀ d : Dict Str ModelObject, dkeys d = (dvalues d).map ModelObject.name → (dkeys d).Nodup →
      o ∈ dvalues d → dget d o.name = some o := by
    intro d hd hnd hm
    apply dget_of_mem_nodup _ hnd
    obtain ⟨⟨k, v⟩, hkv, hv⟩ := List.mem_map.1 hm
    obtain ⟨j, hj, hjv⟩ := List.mem_iff_getElem.1 hkv
    have h1 : (dkeys d)[j]? = some k := by simp [dkeys, hj, hjv]
    rw [hd] at h1
    have h2 : ((dvalues d).map ModelObject.name)[j]? = some o.name := by
      rw [List.getElem?_map]
      have : (dvalues d)[j]? = some o := by
        rw [← hv]; simp [dvalues, hj, hjv]
      rw [this]; rfl
    rw [h2] at h1
    have hk : o.name = k := by simpa using h1
    have hv' : v = o := hv
    rw [hk, ← hv']
    exact hkv
  rcases List.mem_append.1 ho with hv | hp
  · refine ⟨.variable o, ?_, rfl⟩
    unfold getOne
    rw [key _ h.vars hn.1 hv]
  · refine ⟨.parameter o, ?_, rfl⟩
    have hin : o.name ∈ dkeys r.parameters := by
      rw [h.params]; exact List.mem_map.2 ⟨o, hp, rfl⟩
    have hno : dget r.variables o.name = none := by
      rw [dget_eq_none_iff]
      intro hc
      exact hn.2.2 _ hc _ hin rfl
    unfold getOne
    rw [hno, key _ h.params hn.2.1 hp]

/-- What `check_shape` returns for an object of the model. -/
theorem checkShape_ok (r : Reg E) (coords : Coords) (h : Declared r coords) (o : ModelObject)
    (ho : o ∈ r.objects) (a : NDArray α) :
    checkShape r coords a o.name = .ok
      (if Fits coords o a then ⟨specShape coords o, a.data⟩ else a,
       if Fits coords o a then none else some (.badShape o.name a.shape (specShape coords o))) := by
  obtain ⟨f, hf, hfo⟩ := getOne_obj r coords h o ho
  unfold checkShape
  rw [hf]
  dsimp only [Bind.bind, Except.bind]
  rw [hfo, inferShape_eq (h.known o ho)]
  dsimp only [Pure.pure, Except.pure]
  by_cases hs : specShape coords o = []
  · by_cases h1 : a.shape = [1]
    · have : Fits coords o a := Or.inr ⟨hs, h1⟩
      simp [hs, h1, this]
    · by_cases h0 : a.shape = []
      · have : Fits coords o a := Or.inl (by rw [h0, hs])
        simp [hs, h0, this]
      · have : ¬ Fits coords o a := by
          rintro (h2 | h2)
          · exact h0 (h2.trans hs)
          · exact h1 h2.2
        simp [hs, h0, h1, this]
  · by_cases h1 : a.shape = specShape coords o
    · have hfit : Fits coords o a := Or.inl h1
      simp only [hs, and_false, if_false, h1, ne_eq, not_true_eq_false, hfit, if_true]
      rw [← h1]
    · have hfit : ¬ Fits coords o a := by
        rintro (h2 | h2)
        · exact h1 h2
        · exact hs h2.1
      simp only [hs, and_false, if_false, ne_eq, h1, not_false_eq_true, if_true, hfit]

/-- The entry of the result for one object. -/
def entryOf (coords : Coords) (L : Dict Str (CallerLocal α)) (o : ModelObject) :
    Option (Str × NDArray α) :=
  (if o.name ≠ "_".toList then dget L o.name else none).map fun v =>
    (o.name, if Fits coords o v.toArray then ⟨specShape coords o, v.toArray.data⟩ else v.toArray)

/-- The message for one object. -/
def msgOf (coords : Coords) (L : Dict Str (CallerLocal α)) (o : ModelObject) : Option CalMsg :=
  match (if o.name ≠ "_".toList then dget L o.name else none) with
  | none => some (.notFound o.name)
  | some v => if Fits coords o v.toArray then none
      else some (.badShape o.name v.toArray.shape (specShape coords o))

theorem finalizeLoop_ok (r : Reg E) (coords : Coords) (h : Declared r coords)
    (L : Dict Str (CallerLocal α)) (os : List ModelObject) (hos : ∀ o ∈ os, o ∈ r.objects)
    (d : Dict Str (NDArray α)) (out : List CalMsg) :
    finalizeLoop r coords L os d out
      = .ok (dupdate d (os.filterMap (entryOf coords L)), out ++ os.filterMap (msgOf coords L)) := by
  induction os generalizing d out with
  | nil => simp [finalizeLoop, dupdate]
  | cons o os ih =>
    have ih' := ih (fun o' h' => hos o' (List.mem_cons_of_mem _ h'))
    unfold finalizeLoop
    cases hg : (if o.name ≠ "_".toList then dget L o.name else none) with
    | none =>
      have he : entryOf coords L o = none := by unfold entryOf; rw [hg]; rfl
      have hm : msgOf coords L o = some (.notFound o.name) := by unfold msgOf; rw [hg]
      dsimp only
      rw [ih', List.filterMap_cons_none he, List.filterMap_cons_some hm]
      simp
    | some v =>
      have he : entryOf coords L o = some (o.name,
          if Fits coords o v.toArray then ⟨specShape coords o, v.toArray.data⟩ else v.toArray) := by
        unfold entryOf; rw [hg]; rfl
      have hm : msgOf coords L o = if Fits coords o v.toArray then none
          else some (.badShape o.name v.toArray.shape (specShape coords o)) := by
        unfold msgOf; rw [hg]
      dsimp only
      rw [checkShape_ok r coords h o (hos o (by simp))]
      dsimp only
      rw [ih', List.filterMap_cons_some he]
      congr 2
      by_cases hf : Fits coords o v.toArray
      · rw [if_pos hf] at hm
        rw [List.filterMap_cons_none hm, if_pos hf]
        simp
      · rw [if_neg hf] at hm
        rw [List.filterMap_cons_some hm, if_neg hf]
        simp

theorem mem_sorted (r : Reg E) (o : ModelObject) :
    o ∈ sortedByName (dvalues r.variables) ++ sortedByName (dvalues r.parameters) ↔ o ∈ r.objects := by
  unfold sortedByName Reg.objects
  simp [List.mem_append]

theorem nodup_sorted (r : Reg E) (coords : Coords) (h : Declared r coords) :
    ((sortedByName (dvalues r.variables) ++ sortedByName (dvalues r.parameters)).map
      ModelObject.name).Nodup := by
  refine ((List.Perm.map _ ?_).nodup_iff).2 h.names
  exact (List.perm_insertionSort _ _).append (List.perm_insertionSort _ _)

theorem nodup_entries (coords : Coords) (L : Dict Str (CallerLocal α)) (os : List ModelObject)
    (h : (os.map ModelObject.name).Nodup) : (dkeys (os.filterMap (entryOf coords L))).Nodup := by
  have hsub : (dkeys (os.filterMap (entryOf coords L))).Sublist (os.map ModelObject.name) := by
    clear h
    induction os with
    | nil => simp [dkeys]
    | cons o os ih =>
      cases he : entryOf coords L o with
      | none => rw [List.filterMap_cons_none he]; exact ih.cons _
      | some p =>
        rw [List.filterMap_cons_some he]
        have : p.1 = o.name := by
          unfold entryOf at he
          obtain ⟨v, -, hv⟩ := Option.map_eq_some_iff.1 he
          rw [← hv]
        simp only [dkeys, List.map_cons, this]
        exact ih.cons_cons _
  exact hsub.nodup h

theorem pack_lengths (coords : Coords) (D : Dict Str (NDArray α)) (vars params : List ModelObject)
    (h : ∀ o ∈ vars ++ params, DataFor coords D o) (x theta : List α)
    (hp : variableDictToFlatArray D vars params = .ok (x, theta)) :
    x.length = totalSize coords vars ∧ theta.length = totalSize coords params := by
  obtain ⟨bv, hbv, hlv, -⟩ := ravelNamed_ok D coords vars (fun o ho => h o (List.mem_append_left _ ho))
  obtain ⟨bp, hbp, hlp, -⟩ := ravelNamed_ok D coords params
    (fun o ho => h o (List.mem_append_right _ ho))
  have cat : ∀ (bs : List (List α)) y, npConcatenate bs = .ok y → y = bs.flatten := by
    intro bs y hy
    cases bs with
    | nil => cases hy
    | cons b bs => cases hy; rfl
  unfold variableDictToFlatArray at hp
  rw [hbv, hbp] at hp
  dsimp only [Bind.bind, Except.bind] at hp
  cases h1 : npConcatenate bv with
  | error e => rw [h1] at hp; cases hp
  | ok y =>
    cases h2 : npConcatenate bp with
    | error e => rw [h1, h2] at hp; cases hp
    | ok z =>
      rw [h1, h2] at hp
      cases hp
      rw [cat _ _ h1, cat _ _ h2, List.length_flatten, List.length_flatten, hlv, hlp]
      exact ⟨rfl, rfl⟩

/-! ## The claim -/

/-- **C59 (what is returned and printed).**  For every declared model and every calling function:
`finalize_calibration` returns; its keys are exactly the names of the model's objects the caller has; a
value of the right shape is returned with that shape and the same elements, any other as it is; a "not found" line is printed
for exactly the objects the caller does not have, and a shape line for exactly the objects whose value
has another shape. -/
theorem C59_collects_exactly (r : Reg E) (coords : Coords) (h : Declared r coords)
    (L : Dict Str (CallerLocal α)) :
    ∃ D msgs, finalizeCalibration r coords L = .ok (D, msgs) ∧
      (dkeys D).Nodup ∧
      (∀ n, n ∈ dkeys D ↔ ∃ o ∈ r.objects, o.name = n ∧ ∃ v, Given L o v) ∧
      (∀ o ∈ r.objects, ∀ v, Given L o v → Fits coords o v.toArray →
        dget D o.name = some ⟨specShape coords o, v.toArray.data⟩) ∧
      (∀ o ∈ r.objects, ∀ v, Given L o v → ¬ Fits coords o v.toArray →
        dget D o.name = some v.toArray) ∧
      (∀ n, CalMsg.notFound n ∈ msgs ↔ ∃ o ∈ r.objects, o.name = n ∧ ∀ v, ¬ Given L o v) ∧
      (∀ n s t, CalMsg.badShape n s t ∈ msgs ↔ ∃ o ∈ r.objects, o.name = n ∧ ∃ v, Given L o v ∧
        ¬ Fits coords o v.toArray ∧ s = v.toArray.shape ∧ t = specShape coords o) := by
  set os := sortedByName (dvalues r.variables) ++ sortedByName (dvalues r.parameters) with hos
  have hmem : ∀ o, o ∈ os ↔ o ∈ r.objects := mem_sorted r
  have hnd : (os.map ModelObject.name).Nodup := nodup_sorted r coords h
  have hrun := finalizeLoop_ok r coords h L os (fun o ho => (hmem o).1 ho) [] []
  have hgiven : ∀ (o : ModelObject) (v : CallerLocal α),
      (if o.name ≠ "_".toList then dget L o.name else none) = some v ↔ Given L o v := by
    intro o v
    unfold Given
    by_cases hu : o.name = "_".toList
    · rw [if_neg (by simp [hu])]; simp [hu]
    · rw [if_pos hu]; exact ⟨fun hg => ⟨hu, hg⟩, fun hg => hg.2⟩
  have hentries : (dkeys (os.filterMap (entryOf coords L))).Nodup := nodup_entries coords L os hnd
  refine ⟨_, _, hrun, nodup_dkeys_dupdate _ _ (by simp [dkeys]), ?_, ?_, ?_, ?_, ?_⟩
  · intro n
    rw [mem_dkeys_dupdate]
    simp only [dkeys, List.map_nil, List.not_mem_nil, false_or, List.mem_map, List.mem_filterMap]
    constructor
    · rintro ⟨p, ⟨o, ho, he⟩, rfl⟩
      unfold entryOf at he
      obtain ⟨v, hv, hp⟩ := Option.map_eq_some_iff.1 he
      exact ⟨o, (hmem o).1 ho, by rw [← hp], v, (hgiven o v).1 hv⟩
    · rintro ⟨o, ho, rfl, v, hv⟩
      refine ⟨(o.name, if Fits coords o v.toArray then ⟨specShape coords o, v.toArray.data⟩
          else v.toArray), ⟨o, (hmem o).2 ho, ?_⟩, ?_⟩
      · unfold entryOf; rw [(hgiven o v).2 hv]; rfl
      · rfl
  · intro o ho v hv hfit
    rw [dget_dupdate _ _ hentries]
    have : dget (os.filterMap (entryOf coords L)) o.name
        = some ⟨specShape coords o, v.toArray.data⟩ := by
      apply dget_of_mem_nodup _ hentries
      refine List.mem_filterMap.2 ⟨o, (hmem o).2 ho, ?_⟩
      unfold entryOf
      rw [(hgiven o v).2 hv]
      simp [hfit]
    rw [this]; rfl
  · intro o ho v hv hfit
    rw [dget_dupdate _ _ hentries]
    have : dget (os.filterMap (entryOf coords L)) o.name
        = some v.toArray := by
      apply dget_of_mem_nodup _ hentries
      refine List.mem_filterMap.2 ⟨o, (hmem o).2 ho, ?_⟩
      unfold entryOf
      rw [(hgiven o v).2 hv]
      simp [hfit]
    rw [this]; rfl
  · intro n
    simp only [List.nil_append, List.mem_filterMap]
    constructor
    · rintro ⟨o, ho, he⟩
      unfold msgOf at he
      cases hg : (if o.name ≠ "_".toList then dget L o.name else none) with
      | none =>
        rw [hg] at he
        cases he
        refine ⟨o, (hmem o).1 ho, rfl, fun v hv => ?_⟩
        rw [(hgiven o v).2 hv] at hg
        cases hg
      | some v =>
        rw [hg] at he
        dsimp only at he
        split at he <;> cases he
    · rintro ⟨o, ho, rfl, hno⟩
      refine ⟨o, (hmem o).2 ho, ?_⟩
      unfold msgOf
      cases hg : (if o.name ≠ "_".toList then dget L o.name else none) with
      | none => rfl
      | some v => exact absurd ((hgiven o v).1 hg) (hno v)
  · intro n s t
    simp only [List.nil_append, List.mem_filterMap]
    constructor
    · rintro ⟨o, ho, he⟩
      unfold msgOf at he
      cases hg : (if o.name ≠ "_".toList then dget L o.name else none) with
      | none => rw [hg] at he; cases he
      | some v =>
        rw [hg] at he
        dsimp only at he
        by_cases hf : Fits coords o v.toArray
        · rw [if_pos hf] at he; cases he
        · rw [if_neg hf] at he
          cases he
          exact ⟨o, (hmem o).1 ho, rfl, v, (hgiven o v).1 hg, hf, rfl, rfl⟩
    · rintro ⟨o, ho, rfl, v, hv, hf, rfl, rfl⟩
      refine ⟨o, (hmem o).2 ho, ?_⟩
      unfold msgOf
      rw [(hgiven o v).2 hv]
      simp [hf]

/-- **C59 (nothing printed means ready to simulate).**  If nothing is printed, the returned dictionary
passes `simulate`'s check of the initial state, packs into flat vectors of the model's sizes, and
unpacking those gives back the caller's values, object by object. -/
theorem C59_silent_is_ready_partial (r : Reg E) (coords : Coords) (h : Declared r coords)
    (L : Dict Str (CallerLocal α)) (hwf : ∀ p ∈ L, p.2.toArray.WF)
    (hv : dvalues r.variables ≠ []) (hp : dvalues r.parameters ≠ []) (D : Dict Str (NDArray α))
    (hrun : finalizeCalibration r coords L = .ok (D, [])) :
    validateInitial ((dvalues r.variables).map ModelObject.name ++
        (dvalues r.parameters).map ModelObject.name) (dkeys D) = .ok () ∧
    ∃ x theta dx dtheta,
      variableDictToFlatArray D (dvalues r.variables) (dvalues r.parameters) = .ok (x, theta) ∧
      x.length = totalSize coords (dvalues r.variables) ∧
      theta.length = totalSize coords (dvalues r.parameters) ∧
      flatArrayToVariableDict x (dvalues r.variables) coords = .ok dx ∧
      flatArrayToVariableDict theta (dvalues r.parameters) coords = .ok dtheta ∧
      (∀ o ∈ dvalues r.variables, ∃ v, dget L o.name = some v ∧
        dget dx o.name = some ⟨specShape coords o, v.toArray.data⟩) ∧
      (∀ o ∈ dvalues r.parameters, ∃ v, dget L o.name = some v ∧
        dget dtheta o.name = some ⟨specShape coords o, v.toArray.data⟩) := by
  obtain ⟨D', msgs, hrun', -, hkeys, hval, -, hnf, hbad⟩ := C59_collects_exactly r coords h L
  rw [hrun] at hrun'
  cases hrun'
  have hall : ∀ o ∈ r.objects, ∃ v, Given L o v ∧ Fits coords o v.toArray := by
    intro o ho
    by_cases hg : ∃ v, Given L o v
    · obtain ⟨v, hv⟩ := hg
      refine ⟨v, hv, ?_⟩
      by_contra hf
      have := (hbad o.name _ _).2 ⟨o, ho, rfl, v, hv, hf, rfl, rfl⟩
      simp at this
    · have := (hnf o.name).2 ⟨o, ho, rfl, fun v hv => hg ⟨v, hv⟩⟩
      simp at this
  have hdata : ∀ o ∈ r.objects, ∃ v, dget L o.name = some v ∧
      dget D o.name = some ⟨specShape coords o, v.toArray.data⟩ ∧
      v.toArray.data.length = (specShape coords o).prod := by
    intro o ho
    obtain ⟨v, hv, hf⟩ := hall o ho
    refine ⟨v, hv.2, hval o ho v hv hf, ?_⟩
    have hw : v.toArray.data.length = v.toArray.shape.prod := hwf _ (mem_of_dget _ hv.2)
    rw [hw]
    rcases hf with h1 | ⟨h1, h2⟩
    · rw [h1]
    · rw [h1, h2]; rfl
  have hDF : ∀ o ∈ dvalues r.variables ++ dvalues r.parameters, DataFor coords D o := by
    intro o ho
    obtain ⟨v, -, h2, h3⟩ := hdata o ho
    exact ⟨_, h2, rfl, h3⟩
  obtain ⟨x, theta, dx, dtheta, dall, hpack, hx, ht, -, hxv, htv, -, -, -, -⟩ :=
    C01_unpack_of_pack coords (dvalues r.variables) (dvalues r.parameters) D h.known h.names hv hp hDF
  refine ⟨?_, x, theta, dx, dtheta, hpack, ?_, ?_, hx, ht, ?_, ?_⟩
  · refine (C13_validation_exact _ _).1.2 ⟨?_, ?_⟩
    · intro n hn
      rw [← List.map_append] at hn
      obtain ⟨o, ho, rfl⟩ := List.mem_map.1 hn
      obtain ⟨v, hv, -⟩ := hall o ho
      exact (hkeys _).2 ⟨o, ho, rfl, v, hv⟩
    · intro n hn
      obtain ⟨o, ho, rfl, -⟩ := (hkeys n).1 hn
      rw [← List.map_append]
      exact List.mem_map.2 ⟨o, ho, rfl⟩
  · exact (pack_lengths coords D _ _ hDF x theta hpack).1
  · exact (pack_lengths coords D _ _ hDF x theta hpack).2
  · intro o ho
    obtain ⟨v, h1, h2, -⟩ := hdata o (List.mem_append_left _ ho)
    exact ⟨v, h1, (hxv o ho).trans h2⟩
  · intro o ho
    obtain ⟨v, h1, h2, -⟩ := hdata o (List.mem_append_right _ ho)
    exact ⟨v, h1, (htv o ho).trans h2⟩

/-- **C59 (constants).**  `initialize_parameter` gives, for every object of the model, an array of the
object's shape holding the value everywhere, which `finalize_calibration` takes as it is; a name the model
does not have raises a `ValueError`. -/
theorem C59_initialize_parameter (r : Reg E) (coords : Coords) (h : Declared r coords) (value : α) :
    (∀ o ∈ r.objects, ∃ a, initializeParameter r coords o.name value = .ok a ∧
      a.shape = specShape coords o ∧ a.WF ∧ Fits coords o a ∧ ∀ x ∈ a.data, x = value) ∧
    (∀ n, n ∉ r.objects.map ModelObject.name →
      initializeParameter r coords n value = .error .valueError) := by
  constructor
  · intro o ho
    obtain ⟨f, hf, hfo⟩ := getOne_obj r coords h o ho
    refine ⟨⟨specShape coords o, List.replicate (specShape coords o).prod value⟩, ?_, rfl, ?_, Or.inl rfl,
      fun x hx => (List.mem_replicate.1 hx).2⟩
    · unfold initializeParameter
      rw [hf]
      dsimp only [Bind.bind, Except.bind]
      rw [hfo, inferShape_eq (h.known o ho)]
      rfl
    · unfold NDArray.WF; simp
  · intro n hn
    unfold Reg.objects at hn
    rw [List.map_append, ← h.vars, ← h.params, List.mem_append, not_or] at hn
    unfold initializeParameter getOne
    rw [(dget_eq_none_iff _ _).2 hn.1, (dget_eq_none_iff _ _).2 hn.2]
    rfl

/-- **C59 (labelled data, partial).**  A `Series` whose index lists the dim's labels in the model's order
is read label by label. -/
theorem C59_series_in_order_partial (coords : Coords) (o : ModelObject) (dim : Str)
    (hd : o.dims = [dim]) (hk : KnownDims coords o) (values : List α)
    (hl : values.length = (labelsOf coords dim).length) (hnd : (labelsOf coords dim).Nodup) :
    Fits coords o (CallerLocal.series (labelsOf coords dim) values).toArray ∧
    ∀ (j : Nat) (l : Str), (labelsOf coords dim)[j]? = some l →
      (CallerLocal.series (labelsOf coords dim) values).toArray.at? [j]
        = (CallerLocal.series (labelsOf coords dim) values).atLabels [l] := by
  constructor
  · left
    simp [CallerLocal.toArray, specShape, hd, hl]
  · intro j l hj
    have hjl : j < (labelsOf coords dim).length := by
      by_contra hc
      rw [List.getElem?_eq_none (by omega)] at hj
      cases hj
    have hjv : j < values.length := by omega
    have hz : ((labelsOf coords dim).zip values)[j]? = some (l, values[j]) := by
      rw [List.getElem?_zip_eq_some]
      exact ⟨hj, by simp⟩
    have hk' : (dkeys ((labelsOf coords dim).zip values)).Nodup := by
      unfold dkeys
      rw [List.map_fst_zip (by omega)]
      exact hnd
    have h1 : (CallerLocal.series (labelsOf coords dim) values).atLabels [l] = some values[j] :=
      dget_of_mem_nodup _ hk' (List.mem_of_getElem? hz)
    rw [h1]
    simp [CallerLocal.toArray, NDArray.at?, ValidIdx, ravelIndex, hjv]

/-- **C59 (labelled tables, partial).**  A `DataFrame` whose index and columns list the labels of the two dims in
the model's order is read label by label. -/
theorem C59_frame_in_order_partial (coords : Coords) (o : ModelObject) (rows cols : Str)
    (hd : o.dims = [rows, cols]) (values : List α)
    (hl : values.length = (labelsOf coords rows).length * (labelsOf coords cols).length)
    (hr : (labelsOf coords rows).Nodup) (hc : (labelsOf coords cols).Nodup) :
    Fits coords o (CallerLocal.frame (labelsOf coords rows) (labelsOf coords cols) values).toArray ∧
    (CallerLocal.frame (labelsOf coords rows) (labelsOf coords cols) values).toArray.WF ∧
    ∀ (i j : Nat) (r c : Str), (labelsOf coords rows)[i]? = some r → (labelsOf coords cols)[j]? = some c →
      ∃ v, (CallerLocal.frame (labelsOf coords rows) (labelsOf coords cols) values).toArray.at? [i, j] = some v ∧
        (CallerLocal.frame (labelsOf coords rows) (labelsOf coords cols) values).atLabels [r, c] = some v := by
  refine ⟨.inl (by simp [CallerLocal.toArray, specShape, hd]), by simp [CallerLocal.toArray, NDArray.WF, hl], ?_⟩
  intro i j r c hi hj
  obtain ⟨hi', rfl⟩ := List.getElem?_eq_some_iff.1 hi
  obtain ⟨hj', rfl⟩ := List.getElem?_eq_some_iff.1 hj
  have hlt : i * (labelsOf coords cols).length + j < values.length := by
    rw [hl]
    calc i * (labelsOf coords cols).length + j < (i + 1) * (labelsOf coords cols).length := by rw [Nat.succ_mul]; omega
      _ ≤ _ := Nat.mul_le_mul_right _ hi'
  refine ⟨values[i * (labelsOf coords cols).length + j], ?_, ?_⟩
  · simp [CallerLocal.toArray, NDArray.at?, ValidIdx, ravelIndex, hi', hj', hlt]
  · simp only [CallerLocal.atLabels]
    rw [if_pos ⟨List.getElem_mem _, List.getElem_mem _⟩, hr.idxOf_getElem, hc.idxOf_getElem,
      List.getElem?_eq_getElem hlt]

/-- **C59 (labels are not read).**  The result depends on the callers' values only through their
elements in storage order: the index of a `Series` or `DataFrame` is never looked at. -/
theorem C59_index_never_read (r : Reg E) (coords : Coords) (L L' : Dict Str (CallerLocal α))
    (h : ∀ n, (dget L n).map CallerLocal.toArray = (dget L' n).map CallerLocal.toArray) :
    finalizeCalibration r coords L = finalizeCalibration r coords L' := by
  have hloop : ∀ os d out, finalizeLoop r coords L os d out = finalizeLoop r coords L' os d out := by
    intro os
    induction os with
    | nil => intro d out; rfl
    | cons o os ih =>
      intro d out
      unfold finalizeLoop
      by_cases hu : o.name = "_".toList
      · rw [if_neg (not_not.2 hu), if_neg (not_not.2 hu)]
        exact ih _ _
      · rw [if_pos hu, if_pos hu]
        have hn := h o.name
        cases h1 : dget L o.name with
        | none =>
          rw [h1] at hn
          cases h2 : dget L' o.name with
          | none => exact ih _ _
          | some v => rw [h2] at hn; cases hn
        | some v =>
          rw [h1] at hn
          cases h2 : dget L' o.name with
          | none => rw [h2] at hn; cases hn
          | some v' =>
            rw [h2] at hn
            have hv : v.toArray = v'.toArray := by simpa using hn
            dsimp only
            rw [hv]
            split
            · rfl
            · exact ih _ _
  exact hloop _ _ _

/-! ## Example and counterexamples: `x`, `y` over `i ∈ {a, b}`, one scalar parameter `p` -/

def exCalReg : Reg Unit :=
  ⟨[("x".toList, { name := "x", dims := ["i"] }), ("y".toList, { name := "y", dims := ["i"] })],
    [("p".toList, { name := "p" })], []⟩

def exCalCoords : Coords := [("i".toList, ["a", "b"])]

theorem exCal_declared : Declared exCalReg exCalCoords where
  vars := by decide
  params := by decide
  names := by decide
  known := by decide

/-- A complete calibration: nothing is printed. -/
example : finalizeCalibration exCalReg exCalCoords
    [("y".toList, .list [3, 4]), ("x".toList, .series ["a", "b"] [1, 2]), ("p".toList, .list [(7 : Int)]),
      ("tmp".toList, .scalar 0)]
    = .ok ([("x".toList, ⟨[2], [1, 2]⟩), ("y".toList, ⟨[2], [3, 4]⟩), ("p".toList, ⟨[], [7]⟩)], []) := by
  rfl

/-- Constants for the same model, and an unknown name. -/
example : initializeParameter exCalReg exCalCoords "y".toList (5 : Int) = .ok ⟨[2], [5, 5]⟩ ∧
    initializeParameter exCalReg exCalCoords "p".toList (5 : Int) = .ok ⟨[], [5]⟩ ∧
    initializeParameter exCalReg exCalCoords "q".toList (5 : Int) = .error .valueError :=
  ⟨by rfl, by rfl, by rfl⟩

/-- A `Series` in the model's order. -/
example : (CallerLocal.series ["a", "b"] [(1 : Int), 2]).toArray.at? [1] = some 2 ∧
    (CallerLocal.series ["a", "b"] [(1 : Int), 2]).atLabels ["b".toList] = some 2 := by decide

/-- A table over two dims in the model's order. -/
example := C59_frame_in_order_partial [("i".toList, ["a", "b"]), ("j".toList, ["u", "v", "w"])]
  { name := "t", dims := ["i", "j"] } "i".toList "j".toList rfl [(1 : Int), 2, 3, 4, 5, 6] rfl (by decide) (by decide)

example : (CallerLocal.frame ["a", "b"] ["u", "v", "w"] [(1 : Int), 2, 3, 4, 5, 6]).toArray.at? [1, 0] = some 4 ∧
    (CallerLocal.frame ["a", "b"] ["u", "v", "w"] [(1 : Int), 2, 3, 4, 5, 6]).atLabels ["b".toList, "u".toList] =
      some 4 := by decide

/-- The hypotheses of the theorems above are met by the complete calibration … -/
example := C59_collects_exactly exCalReg exCalCoords exCal_declared
    [("y".toList, .list [3, 4]), ("x".toList, .series ["a", "b"] [1, 2]), ("p".toList, .list [(7 : Int)]),
      ("tmp".toList, .scalar 0)]

/-- … after which the model is ready to be simulated … -/
example := C59_silent_is_ready_partial exCalReg exCalCoords exCal_declared
    [("y".toList, .list [3, 4]), ("x".toList, .series ["a", "b"] [1, 2]), ("p".toList, .list [(7 : Int)]),
      ("tmp".toList, .scalar 0)] (by decide) (by decide) (by decide)
    [("x".toList, ⟨[2], [1, 2]⟩), ("y".toList, ⟨[2], [3, 4]⟩), ("p".toList, ⟨[], [7]⟩)] (by rfl)

/-- … by every name that can be initialised … -/
example := C59_initialize_parameter exCalReg exCalCoords exCal_declared (5 : Int)

/-- … by a `Series` in the order of the labels … -/
example := C59_series_in_order_partial exCalCoords { name := "x", dims := ["i"] } "i" rfl (by decide)
    [(1 : Int), 2] rfl (by decide)

/-- … and by two dictionaries that differ in the index of a `Series`. -/
example : finalizeCalibration exCalReg exCalCoords [("x".toList, .series ["a", "b"] [(1 : Int), 2])]
    = finalizeCalibration exCalReg exCalCoords [("x".toList, .series ["b", "a"] [1, 2])] :=
  C59_index_never_read exCalReg exCalCoords _ _ fun n => by simp [dget, CallerLocal.toArray]

/-- **C59 (negation, 1).**  A `Series` with the right labels in another order: the value reported for
label `a` is the one the caller has for label `b`, and nothing is printed. -/
theorem C59_reordered_series_misassigned :
    ∃ (L : Dict Str (CallerLocal Int)) (v : CallerLocal Int) (D : Dict Str (NDArray Int)) (arr : NDArray Int),
      Declared exCalReg exCalCoords ∧ dget L "x".toList = some v ∧
      finalizeCalibration exCalReg exCalCoords L = .ok (D, []) ∧ dget D "x".toList = some arr ∧
      v.atLabels ["a".toList] = some 20 ∧ arr.at? [0] = some 10 :=
  ⟨[("x".toList, .series ["b", "a"] [10, 20]), ("y".toList, .list [3, 4]), ("p".toList, .scalar 7)],
    .series ["b", "a"] [10, 20],
    [("x".toList, ⟨[2], [10, 20]⟩), ("y".toList, ⟨[2], [3, 4]⟩), ("p".toList, ⟨[], [7]⟩)],
    ⟨[2], [10, 20]⟩, exCal_declared, by decide, by rfl, by decide, by decide, by decide⟩

/-- **C59 (negation, 2).**  Data of the wrong shape is printed about but returned all the same; the
dictionary passes `simulate`'s check, packs, and after unpacking `y` holds an element of `x`. -/
theorem C59_wrong_shape_returned :
    ∃ (L : Dict Str (CallerLocal Int)) (D : Dict Str (NDArray Int)) (msgs : List CalMsg)
      (x theta : List Int) (dx : Dict Str (NDArray Int)),
      Declared exCalReg exCalCoords ∧
      finalizeCalibration exCalReg exCalCoords L = .ok (D, msgs) ∧
      dget D "x".toList = some ⟨[3], [1, 2, 3]⟩ ∧ dget D "y".toList = some ⟨[], [4]⟩ ∧
      validateInitial ["x", "y", "p"] (dkeys D) = .ok () ∧
      variableDictToFlatArray D (dvalues exCalReg.variables) (dvalues exCalReg.parameters)
        = .ok (x, theta) ∧
      flatArrayToVariableDict x (dvalues exCalReg.variables) exCalCoords = .ok dx ∧
      dget dx "y".toList = some ⟨[2], [3, 4]⟩ :=
  ⟨[("x".toList, .list [1, 2, 3]), ("y".toList, .scalar 4), ("p".toList, .scalar 7)],
    [("x".toList, ⟨[3], [1, 2, 3]⟩), ("y".toList, ⟨[], [4]⟩), ("p".toList, ⟨[], [7]⟩)],
    [.badShape "x" [3] [2], .badShape "y" [] [2]],
    [1, 2, 3, 4], [7], [("x".toList, ⟨[2], [1, 2]⟩), ("y".toList, ⟨[2], [3, 4]⟩)],
    exCal_declared, by rfl, by decide, by decide, by rfl, by rfl, by rfl, by decide⟩

end Verif
