import Verif.Lemmas.ParamMask

/-!
# C01–C04: flat packing of model data

Specification vocabulary: `Verif.Spec.Layout` (shape and size of an object from its dims and the
coords) and `ravelIndex` (mixed-radix row-major position).
-/

namespace Verif

variable {α : Type _}

/-! ## A concrete model used in the examples: a scalar, a vector over `i` and an `i × j` matrix. -/

/-- coords `{"i": [a, b], "j": [u, v, w]}` -/
def exCoords : Coords := [("i", ["a", "b"]), ("j", ["u", "v", "w"])]
def exVars : List ModelObject := [{ name := "P" }, { name := "X", dims := ["i", "j"] }]
def exParams : List ModelObject := [{ name := "alpha", dims := ["i"] }]
def exData : Dict Str (NDArray Nat) :=
  [("X", ⟨[2, 3], [1, 2, 3, 4, 5, 6]⟩), ("alpha", ⟨[2], [7, 8]⟩), ("P", ⟨[], [9]⟩)]

/-! ## C01 -/

/-- Helper for C01: packing one group and unpacking it, possibly followed by other data. -/
theorem pack_then_unpack (coords : Coords) (objs : List ModelObject) (d : Dict Str (NDArray α))
    (hk : ∀ o ∈ objs, KnownDims coords o) (hn : (objs.map ModelObject.name).Nodup)
    (hd : ∀ o ∈ objs, DataFor coords d o) :
    ∃ bs d', ravelNamed d objs = .ok bs ∧ bs.map List.length = objs.map (specSize coords) ∧
      flatArrayToVariableDict bs.flatten objs coords = .ok d' ∧
      dkeys d' = objs.map ModelObject.name ∧ ∀ o ∈ objs, dget d' o.name = dget d o.name := by
  obtain ⟨bs, hb, hl, hg⟩ := ravelNamed_ok d coords objs hd
  have htot : totalSize coords objs = bs.flatten.length := by
    rw [List.length_flatten, hl]; rfl
  have hkeys : ((flatPairs coords objs bs.flatten).map Prod.fst).Nodup := by
    rw [map_fst_flatPairs]; exact hn
  refine ⟨bs, flatPairs coords objs bs.flatten, hb, hl, ?_, ?_, ?_⟩
  · rw [flatArrayToVariableDict, flatToDictLoop_ok _ _ _ hk _ _ (by omega)]
    rw [List.drop_zero]
    exact congrArg Except.ok (dofPairs_of_nodup _ hkeys)
  · exact map_fst_flatPairs _ _ _
  · intro o ho
    obtain ⟨m, hm, hmo⟩ := List.getElem_of_mem ho
    have hm' : objs[m]? = some o := by rw [List.getElem?_eq_getElem hm, hmo]
    obtain ⟨a, ha, hba⟩ := hg m o hm'
    obtain ⟨a', ha', hs, hwf⟩ := hd o ho
    rw [ha] at ha'; cases ha'
    rw [ha]
    apply dget_of_mem_nodup _ hkeys
    have hp := flatPairs_getElem? coords objs bs.flatten m o hm'
    have hblk : (bs.flatten.drop (offsetOf coords objs m)).take (specSize coords o) = a.data := by
      have h1 := getElem?_splitBlocks (bs.map List.length) bs.flatten m
        (by rw [hl]; simpa using hm)
      have h2 := splitBlocks_flatten bs []
      rw [List.append_nil] at h2
      rw [h2, hba] at h1
      have h3 := Option.some.inj h1
      have h4 : ((bs.map List.length).take m).sum = offsetOf coords objs m := by
        rw [hl]; simp [offsetOf, totalSize]
      have h5 : (bs.map List.length)[m]'(by rw [hl]; simpa using hm) = specSize coords o := by
        simp only [hl, List.getElem_map, hmo]
      rw [h4, h5] at h3
      exact h3.symm
    rw [hblk] at hp
    have : (⟨specShape coords o, a.data⟩ : NDArray α) = a := by rw [← hs]
    rw [this] at hp
    exact List.mem_of_getElem? hp

/-- **C01 (unpack ∘ pack).**  For every model with distinct names and known dims, and every
dictionary of correctly shaped arrays, packing succeeds, and unpacking `x`, `theta` or their
concatenation gives back, under every declared name, exactly the array that was put in (and no
other names). -/
theorem C01_unpack_of_pack (coords : Coords) (vars params : List ModelObject)
    (d : Dict Str (NDArray α))
    (hk : ∀ o ∈ vars ++ params, KnownDims coords o)
    (hn : ((vars ++ params).map ModelObject.name).Nodup)
    (hv : vars ≠ []) (hp : params ≠ [])
    (hd : ∀ o ∈ vars ++ params, DataFor coords d o) :
    ∃ x theta dx dtheta dall,
      variableDictToFlatArray d vars params = .ok (x, theta) ∧
      flatArrayToVariableDict x vars coords = .ok dx ∧
      flatArrayToVariableDict theta params coords = .ok dtheta ∧
      flatArrayToVariableDict (x ++ theta) (vars ++ params) coords = .ok dall ∧
      (∀ o ∈ vars, dget dx o.name = dget d o.name) ∧
      (∀ o ∈ params, dget dtheta o.name = dget d o.name) ∧
      (∀ o ∈ vars ++ params, dget dall o.name = dget d o.name) ∧
      dkeys dx = vars.map ModelObject.name ∧ dkeys dtheta = params.map ModelObject.name ∧
      dkeys dall = (vars ++ params).map ModelObject.name := by
  have hnv : (vars.map ModelObject.name).Nodup := by
    rw [List.map_append] at hn; exact (List.nodup_append.1 hn).1
  have hnp : (params.map ModelObject.name).Nodup := by
    rw [List.map_append] at hn; exact (List.nodup_append.1 hn).2.1
  obtain ⟨bv, dx, hbv, hlv, hdx, hkx, hgx⟩ := pack_then_unpack coords vars d
    (fun o h => hk o (by simp [h])) hnv (fun o h => hd o (by simp [h]))
  obtain ⟨bp, dt, hbp, hlp, hdt, hkt, hgt⟩ := pack_then_unpack coords params d
    (fun o h => hk o (by simp [h])) hnp (fun o h => hd o (by simp [h]))
  obtain ⟨ba, da, hba, hla, hda, hka, hga⟩ := pack_then_unpack coords (vars ++ params) d hk hn hd
  have hba' : ba = bv ++ bp := by
    unfold ravelNamed at hba hbv hbp
    rw [List.mapM_append, hbv, hbp] at hba
    simpa [bind, Except.bind, pure, Except.pure] using hba.symm
  have hv' : bv ≠ [] := by
    rintro rfl
    cases vars with
    | nil => exact hv rfl
    | cons a l => simp at hlv
  have hp' : bp ≠ [] := by
    rintro rfl
    cases params with
    | nil => exact hp rfl
    | cons a l => simp at hlp
  refine ⟨bv.flatten, bp.flatten, dx, dt, da, ?_, hdx, hdt, ?_, hgx, hgt, hga, hkx, hkt, hka⟩
  · simp only [variableDictToFlatArray, hbv, hbp, npConcatenate_ok hv', npConcatenate_ok hp', bind,
      Except.bind, pure, Except.pure]
  · rw [← List.flatten_append, ← hba']; exact hda

example : (∀ o ∈ exVars ++ exParams, KnownDims exCoords o) ∧
    ((exVars ++ exParams).map ModelObject.name).Nodup ∧ exVars ≠ [] ∧ exParams ≠ [] ∧
    (∀ o ∈ exVars ++ exParams, DataFor exCoords exData o) := by
  refine ⟨by decide, by decide, by decide, by decide, ?_⟩
  intro o ho
  simp only [exVars, exParams, List.cons_append, List.nil_append, List.mem_cons,
    List.not_mem_nil, or_false] at ho
  rcases ho with rfl | rfl | rfl
  · exact ⟨⟨[], [9]⟩, by decide, by decide, by decide⟩
  · exact ⟨⟨[2, 3], [1, 2, 3, 4, 5, 6]⟩, by decide, by decide, by decide⟩
  · exact ⟨⟨[2], [7, 8]⟩, by decide, by decide, by decide⟩

/-- The packing of the example, to see that the statement is about what one expects. -/
example : variableDictToFlatArray exData exVars exParams = .ok ([9, 1, 2, 3, 4, 5, 6], [7, 8]) := by
  decide

/-- Helper for C01: unpacking a vector and packing one sub-list of the objects. -/
theorem ravelNamed_flatPairs (coords : Coords) (objs sub : List ModelObject) (x : List α)
    (hn : (objs.map ModelObject.name).Nodup) (k : Nat)
    (hsub : ∀ m, m < sub.length → objs[k + m]? = sub[m]?)
    (hlen : totalSize coords objs ≤ x.length) :
    ∃ bs, ravelNamed (flatPairs coords objs x) sub = .ok bs ∧
      bs = splitBlocks (sub.map (specSize coords)) (x.drop (offsetOf coords objs k)) := by
  induction sub generalizing k with
  | nil => exact ⟨[], rfl, rfl⟩
  | cons o sub ih =>
    have h0 : objs[k]? = some o := by simpa using hsub 0 (by simp)
    obtain ⟨bs, hb, hbs⟩ := ih (k + 1) (by
      intro m hm
      have := hsub (m + 1) (by simpa using hm)
      rw [List.getElem?_cons_succ] at this
      rw [← this]; congr 1; omega)
    have hp := flatPairs_getElem? coords objs x k o h0
    have hget : dget (flatPairs coords objs x) o.name = some ⟨specShape coords o,
        (x.drop (offsetOf coords objs k)).take (specSize coords o)⟩ := by
      apply dget_of_mem_nodup
      · unfold dkeys; rw [map_fst_flatPairs]; exact hn
      · exact List.mem_of_getElem? hp
    refine ⟨((x.drop (offsetOf coords objs k)).take (specSize coords o)) :: bs, ?_, ?_⟩
    · unfold ravelNamed at hb ⊢
      rw [List.mapM_cons, dgetE_of_some hget, hb]
      rfl
    · rw [hbs]
      have hoff : offsetOf coords objs (k + 1) = offsetOf coords objs k + specSize coords o := by
        simp only [offsetOf, totalSize]
        rw [List.take_add_one, h0]
        simp
      simp only [List.map_cons, splitBlocks, List.drop_drop, hoff]

/-- **C01 (pack ∘ unpack).**  For every model with distinct names and known dims and every pair of
vectors of the model's length, unpacking the concatenation succeeds and packing the result gives
back the same two vectors. -/
theorem C01_pack_of_unpack (coords : Coords) (vars params : List ModelObject) (x theta : List α)
    (hk : ∀ o ∈ vars ++ params, KnownDims coords o)
    (hn : ((vars ++ params).map ModelObject.name).Nodup)
    (hv : vars ≠ []) (hp : params ≠ [])
    (hx : x.length = totalSize coords vars) (ht : theta.length = totalSize coords params) :
    ∃ d, flatArrayToVariableDict (x ++ theta) (vars ++ params) coords = .ok d ∧
      variableDictToFlatArray d vars params = .ok (x, theta) := by
  have hlen : totalSize coords (vars ++ params) = (x ++ theta).length := by
    rw [totalSize_append, List.length_append]; omega
  refine ⟨flatPairs coords (vars ++ params) (x ++ theta), ?_, ?_⟩
  · rw [flatArrayToVariableDict, flatToDictLoop_ok _ _ _ hk _ _ (by omega), List.drop_zero]
    apply congrArg Except.ok
    apply dofPairs_of_nodup
    rw [map_fst_flatPairs]; exact hn
  · obtain ⟨bv, hbv, hbv'⟩ := ravelNamed_flatPairs coords (vars ++ params) vars (x ++ theta) hn 0
      (by intro m hm; rw [Nat.zero_add, List.getElem?_append_left hm]) (by omega)
    obtain ⟨bp, hbp, hbp'⟩ := ravelNamed_flatPairs coords (vars ++ params) params (x ++ theta) hn
      vars.length
      (by intro m hm; rw [List.getElem?_append_right (by omega)]; congr 1; omega) (by omega)
    have hv' : bv ≠ [] := by
      rw [hbv']; cases vars with
      | nil => exact absurd rfl hv
      | cons a l => simp [splitBlocks]
    have hp' : bp ≠ [] := by
      rw [hbp']; cases params with
      | nil => exact absurd rfl hp
      | cons a l => simp [splitBlocks]
    have h1 : bv.flatten = x := by
      rw [hbv', flatten_splitBlocks]
      · have : (vars.map (specSize coords)).sum = x.length := hx.symm
        simp [offsetOf, totalSize, this]
      · have : (vars.map (specSize coords)).sum = x.length := hx.symm
        simp [offsetOf, totalSize, this]
    have h2 : bp.flatten = theta := by
      have hoff : offsetOf coords (vars ++ params) vars.length = x.length := by
        simp [offsetOf, hx]
      rw [hbp', hoff, List.drop_left, flatten_splitBlocks]
      · have : (params.map (specSize coords)).sum = theta.length := ht.symm
        simp [this]
      · have : (params.map (specSize coords)).sum = theta.length := ht.symm
        simp [this]
    simp only [variableDictToFlatArray, hbv, hbp, npConcatenate_ok hv', npConcatenate_ok hp', bind,
      Except.bind, pure, Except.pure, h1, h2]

example : ([9, 1, 2, 3, 4, 5, 6] : List Nat).length = totalSize exCoords exVars ∧
    ([7, 8] : List Nat).length = totalSize exCoords exParams := by decide

/-- **C01 (error branch).**  Packing raises as soon as a declared name has no data. -/
theorem C01_pack_missing_raises (d : Dict Str (NDArray α)) (vars params : List ModelObject)
    (h : ∃ o ∈ vars ++ params, o.name ∉ dkeys d) :
    ∃ e, variableDictToFlatArray d vars params = .error e := by
  have miss : ∀ objs : List ModelObject, (∃ o ∈ objs, o.name ∉ dkeys d) →
      ravelNamed d objs = .error .keyError := by
    intro objs
    induction objs with
    | nil => simp
    | cons o objs ih =>
      intro h
      unfold ravelNamed at ih ⊢
      rw [List.mapM_cons]
      by_cases ho : o.name ∈ dkeys d
      · obtain ⟨a, ha⟩ := (mem_dkeys_iff _ _).1 ho
        rw [dgetE_of_some ha, ih]
        · rfl
        · obtain ⟨o', h1, h2⟩ := h
          rcases List.mem_cons.1 h1 with rfl | h1
          · exact absurd ho h2
          · exact ⟨o', h1, h2⟩
      · rw [dgetE_of_none ((dget_eq_none_iff _ _).2 ho)]; rfl
  obtain ⟨o, ho, hod⟩ := h
  rcases List.mem_append.1 ho with h1 | h1
  · exact ⟨.keyError, by simp [variableDictToFlatArray, miss vars ⟨o, h1, hod⟩, bind, Except.bind]⟩
  · have hm := miss params ⟨o, h1, hod⟩
    cases hv : ravelNamed d vars with
    | error e => exact ⟨e, by simp [variableDictToFlatArray, hv, bind, Except.bind]⟩
    | ok vs =>
      cases hc : npConcatenate vs with
      | error e => exact ⟨e, by simp [variableDictToFlatArray, hv, hc, bind, Except.bind]⟩
      | ok x => exact ⟨.keyError, by simp [variableDictToFlatArray, hv, hc, hm, bind, Except.bind]⟩

example : ∃ o ∈ exVars ++ exParams, o.name ∉ dkeys ([("X", ⟨[], [1]⟩)] : Dict Str (NDArray Nat)) := by
  decide

/-- **C01 (when packing succeeds).**  Packing succeeds exactly if there is at least one variable, at least one
parameter, and data under every declared name: a model without parameters cannot be packed. -/
theorem C01_packs_iff (d : Dict Str (NDArray α)) (vars params : List ModelObject) :
    (∃ r, variableDictToFlatArray d vars params = .ok r) ↔
      vars ≠ [] ∧ params ≠ [] ∧ ∀ o ∈ vars ++ params, o.name ∈ dkeys d := by
  have some_of : ∀ objs : List ModelObject, (∀ o ∈ objs, o.name ∈ dkeys d) →
      ∃ bs, ravelNamed d objs = .ok bs ∧ bs.length = objs.length := by
    intro objs
    induction objs with
    | nil => intro _; exact ⟨[], rfl, rfl⟩
    | cons o objs ih =>
      intro h
      obtain ⟨a, ha⟩ := (mem_dkeys_iff _ _).1 (h o (by simp))
      obtain ⟨bs, hb, hl⟩ := ih fun o' h' => h o' (by simp [h'])
      unfold ravelNamed at hb ⊢
      refine ⟨a.data :: bs, ?_, by simp [hl]⟩
      rw [List.mapM_cons, dgetE_of_some ha, hb]; rfl
  constructor
  · rintro ⟨r, hr⟩
    have hall : ∀ o ∈ vars ++ params, o.name ∈ dkeys d := by
      intro o ho
      refine Classical.byContradiction fun hc => ?_
      obtain ⟨e, he⟩ := C01_pack_missing_raises d vars params ⟨o, ho, hc⟩
      rw [hr] at he; cases he
    refine ⟨?_, ?_, hall⟩
    · rintro rfl
      simp [variableDictToFlatArray, ravelNamed, npConcatenate, bind, Except.bind, pure, Except.pure] at hr
    · rintro rfl
      obtain ⟨bs, hb, _⟩ := some_of vars fun o h => hall o (by simp [h])
      have h0 : ravelNamed d [] = .ok [] := rfl
      have h1 : npConcatenate ([] : List (List α)) = .error .valueError := rfl
      cases hc : npConcatenate bs <;>
        simp only [variableDictToFlatArray, hb, hc, h0, h1, bind, Except.bind] at hr <;> cases hr
  · rintro ⟨hv, hp, hall⟩
    obtain ⟨bs, hb, hl⟩ := some_of vars fun o h => hall o (by simp [h])
    obtain ⟨cs, hc, hl'⟩ := some_of params fun o h => hall o (by simp [h])
    have e1 : ∃ x, npConcatenate bs = .ok x := by
      cases bs with
      | nil => exact absurd (List.length_eq_zero_iff.1 hl.symm) hv
      | cons b bs => exact ⟨_, rfl⟩
    have e2 : ∃ x, npConcatenate cs = .ok x := by
      cases cs with
      | nil => exact absurd (List.length_eq_zero_iff.1 hl'.symm) hp
      | cons b bs => exact ⟨_, rfl⟩
    obtain ⟨x, hx⟩ := e1
    obtain ⟨t, ht⟩ := e2
    exact ⟨(x, t), by simp [variableDictToFlatArray, hb, hc, hx, ht, bind, Except.bind, pure, Except.pure]⟩

/-- The example model with its data, and the same variables without parameters. -/
example : (∃ r, variableDictToFlatArray exData exVars exParams = .ok r) ∧
    ¬ ∃ r, variableDictToFlatArray exData exVars [] = .ok r :=
  ⟨(C01_packs_iff _ _ _).2 (by decide), fun h => ((C01_packs_iff _ _ _).1 h).2.1 rfl⟩

/-! ## C02 -/

/-- Helper for C02: address of an element in the packed vector of one group. -/
theorem packed_address (coords : Coords) (objs : List ModelObject) (d : Dict Str (NDArray α))
    (hd : ∀ o ∈ objs, DataFor coords d o) (bs : List (List α)) (hb : ravelNamed d objs = .ok bs)
    (m : Nat) (o : ModelObject) (ho : objs[m]? = some o) (idx : List Nat)
    (hv : ValidIdx (specShape coords o) idx) :
    ∃ a v, dget d o.name = some a ∧ a.at? idx = some v ∧
      bs.flatten[offsetOf coords objs m + ravelIndex (specShape coords o) idx]? = some v := by
  obtain ⟨bs', hb', hl, hg⟩ := ravelNamed_ok d coords objs hd
  rw [hb] at hb'; cases hb'
  obtain ⟨a, ha, hba⟩ := hg m o ho
  obtain ⟨a', ha', hs, hwf⟩ := hd o (List.mem_of_getElem? ho)
  rw [ha] at ha'; cases ha'
  have hr := ravelIndex_lt _ _ hv
  have hlen : a.data.length = specSize coords o := by
    unfold NDArray.WF at hwf; rw [hwf, hs]; rfl
  have hr' : ravelIndex (specShape coords o) idx < a.data.length := by rw [hlen]; exact hr
  refine ⟨a, a.data[ravelIndex (specShape coords o) idx], ha, ?_, ?_⟩
  · have hv' : ValidIdx a.shape idx := by rw [hs]; exact hv
    simp only [NDArray.at?, hs, if_pos hv]
    exact List.getElem?_eq_getElem hr'
  · have hm : m < objs.length := by
      rcases Nat.lt_or_ge m objs.length with h | h
      · exact h
      · rw [List.getElem?_eq_none h] at ho; cases ho
    have h1 := getElem?_splitBlocks (bs.map List.length) bs.flatten m (by rw [hl]; simpa using hm)
    have h2 := splitBlocks_flatten bs []
    rw [List.append_nil] at h2
    rw [h2, hba] at h1
    have h3 := Option.some.inj h1
    have h4 : ((bs.map List.length).take m).sum = offsetOf coords objs m := by
      rw [hl]; simp [offsetOf, totalSize]
    rw [h4] at h3
    have h5 : a.data[ravelIndex (specShape coords o) idx]?
        = bs.flatten[offsetOf coords objs m + ravelIndex (specShape coords o) idx]? := by
      conv => lhs; rw [h3]
      rw [List.getElem?_take, if_pos, List.getElem?_drop]
      have h6 : (bs.map List.length)[m]'(by rw [hl]; simpa using hm) = specSize coords o := by
        have : objs[m] = o := by
          rw [List.getElem?_eq_getElem hm] at ho; exact Option.some.inj ho
        simp only [hl, List.getElem_map, this]
      rw [h6]; exact hr
    rw [← h5]
    exact List.getElem?_eq_getElem hr'

/-- **C02 (addresses).**  In the packed vectors the element of object number `m` at multi-index
`idx` sits at (total size of the earlier objects) + (row-major index of `idx`). -/
theorem C02_element_address (coords : Coords) (vars params : List ModelObject)
    (d : Dict Str (NDArray α)) (hd : ∀ o ∈ vars ++ params, DataFor coords d o)
    (x theta : List α) (hpack : variableDictToFlatArray d vars params = .ok (x, theta)) :
    (∀ m o idx, vars[m]? = some o → ValidIdx (specShape coords o) idx →
      ∃ a v, dget d o.name = some a ∧ a.at? idx = some v ∧
        x[offsetOf coords vars m + ravelIndex (specShape coords o) idx]? = some v) ∧
    (∀ m o idx, params[m]? = some o → ValidIdx (specShape coords o) idx →
      ∃ a v, dget d o.name = some a ∧ a.at? idx = some v ∧
        theta[offsetOf coords params m + ravelIndex (specShape coords o) idx]? = some v) ∧
    x.length = totalSize coords vars ∧ theta.length = totalSize coords params := by
  obtain ⟨bv, hbv, hlv, _⟩ := ravelNamed_ok d coords vars (fun o h => hd o (by simp [h]))
  obtain ⟨bp, hbp, hlp, _⟩ := ravelNamed_ok d coords params (fun o h => hd o (by simp [h]))
  simp only [variableDictToFlatArray, hbv, hbp, bind, Except.bind, pure, Except.pure] at hpack
  cases bv with
  | nil => simp [npConcatenate] at hpack
  | cons b1 bv =>
    cases bp with
    | nil => simp [npConcatenate] at hpack
    | cons b2 bp =>
      simp only [npConcatenate, Except.ok.injEq, Prod.mk.injEq] at hpack
      obtain ⟨rfl, rfl⟩ := hpack
      refine ⟨fun m o idx ho hv => ?_, fun m o idx ho hv => ?_, ?_, ?_⟩
      · exact packed_address coords vars d (fun o h => hd o (by simp [h])) _ hbv m o ho idx hv
      · exact packed_address coords params d (fun o h => hd o (by simp [h])) _ hbp m o ho idx hv
      · rw [List.length_flatten, hlv]; rfl
      · rw [List.length_flatten, hlp]; rfl

/-- In the example `X[1, 2]` is at position `1 + (1*3 + 2) = 6` of `x`. -/
example : offsetOf exCoords exVars 1 + ravelIndex [2, 3] [1, 2] = 6 ∧
    ([9, 1, 2, 3, 4, 5, 6] : List Nat)[6]? = some 6 ∧
    NDArray.at? (⟨[2, 3], [1, 2, 3, 4, 5, 6]⟩ : NDArray Nat) [1, 2] = some 6 := by decide

/-- **C02 (bijection).**  Every position below the total length belongs to exactly one object and
one multi-index of that object. -/
theorem C02_address_bijective (coords : Coords) (objs : List ModelObject) (p : Nat)
    (hp : p < totalSize coords objs) :
    ∃ m o idx, objs[m]? = some o ∧ ValidIdx (specShape coords o) idx ∧
      offsetOf coords objs m + ravelIndex (specShape coords o) idx = p ∧
      ∀ m' o' idx', objs[m']? = some o' → ValidIdx (specShape coords o') idx' →
        offsetOf coords objs m' + ravelIndex (specShape coords o') idx' = p →
        m' = m ∧ o' = o ∧ idx' = idx := by
  obtain ⟨m, hm, h1, h2⟩ := block_exists (objs.map (specSize coords)) p hp
  have hm' : m < objs.length := by simpa using hm
  have hoff : ∀ m, ((objs.map (specSize coords)).take m).sum = offsetOf coords objs m := by
    intro m; simp [offsetOf, totalSize]
  rw [hoff] at h1 h2
  simp only [List.getElem_map] at h2
  have hk : p - offsetOf coords objs m < (specShape coords objs[m]).prod := by
    have : (specShape coords objs[m]).prod = specSize coords objs[m] := rfl
    omega
  refine ⟨m, objs[m], unravelIndex (specShape coords objs[m]) (p - offsetOf coords objs m),
    List.getElem?_eq_getElem hm', unravel_valid _ _ hk, ?_, ?_⟩
  · rw [ravel_unravel _ _ hk]; omega
  · intro m' o' idx' ho' hv' hpos
    have hml : m' < objs.length := by
      rcases Nat.lt_or_ge m' objs.length with h | h
      · exact h
      · rw [List.getElem?_eq_none h] at ho'; cases ho'
    have hoe : objs[m'] = o' := by
      rw [List.getElem?_eq_getElem hml] at ho'; exact Option.some.inj ho'
    have hlt := ravelIndex_lt _ _ hv'
    have : m' = m := by
      apply block_unique (objs.map (specSize coords)) p m' m (by simpa using hml)
        (by simpa using hm')
      · rw [hoff]; omega
      · rw [hoff, List.getElem_map, hoe]; simp only [specSize]; omega
      · rw [hoff]; exact h1
      · rw [hoff, List.getElem_map]; exact h2
    subst this
    refine ⟨rfl, hoe.symm, ?_⟩
    rw [hoe]
    have : p - offsetOf coords objs m' = ravelIndex (specShape coords o') idx' := by omega
    rw [this, unravel_ravel _ _ hv']

example : 6 < totalSize exCoords exVars := by decide

/-- **C02 (symbolic side).**  Cutting a flat tensor into a ragged list and flattening it again is
the identity on vectors of the right length, and flattening followed by cutting with the arrays'
shapes gives back the arrays. -/
theorem C02_ragged_roundtrip (shapes : List (List Nat)) (hs : shapes ≠ []) (x : List α)
    (hx : x.length = (shapes.map List.prod).sum) :
    ∃ as, flatTensorToRaggedList x shapes = .ok as ∧ as.map NDArray.shape = shapes ∧
      (∀ a ∈ as, a.WF) ∧ flattenEquations as = .ok x := by
  have key : ∀ (shapes : List (List Nat)) (c : Nat),
      c + (shapes.map List.prod).sum ≤ x.length →
      ∃ as, raggedLoop x shapes c = .ok as ∧ as.map NDArray.shape = shapes ∧ (∀ a ∈ as, a.WF) ∧
        as.map NDArray.data = splitBlocks (shapes.map List.prod) (x.drop c) := by
    intro shapes
    induction shapes with
    | nil => intro c _; exact ⟨[], rfl, rfl, by simp, rfl⟩
    | cons s ss ih =>
      intro c hc
      simp only [List.map_cons, List.sum_cons] at hc
      obtain ⟨as, h1, h2, h3, h4⟩ := ih (c + s.prod) (by omega)
      have hl : ((x.drop c).take s.prod).length = s.prod := by
        rw [List.length_take, List.length_drop]; omega
      refine ⟨⟨s, (x.drop c).take s.prod⟩ :: as, ?_, ?_, ?_, ?_⟩
      · simp only [raggedLoop, slice_eq, reshape, hl, if_true, bind, Except.bind, h1, pure,
          Except.pure]
      · simp [h2]
      · intro a ha
        rcases List.mem_cons.1 ha with rfl | ha
        · exact hl
        · exact h3 a ha
      · simp [splitBlocks, h4, List.drop_drop]
  obtain ⟨as, h1, h2, h3, h4⟩ := key shapes 0 (by omega)
  refine ⟨as, h1, h2, h3, ?_⟩
  rw [flattenEquations, npConcatenate_ok]
  · rw [h4, flatten_splitBlocks _ _ (by simp [hx]), List.drop_zero, ← hx, List.take_length]
  · intro h
    rw [h4] at h
    cases shapes with
    | nil => exact hs rfl
    | cons a l => simp [splitBlocks] at h

example : flatTensorToRaggedList [9, 1, 2, 3, 4, 5, 6] [[], [2, 3]]
    = .ok [⟨[], [9]⟩, ⟨[2, 3], [1, 2, 3, 4, 5, 6]⟩] := by decide

/-! ## C03 -/

/-- `p` lies in the block of an object whose name is in `names`. -/
def InNamedBlock (coords : Coords) (objs : List ModelObject) (names : List Str) (p : Nat) : Prop :=
  ∃ m o, objs[m]? = some o ∧ o.name ∈ names ∧
    offsetOf coords objs m ≤ p ∧ p < offsetOf coords objs m + specSize coords o

/-- **C03 (omission mask).**  The mask has one entry per position and is `False` exactly on the
positions of the omitted objects; names which are not in the model have no effect. -/
theorem C03_return_mask (coords : Coords) (objs : List ModelObject) (omitted : List Str)
    (hk : ∀ o ∈ objs, KnownDims coords o) :
    ∃ mask, makeFlatArrayReturnMask (totalSize coords objs) objs omitted coords = .ok mask ∧
      mask.length = totalSize coords objs ∧
      ∀ p, p < totalSize coords objs →
        ∃ b, mask[p]? = some b ∧ (b = false ↔ InNamedBlock coords objs omitted p) := by
  have h := returnMaskLoop_eq omitted coords objs hk [] 0
  simp only [List.length_nil, List.nil_append, Nat.add_zero, List.replicate_zero,
    List.append_nil] at h
  refine ⟨_, h, ?_, ?_⟩
  · rw [length_blockMask]; simp [totalSize, Function.comp_def]
  · intro p hp
    obtain ⟨m, hm, h1, h2⟩ := block_exists (objs.map (specSize coords)) p hp
    have hm' : m < objs.length := by simpa using hm
    have hoff : ∀ m, ((objs.map (specSize coords)).take m).sum = offsetOf coords objs m := by
      intro m; simp [offsetOf, totalSize]
    have hoff2 : ∀ m, (((objs.map fun o => (specSize coords o, decide (o.name ∉ omitted))).take
        m).map Prod.fst).sum = offsetOf coords objs m := by
      intro m; simp [offsetOf, totalSize, Function.comp_def, ← List.map_take]
    rw [hoff] at h1 h2
    rw [List.getElem_map] at h2
    refine ⟨decide (objs[m].name ∉ omitted), ?_, ?_⟩
    · apply blockMask_get _ p m (specSize coords objs[m])
      · rw [List.getElem?_map, List.getElem?_eq_getElem hm']; rfl
      · rw [hoff2]; exact h1
      · rw [hoff2]; exact h2
    · constructor
      · intro hb
        have : objs[m].name ∈ omitted := by simpa using hb
        exact ⟨m, objs[m], List.getElem?_eq_getElem hm', this, h1, h2⟩
      · rintro ⟨m', o', ho', hn', h3, h4⟩
        have hml : m' < objs.length := by
          rcases Nat.lt_or_ge m' objs.length with h | h
          · exact h
          · rw [List.getElem?_eq_none h] at ho'; cases ho'
        have hoe : objs[m'] = o' := by
          rw [List.getElem?_eq_getElem hml] at ho'; exact Option.some.inj ho'
        have : m' = m := by
          apply block_unique (objs.map (specSize coords)) p m' m (by simpa using hml)
            (by simpa using hm')
          · rw [hoff]; exact h3
          · rw [hoff, List.getElem_map, hoe]; exact h4
          · rw [hoff]; exact h1
          · rw [hoff, List.getElem_map]; exact h2
        subst this
        rw [hoe]
        simpa using hn'

example : makeFlatArrayReturnMask 7 exVars ["X", "nonsense"] exCoords
    = .ok [true, false, false, false, false, false, false] := by decide

/-- **C03 (selection).**  Selecting with the omission mask gives the concatenation of the data of
the objects that were not omitted, in order. -/
theorem C03_return_mask_selects (coords : Coords) (objs : List ModelObject) (omitted : List Str)
    (hk : ∀ o ∈ objs, KnownDims coords o) (d : Dict Str (NDArray α))
    (hd : ∀ o ∈ objs, DataFor coords d o) :
    ∃ bs kept mask, ravelNamed d objs = .ok bs ∧
      ravelNamed d (objs.filter fun o => decide (o.name ∉ omitted)) = .ok kept ∧
      makeFlatArrayReturnMask bs.flatten.length objs omitted coords = .ok mask ∧
      maskSelect bs.flatten mask = kept.flatten := by
  obtain ⟨bs, hb, hl, _⟩ := ravelNamed_ok d coords objs hd
  have htot : bs.flatten.length = totalSize coords objs := by
    rw [List.length_flatten, hl]; rfl
  have h := returnMaskLoop_eq omitted coords objs hk [] 0
  simp only [List.length_nil, List.nil_append, Nat.add_zero, List.replicate_zero,
    List.append_nil] at h
  have hkept : ∀ (objs : List ModelObject) (bs : List (List α)), ravelNamed d objs = .ok bs →
      ravelNamed d (objs.filter fun o => decide (o.name ∉ omitted))
        = .ok (((bs.zip (objs.map fun o => decide (o.name ∉ omitted))).filter Prod.snd).map
            Prod.fst) := by
    intro objs
    induction objs with
    | nil => intro bs h; unfold ravelNamed at h; cases h; rfl
    | cons o objs ih =>
      intro bs h
      unfold ravelNamed at h
      rw [List.mapM_cons] at h
      cases hx : (dgetE d o.name).map NDArray.data with
      | error e => rw [hx] at h; cases h
      | ok b =>
        rw [hx] at h
        cases hy : List.mapM (fun var => (dgetE d var.name).map NDArray.data) objs with
        | error e => rw [hy] at h; cases h
        | ok bs' =>
          rw [hy] at h
          cases h
          have ih' := ih bs' hy
          by_cases ho : o.name ∈ omitted
          · simpa [ho] using ih'
          · have e1 : (o :: objs).filter (fun o => decide (o.name ∉ omitted))
              = o :: objs.filter (fun o => decide (o.name ∉ omitted)) := by simp [ho]
            rw [e1]
            unfold ravelNamed at ih' ⊢
            rw [List.mapM_cons, hx, ih']
            simp [ho, bind, Except.bind, pure, Except.pure]
  refine ⟨bs, ((bs.zip (objs.map fun o => decide (o.name ∉ omitted))).filter Prod.snd).map Prod.fst, blockMask (objs.map fun o => (specSize coords o, decide (o.name ∉ omitted))), hb, hkept objs bs hb, ?_, ?_⟩
  · exact (by rw [htot]; exact h)
  · have hlen : bs.length = objs.length := by
      have := congrArg List.length hl; simpa using this
    have hz := maskSelect_blocks (bs.zip (objs.map fun o => decide (o.name ∉ omitted)))
    rw [List.map_fst_zip (by simp [hlen])] at hz
    rw [← hz]
    congr 2
    apply List.ext_getElem?
    intro i
    have hli : (bs.map List.length)[i]? = (objs.map (specSize coords))[i]? := by rw [hl]
    simp only [List.getElem?_map] at hli ⊢
    rw [List.zip, List.getElem?_zipWith, List.getElem?_map]
    cases h1 : bs[i]? with
    | none =>
      rw [h1] at hli
      cases h2 : objs[i]? with
      | none => rfl
      | some o => rw [h2] at hli; simp at hli
    | some b =>
      rw [h1] at hli
      cases h2 : objs[i]? with
      | none => rw [h2] at hli; simp at hli
      | some o =>
        rw [h2] at hli
        simp only [Option.map_some, Option.some.injEq] at hli
        simp [hli]

/-- **C03 (selection mask by name).**  With known names the mask built by
`flat_mask_from_param_names` has one entry per position of the flattened dict and is `True` exactly
on the positions of the named entries. -/
theorem C03_flat_mask (d : Dict Str (NDArray α)) (hne : d ≠ []) (hn : (dkeys d).Nodup)
    (hwf : ∀ p ∈ d, p.2.WF) (names : List Str) (hnames : ∀ n ∈ names, n ∈ dkeys d) :
    ∃ mask, flatMaskFromParamNames d names = .ok mask ∧
      mask.length = (d.map fun p => p.2.data.length).sum ∧
      ∀ p, p < mask.length → ∃ b, mask[p]? = some b ∧
        (b = true ↔ ∃ m k a, d[m]? = some (k, a) ∧ k ∈ names ∧
          ((d.take m).map fun q => q.2.data.length).sum ≤ p ∧
          p < ((d.take m).map fun q => q.2.data.length).sum + a.data.length) := by
  have hcat : npConcatenate (d.map fun p => p.2.data) = .ok (d.map fun p => p.2.data).flatten :=
    npConcatenate_ok (by simpa using hne)
  obtain ⟨mask, h1, h2, h3⟩ := maskNamesLoop_ok (paramSlices d) names
    (by intro n hn'; rw [dkeys_paramSlices]; exact hnames n hn')
    (List.replicate (d.map fun p => p.2.data).flatten.length false)
  have hlen : mask.length = (d.map fun p => p.2.data.length).sum := by
    rw [h2]; simp [List.length_flatten, Function.comp_def]
  have hsz : (d.map fun p => p.2.shape.prod) = d.map fun p => p.2.data.length :=
    List.map_congr_left fun p hp => (hwf p hp).symm
  refine ⟨mask, ?_, hlen, ?_⟩
  · simp only [flatMaskFromParamNames, hcat, bind, Except.bind]; exact h1
  · intro p hp
    have hrep : (List.replicate (d.map fun p => p.2.data).flatten.length false)[p]? = some false := by
      rw [List.getElem?_replicate, if_pos]
      rw [h2, List.length_replicate] at hp; exact hp
    obtain ⟨b, hb, hiff⟩ := h3 p false hrep
    refine ⟨b, hb, hiff.trans ?_⟩
    constructor
    · rintro (h | ⟨n, hnn, ab, hab, hr⟩)
      · cases h
      · obtain ⟨a, ha⟩ := (mem_dkeys_iff _ _).1 (hnames n hnn)
        obtain ⟨m, hm, hma⟩ := List.getElem_of_mem (mem_of_dget d ha)
        have hma' : d[m]? = some (n, a) := by rw [List.getElem?_eq_getElem hm, hma]
        have := dget_paramSlices d hn m n a hma'
        rw [hab] at this
        cases this
        have e : a.shape.prod = a.data.length := (hwf (n, a) (mem_of_dget d ha)).symm
        rw [hsz, e, ← List.map_take] at hr
        exact ⟨m, n, a, hma', hnn, hr⟩
    · rintro ⟨m, k, a, hma, hk', hr⟩
      right
      refine ⟨k, hk', _, dget_paramSlices d hn m k a hma, ?_⟩
      have e : a.shape.prod = a.data.length := (hwf (k, a) (List.mem_of_getElem? hma)).symm
      rw [hsz, e, ← List.map_take]
      exact hr

example : flatMaskFromParamNames exData ["alpha", "P"]
    = .ok [false, false, false, false, false, false, true, true, true] := by decide

/-- **C03 (unknown names).**  `flat_mask_from_param_names` raises `KeyError` for a name that is not
in the dictionary. -/
theorem C03_flat_mask_unknown (d : Dict Str (NDArray α)) (hne : d ≠ []) (names : List Str)
    (h : ∃ n ∈ names, n ∉ dkeys d) : flatMaskFromParamNames d names = .error .keyError := by
  have hcat : npConcatenate (d.map fun p => p.2.data) = .ok (d.map fun p => p.2.data).flatten :=
    npConcatenate_ok (by simpa using hne)
  simp only [flatMaskFromParamNames, hcat, bind, Except.bind]
  apply maskNamesLoop_error
  rw [dkeys_paramSlices]; exact h

example : exData ≠ [] ∧ ∃ n ∈ (["alpha", "beta"] : List Str), n ∉ dkeys exData := by decide

/-! ## C04 -/

/-- **C04 (partial: vectors that are too short).**  A vector shorter than the model raises.
Missing from the full claim: vectors that are too long, which the code accepts
(`C04_too_long_accepted`). -/
theorem C04_short_rejected_partial (coords : Coords) (objs : List ModelObject) (x : List α)
    (hk : ∀ o ∈ objs, KnownDims coords o) (h : x.length < totalSize coords objs) :
    flatArrayToVariableDict x objs coords = .error .valueError :=
  flatToDictLoop_short x coords objs hk 0 [] (by omega) (by omega)

example : ([1, 2, 3] : List Nat).length < totalSize exCoords exVars := by decide

/-- Exactly the vectors that are at least as long as the model are accepted. -/
theorem C04_accepted_iff (coords : Coords) (objs : List ModelObject) (x : List α)
    (hk : ∀ o ∈ objs, KnownDims coords o) :
    (∃ d, flatArrayToVariableDict x objs coords = .ok d) ↔ totalSize coords objs ≤ x.length := by
  constructor
  · rintro ⟨d, hd⟩
    rcases Nat.lt_or_ge x.length (totalSize coords objs) with h | h
    · rw [C04_short_rejected_partial coords objs x hk h] at hd; cases hd
    · exact h
  · intro h
    exact ⟨_, flatToDictLoop_ok x coords objs hk 0 [] (by omega)⟩

/-- **The full claim C04 is false of the code:** a vector that is too long is accepted and its tail
is ignored. -/
theorem C04_too_long_accepted :
    ¬ ∀ (coords : Coords) (objs : List ModelObject) (x : List Nat),
        (∀ o ∈ objs, KnownDims coords o) → x.length ≠ totalSize coords objs →
        ∃ e, flatArrayToVariableDict x objs coords = .error e := by
  intro h
  obtain ⟨e, he⟩ := h exCoords exParams [7, 8, 9] (by decide) (by decide)
  have : flatArrayToVariableDict [7, 8, 9] exParams exCoords
      = .ok [("alpha".toList, (⟨[2], [7, 8]⟩ : NDArray Nat))] := by decide
  rw [this] at he
  cases he

end Verif
