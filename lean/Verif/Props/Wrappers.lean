import Verif.Model.Wrappers
import Verif.Props.Flat
import Mathlib.Data.List.Nodup

/-!
# C07–C09: calling conventions, fixed values, trajectory splitting
-/

namespace Verif

variable {α β : Type _}

/-! ## C07 -/

/-- **C07 (flat → keyword → flat).**  For every flat function and every pair of vectors of the model's
lengths the double wrapping computes exactly `f x theta` (including its exception, if it raises). -/
theorem C07_flat_round_trip (f : List α → List α → Res β) (coords : Coords)
    (vars params : List ModelObject) (x theta : List α)
    (hk : ∀ o ∈ vars ++ params, KnownDims coords o)
    (hn : ((vars ++ params).map ModelObject.name).Nodup)
    (hv : vars ≠ []) (hp : params ≠ [])
    (hx : x.length = totalSize coords vars) (ht : theta.length = totalSize coords params) :
    wrapForScipy (wrapForPytensor f vars params) vars params coords x theta = f x theta := by
  obtain ⟨d, h1, h2⟩ := C01_pack_of_unpack coords vars params x theta hk hn hv hp hx ht
  simp only [wrapForScipy, wrapForPytensor, h1, h2, bind, Except.bind]

example : wrapForScipy (wrapForPytensor (fun x t => .ok (x.sum + 10 * t.sum)) exVars exParams)
    exVars exParams exCoords [9, 1, 2, 3, 4, 5, 6] [7, 8] = .ok 180 := by decide

/-- **C07 (keyword → flat → keyword).**  For every keyword function and every correctly shaped keyword
set, the double wrapping calls `f` on keywords which are exactly the declared names, with exactly the
values that were passed. -/
theorem C07_keyword_round_trip (f : KwFun α β) (coords : Coords)
    (vars params : List ModelObject) (kw : Dict Str (NDArray α))
    (hk : ∀ o ∈ vars ++ params, KnownDims coords o)
    (hn : ((vars ++ params).map ModelObject.name).Nodup)
    (hv : vars ≠ []) (hp : params ≠ [])
    (hd : ∀ o ∈ vars ++ params, DataFor coords kw o) :
    ∃ kw', wrapForPytensor (wrapForScipy f vars params coords) vars params kw = f kw' ∧
      dkeys kw' = (vars ++ params).map ModelObject.name ∧
      ∀ o ∈ vars ++ params, dget kw' o.name = dget kw o.name := by
  obtain ⟨x, t, _, _, da, h1, _, _, h2, _, _, h3, _, _, h4⟩ :=
    C01_unpack_of_pack coords vars params kw hk hn hv hp hd
  exact ⟨da, by simp only [wrapForScipy, wrapForPytensor, h1, h2, bind, Except.bind], h4, h3⟩

/-- **C07 (keyword functions, as an equality).**  A keyword function cannot see the order of its
keywords; for such a function and a keyword set with exactly the declared names the double wrapping is
the function itself. -/
theorem C07_keyword_round_trip_eq (f : KwFun α β) (coords : Coords)
    (vars params : List ModelObject) (kw : Dict Str (NDArray α))
    (hf : ∀ d d', (∀ k, dget d k = dget d' k) → f d = f d')
    (hkw : ∀ n, n ∈ dkeys kw → n ∈ (vars ++ params).map ModelObject.name)
    (hk : ∀ o ∈ vars ++ params, KnownDims coords o)
    (hn : ((vars ++ params).map ModelObject.name).Nodup)
    (hv : vars ≠ []) (hp : params ≠ [])
    (hd : ∀ o ∈ vars ++ params, DataFor coords kw o) :
    wrapForPytensor (wrapForScipy f vars params coords) vars params kw = f kw := by
  obtain ⟨kw', h1, h2, h3⟩ := C07_keyword_round_trip f coords vars params kw hk hn hv hp hd
  rw [h1]
  apply hf
  intro k
  by_cases hm : k ∈ (vars ++ params).map ModelObject.name
  · obtain ⟨o, ho, rfl⟩ := List.mem_map.1 hm
    exact h3 o ho
  · rw [(dget_eq_none_iff _ _).2 (by rw [h2]; exact hm),
      (dget_eq_none_iff _ _).2 (fun h => hm (hkw k h))]

/-- A keyword function that uses its keywords by name. -/
example : wrapForPytensor (wrapForScipy
      (fun d => (dgetE d "alpha".toList).map fun a => a.data.sum) exVars exParams exCoords)
    exVars exParams exData = .ok 15 := by decide

theorem pointName_inj {a b : Str} (h : pointName a = pointName b) : a = b :=
  List.append_cancel_right h

theorem popAll_append (as : List (Str × NDArray α)) (kw : Dict Str (NDArray α))
    (hn : (as.map Prod.fst).Nodup) (hdisj : ∀ n ∈ as.map Prod.fst, n ∉ dkeys kw) :
    popAll (kw ++ as) (as.map Prod.fst) = .ok (as.map fun p => p.2.data, kw) := by
  induction as generalizing kw with
  | nil => simp [popAll]
  | cons p as ih =>
    rw [List.map_cons, List.nodup_cons] at hn
    have hp := hdisj p.1 (by simp)
    have h1 : dget (kw ++ p :: as) p.1 = some p.2 := by
      rw [dget_append, (dget_eq_none_iff _ _).2 hp]
      obtain ⟨a, b⟩ := p
      rw [dget_cons, if_pos rfl]; rfl
    have h2 : ddel (kw ++ p :: as) p.1 = kw ++ as := by
      unfold ddel
      rw [List.filter_append, List.filter_cons_of_neg (by simp)]
      congr 1
      · rw [List.filter_eq_self]
        intro q hq
        have : q.1 ≠ p.1 := fun h => hp (h ▸ List.mem_map_of_mem (f := Prod.fst) hq)
        simpa using this
      · rw [List.filter_eq_self]
        intro q hq
        have : q.1 ≠ p.1 := fun h => hn.1 (h ▸ List.mem_map_of_mem (f := Prod.fst) hq)
        simpa using this
    simp only [List.map_cons, popAll, dgetE_of_some h1, h2, bind, Except.bind, pure, Except.pure]
    rw [ih kw hn.2 (fun n h => hdisj n (by simp [h]))]

/-- **C07 (Hessian-vector products, flat → keyword → flat).**  When no variable or parameter is called
like the direction keyword of a variable (`<name>_point`), the double wrapping computes `f x p theta`.
Missing: models in which such a name exists, see `C07_point_name_clash`. -/
theorem C07_hessp_flat_round_trip_partial (f : List α → List α → List α → Res β) (coords : Coords)
    (vars params : List ModelObject) (x p theta : List α)
    (hk : ∀ o ∈ vars ++ params, KnownDims coords o)
    (hn : ((vars ++ params).map ModelObject.name).Nodup)
    (hpt : ∀ v ∈ vars, pointName v.name ∉ (vars ++ params).map ModelObject.name)
    (hv : vars ≠ []) (hp : params ≠ [])
    (hx : x.length = totalSize coords vars) (hpl : p.length = totalSize coords vars)
    (ht : theta.length = totalSize coords params) :
    wrapForScipyP (wrapForPytensorP f vars params) vars params coords x p theta = f x p theta := by
  have hlen : totalSize coords (vars ++ params) = (x ++ theta).length := by
    rw [totalSize_append, List.length_append]; omega
  have hnv : (vars.map ModelObject.name).Nodup := by
    rw [List.map_append] at hn; exact (List.nodup_append.1 hn).1
  have hkv : ∀ o ∈ vars, KnownDims coords o := fun o h => hk o (by simp [h])
  obtain ⟨d, h1, h2⟩ := C01_pack_of_unpack coords vars params x theta hk hn hv hp hx ht
  have hd : d = flatPairs coords (vars ++ params) (x ++ theta) := by
    rw [flatArrayToVariableDict, flatToDictLoop_ok _ _ _ hk _ _ (by omega), List.drop_zero] at h1
    injection h1 with h1
    rw [← h1]
    apply dofPairs_of_nodup
    rw [map_fst_flatPairs]; exact hn
  have hpd : flatArrayToVariableDict p vars coords = .ok (flatPairs coords vars p) := by
    rw [flatArrayToVariableDict, flatToDictLoop_ok _ _ _ hkv _ _ (by omega), List.drop_zero]
    apply congrArg Except.ok
    apply dofPairs_of_nodup
    rw [map_fst_flatPairs]; exact hnv
  have hkeys : (((flatPairs coords vars p).map fun kv => (pointName kv.1, kv.2)).map Prod.fst)
      = vars.map fun v => pointName v.name := by
    rw [List.map_map]
    have := congrArg (List.map pointName) (map_fst_flatPairs coords vars p)
    rw [List.map_map, List.map_map] at this
    exact this
  have hnpt : (vars.map fun v => pointName v.name).Nodup := by
    have := List.Nodup.map (f := pointName) (fun a b h => pointName_inj h) hnv
    rw [List.map_map] at this
    exact this
  have hdk : dkeys d = (vars ++ params).map ModelObject.name := by
    rw [hd]; exact map_fst_flatPairs _ _ _
  have hdisj : ∀ n ∈ vars.map (fun v => pointName v.name), n ∉ dkeys d := by
    intro n hm
    obtain ⟨v, hvm, rfl⟩ := List.mem_map.1 hm
    rw [hdk]; exact hpt v hvm
  have hpop := popAll_append ((flatPairs coords vars p).map fun kv => (pointName kv.1, kv.2)) d
    (by rw [hkeys]; exact hnpt) (by rw [hkeys]; exact hdisj)
  have hupd : dupdate d (dofPairs ((flatPairs coords vars p).map fun kv => (pointName kv.1, kv.2)))
      = d ++ (flatPairs coords vars p).map fun kv => (pointName kv.1, kv.2) := by
    rw [dofPairs_of_nodup _ (by rw [hkeys]; exact hnpt)]
    apply dupdate_of_nodup
    rw [List.nodup_append]
    refine ⟨by rw [hdk]; exact hn, by rw [hkeys]; exact hnpt, ?_⟩
    rw [hkeys]
    intro a ha b hb hab
    subst hab
    exact hdisj a hb ha
  have hflat : ((flatPairs coords vars p).map fun kv => (pointName kv.1, kv.2)).map (fun q => q.2.data)
      = splitBlocks (vars.map (specSize coords)) p := by
    rw [List.map_map]
    unfold flatPairs
    rw [List.map_zipWith]
    apply List.ext_getElem?
    intro m
    rw [List.getElem?_zipWith]
    rcases Nat.lt_or_ge m vars.length with h | h
    · rw [List.getElem?_eq_getElem h,
        getElem?_splitBlocks _ _ _ (by simpa using h)]
      rfl
    · rw [List.getElem?_eq_none h, List.getElem?_eq_none (by rw [length_splitBlocks]; simpa using h)]
  have hpc : npConcatenate (splitBlocks (vars.map (specSize coords)) p) = .ok p := by
    rw [npConcatenate_ok, flatten_splitBlocks]
    · have : (vars.map (specSize coords)).sum = p.length := hpl.symm
      rw [this, List.take_length]
    · have : (vars.map (specSize coords)).sum = p.length := hpl.symm
      omega
    · cases vars with
      | nil => exact absurd rfl hv
      | cons a l => simp [splitBlocks]
  rw [hkeys] at hpop
  simp only [wrapForScipyP, wrapForPytensorP, h1, hpd, hupd, hpop, hflat, hpc, h2, bind, Except.bind]

example : (∀ v ∈ exVars, pointName v.name ∉ (exVars ++ exParams).map ModelObject.name) ∧
    wrapForScipyP (wrapForPytensorP (fun x p t => .ok (x, p, t)) exVars exParams)
      exVars exParams exCoords [9, 1, 2, 3, 4, 5, 6] [0, 1, 0, 1, 0, 1, 0] [7, 8]
      = .ok ([9, 1, 2, 3, 4, 5, 6], [0, 1, 0, 1, 0, 1, 0], [7, 8]) := by decide

theorem popAll_spec (kw : Dict Str (NDArray α)) (names : List Str) (hn : names.Nodup)
    (h : ∀ n ∈ names, n ∈ dkeys kw) :
    ∃ rest, popAll kw names = .ok (names.map fun n => ((dget kw n).map NDArray.data).getD [], rest) ∧
      ∀ k, dget rest k = if k ∈ names then none else dget kw k := by
  induction names generalizing kw with
  | nil => exact ⟨kw, rfl, by simp⟩
  | cons n ns ih =>
    rw [List.nodup_cons] at hn
    obtain ⟨a, ha⟩ := (mem_dkeys_iff _ _).1 (h n (by simp))
    obtain ⟨rest, h1, h2⟩ := ih (ddel kw n) hn.2 (by
      intro k hk
      rw [mem_dkeys_iff]
      simp only [dget_ddel]
      have hne : k ≠ n := fun e => hn.1 (e ▸ hk)
      simp only [if_neg hne]
      exact (mem_dkeys_iff _ _).1 (h k (by simp [hk])))
    refine ⟨rest, ?_, ?_⟩
    · simp only [popAll, dgetE_of_some ha, bind, Except.bind, h1, pure, Except.pure, List.map_cons, ha,
        Option.map_some, Option.getD_some]
      congr 3
      apply List.map_congr_left
      intro k hk
      have hne : k ≠ n := fun e => hn.1 (e ▸ hk)
      rw [dget_ddel, if_neg hne]
    · intro k
      rw [h2, dget_ddel]
      by_cases hk : k = n
      · simp [hk]
      · simp [hk]

/-- **C07 (Hessian-vector products, keyword → flat → keyword).**  For every keyword function and every
correctly shaped keyword set with the `<name>_point` directions, the double wrapping calls `f` on
keywords which are exactly the declared names and the direction names, with the values that were passed.
Missing: models in which a declared name is a direction name, see `C07_point_name_clash`. -/
theorem C07_hessp_keyword_round_trip_partial (f : KwFun α β) (coords : Coords)
    (vars params : List ModelObject) (kw : Dict Str (NDArray α))
    (hk : ∀ o ∈ vars ++ params, KnownDims coords o)
    (hn : ((vars ++ params).map ModelObject.name).Nodup)
    (hpt : ∀ v ∈ vars, pointName v.name ∉ (vars ++ params).map ModelObject.name)
    (hv : vars ≠ []) (hp : params ≠ [])
    (hd : ∀ o ∈ vars ++ params, DataFor coords kw o)
    (hdp : ∀ v ∈ vars, DataFor coords kw { v with name := pointName v.name }) :
    ∃ kw', wrapForPytensorP (wrapForScipyP f vars params coords) vars params kw = f kw' ∧
      dkeys kw' = (vars ++ params).map ModelObject.name ++ vars.map (fun v => pointName v.name) ∧
      (∀ o ∈ vars ++ params, dget kw' o.name = dget kw o.name) ∧
      ∀ v ∈ vars, dget kw' (pointName v.name) = dget kw (pointName v.name) := by
  have hnv : (vars.map ModelObject.name).Nodup := by
    rw [List.map_append] at hn; exact (List.nodup_append.1 hn).1
  have hnpt : (vars.map fun v => pointName v.name).Nodup := by
    have := List.Nodup.map (f := pointName) (fun a b h => pointName_inj h) hnv
    rw [List.map_map] at this
    exact this
  obtain ⟨rest, hpop, hrest⟩ := popAll_spec kw (vars.map fun v => pointName v.name) hnpt (by
    intro n hm
    obtain ⟨v, hvm, rfl⟩ := List.mem_map.1 hm
    obtain ⟨a, ha, _⟩ := hdp v hvm
    exact (mem_dkeys_iff _ _).2 ⟨a, ha⟩)
  have hrest' : ∀ o ∈ vars ++ params, dget rest o.name = dget kw o.name := by
    intro o ho
    rw [hrest, if_neg]
    intro hm
    obtain ⟨v, hvm, hve⟩ := List.mem_map.1 hm
    exact hpt v hvm (hve ▸ List.mem_map_of_mem (f := ModelObject.name) ho)
  obtain ⟨x, t, _, _, da, h1, _, _, h2, _, _, h3, _, _, h4⟩ :=
    C01_unpack_of_pack coords vars params rest hk hn hv hp (by
      intro o ho
      obtain ⟨a, ha, hs⟩ := hd o ho
      exact ⟨a, by rw [hrest' o ho]; exact ha, hs⟩)
  -- the directions, as data of the variables themselves
  let dp : Dict Str (NDArray α) := vars.map fun v =>
    (v.name, (dget kw (pointName v.name)).getD ⟨[], []⟩)
  have hdpk : dkeys dp = vars.map ModelObject.name := by
    simp [dp, dkeys, Function.comp_def]
  have hdpget : ∀ v ∈ vars, dget dp v.name = dget kw (pointName v.name) := by
    intro v hvm
    obtain ⟨a, ha, _⟩ := hdp v hvm
    have ha' : dget kw (pointName v.name) = some a := ha
    rw [ha']
    apply dget_of_mem_nodup _ (by rw [hdpk]; exact hnv)
    exact List.mem_map.2 ⟨v, hvm, by rw [ha']; rfl⟩
  obtain ⟨bs, d', hb, hl, hun, hk', hg'⟩ := pack_then_unpack coords vars dp
    (fun o h => hk o (by simp [h])) hnv (by
      intro v hvm
      obtain ⟨a, ha, hs⟩ := hdp v hvm
      exact ⟨a, by rw [hdpget v hvm]; exact ha, hs⟩)
  have hbs : bs = (vars.map fun v => pointName v.name).map
      (fun n => ((dget kw n).map NDArray.data).getD []) := by
    have : ravelNamed dp vars = .ok (vars.map fun v =>
        ((dget kw (pointName v.name)).map NDArray.data).getD []) := by
      apply mapM_ok_of_forall
      intro v hvm
      obtain ⟨a, ha, _⟩ := hdp v hvm
      have ha' : dget kw (pointName v.name) = some a := ha
      rw [dgetE_of_some (by rw [hdpget v hvm]; exact ha'), ha']
      rfl
    rw [hb] at this
    injection this with this
    rw [this, List.map_map]; rfl
  have hbne : bs ≠ [] := by
    rintro rfl
    cases vars with
    | nil => exact hv rfl
    | cons a l => simp at hl
  rw [← hbs] at hpop
  have hkeysP : ((d'.map fun kv => (pointName kv.1, kv.2)).map Prod.fst)
      = vars.map fun v => pointName v.name := by
    rw [List.map_map]
    have := congrArg (List.map pointName) hk'
    unfold dkeys at this
    rw [List.map_map, List.map_map] at this
    exact this
  have hupd : dupdate da (dofPairs (d'.map fun kv => (pointName kv.1, kv.2)))
      = da ++ d'.map fun kv => (pointName kv.1, kv.2) := by
    rw [dofPairs_of_nodup _ (by rw [hkeysP]; exact hnpt)]
    apply dupdate_of_nodup
    rw [List.nodup_append]
    refine ⟨by rw [h4]; exact hn, by rw [hkeysP]; exact hnpt, ?_⟩
    rw [hkeysP, h4]
    intro a ha b hb hab
    subst hab
    obtain ⟨v, hvm, rfl⟩ := List.mem_map.1 hb
    exact hpt v hvm ha
  refine ⟨da ++ d'.map fun kv => (pointName kv.1, kv.2), ?_, ?_, ?_, ?_⟩
  · simp only [wrapForPytensorP, wrapForScipyP, hpop, npConcatenate_ok hbne, h1, h2, hun, hupd, bind,
      Except.bind]
  · unfold dkeys
    rw [List.map_append, hkeysP]
    congr 1
  · intro o ho
    obtain ⟨a, ha, _⟩ := hd o ho
    rw [dget_append, h3 o ho, hrest' o ho, ha]; rfl
  · intro v hvm
    obtain ⟨a, ha, _⟩ := hdp v hvm
    have ha' : dget kw (pointName v.name) = some a := ha
    rw [dget_append, (dget_eq_none_iff _ _).2 (by rw [h4]; exact hpt v hvm), Option.none_or, ha']
    apply dget_of_mem_nodup _ (by unfold dkeys; rw [hkeysP]; exact hnpt)
    refine List.mem_map.2 ⟨(v.name, a), ?_, rfl⟩
    apply mem_of_dget
    rw [hg' v hvm, hdpget v hvm, ha']

/-- The example data with directions for `P` and `X`. -/
example : ∃ kw', wrapForPytensorP (wrapForScipyP (fun d => .ok d) exVars exParams exCoords) exVars exParams
      (exData ++ ([("P_point", ⟨[], [0]⟩), ("X_point", ⟨[2, 3], [1, 0, 1, 0, 1, 0]⟩)] :
        Dict Str (NDArray Nat))) = .ok kw' ∧
    dget kw' "X_point".toList = some ⟨[2, 3], [1, 0, 1, 0, 1, 0]⟩ ∧
    dget kw' "X".toList = some ⟨[2, 3], [1, 2, 3, 4, 5, 6]⟩ := ⟨_, rfl, by decide, by decide⟩

/-- **C07 (negation for Hessian-vector products).**  With variables `x` and `x_point` the direction of
`x` overwrites the value of `x_point`, and the call then fails because that keyword has been popped. -/
theorem C07_point_name_clash :
    ∃ (vars params : List ModelObject) (x p theta : List Nat),
      ((vars ++ params).map ModelObject.name).Nodup ∧ x.length = totalSize [] vars ∧
      p.length = totalSize [] vars ∧ theta.length = totalSize [] params ∧
      (∃ d : Dict Str (NDArray Nat), wrapForScipyP (fun d => .ok d) vars params [] x p theta = .ok d ∧
        dget d "x_point".toList = some ⟨[], [30]⟩ ∧ x = [1, 2] ∧ p = [30, 40]) ∧
      wrapForScipyP (wrapForPytensorP (fun x p t => .ok (x, p, t)) vars params) vars params [] x p theta
        = .error .keyError :=
  ⟨[{ name := "x" }, { name := "x_point" }], [{ name := "a" }], [1, 2], [30, 40], [5],
    by decide, by decide, by decide, by decide, ⟨_, rfl, by decide, rfl, rfl⟩, by decide⟩

/-! ## C08 -/

theorem dkeys_flatToDictLoop (x : List α) (coords : Coords) (objs : List ModelObject) (c : Nat)
    (d d' : Dict Str (NDArray α)) (h : flatToDictLoop x coords objs c d = .ok d') (k : Str)
    (hk : k ∈ dkeys d') : k ∈ dkeys d ∨ k ∈ objs.map ModelObject.name := by
  induction objs generalizing c d with
  | nil =>
    simp only [flatToDictLoop, Except.ok.injEq] at h
    subst h; exact Or.inl hk
  | cons o objs ih =>
    simp only [flatToDictLoop, bind, Except.bind] at h
    cases hs : inferShape o coords with
    | error e => rw [hs] at h; cases h
    | ok s =>
      rw [hs] at h
      dsimp only at h
      cases hr : reshape (slice x c (c + s.prod)) s with
      | error e => rw [hr] at h; cases h
      | ok v =>
        rw [hr] at h
        dsimp only at h
        rcases ih _ _ h with h1 | h1
        · rcases (mem_dkeys_dset _ _ _ _).1 h1 with h2 | h2
          · right; rw [h2]; simp
          · exact Or.inl h2
        · right; rw [List.map_cons]; exact List.mem_cons_of_mem _ h1

/-- **C08 (negation).**  For every model in which some parameter is not called like a (packed or
unpacked) variable – or which has no parameters at all – every call of a function returned by
`wrap_fixed_values` raises, whatever is fixed and whatever is passed. -/
theorem C08_every_call_raises (f : List α → List α → Res (FuncResult α))
    (fixed : Dict Str (NDArray α)) (vars params : List ModelObject) (coords : Coords)
    (unpackedNames : List Str)
    (hpar : params = [] ∨ ∃ p ∈ params, p.name ∉ vars.map ModelObject.name ∧ p.name ∉ unpackedNames)
    (g : List α → List α → Res (FuncResult α))
    (hg : wrapFixedValues f fixed vars params coords unpackedNames = .ok g) (x theta : List α) :
    ∃ e, g x theta = .error e := by
  unfold wrapFixedValues at hg
  split at hg
  · cases hg
  · rename_i hfix
    injection hg with hg
    subst hg
    unfold fixedInner
    simp only [bind, Except.bind]
    cases hdat : flatArrayToVariableDict (x ++ theta) vars coords with
    | error e => exact ⟨e, rfl⟩
    | ok data =>
      dsimp only
      by_cases hany : ((dkeys data).any fun var => decide (var ∈ dkeys fixed)) = true
      · exact ⟨.valueError, by rw [if_pos hany]⟩
      · rw [if_neg hany]
        have hraise : ∃ e, variableDictToFlatArray (dupdate data fixed) vars params = .error e := by
          rcases hpar with rfl | ⟨p, hp, hpv, hpu⟩
          · unfold variableDictToFlatArray
            simp only [bind, Except.bind, pure, Except.pure]
            cases ravelNamed (dupdate data fixed) vars with
            | error e => exact ⟨e, rfl⟩
            | ok vs =>
              dsimp only
              cases npConcatenate vs with
              | error e => exact ⟨e, rfl⟩
              | ok v => exact ⟨.valueError, rfl⟩
          · apply C01_pack_missing_raises
            refine ⟨p, by simp [hp], ?_⟩
            rw [mem_dkeys_dupdate]
            rintro (h | h)
            · rcases dkeys_flatToDictLoop _ _ _ _ _ _ hdat _ h with h | h
              · simp [dkeys] at h
              · exact hpv h
            · apply hfix
              rw [List.any_eq_true]
              exact ⟨p.name, h, by simpa using hpu⟩
        obtain ⟨e, he⟩ := hraise
        exact ⟨e, by rw [he]⟩

/-- Fixing `P` in the example model: wrapping succeeds, calling cannot. -/
example : ∃ g, wrapFixedValues (fun x _ => .ok (.vector x)) ([("P", ⟨[], [9]⟩)] : Dict Str (NDArray Nat))
      exVars exParams exCoords ["P", "X_a_u", "X_a_v", "X_a_w", "X_b_u", "X_b_v", "X_b_w"] = .ok g ∧
    g [1, 2, 3, 4, 5, 6] [7, 8] = .error .valueError ∧
    g [9, 1, 2, 3, 4, 5, 6] [7, 8] = .error .valueError ∧ g [] [] = .error .valueError :=
  ⟨_, rfl, by decide, by decide, by decide⟩

/-- **C08 (what holds: unknown names).**  Wrapping is refused exactly when a fixed name is not an
unpacked variable name.  Missing: everything about the wrapped function, which is false of the code
(`C08_every_call_raises`). -/
theorem C08_unknown_names_rejected_partial (f : List α → List α → Res (FuncResult α))
    (fixed : Dict Str (NDArray α)) (vars params : List ModelObject) (coords : Coords)
    (unpackedNames : List Str) :
    (∃ n ∈ dkeys fixed, n ∉ unpackedNames) ↔
      wrapFixedValues f fixed vars params coords unpackedNames = .error .valueError := by
  unfold wrapFixedValues
  by_cases h : ((dkeys fixed).any fun var => decide (var ∉ unpackedNames)) = true
  · rw [if_pos h]
    rw [List.any_eq_true] at h
    simpa using h
  · rw [if_neg h]
    rw [List.any_eq_true] at h
    constructor
    · rintro ⟨n, h1, h2⟩; exact absurd ⟨n, h1, by simpa using h2⟩ h
    · intro h; cases h

example : wrapFixedValues (fun x _ => .ok (.vector x)) ([("Q", ⟨[], [9]⟩)] : Dict Str (NDArray Nat))
    exVars exParams exCoords ["P", "X_a_u"] = .error .valueError := by rfl

/-- **C08 (negation: the mask).**  The mask used on the results keeps the entries of the fixed
variables and drops those of the free ones. -/
theorem C08_mask_keeps_fixed (fixed : Dict Str (NDArray α)) (unpackedNames : List Str) :
    maskSelect unpackedNames (returnMask fixed unpackedNames)
      = unpackedNames.filter (fun n => decide (n ∈ dkeys fixed)) := by
  unfold maskSelect returnMask
  induction unpackedNames with
  | nil => rfl
  | cons n ns ih =>
    rw [List.map_cons, List.zip_cons_cons, List.filter_cons, List.filter_cons]
    by_cases h : n ∈ dkeys fixed
    · simp only [h, decide_true, if_true, List.map_cons]; rw [ih]
    · simp only [h, decide_false]; exact ih

/-- **C08 (what the selection does).**  Selecting from results labelled by the unpacked names: of a vector
the entries of the fixed names are kept, of a matrix the entries whose row *and* column are fixed names,
and a scalar is kept. -/
theorem C08_selection (fixed : Dict Str (NDArray α)) (unpackedNames : List Str) {β : Type _}
    (v : Str → β) (J : Str → Str → β) (z : β) :
    (FuncResult.scalar z).select (returnMask fixed unpackedNames) = .scalar z ∧
    (FuncResult.vector (unpackedNames.map v)).select (returnMask fixed unpackedNames)
      = .vector ((unpackedNames.filter fun n => decide (n ∈ dkeys fixed)).map v) ∧
    (FuncResult.matrix (unpackedNames.map fun r => unpackedNames.map (J r))).select
        (returnMask fixed unpackedNames)
      = .matrix ((unpackedNames.filter fun n => decide (n ∈ dkeys fixed)).map fun r =>
          (unpackedNames.filter fun n => decide (n ∈ dkeys fixed)).map (J r)) := by
  have key : ∀ {γ : Type _} (w : Str → γ) (ns : List Str),
      maskSelect (ns.map w) (returnMask fixed ns)
        = (ns.filter fun n => decide (n ∈ dkeys fixed)).map w := by
    intro γ w ns
    unfold maskSelect returnMask
    induction ns with
    | nil => rfl
    | cons n ns ih =>
      rw [List.map_cons, List.map_cons, List.zip_cons_cons, List.filter_cons, List.filter_cons]
      by_cases h : n ∈ dkeys fixed
      · simp only [h, decide_true, if_true, List.map_cons]; rw [ih]
      · simp only [h, decide_false]; exact ih
  refine ⟨rfl, ?_, ?_⟩
  · show FuncResult.vector _ = _
    rw [key]
  · show FuncResult.matrix _ = _
    rw [key, List.map_map]
    simp only [Function.comp_def, key]

example : (FuncResult.matrix [[1, 2, 3], [4, 5, 6], [7, 8, 9]]).select
    (returnMask [("b", (⟨[], [0]⟩ : NDArray Nat)), ("c", ⟨[], [0]⟩)] ["a", "b", "c"])
    = .matrix [[5, 6], [8, 9]] := by decide

/-! ## C09 -/

/-- Row `t` of an array: the elements whose first index is `t`. -/
def NDArray.rowData (a : NDArray α) (t : Nat) : List α :=
  (a.data.drop (t * a.shape.tail.prod)).take a.shape.tail.prod

theorem flatten_block_take (rows : List (List α)) (s t : Nat) (hs : ∀ r ∈ rows, r.length = s)
    (r : List α) (hr : rows[t]? = some r) : (rows.flatten.drop (t * s)).take s = r := by
  induction rows generalizing t with
  | nil => simp at hr
  | cons a rows ih =>
    have ha := hs a (by simp)
    cases t with
    | zero =>
      simp only [List.getElem?_cons_zero, Option.some.injEq] at hr
      subst hr
      rw [Nat.zero_mul, List.drop_zero, List.flatten_cons, ← ha, List.take_left]
    | succ t =>
      rw [List.getElem?_cons_succ] at hr
      rw [List.flatten_cons, Nat.succ_mul, Nat.add_comm, ← List.drop_drop]
      have : (a ++ rows.flatten).drop s = rows.flatten := by rw [← ha, List.drop_left]
      rw [this]
      exact ih t (fun r h => hs r (by simp [h])) hr

theorem length_flatten_const (rows : List (List α)) (s : Nat) (hs : ∀ r ∈ rows, r.length = s) :
    rows.flatten.length = rows.length * s := by
  induction rows with
  | nil => simp
  | cons a rows ih =>
    rw [List.flatten_cons, List.length_append, hs a (by simp), ih (fun r h => hs r (by simp [h])),
      List.length_cons, Nat.succ_mul]
    omega

/-- The array for an object: its columns in every row. -/
def blockArray (coords : Coords) (objs : List ModelObject) (rows : List (List α)) (m : Nat)
    (o : ModelObject) : NDArray α :=
  ⟨rows.length :: specShape coords o,
    (rows.map fun row => (row.drop (offsetOf coords objs m)).take (specSize coords o)).flatten⟩

theorem splitTrajectoryLoop_ok (rows : List (List α)) (coords : Coords) (objs : List ModelObject)
    (c : Nat) (hpos : ∀ o ∈ objs, specSize coords o ≠ 0)
    (hlen : ∀ r ∈ rows, c + totalSize coords objs ≤ r.length) :
    ∃ out, splitTrajectoryLoop rows (objs.map (specShape coords)) c = .ok out ∧
      out.length = objs.length ∧ ∀ (m : Nat) o, objs[m]? = some o → out[m]? = some
        ⟨rows.length :: specShape coords o, (rows.map fun row =>
          (row.drop (c + offsetOf coords objs m)).take (specSize coords o)).flatten⟩ := by
  induction objs generalizing c with
  | nil => exact ⟨[], rfl, rfl, by simp⟩
  | cons o objs ih =>
    have htot : totalSize coords (o :: objs) = specSize coords o + totalSize coords objs := by
      simp [totalSize]
    obtain ⟨out, h1, h2, h3⟩ := ih (c + specSize coords o) (fun o h => hpos o (by simp [h]))
      (fun r hr => by have := hlen r hr; omega)
    have hs0 : (specShape coords o).prod ≠ 0 := hpos o (by simp)
    have hsl : (rows.map fun row => slice row c (c + (specShape coords o).prod)).flatten.length
        = rows.length * (specShape coords o).prod := by
      rw [length_flatten_const _ (specShape coords o).prod, List.length_map]
      intro r hr
      obtain ⟨row, hrow, rfl⟩ := List.mem_map.1 hr
      rw [slice_eq, List.length_take, List.length_drop]
      have := hlen row hrow
      have : specSize coords o = (specShape coords o).prod := rfl
      omega
    refine ⟨⟨rows.length :: specShape coords o, (rows.map fun row =>
          slice row c (c + (specShape coords o).prod)).flatten⟩ :: out, ?_, by simp [h2], ?_⟩
    · simp only [List.map_cons, splitTrajectoryLoop, bind, Except.bind, pure, Except.pure]
      unfold reshapeRows
      rw [if_neg hs0, hsl, if_pos (Nat.mul_mod_left _ _), Nat.mul_div_cancel _ (Nat.pos_of_ne_zero hs0)]
      dsimp only
      have h1' : splitTrajectoryLoop rows (objs.map (specShape coords)) (c + (specShape coords o).prod)
          = .ok out := h1
      rw [h1']
    · intro m o' ho'
      cases m with
      | zero =>
        simp only [List.getElem?_cons_zero, Option.some.injEq] at ho'
        subst ho'
        simp only [List.getElem?_cons_zero, slice_eq]
        have : offsetOf coords (o :: objs) 0 = 0 := by simp [offsetOf, totalSize]
        rw [this]; rfl
      | succ m =>
        rw [List.getElem?_cons_succ] at ho' ⊢
        rw [h3 m o' ho']
        have : offsetOf coords (o :: objs) (m + 1) = specSize coords o + offsetOf coords objs m := by
          simp [offsetOf, totalSize]
        rw [this]
        simp only [Nat.add_assoc]

/-- **C09.**  Splitting a trajectory matrix (any number of rows, each of the model's length) gives one
array per object, in order.  The array of an object has one leading entry per row, and its row `t` is
what unpacking row `t` of the matrix gives for that object.  Reading off row `t` of all arrays gives
back row `t` of the matrix.
Missing: models with an empty dim, for which the code raises (`C09_empty_dim_raises`). -/
theorem C09_rows_preserved_partial (coords : Coords) (objs : List ModelObject) (rows : List (List α))
    (hk : ∀ o ∈ objs, KnownDims coords o) (hn : (objs.map ModelObject.name).Nodup)
    (hpos : ∀ o ∈ objs, specSize coords o ≠ 0)
    (hrows : ∀ r ∈ rows, r.length = totalSize coords objs) :
    ∃ out, splitTrajectory rows objs coords = .ok out ∧ out.length = objs.length ∧
      (∀ (m : Nat) o A, objs[m]? = some o → out[m]? = some A →
        A.WF ∧ A.shape = rows.length :: specShape coords o ∧
        ∀ (t : Nat) row, rows[t]? = some row → ∃ d a,
          flatArrayToVariableDict row objs coords = .ok d ∧ dget d o.name = some a ∧
          a.shape = specShape coords o ∧ A.rowData t = a.data ∧
          ∀ idx, A.at? (t :: idx) = a.at? idx) ∧
      ∀ (t : Nat) row, rows[t]? = some row → (out.map fun A => A.rowData t).flatten = row := by
  obtain ⟨out, h1, h2, h3⟩ := splitTrajectoryLoop_ok rows coords objs 0 hpos
    (fun r hr => by rw [hrows r hr]; omega)
  simp only [Nat.zero_add] at h3
  have hblk : ∀ (m : Nat) o, objs[m]? = some o → ∀ r ∈ rows.map (fun row =>
      (row.drop (offsetOf coords objs m)).take (specSize coords o)), r.length = specSize coords o := by
    intro m o ho r hr
    obtain ⟨row, hrow, rfl⟩ := List.mem_map.1 hr
    rw [List.length_take, List.length_drop, hrows row hrow]
    have hle : offsetOf coords objs m + specSize coords o ≤ totalSize coords objs := by
      have hsplit : objs.take m ++ o :: objs.drop (m + 1) = objs := by
        have hm : m < objs.length := by
          rcases Nat.lt_or_ge m objs.length with h | h
          · exact h
          · rw [List.getElem?_eq_none h] at ho; cases ho
        have : objs[m] = o := by rw [List.getElem?_eq_getElem hm] at ho; exact Option.some.inj ho
        rw [← this, ← List.drop_eq_getElem_cons hm, List.take_append_drop]
      conv => rhs; rw [← hsplit]
      rw [totalSize_append]
      simp only [offsetOf, totalSize, List.map_cons, List.sum_cons]
      omega
    omega
  have hrow : ∀ (m : Nat) o A, objs[m]? = some o → out[m]? = some A → ∀ (t : Nat) row,
      rows[t]? = some row →
      A.rowData t = (row.drop (offsetOf coords objs m)).take (specSize coords o) := by
    intro m o A ho hA t row hrow
    rw [h3 m o ho, Option.some.injEq] at hA
    subst hA
    unfold NDArray.rowData
    exact flatten_block_take _ (specSize coords o) t (hblk m o ho) _ (by simp [hrow])
  refine ⟨out, ?_, h2, ?_, ?_⟩
  · unfold splitTrajectory
    rw [mapM_ok_of_forall _ (specShape coords) _ (fun o h => inferShape_eq (hk o h))]
    exact h1
  · intro m o A ho hA
    have hrd := hrow m o A ho hA
    have hA' := hA
    rw [h3 m o ho, Option.some.injEq] at hA'
    have hsh : A.shape = rows.length :: specShape coords o := by rw [← hA']
    refine ⟨?_, hsh, ?_⟩
    · rw [← hA']
      show List.length _ = _
      rw [length_flatten_const _ _ (hblk m o ho), List.length_map, List.prod_cons]
      rfl
    · intro t row hr
      have hlen := hrows row (List.mem_of_getElem? hr)
      have hkeys : ((flatPairs coords objs row).map Prod.fst).Nodup := by
        rw [map_fst_flatPairs]; exact hn
      refine ⟨flatPairs coords objs row, ⟨specShape coords o,
        (row.drop (offsetOf coords objs m)).take (specSize coords o)⟩, ?_, ?_, rfl, hrd t row hr, ?_⟩
      · rw [flatArrayToVariableDict, flatToDictLoop_ok _ _ _ hk _ _ (by omega), List.drop_zero]
        exact congrArg Except.ok (dofPairs_of_nodup _ hkeys)
      · exact dget_of_mem_nodup _ hkeys
          (List.mem_of_getElem? (flatPairs_getElem? coords objs row m o ho))
      · intro idx
        have ht : t < rows.length := by
          rcases Nat.lt_or_ge t rows.length with h | h
          · exact h
          · rw [List.getElem?_eq_none h] at hr; cases hr
        unfold NDArray.at?
        rw [hsh]
        by_cases hv : ValidIdx (specShape coords o) idx
        · rw [if_pos (show ValidIdx (rows.length :: specShape coords o) (t :: idx) from ⟨ht, hv⟩)]
          simp only [if_pos hv]
          rw [← hrd t row hr]
          unfold NDArray.rowData
          rw [hsh, List.tail_cons, List.getElem?_take, if_pos (ravelIndex_lt _ _ hv),
            List.getElem?_drop]
          rfl
        · rw [if_neg (fun h : ValidIdx (rows.length :: specShape coords o) (t :: idx) => hv h.2)]
          simp only [if_neg hv]
  · intro t row hr
    have hlen := hrows row (List.mem_of_getElem? hr)
    have : out.map (fun A => A.rowData t) = splitBlocks (objs.map (specSize coords)) row := by
      apply List.ext_getElem?
      intro m
      rw [List.getElem?_map]
      rcases Nat.lt_or_ge m objs.length with h | h
      · have ho : objs[m]? = some objs[m] := List.getElem?_eq_getElem h
        have hA := h3 m _ ho
        rw [hA, Option.map_some, hrow m _ _ ho hA t row hr,
          getElem?_splitBlocks _ _ _ (by simpa using h)]
        simp [offsetOf, totalSize]
      · rw [List.getElem?_eq_none (by omega),
          List.getElem?_eq_none (by rw [length_splitBlocks]; simpa using h)]
        rfl
    rw [this, flatten_splitBlocks]
    · have : (objs.map (specSize coords)).sum = row.length := hlen.symm
      rw [this, List.take_length]
    · have : (objs.map (specSize coords)).sum = row.length := hlen.symm
      omega

/-- Two rows over `P` (scalar) and `alpha` (over `i`). -/
example : splitTrajectory [[9, 7, 8], [19, 17, 18]] [{ name := "P" }, { name := "alpha", dims := ["i"] }]
    exCoords = .ok [⟨[2], [9, 19]⟩, ⟨[2, 2], [7, 8, 17, 18]⟩] := by decide

/-- **C09 (negation).**  An object over a dim without labels makes the splitting raise. -/
theorem C09_empty_dim_raises :
    ∃ (objs : List ModelObject) (coords : Coords) (rows : List (List Nat)),
      (∀ o ∈ objs, KnownDims coords o) ∧ (objs.map ModelObject.name).Nodup ∧
      (∀ r ∈ rows, r.length = totalSize coords objs) ∧
      splitTrajectory rows objs coords = .error .valueError :=
  ⟨[{ name := "P" }, { name := "X", dims := ["i"] }], [("i", [])], [[1], [2]],
    by decide, by decide, by decide, by decide⟩

end Verif
