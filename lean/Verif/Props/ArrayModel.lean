import Verif.Lemmas.ArrayModel
import Verif.Props.Parsing
import Verif.Props.Scalarise

/-!
# C76: the text of an equation means the same to both ways of reading it
-/

namespace Verif

open RExpr

variable {coords : Coords} {vars params : List ModelObject} {eqs : List TextEq}

theorem names_iff_vars (x : Str) (e : PExpr) : e.Names x ↔ x ∈ e.vars := by
  induction e with
  | var y => simp [PExpr.Names, PExpr.vars]
  | num => simp [PExpr.Names, PExpr.vars]
  | neg e ih | pos e ih | post e _ ih | sumOver e _ _ _ ih | prodOver e _ _ _ ih =>
    simpa [PExpr.Names, PExpr.vars] using ih
  | add a b iha ihb | sub a b iha ihb | mul a b iha ihb | div a b iha ihb | pow a b iha ihb =>
    simp [PExpr.Names, PExpr.vars, iha, ihb]

/-! ### The arrays of the flat vectors -/

theorem agrees_valid {ds : List Str} {idx : List Nat} {η : Str → SIdx} (h : Agrees coords ds idx η) :
    ValidIdx (ds.map (dimSize coords)) idx := by
  induction h with
  | nil => trivial
  | cons hd _ ih =>
    obtain ⟨l, hl, -⟩ := hd
    exact ⟨(List.getElem?_eq_some_iff.1 hl).1, ih⟩

theorem agrees_positions {ds : List Str} {idx : List Nat} {η : Str → SIdx} (h : Agrees coords ds idx η)
    (hnd : ∀ d ∈ ds, (labelsOf coords d).Nodup) (hr : ∀ d, ∀ l ∈ labelsOf coords d, ReadsBack l) :
    ds.zipWith (fun d s => (labelsOf coords d).idxOf (labelText s)) (ds.map η) = idx := by
  induction h with
  | nil => rfl
  | @cons d i ds idx hd _ ih =>
    obtain ⟨l, hl, he⟩ := hd
    obtain ⟨hlt, hget⟩ := List.getElem?_eq_some_iff.1 hl
    rw [List.map_cons, List.zipWith_cons_cons, ih fun d hd => hnd d (List.mem_cons_of_mem _ hd), he]
    congr 1
    rw [show labelText (sympifyLabel l) = l from hr d l (List.mem_of_getElem? hl), ← hget]
    exact (hnd d (by simp)).idxOf_getElem i hlt

/-- The dictionary of arrays that the wrapper makes of flat vectors. -/
theorem flat_dict (h : ScalarModel coords vars params) (x theta : List ℝ)
    (hx : x.length = totalSize coords vars) (ht : theta.length = totalSize coords params) :
    flatArrayToVariableDict (x ++ theta) (vars ++ params) coords =
      .ok (flatPairs coords (vars ++ params) (x ++ theta)) := by
  rw [flatArrayToVariableDict, flatToDictLoop_ok _ _ _ h.known _ _
    (by rw [totalSize_append, List.length_append]; omega), List.drop_zero]
  apply congrArg Except.ok
  apply dofPairs_of_nodup
  rw [map_fst_flatPairs]; exact h.names

theorem flat_get (h : ScalarModel coords vars params) (flat : List ℝ) (m : Nat) (o : ModelObject)
    (hm : (vars ++ params)[m]? = some o) :
    dget (flatPairs coords (vars ++ params) flat) o.name = some ⟨specShape coords o,
      (flat.drop (offsetOf coords (vars ++ params) m)).take (specSize coords o)⟩ := by
  apply dget_of_mem_nodup
  · show (dkeys _).Nodup
    unfold dkeys
    rw [map_fst_flatPairs]; exact h.names
  · exact List.mem_of_getElem? (flatPairs_getElem? coords _ flat m o hm)

theorem flat_holds (h : ScalarModel coords vars params) (flat : List ℝ)
    (hpt : ∀ o ∈ vars ++ params, o.name ≠ "pt".toList) (hback : ∀ d, ∀ l ∈ labelsOf coords d, ReadsBack l) :
    HoldsEntries coords (vars ++ params)
      (fun x => (lookupName (flatPairs coords (vars ++ params) flat) x).map Arr.ofNDArray)
      (entryFixing coords [] (vars ++ params) flat) := by
  intro o ho
  obtain ⟨m, hm⟩ := List.getElem?_of_mem ho
  refine ⟨Arr.ofNDArray ⟨specShape coords o,
    (flat.drop (offsetOf coords (vars ++ params) m)).take (specSize coords o)⟩, ?_, rfl, ?_⟩
  · dsimp only
    unfold lookupName
    rw [if_neg (show o.name ≠ ptName from hpt o ho), flat_get h flat m o hm]
    rfl
  · intro idx η hA
    have hv : ValidIdx (specShape coords o) idx := agrees_valid hA
    have hr : ravelIndex (specShape coords o) idx < specSize coords o := ravelIndex_lt _ _ hv
    simp only [Arr.ofNDArray, NDArray.at?, if_pos hv, entryFixing, List.not_mem_nil, if_false]
    unfold arrayEntry
    rw [findIdx_name _ h.names m o hm]
    simp only [hm, Option.map_some, Option.getD_some]
    rw [agrees_positions hA (h.labels o ho) hback, List.getElem?_take_of_lt hr, List.getElem?_drop,
      List.getD_eq_getElem?_getD]

/-! ### Names -/

theorem filled_eq {t : Template} {f g : Str → Str} (h : ∀ d ∈ t.dims, f d = g d) : t.filled f = t.filled g := by
  induction t with
  | nil => rfl
  | cons s t ih =>
    have ih := ih fun d hd => h d (by
      unfold Template.dims at hd ⊢
      rw [List.filterMap_cons]
      split
      · exact hd
      · exact List.mem_cons_of_mem _ hd)
    unfold Template.filled at ih ⊢
    rw [List.flatMap_cons, List.flatMap_cons, ih]
    cases s with
    | lit => rfl
    | dim d => exact congrArg (· ++ _) (h d (by simp [Template.dims]))

theorem unpackName_list (t : Template) (hc : t.Clean) (hnd : t.dims.Nodup)
    (hk : ∀ d ∈ t.dims, d ∈ dkeys coords) (hdims : ∀ d ∈ dkeys coords, '>' ∉ d)
    (hlab : ∀ d ∈ t.dims, ∀ l ∈ labelsOf coords d, '<' ∉ l) :
    unpackEquationName coords t.text =
      .ok ((product (t.dims.map (labelsOf coords))).map fun ls => t.filled (chosen t.dims ls)) := by
  obtain ⟨names, h1, h2, h3⟩ := unpackEquationName_spec coords t hc hnd hk hdims hlab
  rw [h1]
  congr 1
  have hsh : (t.dims.map (labelsOf coords)).map List.length = t.dims.map fun d => (labelsOf coords d).length := by
    rw [List.map_map]; rfl
  apply List.ext_getElem?
  intro k
  rw [List.getElem?_map]
  by_cases hlt : k < (t.dims.map fun d => (labelsOf coords d).length).prod
  · have hv := unravel_valid _ k hlt
    have h4 := h3 _ hv
    rw [ravel_unravel _ _ hlt] at h4
    obtain ⟨ls, hls⟩ := Option.isSome_iff_exists.1
      (pick_isSome (t.dims.map (labelsOf coords)) _ (by rw [hsh]; exact hv))
    have h5 := product_ravel (t.dims.map (labelsOf coords)) _ (by rw [hsh]; exact hv)
    rw [hsh, ravel_unravel _ _ hlt, hls] at h5
    rw [h4, h5]
    simp only [Option.map_some, Option.some.injEq]
    refine filled_eq fun d hd => ?_
    obtain ⟨j, hj⟩ := List.getElem?_of_mem hd
    have hlen : ls.length = t.dims.length := by simpa using pick_length _ _ _ hls
    obtain ⟨i, l, g1, g2, g3⟩ := pick_getElem? _ _ _ hls j (labelsOf coords d) (by simp [hj])
    rw [labelAt_eq coords _ _ hnd j d hj i g1 l g2]
    simp [chosen, dget_zip _ _ hnd hlen j d hj, g3]
  · rw [List.getElem?_eq_none (by omega), List.getElem?_eq_none]
    · rfl
    · rw [length_product, hsh]; omega

/-! ### One equation -/

theorem normalize_read {q : TextEq} {l r e : PExpr} (hl : Reads q.arrLhs l) (hr : Reads q.arrRhs r)
    (heq : OnlyAxisEquals q.arrLhs) (he : Reads (normalizeEq q.arrText) e) : e = .sub l r := by
  have h := normalize_reads (q.arrLhs ++ " ".toList) (" ".toList ++ q.arrRhs) l r hl.space_right hr.space_left
    (onlyAxisEquals_space heq) (by
      rintro ⟨t, ht⟩
      have := congrArg List.getLast? ht
      rw [List.getLast?_append, List.getLast?_append] at this
      have h1 : "axis".toList.getLast? = some 's' := rfl
      have h2 : " ".toList.getLast? = some ' ' := rfl
      rw [h1, h2] at this
      exact absurd this (by simp))
  have h2 : q.arrText = q.arrLhs ++ " ".toList ++ '=' :: (" ".toList ++ q.arrRhs) := by
    have h3 : " = ".toList = " ".toList ++ '=' :: " ".toList := rfl
    unfold TextEq.arrText
    rw [h3]
    simp [List.append_assoc]
  rw [h2] at he
  exact he.unique h

theorem filter_mem_sublist {l₁ l₂ : List Str} (h : List.Sublist l₁ l₂) (hn : l₂.Nodup) :
    l₂.filter (fun d => decide (d ∈ l₁)) = l₁ := by
  induction h with
  | slnil => rfl
  | @cons l₁ l₂ a h ih =>
    rw [List.nodup_cons] at hn
    rw [List.filter_cons, if_neg (by simpa using fun ha => hn.1 (h.subset ha))]
    exact ih hn.2
  | @cons_cons l₁ l₂ a h ih =>
    rw [List.nodup_cons] at hn
    rw [List.filter_cons, if_pos (by simp)]
    congr 1
    conv_rhs => rw [← ih hn.2]
    apply List.filter_congr
    intro d hd
    have hne : d ≠ a := fun hda => hn.1 (hda ▸ hd)
    simp [hne]

theorem filter_sublist_eq {ds : List Str} {K : List Str} (h : List.Sublist ds K) (hn : K.Nodup)
    (p : Str → Bool) (hp : ∀ d, p d = true ↔ d ∈ ds) : K.filter p = ds := by
  conv_rhs => rw [← filter_mem_sublist h hn]
  apply List.filter_congr
  intro d _
  rw [Bool.eq_iff_iff, hp d]
  simp

theorem objects_ok (h : ArrayModel coords vars params eqs) :
    ObjectsOK coords (vars ++ params) (localDict coords (vars ++ params)) where
  found := by
    intro o ho
    unfold localDict
    rw [dget_dupdate_of_not_mem]
    · apply dget_of_mem_nodup
      · rw [dofPairs_of_nodup]
        · unfold dkeys; rw [List.map_map]; exact h.scalar.names
        · rw [List.map_map]; exact h.scalar.names
      · rw [dofPairs_of_nodup]
        · exact List.mem_map.2 ⟨o, ho, rfl⟩
        · rw [List.map_map]; exact h.scalar.names
    · rw [List.map_map]
      simpa using (h.names o ho).2
  others := by
    intro x hx
    unfold symbolOf localDict
    by_cases hk : x ∈ dkeys coords
    · have hkeys : dkeys ((dkeys coords).map fun d => (d, RExpr.sym d)) = dkeys coords := by
        unfold dkeys
        rw [List.map_map]
        simp [Function.comp_def]
      have hget : dget ((dkeys coords).map fun d => (d, RExpr.sym d)) x = some (.sym x) :=
        dget_of_mem_nodup _ (by rw [hkeys]; exact h.coords_nodup) (List.mem_map.2 ⟨x, hk, rfl⟩)
      rw [dget_dupdate _ _ (by rw [hkeys]; exact h.coords_nodup), hget]
      rfl
    · rw [dget_dupdate_of_not_mem _ _ _ (by simpa [List.map_map] using hk), dofPairs_of_nodup]
      · have : dget ((vars ++ params).map fun o => (o.name, toSympy o)) x = none := by
          rw [dget_eq_none_iff]
          unfold dkeys
          rw [List.map_map]
          exact hx
        rw [this]
        rfl
      · rw [List.map_map]; exact h.scalar.names
  fresh := h.scalar.fresh
  known := h.scalar.known
  names := h.scalar.names
  labels := h.labels

/-- The parsed form of an equation. -/
def ParsesTo (coords : Coords) (objs : List ModelObject) (q : TextEq) (p : ParsedEq) : Prop :=
  ∃ l r, Reads q.symLhs l ∧ Reads q.symRhs r ∧ parseSympy coords objs q.name.text l r = .ok p

/-- The equation with its parsed sides. -/
def indexedEq (q : TextEq) (p : ParsedEq) : IndexedEq := ⟨q.name, p.lhs, p.rhs⟩

theorem parsed_spec (h : ArrayModel coords vars params eqs) {q : TextEq} {l r l' r' : PExpr} {ds : List Str}
    (hq : q.OK coords (vars ++ params) l r l' r' ds) {p : ParsedEq} (hp : ParsesTo coords (vars ++ params) q p) :
    p.name = q.name.text ∧ AllPlain coords p.lhs ∧ AllPlain coords p.rhs ∧
      WellIndexed coords (vars ++ params) p.lhs ∧ WellIndexed coords (vars ++ params) p.rhs ∧
      freeDims coords [] p.lhs p.rhs = ds ∧
      ∀ flat, ∃ a, evalArr (fun x => (lookupName (flatPairs coords (vars ++ params) flat) x).map
          Arr.ofNDArray) (.sub l r) = .ok a ∧ a.shape = ds.map (dimSize coords) ∧
        a.entries = demanded coords [] (vars ++ params) flat (indexedEq q p) := by
  obtain ⟨l₂, r₂, hl, hr, hp⟩ := hp
  cases hq.symL.unique hl
  cases hq.symR.unique hr
  obtain ⟨dl, dr, tl, tr, hf⟩ := hq.twins
  have hO := objects_ok h
  obtain ⟨rl, hl'⟩ := twins_facts hO tl
  obtain ⟨rr, hr'⟩ := twins_facts hO tr
  have hpe : p = ⟨q.name.text, rl, rr⟩ := by
    simp only [parseSympy, hl'.sympy, hr'.sympy, bind, Except.bind, Except.ok.injEq] at hp
    exact hp.symm
  subst hpe
  have hnd : ds.Nodup := h.coords_nodup.sublist hq.order
  have hfree : freeDims coords [] rl rr = ds := by
    unfold freeDims
    apply filter_sublist_eq hq.order h.coords_nodup
    intro d
    have : d ∈ ds ↔ some d ∈ ds.map some := by simp
    rw [this, fits_mem hf d, ← hl'.free d, ← hr'.free d, Bool.or_eq_true]
  refine ⟨rfl, hl'.plain, hr'.plain, hl'.well, hr'.well, hfree, fun flat => ?_⟩
  have henv := flat_holds h.scalar flat (fun o ho => (h.names o ho).1)
    fun d l hl => (labels_readBack h.label_names d l hl).1
  obtain ⟨a, k1, k2⟩ := hl'.value _ _ henv
  obtain ⟨b, m1, m2⟩ := hr'.value _ _ henv
  obtain ⟨c, n1, n2⟩ := sameValues_op hf (· - ·) k2 m2 (t := .add rl (.mul (.num (-1)) rr)) fun η => by
      simp [RExpr.value, sub_eq_add_neg]
  have hsh : c.shape = ds.map (dimSize coords) := by rw [n2.shape, map_axisSize_some]
  refine ⟨c, by simp only [evalArr, k1, m1, bind, Except.bind]; exact n1, hsh, ?_⟩
  unfold demanded indexedEq
  dsimp only
  rw [hfree]
  apply entries_eq c ds hsh
  intro idx ls hls
  rw [n2.get idx _ (agreesAx_some.2 (agrees_bindLabels ds hnd idx ls hls))]
  simp [RExpr.value, sub_eq_add_neg]

/-! ### The whole model -/

theorem arrayOp_shape {f : ℝ → ℝ → ℝ} {a b c : Arr} (h : arrayOp f a b = .ok c) :
    broadcastShapes a.shape b.shape = .ok c.shape := by
  unfold arrayOp Arr.op at h
  unfold broadcastShapes
  cases hb : Arr.broadcastRev a.shape.reverse b.shape.reverse with
  | none => rw [hb] at h; cases h
  | some s =>
    rw [hb] at h
    simp only [Option.map_some, Except.ok.injEq] at h
    subst h
    rfl

theorem postArr_shape {n : Bool} {q : Post} {a b : Arr} (h : postArr n q a = .ok b) :
    postShape n q a.shape = .ok b.shape := by
  cases n with
  | true => cases q <;> simp [postArr] at h
  | false =>
    cases q with
    | call m =>
      simp only [postArr, Bool.false_eq_true, if_false] at h
      simp only [postShape, Bool.false_eq_true, if_false]
      by_cases h1 : m = "sum".toList
      · rw [if_pos h1] at h
        rw [if_pos (Or.inl h1)]
        cases h
        rfl
      · rw [if_neg h1] at h
        by_cases h2 : m = "prod".toList
        · rw [if_pos h2] at h
          rw [if_pos (Or.inr h2)]
          cases h
          rfl
        · rw [if_neg h2] at h
          rw [if_neg (not_or.2 ⟨h1, h2⟩)]
          split at h
          · rename_i h3
            rw [if_pos h3]
            cases h
            rfl
          · cases h
    | sumAxis k =>
      simp only [postArr, Bool.false_eq_true, if_false, bind, Except.bind] at h
      simp only [postShape, Bool.false_eq_true, if_false, bind, Except.bind]
      cases hk : axisOf k with
      | error => rw [hk] at h; cases h
      | ok i =>
        rw [hk] at h
        dsimp only at h ⊢
        unfold Arr.sumAxis at h
        cases hi : a.shape[i]? with
        | none => rw [hi] at h; cases h
        | some m =>
          rw [hi] at h
          cases h
          rw [if_pos (List.getElem?_eq_some_iff.1 hi).1]
    | newAxis0 =>
      simp only [postArr, Bool.false_eq_true, if_false] at h
      cases h
      rfl
    | newAxis1 =>
      simp only [postArr, Bool.false_eq_true, if_false] at h
      simp only [postShape, Bool.false_eq_true, if_false]
      unfold Arr.newAxis1 at h
      cases hs : a.shape with
      | nil => rw [hs] at h; cases h
      | cons d s => rw [hs] at h; cases h; rfl
    | item k =>
      simp only [postArr, Bool.false_eq_true, if_false, bind, Except.bind] at h
      simp only [postShape, Bool.false_eq_true, if_false, bind, Except.bind]
      cases hk : axisOf k with
      | error => rw [hk] at h; cases h
      | ok i =>
        rw [hk] at h
        dsimp only at h ⊢
        unfold Arr.item at h
        cases hs : a.shape with
        | nil => rw [hs] at h; cases h
        | cons d s =>
          rw [hs] at h
          dsimp only at h
          split at h
          · rename_i c hc
            split at hc
            · cases hc; cases h; rfl
            · cases hc
          · cases h
    | subs | subsNum | subsList => cases h

theorem evalShape_of_evalArr {env : Str → Res Arr} {shapes : Str → Res (List Nat)}
    (henv : ∀ x a, env x = .ok a → shapes x = .ok a.shape) (e : PExpr) (a : Arr) (h : evalArr env e = .ok a) :
    evalShape shapes e = .ok a.shape := by
  induction e generalizing a with
  | var x => exact henv x a h
  | num s => cases h; rfl
  | neg e ih =>
    simp only [evalArr, bind, Except.bind] at h
    cases hu : evalArr env e with
    | error => rw [hu] at h; cases h
    | ok u =>
      rw [hu] at h
      cases h
      exact ih u hu
  | pos e ih => exact ih a h
  | add e f ihe ihf | sub e f ihe ihf | mul e f ihe ihf | div e f ihe ihf | pow e f ihe ihf =>
    simp only [evalArr, bind, Except.bind] at h
    cases hu : evalArr env e with
    | error => rw [hu] at h; cases h
    | ok u =>
      cases hv : evalArr env f with
      | error => rw [hu, hv] at h; cases h
      | ok v =>
        rw [hu, hv] at h
        simp only [evalShape, ihe u hu, ihf v hv, bind, Except.bind]
        exact arrayOp_shape h
  | post e q ih =>
    simp only [evalArr, bind, Except.bind] at h
    cases hu : evalArr env e with
    | error => rw [hu] at h; cases h
    | ok u =>
      rw [hu] at h
      simp only [evalShape, ih u hu, bind, Except.bind]
      exact postArr_shape h
  | sumOver | prodOver => cases h

/-- The names of the unpacked equations. -/
def textNames (coords : Coords) (q : TextEq) : List Str :=
  (product (q.name.dims.map (labelsOf coords))).map fun ls => q.name.filled (chosen q.name.dims ls)

theorem unpacked_names (h : ArrayModel coords vars params eqs) :
    unpackedEquationNames (eqs.map fun q => q.name.text) coords = .ok (eqs.flatMap (textNames coords)) := by
  have hlist : ∀ l : List TextEq, (∀ q ∈ l, q ∈ eqs) →
      (l.map fun q => q.name.text).mapM (unpackEquationName coords) = .ok (l.map (textNames coords)) := by
    intro l hl
    induction l with
    | nil => rfl
    | cons q l ih =>
      obtain ⟨_, _, _, _, ds, hq⟩ := h.sides q (hl q (by simp))
      have hk : ∀ d ∈ q.name.dims, d ∈ dkeys coords := by
        rw [hq.markers]; exact fun d hd => hq.order.subset hd
      have h1 := unpackName_list (coords := coords) q.name hq.clean
        (by rw [hq.markers]; exact h.coords_nodup.sublist hq.order) hk h.dim_names
        (fun d _ l hl => (labels_readBack h.label_names d l hl).2)
      rw [List.map_cons, List.mapM_cons, h1, ih fun q' hq' => hl q' (List.mem_cons_of_mem _ hq')]
      rfl
  unfold unpackedEquationNames unpackEquationStrings
  rw [hlist eqs fun _ h => h]
  simp only [Except.map]
  rw [← List.flatMap_def, dofPairs_of_nodup]
  · simp [dkeys, Function.comp_def]
  · rw [List.map_map]
    simp only [Function.comp_def, List.map_id']
    exact h.distinct

theorem shape_cache (h : ScalarModel coords vars params) :
    shapeCache coords (vars ++ params) =
      .ok ((vars ++ params).map fun o => (o.name, specShape coords o)) := by
  unfold shapeCache
  rw [mapM_ok_of_forall _ (fun o => (o.name, specShape coords o))]
  · simp only [Except.map]
    rw [dofPairs_of_nodup]
    rw [List.map_map]; exact h.names
  · intro o ho
    rw [inferShape_eq (h.known o ho)]
    rfl

theorem lookup_shape (h : ScalarModel coords vars params) (flat : List ℝ) (x : Str) (a : Arr)
    (ha : (lookupName (flatPairs coords (vars ++ params) flat) x).map Arr.ofNDArray = .ok a) :
    lookupName ((vars ++ params).map fun o => (o.name, specShape coords o)) x = .ok a.shape := by
  unfold lookupName at ha ⊢
  split at ha
  · cases ha
  · rename_i hx
    rw [if_neg hx]
    cases hd : dget (flatPairs coords (vars ++ params) flat) x with
    | none => rw [hd] at ha; cases ha
    | some nd =>
      rw [hd] at ha
      cases ha
      have hmem : x ∈ (vars ++ params).map ModelObject.name := by
        rw [← map_fst_flatPairs coords (vars ++ params) flat]
        exact (mem_dkeys_iff _ x).2 ⟨nd, hd⟩
      obtain ⟨o, ho, rfl⟩ := List.mem_map.1 hmem
      obtain ⟨m, hm⟩ := List.getElem?_of_mem ho
      rw [flat_get h flat m o hm] at hd
      cases hd
      rw [dget_of_mem_nodup (d := (vars ++ params).map fun o => (o.name, specShape coords o)) (k := o.name)
        (v := specShape coords o)]
      · rfl
      · unfold dkeys; rw [List.map_map]; exact h.names
      · exact List.mem_map.2 ⟨o, ho, rfl⟩

theorem eval_all (h : ArrayModel coords vars params eqs) (flat : List ℝ) :
    ∀ (l : List TextEq) (es : List PExpr) (ps : List ParsedEq), (∀ q ∈ l, q ∈ eqs) →
      List.Forall₂ (fun q e => Reads (normalizeEq q.arrText) e) l es →
      List.Forall₂ (ParsesTo coords (vars ++ params)) l ps →
      ∃ arrs, es.mapM (evalArr fun x => (lookupName (flatPairs coords (vars ++ params) flat) x).map
          Arr.ofNDArray) = .ok arrs ∧
        (arrs.map fun a => a.entries).flatten =
          (List.zipWith indexedEq l ps).flatMap (demanded coords [] (vars ++ params) flat) ∧
        (arrs.map fun a => a.entries).flatten.length = (l.flatMap (textNames coords)).length := by
  intro l es ps hl hes hps
  induction hes generalizing ps with
  | nil => cases hps; exact ⟨[], rfl, rfl, rfl⟩
  | @cons q e l es hqe _ ih =>
    cases hps with
    | @cons _ p _ ps hqp hps =>
      obtain ⟨arrs, h1, h2, h3⟩ := ih ps (fun q' hq' => hl q' (List.mem_cons_of_mem _ hq')) hps
      obtain ⟨lh, rh, _, _, ds, hq⟩ := h.sides q (hl q (by simp))
      obtain ⟨-, -, -, -, -, hfr, hev⟩ := parsed_spec h hq hqp
      obtain ⟨a, g1, g2, g3⟩ := hev flat
      rw [normalize_read hq.arrL hq.arrR hq.equals hqe]
      refine ⟨a :: arrs, ?_, ?_, ?_⟩
      · rw [List.mapM_cons, g1, h1]; rfl
      · rw [List.map_cons, List.flatten_cons, h2, List.zipWith_cons_cons, List.flatMap_cons, g3]
      · rw [List.map_cons, List.flatten_cons, List.length_append, h3, List.flatMap_cons, List.length_append, g3]
        congr 1
        unfold demanded indexedEq textNames
        dsimp only
        rw [hfr, hq.markers, List.length_map, List.length_map]

/-- **C76 (arrays).**  A model whose equations are written for arrays, elementwise over objects whose dims
fit and with sums over whole arrays, compiles with the pytensor back-end, and the residuals at all flat
vectors are the differences of the sides of the same equations written with indices, for every choice of
labels, in the order of the labels. -/
theorem C76_array_residuals_partial (h : ArrayModel coords vars params eqs) {es : List PExpr}
    {ps : List ParsedEq} (hes : List.Forall₂ (fun q e => Reads (normalizeEq q.arrText) e) eqs es)
    (hps : List.Forall₂ (ParsesTo coords (vars ++ params)) eqs ps) :
    ∃ F, compileText coords (vars ++ params) (eqs.map fun q => q.name.text) es = .ok F ∧
      ∀ x theta, x.length = totalSize coords vars → theta.length = totalSize coords params →
        wrapForScipy F vars params coords x theta = .ok ((List.zipWith indexedEq eqs ps).flatMap
          (demanded coords [] (vars ++ params) (x ++ theta))) := by
  have hlen : eqs.length = es.length := hes.length_eq
  have hne : es ≠ [] := by
    intro hnil
    rw [hnil] at hlen
    exact h.nonempty (List.eq_nil_of_length_eq_zero hlen)
  obtain ⟨shapes, hshapes⟩ : ∃ shapes, es.mapM (evalShape (lookupName
      ((vars ++ params).map fun o => (o.name, specShape coords o)))) = .ok shapes := by
    obtain ⟨arrs, h1, -, -⟩ := eval_all h [] eqs es ps (fun _ h => h) hes hps
    clear hlen hne hes hps
    induction es generalizing arrs with
    | nil => exact ⟨[], rfl⟩
    | cons e es ih =>
      rw [List.mapM_cons] at h1
      simp only [bind, Except.bind] at h1
      cases ha : evalArr (fun x => (lookupName (flatPairs coords (vars ++ params) []) x).map Arr.ofNDArray)
          e with
      | error => rw [ha] at h1; cases h1
      | ok a =>
        rw [ha] at h1
        dsimp only at h1
        cases hb : es.mapM (evalArr fun x => (lookupName (flatPairs coords (vars ++ params) []) x).map
            Arr.ofNDArray) with
        | error => rw [hb] at h1; cases h1
        | ok as =>
          obtain ⟨ss, hss⟩ := ih as hb
          refine ⟨a.shape :: ss, ?_⟩
          rw [List.mapM_cons, evalShape_of_evalArr (lookup_shape h.scalar []) e a ha, hss]
          rfl
  have hval : validateParsing (vars ++ params) es = .ok () := by
    unfold validateParsing
    rw [if_pos]
    refine ⟨h.scalar.names, ?_, ?_⟩
    · intro hmem
      obtain ⟨o, ho, hn⟩ := List.mem_map.1 hmem
      exact (h.names o ho).1 hn
    · intro o ho
      obtain ⟨q, hq, l, r, hl, hr, hn⟩ := h.used o ho
      obtain ⟨m, hm⟩ := List.getElem?_of_mem hq
      have hlt : m < es.length := by
        rw [← hlen]; exact (List.getElem?_eq_some_iff.1 hm).1
      have he : Reads (normalizeEq q.arrText) es[m] := by
        have hm' := List.getElem?_eq_some_iff.1 hm
        have := (List.forall₂_iff_get.1 hes).2 m hm'.1 hlt
        simp only [List.get_eq_getElem] at this
        rw [hm'.2] at this
        exact this
      rw [List.mem_flatMap]
      refine ⟨es[m], List.getElem_mem _, ?_⟩
      obtain ⟨_, _, _, _, _, hok⟩ := h.sides q hq
      rw [normalize_read hl hr hok.equals he]
      simpa [PExpr.vars, names_iff_vars] using hn
  have hconc : ∃ c, npConcatenate (shapes.map fun s => List.replicate s.prod ()) = .ok c := by
    refine ⟨_, npConcatenate_ok ?_⟩
    intro hnil
    have hs : shapes = [] := by simpa using hnil
    subst hs
    cases es with
    | nil => exact hne rfl
    | cons e es =>
      rw [List.mapM_cons] at hshapes
      simp only [bind, Except.bind] at hshapes
      split at hshapes
      · cases hshapes
      · split at hshapes
        · cases hshapes
        · simp [pure, Except.pure] at hshapes
  obtain ⟨c, hc⟩ := hconc
  refine ⟨callTextSystem ((vars ++ params).map ModelObject.name) (eqs.flatMap (textNames coords)).length es, ?_, ?_⟩
  · unfold compileText
    rw [unpacked_names h, shape_cache h.scalar]
    simp only [bind, Except.bind, hshapes, hc, hval]
    rfl
  · intro x theta hx ht
    unfold wrapForScipy
    rw [flat_dict h.scalar x theta hx ht]
    simp only [bind, Except.bind]
    obtain ⟨arrs, h1, h2, h3⟩ := eval_all h (x ++ theta) eqs es ps (fun _ h => h) hes hps
    unfold callTextSystem
    have hk : dkeys (flatPairs coords (vars ++ params) (x ++ theta)) = (vars ++ params).map ModelObject.name :=
      map_fst_flatPairs _ _ _
    rw [hk, if_neg (by rw [List.all_eq_true.2 fun n hn => decide_eq_true hn]; simp)]
    have hfl : flattenEquations (arrs.map fun a => (⟨a.shape, a.entries⟩ : NDArray ℝ)) =
        .ok (arrs.map fun a => a.entries).flatten := by
      unfold flattenEquations
      rw [npConcatenate_ok]
      · rw [List.map_map]; rfl
      · intro hnil
        have : arrs = [] := by simpa using hnil
        subst this
        cases es with
        | nil => exact hne rfl
        | cons e es =>
          rw [List.mapM_cons] at h1
          simp only [bind, Except.bind] at h1
          split at h1
          · cases h1
          · split at h1
            · cases h1
            · simp [pure, Except.pure] at h1
    simp only [bind, Except.bind, h1, hfl, h3, if_true]
    rw [h2]

/-- **C76 (inputs).**  A compiled model refuses a call that misses one of its inputs, or that names something
else. -/
theorem C76_inputs (coords : Coords) (objs : List ModelObject) (names : List Str) (es : List PExpr)
    (f : KwFun ℝ (List ℝ)) (hf : compileText coords objs names es = .ok f) (d : Dict Str (NDArray ℝ)) (n : Str)
    (hn : ¬ (n ∈ dkeys d ↔ n ∈ objs.map ModelObject.name)) : f d = .error .typeError := by
  have hcall : ∃ k, f = callTextSystem (objs.map ModelObject.name) k es := by
    unfold compileText at hf
    simp only [bind, Except.bind, pure, Except.pure] at hf
    repeat' split at hf
    all_goals first
      | (injection hf with hf; exact ⟨_, hf.symm⟩)
      | cases hf
  obtain ⟨k, rfl⟩ := hcall
  unfold callTextSystem
  rw [if_pos]
  simp only [Bool.not_eq_true', Bool.and_eq_false_iff]
  by_contra hall
  rw [not_or] at hall
  obtain ⟨h1, h2⟩ := hall
  rw [Bool.not_eq_false, List.all_eq_true] at h1 h2
  exact hn ⟨fun h => by simpa using h1 n h, fun h => by simpa using h2 n h⟩

/-- **C76 (methods).**  A method call on a number, such as `(2).sum()`, and a method a tensor does not have
(among those modelled), such as `x.subs(…)`, stop the compilation with an `AttributeError`. -/
theorem C76_methods (coords : Coords) (objs : List ModelObject) (names unpacked : List Str)
    (cache : Dict Str (List Nat)) (e : PExpr) (q : Post) (s : List Nat) (es : List PExpr)
    (hu : unpackedEquationNames names coords = .ok unpacked) (hc : shapeCache coords objs = .ok cache)
    (he : evalShape (lookupName cache) e = .ok s)
    (hm : (e.vars = [] ∧ q ≠ .newAxis0 ∧ q ≠ .newAxis1 ∧ ∀ k, q ≠ .item k) ∨ (∃ ps, q = .subsList ps) ∨
      (∃ i j, q = .subs i j) ∨ (∃ i k, q = .subsNum i k) ∨
      ∃ m, q = .call m ∧ m ≠ "sum".toList ∧ m ≠ "prod".toList ∧ m ≠ "ravel".toList) :
    compileText coords objs names (.post e q :: es) = .error .attributeError := by
  have hme : postShape e.vars.isEmpty q s = .error .attributeError := by
    rcases hm with ⟨h, h0, h1, h2⟩ | ⟨ps, rfl⟩ | ⟨i, j, rfl⟩ | ⟨i, k, rfl⟩ | ⟨m, rfl, h1, h2, h3⟩
    · rw [h]
      cases q with
      | newAxis0 => exact absurd rfl h0
      | newAxis1 => exact absurd rfl h1
      | item k => exact absurd rfl (h2 k)
      | _ => rfl
    · rfl
    · rfl
    · rfl
    · unfold postShape
      dsimp only
      rw [if_neg (not_or.2 ⟨h1, h2⟩), if_neg h3]
      split <;> rfl
  unfold compileText
  rw [hu, hc]
  simp only [bind, Except.bind]
  rw [List.mapM_cons, evalShape, he]
  simp only [bind, Except.bind, hme]

example : compileText [] [] ["a".toList] [.post (.num "2".toList) (.call "sum".toList)] = .error .attributeError :=
  C76_methods [] [] ["a".toList] ["a".toList] [] (.num "2".toList) (.call "sum".toList) [] [] (by decide +kernel)
    (by decide +kernel) rfl (.inl ⟨rfl, by decide, by decide, nofun⟩)

/-- **C76 (axes).**  Summing over an axis that is not there, taking a number as if it were an array, and
writing a new axis after the first of a scalar or picking an entry of a scalar, stop the compilation with a
`ValueError`, a `TypeError` and an `IndexError`. -/
theorem C76_axes (coords : Coords) (objs : List ModelObject) (names unpacked : List Str)
    (cache : Dict Str (List Nat)) (e : PExpr) (s : List Nat) (es : List PExpr)
    (hu : unpackedEquationNames names coords = .ok unpacked) (hc : shapeCache coords objs = .ok cache)
    (he : evalShape (lookupName cache) e = .ok s) :
    (∀ k, e.vars ≠ [] → '.' ∉ k → s.length ≤ digitsVal k →
      compileText coords objs names (.post e (.sumAxis k) :: es) = .error .valueError) ∧
    (∀ k, e.vars ≠ [] → '.' ∈ k →
      compileText coords objs names (.post e (.sumAxis k) :: es) = .error .typeError) ∧
    (∀ q, e.vars = [] → q = .newAxis0 ∨ q = .newAxis1 ∨ (∃ k, q = .item k) →
      compileText coords objs names (.post e q :: es) = .error .typeError) ∧
    (∀ q, e.vars ≠ [] → s = [] → q = .newAxis1 ∨ (∃ k, q = .item k ∧ '.' ∉ k) →
      compileText coords objs names (.post e q :: es) = .error .indexError) := by
  have key : ∀ q err, postShape e.vars.isEmpty q s = .error err →
      compileText coords objs names (.post e q :: es) = .error err := by
    intro q err hq
    unfold compileText
    rw [hu, hc]
    simp only [bind, Except.bind]
    rw [List.mapM_cons, evalShape, he]
    simp only [bind, Except.bind, hq]
  have hne : e.vars ≠ [] → e.vars.isEmpty = false := by
    intro h
    cases hv : e.vars with
    | nil => exact absurd hv h
    | cons => rfl
  refine ⟨fun k h1 h2 h3 => key _ _ ?_, fun k h1 h2 => key _ _ ?_, fun q h1 h2 => key _ _ ?_,
    fun q h1 h2 h3 => key _ _ ?_⟩
  · simp only [postShape, hne h1, axisOf, if_neg h2, bind, Except.bind, Bool.false_eq_true, if_false]
    rw [if_neg (Nat.not_lt.2 h3)]
  · simp only [postShape, hne h1, axisOf, if_pos h2, bind, Except.bind, Bool.false_eq_true, if_false]
  · rcases h2 with rfl | rfl | ⟨k, rfl⟩ <;> · rw [h1]; rfl
  · rw [hne h1, h2]
    rcases h3 with rfl | ⟨k, rfl, hk⟩
    · rfl
    · simp [postShape, axisOf, hk, bind, Except.bind]

example : compileText [] [{ name := "y" }] ["a".toList] [.post (.var "y".toList) .newAxis1] = .error .indexError :=
  (C76_axes [] [{ name := "y" }] ["a".toList] ["a".toList] [("y".toList, [])] (.var "y".toList) [] []
    (by decide +kernel) (by decide +kernel) (by decide +kernel)).2.2.2 _ (by simp [PExpr.vars]) rfl (.inl rfl)

example : compileText [] [{ name := "y" }] ["a".toList] [.post (.var "y".toList) (.item "0".toList)] =
    .error .indexError :=
  (C76_axes [] [{ name := "y" }] ["a".toList] ["a".toList] [("y".toList, [])] (.var "y".toList) [] []
    (by decide +kernel) (by decide +kernel) (by decide +kernel)).2.2.2 _ (by simp [PExpr.vars]) rfl
    (.inr ⟨_, rfl, by decide⟩)

theorem broadcastRev_none : ∀ (s t : List Nat) (k a b : Nat), s[k]? = some a → t[k]? = some b → a ≠ b → a ≠ 1 →
    b ≠ 1 → Arr.broadcastRev s t = none
  | [], _, k, _, _, h, _, _, _, _ => by simp at h
  | _ :: _, [], k, _, _, _, h, _, _, _ => by simp at h
  | x :: s, y :: t, 0, a, b, h1, h2, hab, ha, hb => by
    simp only [List.getElem?_cons_zero, Option.some.injEq] at h1 h2
    subst h1 h2
    simp [Arr.broadcastRev, hab, ha, hb]
  | x :: s, y :: t, k + 1, a, b, h1, h2, hab, ha, hb => by
    simp only [List.getElem?_cons_succ] at h1 h2
    have ih := broadcastRev_none s t k a b h1 h2 hab ha hb
    simp [Arr.broadcastRev, ih]

/-- **C76 (shapes that do not fit).**  If, counted from the last axis, some axis of the two sides of an operation has
different lengths and neither is one, the model is refused with a `ValueError`. -/
theorem C76_shapes_refused (coords : Coords) (objs : List ModelObject) (names unpacked : List Str)
    (cache : Dict Str (List Nat)) (e e' : PExpr) (s t : List Nat) (es : List PExpr)
    (hu : unpackedEquationNames names coords = .ok unpacked) (hc : shapeCache coords objs = .ok cache)
    (he : evalShape (lookupName cache) e = .ok s) (he' : evalShape (lookupName cache) e' = .ok t)
    (k a b : Nat) (ha : s.reverse[k]? = some a) (hb : t.reverse[k]? = some b) (hab : a ≠ b) (ha1 : a ≠ 1)
    (hb1 : b ≠ 1) :
    ∀ q ∈ [PExpr.add e e', .sub e e', .mul e e', .div e e', .pow e e'],
      compileText coords objs names (q :: es) = .error .valueError := by
  have hbr : broadcastShapes s t = .error .valueError := by
    unfold broadcastShapes
    rw [broadcastRev_none _ _ k a b ha hb hab ha1 hb1]
  intro q hq
  have hq' : evalShape (lookupName cache) q = .error .valueError := by
    simp only [List.mem_cons, List.not_mem_nil, or_false] at hq
    rcases hq with rfl | rfl | rfl | rfl | rfl <;>
      simp only [evalShape, he, he', hbr, bind, Except.bind]
  unfold compileText
  rw [hu, hc]
  simp only [bind, Except.bind]
  rw [List.mapM_cons, hq']
  simp only [bind, Except.bind]

example : compileText [("i".toList, ["a".toList, "b".toList]), ("j".toList, ["c".toList, "d".toList, "e".toList])]
    [{ name := "x", dims := ["i".toList] }, { name := "y", dims := ["j".toList] }] ["a".toList]
    [.sub (.var "x".toList) (.var "y".toList)] = .error .valueError :=
  C76_shapes_refused _ _ _ ["a".toList] [("x".toList, [2]), ("y".toList, [3])] (.var "x".toList) (.var "y".toList) [2] [3] []
    (by decide +kernel) (by decide +kernel) (by decide +kernel) (by decide +kernel) 0 2 3 rfl rfl (by decide) (by decide)
    (by decide) _ (by simp)

end Verif
