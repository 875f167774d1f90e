import Verif.Lemmas.Scalarise

/-!
# Lemmas on turning indexed equations into scalar equations, continued
-/

namespace Verif

open RExpr

/-! ### The entries of the arrays and the scalars -/

theorem pick_positions (coords : Coords) : ∀ (ds ls : List Str), ls ∈ product (ds.map (labelsOf coords)) →
    (∀ l ∈ ls, ReadsBack l) →
    ValidIdx (ds.map fun d => (labelsOf coords d).length)
        (ds.zipWith (fun d s => (labelsOf coords d).idxOf (labelText s)) (ls.map sympifyLabel)) ∧
      pick (ds.map (labelsOf coords))
        (ds.zipWith (fun d s => (labelsOf coords d).idxOf (labelText s)) (ls.map sympifyLabel)) = some ls
  | [], ls, h, _ => by
      simp only [List.map_nil, product, List.mem_singleton] at h
      subst h
      exact ⟨trivial, rfl⟩
  | d :: ds, ls, h, hr => by
      simp only [List.map_cons, product, List.mem_flatMap, List.mem_map] at h
      obtain ⟨l, hl, ls', hls', rfl⟩ := h
      obtain ⟨h1, h2⟩ := pick_positions coords ds ls' hls' fun l hl => hr l (by simp [hl])
      have hrl : labelText (sympifyLabel l) = l := hr l (by simp)
      have hlt : (labelsOf coords d).idxOf l < (labelsOf coords d).length := List.idxOf_lt_length_iff.2 hl
      simp only [List.map_cons, List.zipWith_cons_cons, pick, hrl]
      refine ⟨⟨hlt, h1⟩, ?_⟩
      rw [h2]
      show ((labelsOf coords d)[(labelsOf coords d).idxOf l]?.bind _) = _
      rw [List.getElem?_eq_getElem hlt, List.getElem_idxOf hlt]
      rfl

theorem scalarNames_at (coords : Coords) (objs : List ModelObject) (m : Nat) (o : ModelObject)
    (hm : objs[m]? = some o) (idx : List Nat) (hidx : ValidIdx (specShape coords o) idx) (ls : List Str)
    (hp : pick (o.dims.map (labelsOf coords)) idx = some ls) :
    (scalarNames coords objs)[offsetOf coords objs m + ravelIndex (specShape coords o) idx]? =
      some (joinStr "_".toList (o.name :: ls)) := by
  have hsplit : objs = objs.take m ++ o :: objs.drop (m + 1) := by
    obtain ⟨hlt, hget⟩ := List.getElem?_eq_some_iff.1 hm
    rw [← hget, ← List.drop_eq_getElem_cons hlt, List.take_append_drop]
  have hoff : offsetOf coords objs m = (scalarNames coords (objs.take m)).length := by
    rw [length_scalarNames]; rfl
  have hlen : (scalarNames coords [o]).length = specSize coords o := by
    rw [length_scalarNames]; simp [totalSize]
  have hs : scalarNames coords objs = scalarNames coords (objs.take m) ++
      (scalarNames coords [o] ++ scalarNames coords (objs.drop (m + 1))) := by
    rw [← scalarNames_append, ← scalarNames_append]
    exact congrArg _ hsplit
  have hr : ravelIndex (specShape coords o) idx < specSize coords o := ravelIndex_lt _ _ hidx
  have hshape : (o.dims.map (labelsOf coords)).map List.length = specShape coords o := by
    rw [List.map_map]; rfl
  have hone : scalarNames coords [o] = (product (o.dims.map (labelsOf coords))).map fun ls =>
      joinStr "_".toList (o.name :: ls) := by simp [scalarNames]
  rw [hs, hoff, List.getElem?_append_right (by omega), Nat.add_sub_cancel_left,
    List.getElem?_append_left (by omega), hone, List.getElem?_map, ← hshape,
    product_ravel _ _ (by rw [hshape]; exact hidx), hp]
  rfl

theorem findIdx_name (objs : List ModelObject) (hn : (objs.map ModelObject.name).Nodup) (m : Nat)
    (o : ModelObject) (hm : objs[m]? = some o) : objs.findIdx? (fun o' => o'.name = o.name) = some m := by
  induction objs generalizing m with
  | nil => simp at hm
  | cons a objs ih =>
    rw [List.map_cons, List.nodup_cons] at hn
    cases m with
    | zero =>
      simp only [List.getElem?_cons_zero, Option.some.injEq] at hm
      subst hm
      simp [List.findIdx?_cons]
    | succ m =>
      rw [List.getElem?_cons_succ] at hm
      have hne : a.name ≠ o.name := fun h =>
        hn.1 (List.mem_map.2 ⟨o, List.mem_of_getElem? hm, h.symm⟩)
      rw [List.findIdx?_cons]
      simp only [hne, decide_false, Bool.false_eq_true, if_false]
      rw [ih hn.2 m hm]
      rfl

/-- A scalar of the model has the value of its entry. -/
theorem flatPoint_entry (coords : Coords) (objs : List ModelObject)
    (hN : (scalarNames coords objs).Nodup) (hn : (objs.map ModelObject.name).Nodup) (flat : List ℝ)
    (o : ModelObject) (ho : o ∈ objs) (ls : List Str) (hls : ls ∈ product (o.dims.map (labelsOf coords)))
    (hr : ∀ l ∈ ls, ReadsBack l) :
    flatPoint (scalarNames coords objs) flat (joinStr "_".toList (o.name :: ls)) =
      arrayEntry coords objs flat o.name (ls.map sympifyLabel) := by
  obtain ⟨m, hm⟩ := List.getElem?_of_mem ho
  obtain ⟨h1, h2⟩ := pick_positions coords o.dims ls hls hr
  rw [flatPoint_at hN flat (scalarNames_at coords objs m o hm _ h1 ls h2)]
  unfold arrayEntry
  rw [findIdx_name objs hn m o hm]
  simp only [hm, Option.map_some, Option.getD_some]

/-! ### The substitution dictionary -/

variable {coords : Coords} {vars params : List ModelObject} {setList : List Str → List Str}
  {uv up : Dict Str ModelObject}

theorem dvalues_unpacked (h : ScalarModel coords vars params)
    (huv : unpackGroup setList coords vars = .ok uv) (hup : unpackGroup setList coords params = .ok up) :
    dvalues uv ++ dvalues up = (vars ++ params).flatMap fun o =>
      (product (o.dims.map (labelsOf coords))).map fun ls =>
        ({ o with dimVals := o.dims.zip ls } : ModelObject) := by
  have hsc := h.scalars
  rw [scalarNames_append, List.nodup_append] at hsc
  obtain ⟨hnv, hnp, -⟩ := hsc
  have one : ∀ (objs : List ModelObject) (D : Dict Str ModelObject), (∀ o ∈ objs, o ∈ vars ++ params) →
      (scalarNames coords objs).Nodup → unpackGroup setList coords objs = .ok D →
      dvalues D = objs.flatMap fun o => (product (o.dims.map (labelsOf coords))).map fun ls =>
        ({ o with dimVals := o.dims.zip ls } : ModelObject) := by
    intro objs D hsub hn hD
    obtain ⟨us, h1, h2, h3, -⟩ := unpackObjects_address setList coords objs
      (fun o ho => h.known o (hsub o ho)) (fun o ho => h.dims o (hsub o ho))
      (fun o ho => h.fresh o (hsub o ho))
    obtain ⟨D', g1, g2, g3⟩ := C05_names_in_order_partial setList coords objs us h1
      (by rw [h3, unpack_names]; exact hn)
    rw [hD] at g1
    cases g1
    rw [g3, h3]
  rw [one vars uv (fun o ho => by simp [ho]) hnv huv, one params up (fun o ho => by simp [ho]) hnp hup,
    List.flatMap_append]

theorem toSympy_unpacked (o : ModelObject) (ls : List Str) (hlen : ls.length = o.dims.length)
    (hnd : o.dims.Nodup) (hne : o.dims ≠ []) :
    toSympy { o with dimVals := o.dims.zip ls } = .indexed o.name (ls.map sympifyLabel) := by
  unfold toSympy
  dsimp only
  rw [if_neg hne]
  congr 1
  apply List.ext_getElem?
  intro j
  rw [List.getElem?_map, List.getElem?_map]
  by_cases hj : j < o.dims.length
  · rw [List.getElem?_eq_getElem hj, List.getElem?_eq_getElem (by omega : j < ls.length)]
    have := dget_zip o.dims ls hnd hlen j (o.dims[j]) (List.getElem?_eq_getElem hj)
    simp only [Option.map_some]
    rw [this, List.getElem?_eq_getElem (by omega : j < ls.length)]
  · rw [List.getElem?_eq_none (by omega), List.getElem?_eq_none (by omega)]
    rfl

theorem mem_labels_product {ds : List Str} {ls : List Str} (h : ls ∈ product (ds.map (labelsOf coords))) :
    ∀ (j : Nat) d l, ds[j]? = some d → ls[j]? = some l → l ∈ labelsOf coords d := by
  intro j d l hd hl
  refine ((mem_product_iff _ _).1 h).2 (l, labelsOf coords d) ?_
  apply List.mem_of_getElem? (i := j)
  rw [List.getElem?_zip_eq_some]
  exact ⟨hl, by simp [hd]⟩

theorem mem_product_label {ds : List Str} {ls : List Str} (h : ls ∈ product (ds.map (labelsOf coords)))
    (l : Str) (hl : l ∈ ls) : ∃ d ∈ ds, l ∈ labelsOf coords d := by
  obtain ⟨j, hj⟩ := List.getElem?_of_mem hl
  have hlen : ls.length = ds.length := by simpa using length_of_mem_product h
  have hjd : j < ds.length := by
    have := (List.getElem?_eq_some_iff.1 hj).1; omega
  exact ⟨ds[j], List.getElem_mem _, mem_labels_product h j _ _ (List.getElem?_eq_getElem hjd) hj⟩

theorem labels_readBack
    (hlab : ∀ d ls, dget coords d = some ls → ∀ (k : Nat) (l : Str), ls[k]? = some l → FitLabel ls.length k l ∧ '<' ∉ l)
    (d l : Str) (h : l ∈ labelsOf coords d) : ReadsBack l ∧ '<' ∉ l := by
  unfold labelsOf at h
  cases hd : dget coords d with
  | none => rw [hd] at h; cases h
  | some ls =>
    rw [hd] at h
    obtain ⟨k, hk⟩ := List.getElem?_of_mem h
    exact ⟨(hlab d ls hd k l hk).1.readsBack, (hlab d ls hd k l hk).2⟩

theorem removeDict_entries (h : ScalarModel coords vars params)
    (huv : unpackGroup setList coords vars = .ok uv) (hup : unpackGroup setList coords params = .ok up)
    (hlab : ∀ d ls, dget coords d = some ls → ∀ (k : Nat) (l : Str), ls[k]? = some l → FitLabel ls.length k l ∧ '<' ∉ l) :
    (∀ p ∈ removeIndicesDict (dvalues uv ++ dvalues up), SubEntry p) ∧
    ∀ o ∈ vars ++ params, o.dims ≠ [] → ∀ ls ∈ product (o.dims.map (labelsOf coords)),
      ∃ p ∈ removeIndicesDict (dvalues uv ++ dvalues up), p.1 = .indexed o.name (ls.map sympifyLabel) := by
  have hnn : ∀ o : ModelObject, ∀ ls ∈ product (o.dims.map (labelsOf coords)), ∀ l ∈ ls, ReadsBack l := by
    intro o ls hls l hl
    obtain ⟨d, -, hd⟩ := mem_product_label hls l hl
    exact (labels_readBack hlab d l hd).1
  rw [dvalues_unpacked h huv hup]
  unfold removeIndicesDict
  constructor
  · intro p hp
    rcases mem_dupdate _ _ _ hp with hp | hp
    · cases hp
    · obtain ⟨u, hu, rfl⟩ := List.mem_map.1 hp
      obtain ⟨o, ho, hu⟩ := List.mem_flatMap.1 hu
      obtain ⟨ls, hls, rfl⟩ := List.mem_map.1 hu
      have hlen : ls.length = o.dims.length := by simpa using length_of_mem_product hls
      rw [makeIndexedName_zip o ls hlen]
      by_cases hd : o.dims = []
      · left
        refine ⟨o.name, ?_⟩
        have : ls = [] := List.length_eq_zero_iff.1 (by rw [hlen, hd]; rfl)
        subst this
        simp [toSympy, hd, joinStr]
      · right
        refine ⟨o.name, ls.map sympifyLabel, ?_⟩
        rw [toSympy_unpacked o ls hlen (h.dims o ho) hd, map_readsBack (hnn o ls hls)]
  · intro o ho hd ls hls
    have hlen : ls.length = o.dims.length := by simpa using length_of_mem_product hls
    have hk := dupdate_has_key (((vars ++ params).flatMap fun o =>
      (product (o.dims.map (labelsOf coords))).map fun ls =>
        ({ o with dimVals := o.dims.zip ls } : ModelObject)).map fun o =>
          (toSympy o, RExpr.sym (makeIndexedName o))) [] (.indexed o.name (ls.map sympifyLabel))
      (Or.inr ⟨RExpr.sym (makeIndexedName { o with dimVals := o.dims.zip ls }), List.mem_map.2
        ⟨{ o with dimVals := o.dims.zip ls }, List.mem_flatMap.2 ⟨o, ho, List.mem_map.2 ⟨ls, hls, rfl⟩⟩, by
          rw [toSympy_unpacked o ls hlen (h.dims o ho) hd]⟩⟩)
    rw [mem_dkeys_iff] at hk
    obtain ⟨v, hv⟩ := hk
    exact ⟨_, mem_of_dget _ hv, rfl⟩

/-! ### Unpacking an equation -/

theorem forall₂_map_eq {α β γ : Type _} {P : α → β → Prop} {f : β → γ} {g : α → γ}
    (h : ∀ a b, P a b → f b = g a) : ∀ {l : List α} {l' : List β}, List.Forall₂ P l l' →
      l'.map f = l.map g
  | [], [], .nil => rfl
  | _ :: _, _ :: _, .cons h1 h2 => by
      rw [List.map_cons, List.map_cons, h _ _ h1, forall₂_map_eq h h2]

theorem expandEq_list {E : Type _} (subst : E → Str → Str → E) (coords : Coords) (q : SymEquation E)
    (t : Template) (hname : q.name = t.text) (hc : t.Clean) (hn : q.dims.Nodup)
    (hk : ∀ d ∈ q.dims, d ∈ dkeys coords) (hgt : ∀ d ∈ q.dims, '>' ∉ d) (hsub : ∀ d ∈ t.dims, d ∈ q.dims)
    (hlab : ∀ d ∈ q.dims, ∀ l ∈ labelsOf coords d, '<' ∉ l) :
    ∃ out, expandEq subst coords q = .ok out ∧
      out.map SymEquation.eq = (product (q.dims.map (labelsOf coords))).map (fun ls =>
        (q.dims.zip ls).foldl (fun e p => subst e p.1 p.2) q.eq) ∧
      out.map SymEquation.name = (product (q.dims.map (labelsOf coords))).map fun ls =>
        t.filled (chosen q.dims ls) := by
  obtain ⟨out, hout, hF⟩ := mapM_exists (fun ls => updateAllEq subst q (q.dims.zip ls))
    (fun ls (q' : SymEquation E) => q'.eq = (q.dims.zip ls).foldl (fun e p => subst e p.1 p.2) q.eq ∧
      q'.name = t.filled (chosen q.dims ls)) (product (q.dims.map (labelsOf coords))) (by
    intro ls hls
    have hlen : ls.length = q.dims.length := by simpa using length_of_mem_product hls
    obtain ⟨q', g1, g2, g3, -, -⟩ := updateAllEq_spec subst t (q.dims.zip ls) q hname hc hn (by
      intro p hp
      have hd := mem_zip_fst hp
      refine ⟨hd, hgt _ hd, ?_⟩
      obtain ⟨j, hj⟩ := List.getElem?_of_mem hp
      rw [List.getElem?_zip_eq_some] at hj
      exact hlab _ hd _ (mem_labels_product hls j _ _ hj.1 hj.2))
    refine ⟨q', g1, g2, ?_⟩
    rw [g3]
    apply foldl_subst_text
    · rw [show (q.dims.zip ls).map Prod.fst = q.dims from dkeys_zip _ _ hlen]; exact hn
    · intro d hd
      obtain ⟨j, hj⟩ := List.getElem?_of_mem (hsub d hd)
      have hjl : j < q.dims.length := (List.getElem?_eq_some_iff.1 hj).1
      have hg := dget_zip q.dims ls hn hlen j d hj
      apply List.mem_of_getElem? (i := j)
      rw [List.getElem?_zip_eq_some]
      refine ⟨hj, ?_⟩
      rw [List.getElem?_eq_getElem (by omega : j < ls.length)] at hg ⊢
      simp [chosen, hg])
  refine ⟨out, ?_, forall₂_map_eq (fun _ _ h => h.1) hF, forall₂_map_eq (fun _ _ h => h.2) hF⟩
  unfold expandEq
  simp only [bind, Except.bind, mapM_labels _ _ hk]
  exact hout

/-! ### The sides with the numeraire replaced -/

theorem replaceSub_absent (b : Str) (ix : List SIdx) (new e : RExpr) (h : (b, ix) ∉ e.indexeds) :
    replaceSub (.indexed b ix) new e = e := by
  induction e with
  | num | sym => rw [replaceSub]; simp
  | indexed b' ix' =>
    rw [replaceSub, if_neg]
    intro he
    cases he
    exact h (by simp [indexeds])
  | add a c iha ihb | mul a c iha ihb | pow a c iha ihb =>
    rw [replaceSub, if_neg (by simp), iha fun h' => h (List.mem_append_left _ h'),
      ihb fun h' => h (List.mem_append_right _ h')]
  | log a ih | exp a ih => rw [replaceSub, if_neg (by simp), ih h]
  | red o a l ih => rw [replaceSub, if_neg (by simp), ih h]

/-- Unless a reduction takes hold of an index of the numeraire, it is replaced everywhere. -/
theorem fixNumeraire_eq (o : ModelObject) (hdv : o.dimVals = []) (e : RExpr) (hfree : NotCaptured o e)
    (hind : ∀ v ∈ e.indexeds, toSympy o = .indexed v.1 v.2 → v.1 = o.name) :
    fixNumeraire (some o) e = replaceSub (toSympy o) (.num 1) e := by
  have hsym : ∀ d, d ∈ idxNames (toSympy o) → d ∈ o.dims := by
    intro d hd
    unfold toSympy at hd
    split at hd
    · cases hd
    · rw [hdv] at hd
      simp only [idxNames, List.mem_filterMap, List.mem_map] at hd
      obtain ⟨s, ⟨d', hd', rfl⟩, h2⟩ := hd
      simp only [dget, List.find?_nil] at h2
      cases h2
      exact hd'
  show subsUnbound _ _ _ = _
  induction e with
  | num | sym | indexed => rw [subsUnbound, replaceSub]
  | add a c iha ihb | mul a c iha ihb | pow a c iha ihb =>
    rw [subsUnbound, replaceSub, iha hfree.1 fun v hv => hind v (List.mem_append_left _ hv),
      ihb hfree.2 fun v hv => hind v (List.mem_append_right _ hv)]
  | log a ih | exp a ih => rw [subsUnbound, replaceSub, ih hfree hind]
  | red op a l ih =>
    rw [subsUnbound, replaceSub]
    split
    · rfl
    · split
      next hcap =>
        simp only [List.any_eq_true, List.contains_iff_mem] at hcap
        obtain ⟨m, hm, hi⟩ := hcap
        congr 1
        have hno := hfree.2 ⟨m, hm, hsym _ hi⟩
        have hne : o.dims ≠ [] := by
          intro h0
          have := hsym _ hi
          rw [h0] at this
          cases this
        have hform : toSympy o = .indexed o.name (o.dims.map .idx) := by
          unfold toSympy
          rw [if_neg hne, hdv]
          rfl
        rw [hform, replaceSub_absent]
        intro hmem
        exact hno _ hmem rfl
      next => rw [ih hfree.1 hind]

theorem side_fixed (objs : List ModelObject) (numeraire : Option ModelObject)
    (hnew : ∀ o, numeraire = some o → o.dimVals = [] ∧ ∀ o' ∈ objs, o'.name ≠ o.name)
    (e : RExpr) (h : SideOK coords objs numeraire e) :
    AllPlain coords (fixNumeraire numeraire e) ∧ WellIndexed coords objs (fixNumeraire numeraire e) ∧
      (∀ d, hasFree [] d (fixNumeraire numeraire e) =
        hasFree (numeraire.toList.map ModelObject.name) d e) ∧
      ∀ flat η, (fixNumeraire numeraire e).value (fun x => arrayEntry coords objs flat x [])
          (arrayEntry coords objs flat) coords η =
        e.value (fun x => entryFixing coords (numeraire.toList.map ModelObject.name) objs flat x [])
          (entryFixing coords (numeraire.toList.map ModelObject.name) objs flat) coords η := by
  cases numeraire with
  | none =>
    refine ⟨h.plain, ?_, fun d => rfl, fun flat η => ?_⟩
    · have := h.indexed
      simpa [fixNumeraire] using this
    · have : entryFixing coords (Option.toList none |>.map ModelObject.name) objs flat =
          arrayEntry coords objs flat := by
        funext b ix
        simp [entryFixing]
      rw [this]
      rfl
  | some o =>
    obtain ⟨hdv, hne⟩ := hnew o rfl
    have hold : (∃ x, toSympy o = .sym x) ∨ ∃ b ix, toSympy o = .indexed b ix := by
      unfold toSympy
      split
      · exact Or.inl ⟨_, rfl⟩
      · exact Or.inr ⟨_, _, rfl⟩
    have hix : o.dims ≠ [] → toSympy o = .indexed o.name (o.dims.map .idx) := by
      intro hd
      unfold toSympy
      rw [if_neg hd, hdv]
      rfl
    have hobj : ∀ o', o' ∈ objs ++ (some o).toList → o'.name = o.name → o' = o := by
      intro o' ho' hn
      rcases List.mem_append.1 ho' with ho' | ho'
      · exact absurd hn (hne o' ho')
      · simpa using ho'
    have hsym : ∀ x ∈ e.syms, toSympy o = .sym x ↔ x = o.name := by
      intro x hx
      constructor
      · intro he
        by_cases hd : o.dims = []
        · rw [toSympy, if_pos hd] at he
          cases he; rfl
        · rw [hix hd] at he; cases he
      · rintro rfl
        obtain ⟨o', ho', hn, hd⟩ := h.indexed.scalars _ hx
        have := hobj o' ho' hn
        subst this
        rw [toSympy, if_pos hd]
    have hind : ∀ v ∈ e.indexeds, v.1 = o.name ↔ toSympy o = .indexed v.1 v.2 := by
      intro v hv
      constructor
      · intro hn
        obtain ⟨o', ho', hn', hd, -⟩ := h.indexed.arrays v hv
        have := hobj o' ho' (hn'.trans hn)
        subst this
        rw [hix hd, hn, h.own _ rfl v hv hn]
      · intro he
        by_cases hd : o.dims = []
        · rw [toSympy, if_pos hd] at he; cases he
        · rw [hix hd] at he; exact (RExpr.indexed.inj he).1.symm
    rw [show fixNumeraire (some o) e = replaceSub (toSympy o) (.num 1) e from
      fixNumeraire_eq o hdv e (h.free o rfl) fun v hv hvo => (hind v hv).2 hvo]
    refine ⟨fix_plain coords _ hold e h.plain, ⟨?_, ?_⟩, ?_, ?_⟩
    · intro x hx
      obtain ⟨h1, h2⟩ := fix_syms _ hold e x hx
      obtain ⟨o', ho', hn, hd⟩ := h.indexed.scalars x h1
      rcases List.mem_append.1 ho' with ho' | ho'
      · exact ⟨o', ho', hn, hd⟩
      · have : o' = o := by simpa using ho'
        subst this
        exact absurd ((hsym x h1).2 hn.symm) h2
    · intro v hv
      obtain ⟨h1, h2⟩ := fix_indexeds _ hold e v hv
      obtain ⟨o', ho', hn, hd⟩ := h.indexed.arrays v h1
      rcases List.mem_append.1 ho' with ho' | ho'
      · exact ⟨o', ho', hn, hd⟩
      · have : o' = o := by simpa using ho'
        subst this
        exact absurd ((hind v h1).1 hn.symm) h2
    · intro d
      exact fix_free o.name d _ hold e hind
    · intro flat η
      refine fix_value _ _ _ _ coords _ hold e ?_ ?_ η
      · intro x hx
        by_cases hxo : x = o.name
        · rw [if_pos ((hsym x hx).2 hxo)]
          simp [entryFixing, hxo]
        · rw [if_neg fun h' => hxo ((hsym x hx).1 h')]
          simp [entryFixing, hxo]
      · intro v hv ix
        by_cases hvo : v.1 = o.name
        · rw [if_pos ((hind v hv).1 hvo)]
          simp [entryFixing, hvo]
        · rw [if_neg fun h' => hvo ((hind v hv).2 h')]
          simp [entryFixing, hvo]

theorem val_congr_syms (σ σ' : Str → ℝ) (V : Str → List SIdx → ℝ) (e : RExpr)
    (h : ∀ x ∈ e.syms, σ x = σ' x) : e.val σ V = e.val σ' V := by
  induction e with
  | num | indexed => rfl
  | sym x => exact h x (by simp [RExpr.syms])
  | add a b iha ihb | mul a b iha ihb | pow a b iha ihb =>
    simp only [RExpr.val]
    rw [iha fun x hx => h x (List.mem_append_left _ hx), ihb fun x hx => h x (List.mem_append_right _ hx)]
  | log a ih | exp a ih => simp only [RExpr.val]; rw [ih h]
  | red o a l ih => simp only [RExpr.val]

/-- One equation of the model, standardized. -/
theorem standardize_spec (setListR : List RExpr → List RExpr)
    (hset : ∀ l x, x ∈ setListR l ↔ x ∈ l)
    (order : Dict (List SIdx) (List SIdx) → List (List SIdx × List SIdx))
    (horder : ∀ d e, e ∈ order d ↔ e ∈ d) (numeraire : Option ModelObject) (objs : List ModelObject)
    (hlab : ∀ d ls, dget coords d = some ls → ∀ (k : Nat) (l : Str), ls[k]? = some l → FitLabel ls.length k l ∧ '<' ∉ l)
    (hnew : ∀ o, numeraire = some o → o.dimVals = [] ∧ ∀ o' ∈ objs, o'.name ≠ o.name)
    (q : IndexedEq) (hl : SideOK coords objs numeraire q.lhs) (hr : SideOK coords objs numeraire q.rhs) :
    ∃ r, standardize setListR order coords numeraire ⟨q.name.text, q.lhs, q.rhs⟩ = .ok
        { name := q.name.text
          dims := freeDims coords (numeraire.toList.map ModelObject.name) q.lhs q.rhs, eq := r } ∧
      RedFree r ∧
      (∀ flat η, r.value (fun x => arrayEntry coords objs flat x []) (arrayEntry coords objs flat) coords η =
        q.lhs.value (fun x => entryFixing coords (numeraire.toList.map ModelObject.name) objs flat x [])
          (entryFixing coords (numeraire.toList.map ModelObject.name) objs flat) coords η -
        q.rhs.value (fun x => entryFixing coords (numeraire.toList.map ModelObject.name) objs flat x [])
          (entryFixing coords (numeraire.toList.map ModelObject.name) objs flat) coords η) ∧
      WellIndexed coords objs r ∧
      ∀ v ∈ r.indexeds, ∀ d, .idx d ∈ v.2 → d ∈ dkeys coords →
        d ∈ freeDims coords (numeraire.toList.map ModelObject.name) q.lhs q.rhs := by
  obtain ⟨pl, wl, fl, vl⟩ := side_fixed objs numeraire hnew q.lhs hl
  obtain ⟨pr, wr, fr, vr⟩ := side_fixed objs numeraire hnew q.rhs hr
  have hlab' : FitLabels coords := fun i ls h k l hl => (hlab i ls h k l hl).1
  have hplain : AllPlain coords (.add (fixNumeraire numeraire q.lhs)
      (.mul (.num (-1)) (fixNumeraire numeraire q.rhs))) := ⟨pl, trivial, pr⟩
  obtain ⟨r, h1, h2, h3⟩ := C35_expansion_partial setListR hset order horder coords hlab' _ hplain
  have hsh := substituteReduceOps_shape setListR hset order horder coords hlab' _ hplain r h1
  have hfree : ∀ d, hasFree [] d r = (hasFree (numeraire.toList.map ModelObject.name) d q.lhs ||
      hasFree (numeraire.toList.map ModelObject.name) d q.rhs) := by
    intro d
    rw [hsh.free d]
    simp only [hasFree, fl, fr, Bool.false_or]
  have hdims : findEquationDims r (dkeys coords) =
      freeDims coords (numeraire.toList.map ModelObject.name) q.lhs q.rhs := by
    unfold findEquationDims freeDims
    congr 1
    funext d
    rw [hasIdx_eq_hasFree d r h2, hfree]
  refine ⟨r, ?_, h2, ?_, ⟨?_, ?_⟩, ?_⟩
  · unfold standardize
    rw [h1]
    simp only [hdims]
  · intro flat η
    rw [h3]
    simp only [RExpr.value, vl, vr]
    push_cast
    ring
  · intro x hx
    have := hsh.syms x hx
    simp only [RExpr.syms, List.nil_append, List.mem_append] at this
    rcases this with h' | h'
    · exact wl.scalars x h'
    · exact wr.scalars x h'
  · intro v hv
    obtain ⟨w, hw, hn, hF⟩ := hsh.ix v hv
    have hw' : ∃ o ∈ objs, o.name = w.1 ∧ o.dims ≠ [] ∧ List.Forall₂ (fun s d =>
        (∃ i, s = .idx i ∧ i ∈ dkeys coords ∧ ∀ l ∈ labelsOf coords i, l ∈ labelsOf coords d) ∨
        (∃ l, s = sympifyLabel l ∧ l ∈ labelsOf coords d)) w.2 o.dims := by
      simp only [indexeds, List.nil_append, List.mem_append] at hw
      rcases hw with h' | h'
      · exact wl.arrays w h'
      · exact wr.arrays w h'
    obtain ⟨o, ho, hon, hod, hoF⟩ := hw'
    refine ⟨o, ho, hon.trans hn.symm, hod, ?_⟩
    revert hoF
    generalize o.dims = ds
    intro hoF
    clear hon hn hv hw hod
    generalize w.2 = a at hF hoF
    generalize v.2 = b at hF
    induction hF generalizing ds with
    | nil => cases hoF; exact .nil
    | cons hab _ ih =>
      cases hoF with
      | cons hd hds =>
        refine .cons ?_ (ih _ hds)
        rcases hab with rfl | ⟨i, l, rfl, hl, rfl⟩
        · exact hd
        · rcases hd with ⟨j, hj, -, hj'⟩ | ⟨l', hl', -⟩
          · cases hj
            exact Or.inr ⟨l, rfl, hj' l hl⟩
          · exact absurd hl'.symm (sympifyLabel_ne_idx _ _)
  · intro v hv d hd hdk
    unfold freeDims
    rw [List.mem_filter]
    refine ⟨hdk, ?_⟩
    rw [← hfree d]
    exact (hasFree_redFree d r h2).2 ⟨v.1, v.2, hv, hd⟩

theorem freeDims_nodup (hn : (dkeys coords).Nodup) (fixed : List Str) (a b : RExpr) :
    (freeDims coords fixed a b).Nodup := hn.sublist List.filter_sublist

theorem freeDims_known (fixed : List Str) (a b : RExpr) :
    ∀ d ∈ freeDims coords fixed a b, d ∈ dkeys coords := fun d hd => (List.mem_filter.1 hd).1

/-- Binding the free indices to labels turns well indexed symbols into entries. -/
theorem bound_labels (ds ls : List Str) (hnd : ds.Nodup) (hls : ls ∈ product (ds.map (labelsOf coords)))
    (w : List SIdx) (dims : List Str)
    (hF : List.Forall₂ (fun s d =>
      (∃ i, s = .idx i ∧ i ∈ dkeys coords ∧ ∀ l ∈ labelsOf coords i, l ∈ labelsOf coords d) ∨
      (∃ l, s = sympifyLabel l ∧ l ∈ labelsOf coords d)) w dims)
    (hfree : ∀ d, SIdx.idx d ∈ w → d ∈ ds) :
    ∃ ls' ∈ product (dims.map (labelsOf coords)), w.map (bindIdx (bindLabels ds ls)) = ls'.map sympifyLabel := by
  induction hF with
  | nil => exact ⟨[], by simp [product], rfl⟩
  | @cons s d w dims hsd _ ih =>
    obtain ⟨ls', h1, h2⟩ := ih fun d hd => hfree d (List.mem_cons_of_mem _ hd)
    have hs : ∃ l ∈ labelsOf coords d, bindIdx (bindLabels ds ls) s = sympifyLabel l := by
      rcases hsd with ⟨i, rfl, -, hi⟩ | ⟨l, rfl, hl⟩
      · obtain ⟨j, hj⟩ := List.getElem?_of_mem (hfree i (by simp))
        have hlen : ls.length = ds.length := by simpa using length_of_mem_product hls
        have hjl : j < ls.length := by rw [hlen]; exact (List.getElem?_eq_some_iff.1 hj).1
        have hg := dget_zip ds ls hnd hlen j i hj
        rw [List.getElem?_eq_getElem hjl] at hg
        refine ⟨ls[j], hi _ (mem_labels_product hls j i _ hj (List.getElem?_eq_getElem hjl)), ?_⟩
        simp only [bindIdx, bindLabels, hg]
      · exact ⟨l, hl, bindIdx_sympifyLabel _ _⟩
    obtain ⟨l, hl, hs⟩ := hs
    refine ⟨l :: ls', ?_, by rw [List.map_cons, List.map_cons, hs, h2]⟩
    rw [List.map_cons]
    simp only [product, List.mem_flatMap, List.mem_map]
    exact ⟨l, hl, ls', h1, rfl⟩

end Verif
