import Verif.Lemmas.Scalarise2
import Verif.Props.SympyTensor
import Verif.Props.NumbaEuler
import Mathlib.LinearAlgebra.Matrix.Determinant.Basic

/-!
# C71: the scalar equations a model is solved with are its indexed equations, at every label
-/

namespace Verif

open RExpr

variable {coords : Coords} {vars params : List ModelObject} {numeraire : Option ModelObject}
  {eqs : List IndexedEq} {uv up : Dict Str ModelObject} {setList : List Str → List Str}
  {setListR : List RExpr → List RExpr}
  {order : Dict (List SIdx) (List SIdx) → List (List SIdx × List SIdx)}
  {order' : Dict RExpr RExpr → List (RExpr × RExpr)}

/-- The names of the scalar equations of one indexed equation. -/
def filledNames (coords : Coords) (numeraire : Option ModelObject) (q : IndexedEq) : List Str :=
  (product ((freeDims coords (numeraire.toList.map ModelObject.name) q.lhs q.rhs).map
    (labelsOf coords))).map fun ls =>
      q.name.filled (chosen (freeDims coords (numeraire.toList.map ModelObject.name) q.lhs q.rhs) ls)

theorem solved_subset {o : ModelObject} (ho : o ∈ solvedVars numeraire vars ++ params) :
    o ∈ vars ++ params := by
  rcases List.mem_append.1 ho with ho | ho
  · exact List.mem_append_left _ (List.mem_filter.1 ho).1
  · exact List.mem_append_right _ ho

theorem scalarNames_sublist {l l' : List ModelObject} (h : l.Sublist l') :
    (scalarNames coords l).Sublist (scalarNames coords l') := by
  induction h with
  | slnil => exact .slnil
  | cons a _ ih =>
    unfold scalarNames at *
    rw [List.flatMap_cons]
    exact ih.trans (List.sublist_append_right _ _)
  | cons_cons a _ ih =>
    unfold scalarNames at *
    rw [List.flatMap_cons, List.flatMap_cons]
    exact (List.Sublist.refl _).append ih

/-- Without the numeraire it is still a model. -/
theorem solvedModel (h : ScalarModel coords vars params) :
    ScalarModel coords (solvedVars numeraire vars) params where
  known o ho := h.known o (solved_subset ho)
  dims o ho := h.dims o (solved_subset ho)
  fresh o ho := h.fresh o (solved_subset ho)
  labels o ho := h.labels o (solved_subset ho)
  names := h.names.sublist ((List.filter_sublist.append (List.Sublist.refl _)).map _)
  scalars := h.scalars.sublist (scalarNames_sublist (List.filter_sublist.append (List.Sublist.refl _)))

theorem numeraire_absent (h : IndexedModel coords vars params numeraire eqs) {o o' : ModelObject}
    (ho : numeraire = some o) (ho' : o' ∈ solvedVars numeraire vars ++ params) : o'.name ≠ o.name := by
  rcases List.mem_append.1 ho' with ho' | ho'
  · have := of_decide_eq_true (List.mem_filter.1 ho').2
    rw [ho] at this
    simpa using this
  · intro heq
    have hn := h.scalar.names
    rw [List.map_append, List.nodup_append] at hn
    exact hn.2.2 _ (List.mem_map.2 ⟨o, h.numeraire_mem o ho, rfl⟩) _
      (List.mem_map.2 ⟨o', ho', rfl⟩) heq.symm

theorem one_equation (h : IndexedModel coords vars params numeraire eqs)
    (hset : ∀ l x, x ∈ setListR l ↔ x ∈ l) (horder : ∀ d e, e ∈ order d ↔ e ∈ d)
    (horder' : ∀ d e, e ∈ order' d ↔ e ∈ d)
    (huv : unpackGroup setList coords vars = .ok uv) (hup : unpackGroup setList coords params = .ok up)
    (q : IndexedEq) (hq : q ∈ eqs) :
    ∃ (sq : SymEquation RExpr) (out : List (SymEquation RExpr)) (es : List (SymExpr Str)),
      standardize setListR order coords numeraire ⟨q.name.text, q.lhs, q.rhs⟩ = .ok sq ∧
      expandEq substLabel coords sq = .ok out ∧ out.map SymEquation.name = filledNames coords numeraire q ∧
      out.map (fun q => toScalarExpr
        (removeIndices order' (removeIndicesDict (dvalues uv ++ dvalues up)) q.eq)) = es.map some ∧
      (∀ e ∈ es, ∀ n ∈ e.atoms, n ∈ scalarNames coords (solvedVars numeraire vars ++ params)) ∧
      ∀ flat, es.map (SymExpr.eval (flatPoint (scalarNames coords (solvedVars numeraire vars ++ params)) flat)) =
        demanded coords (numeraire.toList.map ModelObject.name) (solvedVars numeraire vars ++ params) flat q := by
  obtain ⟨r, h1, hrf, hval, hwell, hfree⟩ := standardize_spec setListR hset order horder numeraire
    (solvedVars numeraire vars ++ params) h.label_names (fun o ho => ⟨h.scalar.fresh o
      (List.mem_append_left _ (h.numeraire_mem o ho)), fun o' ho' => numeraire_absent h ho ho'⟩) q (h.sides q hq).1 (h.sides q hq).2
  have hmark := h.markers q hq
  unfold filledNames demanded
  generalize hfix : numeraire.toList.map ModelObject.name = fixed at *
  have hnd := freeDims_nodup h.coords_nodup fixed q.lhs q.rhs
  have hkn := freeDims_known (coords := coords) fixed q.lhs q.rhs
  generalize freeDims coords fixed q.lhs q.rhs = ds at *
  obtain ⟨out, h2, h3, h4⟩ := expandEq_list substLabel coords
    ({ name := q.name.text, dims := ds, eq := r } : SymEquation RExpr) q.name rfl (h.clean q hq) hnd hkn
    (fun d hd => h.dim_names d (hkn d hd)) hmark
    (fun d _ l hl => (labels_readBack h.label_names d l hl).2)
  obtain ⟨hent, hkey⟩ := removeDict_entries h.scalar huv hup h.label_names
  have hbound : ∀ ls ∈ product (ds.map (labelsOf coords)),
      ∀ v ∈ (r.mapIx fun _ ix => ix.map (bindIdx (bindLabels ds ls))).indexeds,
      ∃ o ∈ solvedVars numeraire vars ++ params, o.name = v.1 ∧ o.dims ≠ [] ∧
        ∃ ls' ∈ product (o.dims.map (labelsOf coords)), v.2 = ls'.map sympifyLabel := by
    intro ls hls v hv
    rw [indexeds_mapIx, List.mem_map] at hv
    obtain ⟨w, hw, rfl⟩ := hv
    obtain ⟨o, ho, hon, hod, hF⟩ := hwell.arrays w hw
    refine ⟨o, ho, hon, hod, ?_⟩
    refine bound_labels ds ls hnd hls w.2 o.dims hF fun d hd => hfree w hw d hd ?_
    clear hod hon h4 h3 h2
    revert hd
    generalize w.2 = a at hF
    generalize o.dims = b at hF
    induction hF with
    | nil => intro hd; cases hd
    | cons hsd _ ih =>
      intro hd
      rcases List.mem_cons.1 hd with rfl | hd
      · rcases hsd with ⟨i, hi, hk, -⟩ | ⟨l, hl, -⟩
        · cases hi; exact hk
        · exact absurd hl.symm (sympifyLabel_ne_idx _ _)
      · exact ih hd
  have hback : ∀ (o : ModelObject) (ls' : List Str), ls' ∈ product (o.dims.map (labelsOf coords)) →
      ∀ l ∈ ls', ReadsBack l := by
    intro o ls' hls' l hl
    obtain ⟨d, -, hd⟩ := mem_product_label hls' l hl
    exact (labels_readBack h.label_names d l hd).1
  refine ⟨_, out, (product (ds.map (labelsOf coords))).map fun ls =>
    scal (r.mapIx fun _ ix => ix.map (bindIdx (bindLabels ds ls))), h1, h2, h4, ?_, ?_, ?_⟩
  · have hmap : ∀ (g : RExpr → Option (SymExpr Str)), out.map (fun q => g q.eq) =
        (out.map SymEquation.eq).map g := by intro g; rw [List.map_map]; rfl
    rw [hmap fun e => toScalarExpr
      (removeIndices order' (removeIndicesDict (dvalues uv ++ dvalues up)) e), h3, List.map_map,
      List.map_map]
    apply List.map_congr_left
    intro ls hls
    simp only [Function.comp_apply]
    rw [foldl_substLabel ds ls r]
    apply toScalarExpr_foldl
    · intro p hp
      exact hent p ((horder' _ _).1 hp)
    · exact redFree_mapIx _ _ hrf
    · intro v hv
      obtain ⟨o, ho, hon, hod, ls', hls', hv2⟩ := hbound ls hls v hv
      obtain ⟨p, hp, hp1⟩ := hkey o (solved_subset ho) hod ls' hls'
      exact ⟨p, (horder' _ _).2 hp, by rw [hp1, hon, hv2]⟩
  · intro e he n hn
    obtain ⟨ls, hls, rfl⟩ := List.mem_map.1 he
    rcases atoms_scal _ (redFree_mapIx _ _ hrf) n hn with hn | ⟨v, hv, rfl⟩
    · rw [syms_mapIx] at hn
      obtain ⟨o, ho, rfl, hd⟩ := hwell.scalars n hn
      unfold scalarNames
      rw [List.mem_flatMap]
      refine ⟨o, ho, ?_⟩
      rw [hd]
      simp [product, joinStr]
    · obtain ⟨o, ho, hon, -, ls', hls', hv2⟩ := hbound ls hls v hv
      rw [hv2, map_readsBack (hback o ls' hls'), ← hon]
      unfold scalarNames
      rw [List.mem_flatMap]
      exact ⟨o, ho, List.mem_map.2 ⟨ls', hls', rfl⟩⟩
  · intro flat
    rw [List.map_map]
    apply List.map_congr_left
    intro ls hls
    simp only [Function.comp_apply]
    rw [← hval, eval_scal _ _ (redFree_mapIx _ _ hrf), value_eq_val _ _ _ _ hrf, ← val_mapIx
      (V := arrayEntry coords (solvedVars numeraire vars ++ params) flat)]
    have hfp := flatPoint_entry coords (solvedVars numeraire vars ++ params)
      (solvedModel h.scalar).scalars (solvedModel h.scalar).names flat
    rw [val_congr_syms _ (fun x => arrayEntry coords (solvedVars numeraire vars ++ params) flat x [])]
    · apply val_congr
      intro v hv
      obtain ⟨o, ho, hon, -, ls', hls', hv2⟩ := hbound ls hls v hv
      rw [hv2, map_readsBack (hback o ls' hls'), ← hon]
      exact hfp o ho ls' hls' (hback o ls' hls')
    · intro x hx
      rw [syms_mapIx] at hx
      obtain ⟨o, ho, rfl, hd⟩ := hwell.scalars x hx
      have := hfp o ho [] (by rw [hd]; simp [product]) (by simp)
      simpa [joinStr] using this

theorem mapM_some_of_map {α β : Type _} (f : α → Option β) : ∀ (l : List α) (bs : List β),
    l.map f = bs.map some → l.mapM f = some bs
  | [], [], _ => rfl
  | [], _ :: _, h => by simp at h
  | _ :: _, [], h => by simp at h
  | a :: l, b :: bs, h => by
      rw [List.map_cons, List.map_cons, List.cons.injEq] at h
      rw [List.mapM_cons, h.1, mapM_some_of_map f l bs h.2]
      rfl

/-- The equations after standardizing, unpacking over the labels and removing the indices: there is one
scalar equation for every equation of the model and every combination of labels of its free indices, in
that order, none with an indexed symbol or a reduction left, each over the scalars of the model, and its
value at a point of the model is left side minus right side of the indexed equation at those labels, with
the numeraire equal to one. -/
theorem C71_scalar_equations_partial (h : IndexedModel coords vars params numeraire eqs)
    (hset : ∀ l x, x ∈ setListR l ↔ x ∈ l) (horder : ∀ d e, e ∈ order d ↔ e ∈ d)
    (horder' : ∀ d e, e ∈ order' d ↔ e ∈ d)
    (huv : unpackGroup setList coords vars = .ok uv) (hup : unpackGroup setList coords params = .ok up) :
    ∃ syms es, unpackedEquationSymbols setListR order order' coords numeraire uv up
        (eqs.map fun q => ⟨q.name.text, q.lhs, q.rhs⟩) = .ok syms ∧
      syms.mapM toScalarExpr = some es ∧
      (∀ e ∈ es, ∀ n ∈ e.atoms, n ∈ scalarNames coords (solvedVars numeraire vars ++ params)) ∧
      ∀ flat, es.map (SymExpr.eval (flatPoint (scalarNames coords (solvedVars numeraire vars ++ params)) flat)) =
        eqs.flatMap
          (demanded coords (numeraire.toList.map ModelObject.name) (solvedVars numeraire vars ++ params) flat) := by
  have key : ∀ l : List IndexedEq, (∀ q ∈ l, q ∈ eqs) →
      ∃ (qs : List (SymEquation RExpr)) (outs : List (List (SymEquation RExpr)))
        (es : List (SymExpr Str)),
      (l.map fun q : IndexedEq => (⟨q.name.text, q.lhs, q.rhs⟩ : ParsedEq)).mapM
        (standardize setListR order coords numeraire) = .ok qs ∧
      qs.mapM (expandEq substLabel coords) = .ok outs ∧
      outs.flatten.map SymEquation.name = l.flatMap (filledNames coords numeraire) ∧
      outs.flatten.map (fun q => toScalarExpr
        (removeIndices order' (removeIndicesDict (dvalues uv ++ dvalues up)) q.eq)) = es.map some ∧
      (∀ e ∈ es, ∀ n ∈ e.atoms, n ∈ scalarNames coords (solvedVars numeraire vars ++ params)) ∧
      ∀ flat, es.map (SymExpr.eval (flatPoint (scalarNames coords (solvedVars numeraire vars ++ params)) flat)) =
        l.flatMap (demanded coords (numeraire.toList.map ModelObject.name) (solvedVars numeraire vars ++ params) flat) := by
    intro l
    induction l with
    | nil => exact fun _ => ⟨[], [], [], rfl, rfl, rfl, rfl, fun e he => (nomatch he), fun _ => rfl⟩
    | cons q l ih =>
      intro hl
      obtain ⟨sq, out, es, g1, g2, g3, g4, g5, g6⟩ :=
        one_equation h hset horder horder' huv hup q (hl q (by simp))
      obtain ⟨qs, outs, es', k1, k2, k3, k4, k5, k6⟩ := ih fun q hq => hl q (by simp [hq])
      refine ⟨sq :: qs, out :: outs, es ++ es', ?_, ?_, ?_, ?_, ?_, ?_⟩
      · rw [List.map_cons, List.mapM_cons, g1, k1]; rfl
      · rw [List.mapM_cons, g2, k2]; rfl
      · rw [List.flatten_cons, List.map_append, g3, k3, List.flatMap_cons]
      · rw [List.flatten_cons, List.map_append, g4, k4, List.map_append]
      · intro e he
        rcases List.mem_append.1 he with he | he
        · exact g5 e he
        · exact k5 e he
      · intro flat
        rw [List.map_append, g6, k6, List.flatMap_cons]
  obtain ⟨qs, outs, es, k1, k2, k3, k4, k5, k6⟩ := key eqs fun q hq => hq
  have hD : dvalues (dofPairs ((outs.flatten.map SymEquation.name).zip outs.flatten)) = outs.flatten := by
    have hz : ((outs.flatten.map SymEquation.name).zip outs.flatten).map Prod.fst =
        outs.flatten.map SymEquation.name := List.map_fst_zip (Nat.le_of_eq (List.length_map _))
    rw [dofPairs_of_nodup _ (by rw [hz, k3]; exact h.names)]
    exact List.map_snd_zip (Nat.le_of_eq (List.length_map _).symm)
  refine ⟨outs.flatten.map fun q =>
    removeIndices order' (removeIndicesDict (dvalues uv ++ dvalues up)) q.eq, es, ?_, ?_, k5, k6⟩
  · unfold unpackedEquationSymbols unpackEquationsSympy
    rw [k1]
    simp only [bind, Except.bind, k2, Except.map, pure, Except.pure, hD]
  · apply mapM_some_of_map
    rw [List.map_map]
    exact k4

/-! ### The compiled functions -/

/-- A scalar that is solved for has the same parent whether or not the numeraire is unpacked too. -/
theorem parent_solved (h : ScalarModel coords vars params)
    (huv : unpackGroup setList coords vars = .ok uv) (hup : unpackGroup setList coords params = .ok up)
    {uv' : Dict Str ModelObject}
    (huv' : unpackGroup setList coords (solvedVars numeraire vars) = .ok uv') (n : Str)
    (hn : n ∈ scalarNames coords (solvedVars numeraire vars ++ params)) :
    unpackedParent uv up n = unpackedParent uv' up n := by
  have hsc := h.scalars
  rw [scalarNames_append, List.nodup_append] at hsc
  obtain ⟨hnv, hnp, hdisj⟩ := hsc
  have hsc' := (solvedModel (numeraire := numeraire) h).scalars
  rw [scalarNames_append, List.nodup_append] at hsc'
  have h' := solvedModel (numeraire := numeraire) h
  obtain ⟨us, g1, g2, g3, g4⟩ := unpackGroup_scalars setList coords vars
    (fun o ho => h.known o (by simp [ho])) (fun o ho => h.dims o (by simp [ho]))
    (fun o ho => h.fresh o (by simp [ho])) hnv uv huv
  obtain ⟨us', k1, k2, k3, k4⟩ := unpackGroup_scalars setList coords (solvedVars numeraire vars)
    (fun o ho => h'.known o (by simp [ho])) (fun o ho => h'.dims o (by simp [ho]))
    (fun o ho => h'.fresh o (by simp [ho])) hsc'.1 uv' huv'
  obtain ⟨us0, a1, -, a3, -⟩ := unpackObjects_address setList coords vars
    (fun o ho => h.known o (by simp [ho])) (fun o ho => h.dims o (by simp [ho]))
    (fun o ho => h.fresh o (by simp [ho]))
  obtain ⟨us0', b1, -, b3, -⟩ := unpackObjects_address setList coords (solvedVars numeraire vars)
    (fun o ho => h'.known o (by simp [ho])) (fun o ho => h'.dims o (by simp [ho]))
    (fun o ho => h'.fresh o (by simp [ho]))
  rw [g1] at a1
  cases a1
  rw [k1] at b1
  cases b1
  rw [scalarNames_append, List.mem_append] at hn
  unfold unpackedParent
  rcases hn with hn | hn
  · rw [← k2] at hn
    obtain ⟨u, hu, rfl⟩ := List.mem_map.1 hn
    have hu' : u ∈ us := by
      rw [b3, List.mem_flatMap] at hu
      obtain ⟨o, ho, hu⟩ := hu
      rw [a3, List.mem_flatMap]
      exact ⟨o, (List.mem_filter.1 ho).1, hu⟩
    rw [g4 u hu', k4 u hu]
  · have e1 : dget uv n = none := by
      rw [dget_eq_none_iff, g3]
      exact fun hm => hdisj _ hm _ hn rfl
    have e2 : dget uv' n = none := by
      rw [dget_eq_none_iff, k3]
      exact fun hm => hsc'.2.2 _ hm _ hn rfl
    rw [e1, e2]

theorem compile_parts {inputs : List Str} {es : List (SymExpr Str)} {F : SympyTensorFns}
    (hF : compileSympytensor inputs coords uv up es = .ok F) :
    ∃ m, makeUnpackedToPackedMap inputs coords uv up (es.flatMap SymExpr.atoms) = .ok m ∧
      F.system = es.map (packedGraph m) ∧
      F.jac = (SymExpr.makeJacobian es (dkeys uv)).map fun row => row.map (packedGraph m) := by
  unfold compileSympytensor at hF
  cases hm : makeUnpackedToPackedMap inputs coords uv up (es.flatMap SymExpr.atoms) with
  | error e => rw [hm] at hF; cases hF
  | ok m =>
    rw [hm] at hF
    simp only [bind, Except.bind] at hF
    split at hF
    · cases hF
    · split at hF
      · cases hF
      · split at hF
        · cases hF
        · cases hF
          exact ⟨m, rfl, rfl, rfl⟩

theorem mapM_congr_mem {α β : Type} {f g : α → Res β} : ∀ (l : List α), (∀ a ∈ l, f a = g a) →
    l.mapM f = l.mapM g
  | [], _ => rfl
  | a :: l, h => by
      rw [List.mapM_cons, List.mapM_cons, h a (by simp), mapM_congr_mem l fun b hb => h b (by simp [hb])]

/-- Slots of the scalars that are solved for. -/
theorem solved_slots (h : ScalarModel coords vars params)
    (huv : unpackGroup setList coords vars = .ok uv) (hup : unpackGroup setList coords params = .ok up)
    (names : List Str) (hnames : ∀ n ∈ names, n ∈ scalarNames coords (solvedVars numeraire vars ++ params))
    (m : Dict Str (Str × List Nat))
    (hm : makeUnpackedToPackedMap ((solvedVars numeraire vars ++ params).map ModelObject.name) coords uv up
      names = .ok m) :
    ∀ n ∈ names, SlotOf coords (solvedVars numeraire vars ++ params) m n := by
  have h' := solvedModel (numeraire := numeraire) h
  obtain ⟨us, a1, -⟩ := unpackObjects_address setList coords (solvedVars numeraire vars)
    (fun o ho => h'.known o (by simp [ho])) (fun o ho => h'.dims o (by simp [ho]))
    (fun o ho => h'.fresh o (by simp [ho]))
  obtain ⟨uv', huv'⟩ : ∃ uv', unpackGroup setList coords (solvedVars numeraire vars) = .ok uv' := by
    unfold unpackGroup
    rw [a1]
    exact ⟨_, rfl⟩
  obtain ⟨m', hm', hs⟩ := packedMap_slots h' huv' hup names hnames
  have : makeUnpackedToPackedMap ((solvedVars numeraire vars ++ params).map ModelObject.name) coords uv up
      names = makeUnpackedToPackedMap ((solvedVars numeraire vars ++ params).map ModelObject.name) coords
        uv' up names := by
    unfold makeUnpackedToPackedMap
    congr 1
    apply mapM_congr_mem
    intro n hn
    unfold packedSlot
    rw [parent_solved h huv hup huv' n (hnames n hn)]
  rw [this, hm'] at hm
  cases hm
  exact hs

/-- The residuals the solvers get from the default back-end: flat vectors of the variables solved for and
of the parameters in, and for every equation and every combination of labels left side minus right side
out, with the numeraire equal to one. -/
theorem C71_residuals_partial (h : IndexedModel coords vars params numeraire eqs)
    (hset : ∀ l x, x ∈ setListR l ↔ x ∈ l) (horder : ∀ d e, e ∈ order d ↔ e ∈ d)
    (horder' : ∀ d e, e ∈ order' d ↔ e ∈ d)
    (huv : unpackGroup setList coords vars = .ok uv) (hup : unpackGroup setList coords params = .ok up)
    (syms : List RExpr) (es : List (SymExpr Str)) (F : SympyTensorFns)
    (hs : unpackedEquationSymbols setListR order order' coords numeraire uv up
        (eqs.map fun q => ⟨q.name.text, q.lhs, q.rhs⟩) = .ok syms)
    (he : syms.mapM toScalarExpr = some es)
    (hF : compileSympytensor ((solvedVars numeraire vars ++ params).map ModelObject.name) coords uv up es
      = .ok F)
    (vn : List Str) (x theta : List ℝ) (hx : x.length = totalSize coords (solvedVars numeraire vars))
    (ht : theta.length = totalSize coords params) :
    wrapForScipy (callGraphs ((solvedVars numeraire vars ++ params).map ModelObject.name) vn F.system)
        (solvedVars numeraire vars) params coords x theta =
      .ok (eqs.flatMap (demanded coords (numeraire.toList.map ModelObject.name)
        (solvedVars numeraire vars ++ params) (x ++ theta))) := by
  obtain ⟨syms', es', h1, h2, h3, h4⟩ := C71_scalar_equations_partial h hset horder horder' huv hup
  rw [hs] at h1
  cases h1
  rw [he] at h2
  cases h2
  obtain ⟨m, hm, hsys, -⟩ := compile_parts hF
  have hnames : ∀ n ∈ es.flatMap SymExpr.atoms,
      n ∈ scalarNames coords (solvedVars numeraire vars ++ params) := by
    intro n hn
    obtain ⟨e, he, hn⟩ := List.mem_flatMap.1 hn
    exact h3 e he n hn
  rw [hsys, wrap_graphs (solvedModel h.scalar) m (solved_slots h.scalar huv hup _ hnames m hm) vn es
    (fun e he n hn => List.mem_flatMap.2 ⟨e, he, hn⟩) x theta hx ht]
  exact congrArg _ (h4 _)

/-- **With a numeraire the Jacobian is singular.**  It has one column for every scalar of every variable,
the numeraire included (more columns than the vector of variables has elements), and the columns of the
numeraire are zero; so if it is square, as the constructor demands, its determinant is zero wherever it is
evaluated. -/
theorem C71_numeraire_singular (h : IndexedModel coords vars params numeraire eqs)
    (hset : ∀ l x, x ∈ setListR l ↔ x ∈ l) (horder : ∀ d e, e ∈ order d ↔ e ∈ d)
    (horder' : ∀ d e, e ∈ order' d ↔ e ∈ d)
    (huv : unpackGroup setList coords vars = .ok uv) (hup : unpackGroup setList coords params = .ok up)
    (syms : List RExpr) (es : List (SymExpr Str)) (F : SympyTensorFns)
    (hs : unpackedEquationSymbols setListR order order' coords numeraire uv up
        (eqs.map fun q => ⟨q.name.text, q.lhs, q.rhs⟩) = .ok syms)
    (he : syms.mapM toScalarExpr = some es)
    (hF : compileSympytensor ((solvedVars numeraire vars ++ params).map ModelObject.name) coords uv up es
      = .ok F)
    (num : ModelObject) (hnum : numeraire = some num) (hsize : 0 < specSize coords num)
    (hsquare : es.length = totalSize coords vars)
    (vn : List Str) (x theta : List ℝ) (hx : x.length = totalSize coords (solvedVars numeraire vars))
    (ht : theta.length = totalSize coords params) :
    ∃ J, wrapForScipy (callMatrix ((solvedVars numeraire vars ++ params).map ModelObject.name) vn F.jac)
        (solvedVars numeraire vars) params coords x theta = .ok J ∧
      J.length = totalSize coords vars ∧ (∀ row ∈ J, row.length = totalSize coords vars) ∧
      x.length < totalSize coords vars ∧
      (Matrix.of fun i j : Fin (totalSize coords vars) => (J.getD i []).getD j 0).det = 0 := by
  obtain ⟨syms', es', h1, h2, h3, h4⟩ := C71_scalar_equations_partial h hset horder horder' huv hup
  rw [hs] at h1
  cases h1
  rw [he] at h2
  cases h2
  obtain ⟨m, hm, -, hjac⟩ := compile_parts hF
  have hnames : ∀ n ∈ es.flatMap SymExpr.atoms,
      n ∈ scalarNames coords (solvedVars numeraire vars ++ params) := by
    intro n hn
    obtain ⟨e, he, hn⟩ := List.mem_flatMap.1 hn
    exact h3 e he n hn
  have hkeys := (dkeys_unpacked h.scalar huv hup).1
  have hnumv := h.numeraire_mem num hnum
  -- a scalar of the numeraire
  obtain ⟨p, hp⟩ : ∃ p, p ∈ scalarNames coords [num] := by
    apply List.exists_mem_of_length_pos
    rw [length_scalarNames]
    simpa [totalSize] using hsize
  have hpv : p ∈ scalarNames coords vars := by
    unfold scalarNames at hp ⊢
    rw [List.flatMap_singleton] at hp
    exact List.mem_flatMap.2 ⟨num, hnumv, hp⟩
  have hps : p ∉ scalarNames coords (solvedVars numeraire vars ++ params) := by
    intro hmem
    obtain ⟨l1, l2, hsplit⟩ := List.append_of_mem hnumv
    have hnd := h.scalar.scalars
    have hmem' : p ∈ scalarNames coords (l1 ++ l2 ++ params) := by
      unfold scalarNames at hmem ⊢
      obtain ⟨o, ho, hpo⟩ := List.mem_flatMap.1 hmem
      refine List.mem_flatMap.2 ⟨o, ?_, hpo⟩
      have hne := numeraire_absent h hnum ho
      have := solved_subset ho
      rw [hsplit] at this
      simp only [List.mem_append, List.mem_cons] at this ⊢
      rcases this with (h' | rfl | h') | h'
      · exact Or.inl (Or.inl h')
      · exact absurd rfl hne
      · exact Or.inl (Or.inr h')
      · exact Or.inr h'
    rw [hsplit] at hnd
    have hperm : (l1 ++ num :: l2 ++ params).Perm ([num] ++ (l1 ++ l2 ++ params)) := by
      rw [List.append_assoc, List.append_assoc, List.cons_append]
      exact List.perm_middle
    have hpn : (scalarNames coords (l1 ++ num :: l2 ++ params)).Perm
        (scalarNames coords ([num] ++ (l1 ++ l2 ++ params))) := hperm.flatMap_right _
    have := hpn.nodup_iff.1 hnd
    rw [scalarNames_append, List.nodup_append] at this
    exact this.2.2 _ hp _ hmem' rfl
  obtain ⟨k, hk⟩ := List.getElem?_of_mem hpv
  have hklt : k < totalSize coords vars := by
    rw [← length_scalarNames]; exact (List.getElem?_eq_some_iff.1 hk).1
  have hw := wrap_matrix (solvedModel h.scalar) m (solved_slots h.scalar huv hup _ hnames m hm) vn
    (SymExpr.makeJacobian es (dkeys uv)) (by
      intro row hrow e he n hn
      unfold SymExpr.makeJacobian at hrow
      obtain ⟨e', he', rfl⟩ := List.mem_map.1 hrow
      obtain ⟨y, -, rfl⟩ := List.mem_map.1 he
      exact List.mem_flatMap.2 ⟨e', he', atoms_diff_subset _ _ _ hn⟩) x theta hx ht
  refine ⟨_, by rw [hjac]; exact hw, ?_, ?_, ?_, ?_⟩
  · simp [SymExpr.makeJacobian, hsquare]
  · intro row hrow
    simp only [SymExpr.makeJacobian, List.map_map, List.mem_map, Function.comp_apply] at hrow
    obtain ⟨e, -, rfl⟩ := hrow
    simp [hkeys, length_scalarNames]
  · rw [hx, ← length_scalarNames, ← length_scalarNames]
    refine lt_of_le_of_ne (scalarNames_sublist List.filter_sublist).length_le fun hlen => ?_
    have := (scalarNames_sublist (coords := coords) (List.filter_sublist (l := vars)
      (p := fun o : ModelObject => decide (o.name ∉ numeraire.toList.map ModelObject.name)))).eq_of_length hlen
    apply hps
    rw [scalarNames_append, List.mem_append]
    left
    unfold solvedVars
    rw [this]
    exact hpv
  · apply Matrix.det_eq_zero_of_column_eq_zero ⟨k, hklt⟩
    intro i
    have hi : (i : Nat) < es.length := by rw [hsquare]; exact i.2
    simp only [Matrix.of_apply, SymExpr.makeJacobian, hkeys, List.map_map, List.getD_eq_getElem?_getD,
      List.getElem?_map, List.getElem?_eq_getElem hi, hk, Option.map_some, Option.getD_some,
      Function.comp_apply]
    exact SymExpr.eval_diff_eq_zero _ _ _ fun hmem => hps (h3 _ (List.getElem_mem hi) _ hmem)

/-! ### An example -/

/-- Labels `a`, `b` for `i`. -/
def scCoords : Coords := [("i".toList, ["a".toList, "b".toList])]

/-- The numeraire `p`. -/
def scNum : ModelObject := { name := "p" }

/-- Variables `x[i]`, `p`, `y`. -/
def scVars : List ModelObject := [{ name := "x", dims := ["i".toList] }, scNum, { name := "y" }]

/-- The parameter `A[i]`. -/
def scParams : List ModelObject := [{ name := "A", dims := ["i".toList] }]

/-- `x[i] = A[i] * p`, `y = Sum(p * x[i], (i, 0, 1))` and `y = p`. -/
def scEqs : List IndexedEq :=
  [⟨[.lit "demand ".toList, .dim "i".toList], .indexed "x".toList [.idx "i".toList],
      .mul (.indexed "A".toList [.idx "i".toList]) (.sym "p".toList)⟩,
   ⟨[.lit "total".toList], .sym "y".toList, .red .sum
      (.mul (.sym "p".toList) (.indexed "x".toList [.idx "i".toList])) [⟨"i".toList, 0, 2⟩]⟩,
   ⟨[.lit "scale".toList], .sym "y".toList, .sym "p".toList⟩]

theorem sc_side (o : ModelObject) (ho : o ∈ solvedVars (some scNum) scVars ++ scParams ++ [scNum])
    (ho' : o.dims = ["i".toList]) :
    WellIndexed scCoords (solvedVars (some scNum) scVars ++ scParams ++ (some scNum).toList)
      (.indexed o.name [.idx "i".toList]) := by
  constructor
  · intro x hx; cases hx
  · intro v hv
    simp only [indexeds, List.mem_singleton] at hv
    subst hv
    exact ⟨o, ho, rfl, by rw [ho']; simp, by
      rw [ho']; exact .cons (Or.inl ⟨_, rfl, by decide, fun l hl => hl⟩) .nil⟩

theorem scModel : IndexedModel scCoords scVars scParams (some scNum) scEqs where
  scalar :=
    { known := by decide +kernel
      dims := by decide +kernel
      fresh := by decide +kernel
      labels := by decide +kernel
      names := by decide +kernel
      scalars := by decide +kernel }
  coords_nodup := by decide +kernel
  dim_names := by decide +kernel
  label_names := by
    intro i ls h k l hl
    have hmem := mem_of_dget _ h
    have hl := List.mem_of_getElem? hl
    simp only [scCoords, List.mem_singleton, Prod.mk.injEq] at hmem
    obtain ⟨-, rfl⟩ := hmem
    simp only [List.mem_cons, List.not_mem_nil, or_false] at hl
    rcases hl with rfl | rfl <;> simp [FitLabel, NotNumeral, Char.isDigit]
  numeraire_mem := by rintro o ⟨⟩; decide +kernel
  sides := by
    have hx := sc_side { name := "x", dims := ["i".toList] } (by decide +kernel) rfl
    have hA := sc_side { name := "A", dims := ["i".toList] } (by decide +kernel) rfl
    have hsym : ∀ s : Str, s = "p".toList ∨ s = "y".toList →
        SideOK scCoords (solvedVars (some scNum) scVars ++ scParams) (some scNum) (.sym s) := by
      rintro s hs
      refine ⟨trivial, ⟨?_, fun v hv => (nomatch hv)⟩, fun o _ v hv => (nomatch hv), fun _ _ => trivial⟩
      intro x hx
      simp only [RExpr.syms, List.mem_singleton] at hx
      subst hx
      rcases hs with rfl | rfl <;> decide +kernel
    intro q hq
    simp only [scEqs, List.mem_cons, List.not_mem_nil, or_false] at hq
    rcases hq with rfl | rfl | rfl
    · refine ⟨⟨trivial, hx, ?_, fun _ _ => trivial⟩, ⟨⟨trivial, trivial⟩, ⟨?_, ?_⟩, ?_,
        fun _ _ => ⟨trivial, trivial⟩⟩⟩
      · rintro o ⟨⟩ v hv hvn
        simp only [indexeds, List.mem_singleton] at hv
        subst hv
        exact absurd hvn (by decide +kernel)
      · exact (hsym _ (Or.inl rfl)).indexed.scalars
      · intro v hv
        refine hA.arrays v ?_
        simpa [indexeds] using hv
      · rintro o ⟨⟩ v hv hvn
        simp only [indexeds, List.append_nil, List.mem_singleton] at hv
        subst hv
        exact absurd hvn (by decide +kernel)
    · refine ⟨hsym _ (Or.inr rfl), ⟨⟨⟨trivial, trivial⟩, ?_, ?_, ?_⟩, ⟨?_, ?_⟩, ?_, ?_⟩⟩
      · intro l hl
        rw [List.mem_singleton] at hl; subst hl; decide
      · intro v hv s hs
        simp only [indexeds, List.nil_append, List.mem_singleton] at hv
        subst hv
        rw [List.mem_singleton] at hs
        subst hs
        exact ⟨_, _, rfl, rfl, by simp⟩
      · intro v hv w hw _ p i j hi hj _ _
        simp only [indexeds, List.nil_append, List.mem_singleton] at hv hw
        subst hv
        subst hw
        rw [hi] at hj
        cases hj
        rfl
      · intro x hx
        exact (hsym _ (Or.inl rfl)).indexed.scalars x (by simpa [RExpr.syms] using hx)
      · intro v hv
        refine hx.arrays v ?_
        simpa [indexeds] using hv
      · rintro o ⟨⟩ v hv hvn
        simp only [indexeds, List.nil_append, List.mem_singleton] at hv
        subst hv
        exact absurd hvn (by decide +kernel)
      · rintro o ⟨⟩
        refine ⟨⟨trivial, trivial⟩, ?_⟩
        rintro ⟨l, -, hl⟩
        cases hl
    · exact ⟨hsym _ (Or.inr rfl), hsym _ (Or.inl rfl)⟩
  clean := by
    intro q hq
    simp only [scEqs, List.mem_cons, List.not_mem_nil, or_false] at hq
    rcases hq with rfl | rfl | rfl <;> decide +kernel
  markers := by decide +kernel
  names := by decide +kernel

example : ∃ uv up syms es F, unpackGroup id scCoords scVars = .ok uv ∧
    unpackGroup id scCoords scParams = .ok up ∧
    unpackedEquationSymbols id id id scCoords (some scNum) uv up
      (scEqs.map fun q => ⟨q.name.text, q.lhs, q.rhs⟩) = .ok syms ∧
    syms.mapM toScalarExpr = some es ∧ es.length = totalSize scCoords scVars ∧
    compileSympytensor ((solvedVars (some scNum) scVars ++ scParams).map ModelObject.name) scCoords uv up
      es = .ok F :=
  ⟨_, _, _, _, _, rfl, rfl, rfl, rfl, rfl, rfl⟩

/-- What the third block of equations says: `y - 1`. -/
example (flat : List ℝ) : demanded scCoords ["p".toList] (solvedVars (some scNum) scVars ++ scParams) flat
    ⟨[.lit "scale".toList], .sym "y".toList, .sym "p".toList⟩ = [flat.getD 2 0 - 1] := by
  rfl

/-! ### Where the numeraire is not replaced -/

/-- **A numeraire under a sum over its own index is not replaced by one**: `y = Sum(p[i] * x[i], (i, 0, 1))`
with the numeraire `p` still contains `p_a` and `p_b`, and the model does not compile. -/
theorem C71_numeraire_under_sum_counterexample :
    let num : ModelObject := { name := "p", dims := ["i".toList] }
    let vars : List ModelObject := [{ name := "x", dims := ["i".toList] }, num, { name := "y" }]
    let q : ParsedEq := ⟨"total".toList, .sym "y".toList, .red .sum
      (.mul (.indexed "p".toList [.idx "i".toList]) (.indexed "x".toList [.idx "i".toList]))
      [⟨"i".toList, 0, 2⟩]⟩
    ∃ uv syms es e, unpackGroup id scCoords vars = .ok uv ∧
      unpackedEquationSymbols id id id scCoords (some num) uv [] [q] = .ok syms ∧
      syms.mapM toScalarExpr = some es ∧ es = [e] ∧ Mentions "p_a".toList e ∧
      Mentions "p_b".toList e ∧
      compileSympytensor ((solvedVars (some num) vars).map ModelObject.name) scCoords uv [] es =
        .error .valueError := by
  intro num vars q
  obtain ⟨uv, huv⟩ : ∃ uv : Dict Str ModelObject, uv =
      [("x_a".toList, { name := "x", dims := ["i".toList], dimVals := [("i".toList, "a".toList)] }),
       ("x_b".toList, { name := "x", dims := ["i".toList], dimVals := [("i".toList, "b".toList)] }),
       ("p_a".toList, { num with dimVals := [("i".toList, "a".toList)] }),
       ("p_b".toList, { num with dimVals := [("i".toList, "b".toList)] }),
       ("y".toList, { name := "y" })] := ⟨_, rfl⟩
  refine ⟨uv,
    [.add (.sym "y".toList) (.mul (.num (-1)) (.add (.add (.num 0)
      (.mul (.sym "p_a".toList) (.sym "x_a".toList))) (.mul (.sym "p_b".toList) (.sym "x_b".toList))))],
    _, .add (.sym "y".toList) (.mul (.num (-1)) (.add (.add (.num 0)
      (.mul (.sym "p_a".toList) (.sym "x_a".toList))) (.mul (.sym "p_b".toList) (.sym "x_b".toList)))),
    ?_, ?_, rfl, rfl, ?_, ?_, ?_⟩
  · subst huv; decide +kernel
  · subst huv; decide +kernel
  · exact (SymExpr.mem_atoms_iff _ _).1 (by decide +kernel)
  · exact (SymExpr.mem_atoms_iff _ _).1 (by decide +kernel)
  · have h : makeUnpackedToPackedMap ((solvedVars (some num) vars).map ModelObject.name) scCoords uv []
        ["y".toList, "p_a".toList, "x_a".toList, "p_b".toList, "x_b".toList] = .error .valueError := by
      subst huv; decide +kernel
    unfold compileSympytensor
    simp only [bind, Except.bind]
    erw [h]

/-- **A numeraire with another index than its own is not replaced by one**: `y[j] = p[j]` with the
numeraire `p` declared over `i` still contains `p_a`, and the model does not compile. -/
theorem C71_numeraire_other_index_counterexample :
    let coords : Coords := [("i".toList, ["a".toList, "b".toList]), ("j".toList, ["a".toList, "b".toList])]
    let num : ModelObject := { name := "p", dims := ["i".toList] }
    let vars : List ModelObject := [{ name := "y", dims := ["j".toList] }, num]
    let q : ParsedEq := ⟨"copy <dim:j>".toList, .indexed "y".toList [.idx "j".toList],
      .indexed "p".toList [.idx "j".toList]⟩
    ∃ uv syms es e e', unpackGroup id coords vars = .ok uv ∧
      unpackedEquationSymbols id id id coords (some num) uv [] [q] = .ok syms ∧
      syms.mapM toScalarExpr = some es ∧ es = [e, e'] ∧ Mentions "p_a".toList e ∧
      Mentions "p_b".toList e' ∧
      compileSympytensor ((solvedVars (some num) vars).map ModelObject.name) coords uv [] es =
        .error .valueError := by
  intro coords num vars q
  refine ⟨_, _, _, _, _, rfl, rfl, rfl, rfl, ?_, ?_, rfl⟩
  · exact (SymExpr.mem_atoms_iff _ _).1 (by decide +kernel)
  · exact (SymExpr.mem_atoms_iff _ _).1 (by decide +kernel)

/-- **C71 (refusals).**  Whatever the expansion of the sums and products raises, the user sees a `ValueError`
when the equation is added. -/
theorem C71_reduction_refused (setList : List RExpr → List RExpr)
    (order : Dict (List SIdx) (List SIdx) → List (List SIdx × List SIdx))
    (order' : Dict RExpr RExpr → List (RExpr × RExpr)) (coords : Coords) (numeraire : Option ModelObject)
    (uv up : Dict Str ModelObject) (q : ParsedEq) (qs : List ParsedEq) (err : PyErr)
    (h : substituteReduceOps setList order
      (.add (fixNumeraire numeraire q.lhs) (.mul (.num (-1)) (fixNumeraire numeraire q.rhs))) coords = .error err) :
    unpackedEquationSymbols setList order order' coords numeraire uv up (q :: qs) = .error .valueError := by
  unfold unpackedEquationSymbols
  simp only [bind, Except.bind, List.mapM_cons, standardize, h]

/-- The product of a sum of `C35_product_of_sum_raises` in an equation. -/
example (uv up : Dict Str ModelObject) : unpackedEquationSymbols id id id
    [("i".toList, ["a".toList, "b".toList]), ("j".toList, ["c".toList, "d".toList, "e".toList])] none uv up
    [⟨"total".toList, .sym "y".toList, .red .prod (.red .sum (.indexed "x".toList [.idx "i".toList, .idx "j".toList])
        [⟨"j".toList, 0, 3⟩]) [⟨"i".toList, 0, 2⟩]⟩] = .error .valueError :=
  C71_reduction_refused _ _ _ _ _ _ _ _ _ .keyError rfl

end Verif
