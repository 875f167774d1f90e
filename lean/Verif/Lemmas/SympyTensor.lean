import Verif.Model.SympyTensor
import Verif.Spec.SympyTensor
import Verif.Props.Expand
import Verif.Props.Flat
import Verif.Props.NumbaEuler

/-!
# Lemmas on the graphs of the default backend
-/

namespace Verif

open SymExpr

theorem makeIndexedName_zip (o : ModelObject) (ls : List Str) (h : ls.length = o.dims.length) :
    makeIndexedName { o with dimVals := o.dims.zip ls } = joinStr "_".toList (o.name :: ls) := by
  unfold makeIndexedName dvalues
  dsimp only
  rw [List.map_snd_zip (by omega)]

theorem unpack_names (coords : Coords) (objs : List ModelObject) :
    (objs.flatMap fun o => (product (o.dims.map (labelsOf coords))).map fun ls =>
        ({ o with dimVals := o.dims.zip ls } : ModelObject)).map makeIndexedName =
      scalarNames coords objs := by
  unfold scalarNames
  rw [List.map_flatMap]
  congr 1
  funext o
  rw [List.map_map]
  apply List.map_congr_left
  intro ls hls
  exact makeIndexedName_zip o ls (by simpa using length_of_mem_product hls)

theorem scalarNames_append (coords : Coords) (a b : List ModelObject) :
    scalarNames coords (a ++ b) = scalarNames coords a ++ scalarNames coords b := by
  simp [scalarNames]

theorem length_scalarNames (coords : Coords) (objs : List ModelObject) :
    (scalarNames coords objs).length = totalSize coords objs := by
  unfold scalarNames totalSize
  rw [List.length_flatMap]
  congr 1
  apply List.map_congr_left
  intro o _
  simp only [List.length_map, length_product, specSize, specShape, List.map_map]
  rfl

theorem zip_keys_values {κ ν : Type} : ∀ D : Dict κ ν, (dkeys D).zip (dvalues D) = D
  | [] => rfl
  | p :: D => by
      have := zip_keys_values D
      unfold dkeys dvalues at this ⊢
      simp only [List.map_cons, List.zip_cons_cons, this]

/-- The dictionary of unpacked objects of a group without clashes. -/
theorem unpackGroup_scalars (setList : List Str → List Str) (coords : Coords)
    (objs : List ModelObject) (hk : ∀ o ∈ objs, KnownDims coords o)
    (hnd : ∀ o ∈ objs, o.dims.Nodup) (hfresh : ∀ o ∈ objs, o.dimVals = [])
    (hn : (scalarNames coords objs).Nodup) (D : Dict Str ModelObject)
    (hD : unpackGroup setList coords objs = .ok D) :
    ∃ us, unpackObjects setList coords objs = .ok us ∧ us.map makeIndexedName = scalarNames coords objs ∧
      dkeys D = scalarNames coords objs ∧ ∀ u ∈ us, dget D (makeIndexedName u) = some u := by
  obtain ⟨us, h1, h2, h3, -⟩ := unpackObjects_address setList coords objs hk hnd hfresh
  have hnames : us.map makeIndexedName = scalarNames coords objs := by rw [h3, unpack_names]
  obtain ⟨D', g1, g2, g3⟩ := C05_names_in_order_partial setList coords objs us h1 (by rw [hnames]; exact hn)
  rw [hD] at g1
  cases g1
  refine ⟨us, h1, hnames, by rw [g2, hnames], ?_⟩
  intro u hu
  have hDz : D = (us.map makeIndexedName).zip us := by
    rw [← g2, ← g3]
    exact (zip_keys_values D).symm
  apply dget_of_mem_nodup
  · rw [g2, hnames]; exact hn
  · rw [hDz]
    obtain ⟨i, hi, rfl⟩ := List.mem_iff_getElem.1 hu
    rw [List.mem_iff_getElem?]
    exact ⟨i, by simp [hi]⟩

variable {coords : Coords} {vars params : List ModelObject} {setList : List Str → List Str}
  {uv up : Dict Str ModelObject}

/-- Position `k` of the flat vector: the object and the index there, and what the packed graph reads for
the scalar of that name. -/
theorem packedSlot_at (h : ScalarModel coords vars params)
    (huv : unpackGroup setList coords vars = .ok uv) (hup : unpackGroup setList coords params = .ok up)
    (k : Nat) (n : Str) (hk : (scalarNames coords (vars ++ params))[k]? = some n) :
    ∃ m o idx, (vars ++ params)[m]? = some o ∧ ValidIdx (specShape coords o) idx ∧
      offsetOf coords (vars ++ params) m + ravelIndex (specShape coords o) idx = k ∧
      packedSlot ((vars ++ params).map ModelObject.name) coords uv up n = .ok (o.name, idx) := by
  have hlt : k < totalSize coords (vars ++ params) := by
    rw [← length_scalarNames]
    exact (List.getElem?_eq_some_iff.1 hk).1
  obtain ⟨m, o, idx, hm, hidx, hpos, -⟩ := C02_address_bijective coords (vars ++ params) k hlt
  obtain ⟨us, h1, h2, h3, h4⟩ := unpackObjects_address setList coords (vars ++ params) h.known h.dims h.fresh
  obtain ⟨u, hu, hun, hud, hul⟩ := h4 m o idx hm hidx
  rw [hpos] at hu
  have hname : makeIndexedName u = n := by
    have : (us.map makeIndexedName)[k]? = some n := by rw [h3, unpack_names]; exact hk
    rw [List.getElem?_map, hu] at this
    exact Option.some.inj this
  have hsc := h.scalars
  rw [scalarNames_append, List.nodup_append] at hsc
  obtain ⟨hnv, hnp, hdisj⟩ := hsc
  obtain ⟨usv, gv1, gv2, gv3, gv4⟩ := unpackGroup_scalars setList coords vars
    (fun o ho => h.known o (by simp [ho])) (fun o ho => h.dims o (by simp [ho]))
    (fun o ho => h.fresh o (by simp [ho])) hnv uv huv
  obtain ⟨usp, gp1, gp2, gp3, gp4⟩ := unpackGroup_scalars setList coords params
    (fun o ho => h.known o (by simp [ho])) (fun o ho => h.dims o (by simp [ho]))
    (fun o ho => h.fresh o (by simp [ho])) hnp up hup
  obtain ⟨usv', fv1, -, fv3, -⟩ := unpackObjects_address setList coords vars
    (fun o ho => h.known o (by simp [ho])) (fun o ho => h.dims o (by simp [ho]))
    (fun o ho => h.fresh o (by simp [ho]))
  obtain ⟨usp', fp1, -, fp3, -⟩ := unpackObjects_address setList coords params
    (fun o ho => h.known o (by simp [ho])) (fun o ho => h.dims o (by simp [ho]))
    (fun o ho => h.fresh o (by simp [ho]))
  rw [gv1] at fv1
  cases fv1
  rw [gp1] at fp1
  cases fp1
  have hus : us = usv ++ usp := by rw [h3, fv3, fp3, List.flatMap_append]
  have hparent : unpackedParent uv up n = .ok u := by
    have hmem : u ∈ usv ++ usp := by rw [← hus]; exact List.mem_of_getElem? hu
    unfold unpackedParent
    rcases List.mem_append.1 hmem with hv | hp
    · rw [← hname, gv4 u hv]
    · have : dget uv n = none := by
        rw [dget_eq_none_iff, gv3]
        intro hn
        have : n ∈ scalarNames coords params := by
          rw [← gp2, ← hname]; exact List.mem_map_of_mem hp
        exact hdisj n hn n this rfl
      rw [this, ← hname, gp4 u hp]
  have hom : o ∈ vars ++ params := List.mem_of_getElem? hm
  have hidxlen : idx.length = u.dims.length := by
    rw [hud]
    have := validIdx_length _ _ hidx
    simpa [specShape] using this
  refine ⟨m, o, idx, hm, hidx, hpos, ?_⟩
  unfold packedSlot
  rw [hparent]
  simp only [bind, Except.bind]
  rw [if_neg (by rw [hun]; exact fun hn => hn (List.mem_map_of_mem hom))]
  rw [C05_packed_index coords u idx (by unfold KnownDims; rw [hud]; exact h.known o hom) hidxlen
    (by rw [hud]; exact h.labels o hom) (by rw [hud]; exact hul)]
  simp only [hun]
  rfl

theorem dkeys_unpacked (h : ScalarModel coords vars params)
    (huv : unpackGroup setList coords vars = .ok uv) (hup : unpackGroup setList coords params = .ok up) :
    dkeys uv = scalarNames coords vars ∧ dkeys up = scalarNames coords params := by
  have hsc := h.scalars
  rw [scalarNames_append, List.nodup_append] at hsc
  obtain ⟨hnv, hnp, -⟩ := hsc
  obtain ⟨-, -, -, gv3, -⟩ := unpackGroup_scalars setList coords vars
    (fun o ho => h.known o (by simp [ho])) (fun o ho => h.dims o (by simp [ho]))
    (fun o ho => h.fresh o (by simp [ho])) hnv uv huv
  obtain ⟨-, -, -, gp3, -⟩ := unpackGroup_scalars setList coords params
    (fun o ho => h.known o (by simp [ho])) (fun o ho => h.dims o (by simp [ho]))
    (fun o ho => h.fresh o (by simp [ho])) hnp up hup
  exact ⟨gv3, gp3⟩

theorem packedSlot_unknown (h : ScalarModel coords vars params)
    (huv : unpackGroup setList coords vars = .ok uv) (hup : unpackGroup setList coords params = .ok up)
    (inputs : List Str) (n : Str) (hn : n ∉ scalarNames coords (vars ++ params)) :
    packedSlot inputs coords uv up n = .error .valueError := by
  obtain ⟨h1, h2⟩ := dkeys_unpacked h huv hup
  rw [scalarNames_append, List.mem_append, not_or] at hn
  unfold packedSlot unpackedParent
  rw [(dget_eq_none_iff _ _).2 (by rw [h1]; exact hn.1), (dget_eq_none_iff _ _).2 (by rw [h2]; exact hn.2)]
  rfl

theorem mapM_error_of {α β : Type} (f : α → Res β) (e : PyErr) (l : List α)
    (hall : ∀ a ∈ l, (∃ b, f a = .ok b) ∨ f a = .error e) (hex : ∃ a ∈ l, f a = .error e) :
    l.mapM f = .error e := by
  induction l with
  | nil => obtain ⟨a, ha, -⟩ := hex; cases ha
  | cons a l ih =>
    rw [List.mapM_cons]
    rcases hall a (by simp) with ⟨b, hb⟩ | hb
    · rw [hb]
      simp only [bind, Except.bind]
      rw [ih (fun a' h' => hall a' (by simp [h']))]
      obtain ⟨a', ha', he⟩ := hex
      rcases List.mem_cons.1 ha' with rfl | ha'
      · rw [hb] at he; cases he
      · exact ⟨a', ha', he⟩
    · rw [hb]; rfl

theorem packedMap_ok (f : Str → Res (Str × List Nat)) (names : List Str)
    (hf : ∀ n ∈ names, ∃ s, f n = .ok s) :
    ∃ m, (names.mapM fun n => (f n).map fun s => (n, s)).map dofPairs = .ok m ∧
      ∀ n ∈ names, ∃ s, f n = .ok s ∧ dget m n = some s := by
  let g : Str → Str × List Nat := fun n => match f n with
    | .ok s => s
    | .error _ => default
  have hg : ∀ n ∈ names, f n = .ok (g n) := by
    intro n hn
    obtain ⟨s, hs⟩ := hf n hn
    simp only [g, hs]
  have hm : names.mapM (fun n => (f n).map fun s => (n, s)) = .ok (names.map fun n => (n, g n)) := by
    apply mapM_ok_of_forall
    intro n hn
    rw [hg n hn]; rfl
  refine ⟨_, by rw [hm]; rfl, ?_⟩
  intro n hn
  refine ⟨g n, hg n hn, ?_⟩
  have key : ∀ (l : List Str) (D : Dict Str (Str × List Nat)), n ∈ l ∨ dget D n = some (g n) →
      dget (dupdate D (l.map fun n => (n, g n))) n = some (g n) := by
    intro l
    induction l with
    | nil => intro D h; simpa [dupdate] using h
    | cons a l ih =>
      intro D h
      show dget (dupdate (dset D a (g a)) (l.map fun n => (n, g n))) n = some (g n)
      apply ih
      by_cases ha : a = n
      · right; rw [ha]; exact dget_dset_self _ _ _
      · rcases h with h | h
        · rcases List.mem_cons.1 h with h | h
          · exact absurd h.symm ha
          · exact Or.inl h
        · right; rw [dget_dset_ne _ _ ha]; exact h
  exact key names [] (Or.inl hn)

/-- The dictionary made from a flat vector has, at the index of position `k`, element `k`. -/
theorem flatPairs_at {β : Type} (objs : List ModelObject)
    (hn : (objs.map ModelObject.name).Nodup) (flat : List β) (m : Nat) (o : ModelObject)
    (idx : List Nat) (hm : objs[m]? = some o) (hidx : ValidIdx (specShape coords o) idx) :
    ((dget (flatPairs coords objs flat : Dict Str (NDArray β)) o.name).bind fun a => a.at? idx) =
      flat[offsetOf coords objs m + ravelIndex (specShape coords o) idx]? := by
  have hg := flatPairs_getElem? coords objs flat m o hm
  rw [dget_of_mem_nodup _ (by unfold dkeys; rw [map_fst_flatPairs]; exact hn) (List.mem_of_getElem? hg)]
  simp only [Option.bind_some, NDArray.at?]
  rw [if_pos hidx, List.getElem?_take_of_lt (by simpa only [specSize] using ravelIndex_lt _ _ hidx), List.getElem?_drop]

theorem idxOf_of_nodup {N : List Str} (hN : N.Nodup) {k : Nat} {n : Str} (hk : N[k]? = some n) :
    N.idxOf n = k := by
  obtain ⟨hlt, rfl⟩ := List.getElem?_eq_some_iff.1 hk
  exact hN.idxOf_getElem k hlt

theorem flatPoint_at {N : List Str} (hN : N.Nodup) (flat : List ℝ) {k : Nat} {n : Str}
    (hk : N[k]? = some n) : flatPoint N flat n = flat.getD k 0 := by
  unfold flatPoint
  rw [idxOf_of_nodup hN hk]

/-- Changing element `k` of the flat vector changes the point at the scalar of position `k`. -/
theorem flatPoint_set {N : List Str} (hN : N.Nodup) (flat : List ℝ) (hlen : flat.length = N.length)
    {k : Nat} {n : Str} (hk : N[k]? = some n) (t : ℝ) :
    flatPoint N (flat.set k t) = Function.update (flatPoint N flat) n t := by
  have hlt := (List.getElem?_eq_some_iff.1 hk).1
  funext a
  by_cases ha : a = n
  · subst ha
    rw [Function.update_self, flatPoint_at hN _ hk]
    rw [List.getD_eq_getElem?_getD, List.getElem?_set_self (by omega)]
    rfl
  · rw [Function.update_of_ne ha]
    unfold flatPoint
    rw [List.getD_eq_getElem?_getD, List.getD_eq_getElem?_getD, List.getElem?_set_ne]
    intro hka
    apply ha
    have h1 : N.idxOf a < N.length := by omega
    have h2 : N[N.idxOf a] = a := List.getElem_idxOf h1
    rw [List.getElem?_eq_some_iff] at hk
    obtain ⟨_, hk2⟩ := hk
    rw [← h2, ← hk2]
    congr 1
    exact hka.symm

theorem mem_atoms_mapAtoms {α β : Type} (f : α → β) (e : SymExpr α) (b : β)
    (h : b ∈ (mapAtoms f e).atoms) : ∃ a ∈ e.atoms, f a = b := by
  induction e with
  | num => simp [mapAtoms, atoms] at h
  | sym a => simp [mapAtoms, atoms] at h ⊢; exact h.symm
  | add a b iha ihb | mul a b iha ihb | pow a b iha ihb =>
    simp only [mapAtoms, atoms, List.mem_append] at h ⊢
    rcases h with h | h
    · obtain ⟨x, hx, hf⟩ := iha h; exact ⟨x, Or.inl hx, hf⟩
    · obtain ⟨x, hx, hf⟩ := ihb h; exact ⟨x, Or.inr hx, hf⟩
  | log a ih | exp a ih =>
    simp only [mapAtoms, atoms] at h ⊢
    exact ih h

theorem mem_mapAtoms_atoms {α β : Type} (f : α → β) (e : SymExpr α) (a : α) (h : a ∈ e.atoms) :
    f a ∈ (mapAtoms f e).atoms := by
  induction e with
  | num => simp [atoms] at h
  | sym a => simp [mapAtoms, atoms] at h ⊢; rw [h]
  | add a b iha ihb | mul a b iha ihb | pow a b iha ihb =>
    simp only [mapAtoms, atoms, List.mem_append] at h ⊢
    exact h.imp iha ihb
  | log a ih | exp a ih =>
    simp only [mapAtoms, atoms] at h ⊢
    exact ih h

/-- Calling packed graphs on the dictionary of a flat vector. -/
theorem callGraphs_flat {coords : Coords} {objs : List ModelObject} (hn : (objs.map ModelObject.name).Nodup)
    (hN : (scalarNames coords objs).Nodup) (flat : List ℝ) (hlen : flat.length = totalSize coords objs)
    (vn : List Str) (m : Dict Str (Str × List Nat)) (outs : List (SymExpr Str))
    (hm : ∀ e ∈ outs, ∀ n ∈ e.atoms, ∃ k j o idx, (scalarNames coords objs)[k]? = some n ∧
      objs[j]? = some o ∧ ValidIdx (specShape coords o) idx ∧
      offsetOf coords objs j + ravelIndex (specShape coords o) idx = k ∧
      dget m n = some (o.name, idx)) :
    callGraphs (objs.map ModelObject.name) vn (outs.map (packedGraph m))
        (flatPairs coords objs flat) =
      .ok (outs.map fun e => e.eval (flatPoint (scalarNames coords objs) flat)) := by
  have hkeys : dkeys (flatPairs coords objs flat : Dict Str (NDArray ℝ)) = objs.map ModelObject.name := by
    unfold dkeys; rw [map_fst_flatPairs]
  have hread : ∀ e ∈ outs, ∀ n ∈ e.atoms,
      readAtom vn (flatPairs coords objs flat) (replaceScalar m n) =
        some (flatPoint (scalarNames coords objs) flat n) := by
    intro e he n hnm
    obtain ⟨k, j, o, idx, h1, h2, h3, h4, h5⟩ := hm e he n hnm
    unfold replaceScalar
    rw [h5]
    show ((dget (flatPairs coords objs flat : Dict Str (NDArray ℝ)) o.name).bind fun a => a.at? idx) = _
    rw [flatPairs_at objs hn flat j o idx h2 h3, h4, flatPoint_at hN flat h1]
    have hk : k < flat.length := by
      rw [hlen, ← length_scalarNames]; exact (List.getElem?_eq_some_iff.1 h1).1
    rw [List.getD_eq_getElem?_getD, List.getElem?_eq_getElem hk]
    rfl
  unfold callGraphs
  rw [if_neg, if_neg]
  · congr 1
    rw [List.map_map]
    apply List.map_congr_left
    intro e he
    simp only [Function.comp, packedGraph]
    rw [eval_mapAtoms]
    apply eval_congr
    intro a ha
    simp only [Function.comp, hread e he a ha, Option.getD_some]
  · rw [List.any_eq_true]
    rintro ⟨a, ha, hnone⟩
    obtain ⟨g, hg, hag⟩ := List.mem_flatMap.1 ha
    obtain ⟨e, he, rfl⟩ := List.mem_map.1 hg
    obtain ⟨n, hnm, rfl⟩ := mem_atoms_mapAtoms _ _ _ hag
    rw [hread e he n hnm] at hnone
    cases hnone
  · rw [hkeys]
    simp only [Bool.not_eq_true', Bool.and_eq_false_iff, not_or, Bool.not_eq_false,
      List.all_eq_true, decide_eq_true_eq]
    exact ⟨fun _ h => h, fun _ h => h⟩

/-- The scalar at a position inside the block of an object is one of its scalars. -/
theorem mem_scalarNames_block (coords : Coords) (objs : List ModelObject) (m : Nat) (o : ModelObject)
    (hm : objs[m]? = some o) (r : Nat) (hr : r < specSize coords o) (n : Str)
    (hn : (scalarNames coords objs)[offsetOf coords objs m + r]? = some n) :
    n ∈ scalarNames coords [o] := by
  have hsplit : objs = objs.take m ++ o :: objs.drop (m + 1) := by
    obtain ⟨hlt, hget⟩ := List.getElem?_eq_some_iff.1 hm
    rw [← hget, ← List.drop_eq_getElem_cons hlt, List.take_append_drop]
  have hoff : offsetOf coords objs m = (scalarNames coords (objs.take m)).length := by
    rw [length_scalarNames]; rfl
  have hlen : (scalarNames coords [o]).length = specSize coords o := by
    rw [length_scalarNames]; simp [totalSize]
  have hs : scalarNames coords objs = scalarNames coords (objs.take m) ++
      (scalarNames coords [o] ++ scalarNames coords (objs.drop (m + 1))) := by
    rw [← scalarNames_append, ← scalarNames_append]
    exact congrArg _ hsplit
  rw [hs, hoff, List.getElem?_append_right (by omega), Nat.add_sub_cancel_left,
    List.getElem?_append_left (by omega)] at hn
  exact List.mem_of_getElem? hn

/-- No scalar belongs to two objects. -/
theorem scalar_unique (coords : Coords) (objs : List ModelObject)
    (hN : (scalarNames coords objs).Nodup) (n : Str) :
    ∀ o ∈ objs, ∀ o' ∈ objs, n ∈ scalarNames coords [o] → n ∈ scalarNames coords [o'] → o = o' := by
  induction objs with
  | nil => intro o ho; cases ho
  | cons a objs ih =>
    have hs : scalarNames coords (a :: objs) = scalarNames coords [a] ++ scalarNames coords objs := by
      rw [← scalarNames_append]; rfl
    rw [hs, List.nodup_append] at hN
    have hsub : ∀ o ∈ objs, n ∈ scalarNames coords [o] → n ∈ scalarNames coords objs := by
      intro o ho hn
      unfold scalarNames at hn ⊢
      rw [List.mem_flatMap] at hn ⊢
      obtain ⟨o', ho', hn⟩ := hn
      rw [List.mem_singleton] at ho'
      exact ⟨o, ho, ho' ▸ hn⟩
    intro o ho o' ho' h1 h2
    rcases List.mem_cons.1 ho with rfl | ho2
    · rcases List.mem_cons.1 ho' with rfl | ho'
      · rfl
      · exact absurd rfl (hN.2.2 n h1 n (hsub o' ho' h2))
    · rcases List.mem_cons.1 ho' with rfl | ho'
      · exact absurd rfl (hN.2.2 n h2 n (hsub o (by assumption) h1))
      · exact ih hN.2.1 o (by assumption) o' (by assumption) h1 h2

theorem flatArrayToVariableDict_flatPairs {β : Type} (coords : Coords) (objs : List ModelObject)
    (hk : ∀ o ∈ objs, KnownDims coords o) (hn : (objs.map ModelObject.name).Nodup) (x : List β)
    (hx : x.length = totalSize coords objs) :
    flatArrayToVariableDict x objs coords = .ok (flatPairs coords objs x) := by
  rw [flatArrayToVariableDict, flatToDictLoop_ok _ _ _ hk _ _ (by omega), List.drop_zero]
  show Except.ok (dofPairs _) = _
  rw [dofPairs_of_nodup _ (by rw [map_fst_flatPairs]; exact hn)]

/-- What each scalar of the equations is replaced by. -/
def SlotOf (coords : Coords) (objs : List ModelObject) (m : Dict Str (Str × List Nat)) (n : Str) : Prop :=
  ∃ k j o idx, (scalarNames coords objs)[k]? = some n ∧ objs[j]? = some o ∧
    ValidIdx (specShape coords o) idx ∧
    offsetOf coords objs j + ravelIndex (specShape coords o) idx = k ∧ dget m n = some (o.name, idx)

theorem packedMap_slots (h : ScalarModel coords vars params)
    (huv : unpackGroup setList coords vars = .ok uv) (hup : unpackGroup setList coords params = .ok up)
    (names : List Str) (hnames : ∀ n ∈ names, n ∈ scalarNames coords (vars ++ params)) :
    ∃ m, makeUnpackedToPackedMap ((vars ++ params).map ModelObject.name) coords uv up names = .ok m ∧
      ∀ n ∈ names, SlotOf coords (vars ++ params) m n := by
  have hat : ∀ n ∈ names, ∃ k, (scalarNames coords (vars ++ params))[k]? = some n := fun n hn =>
    List.mem_iff_getElem?.1 (hnames n hn)
  obtain ⟨m, hm, hg⟩ := packedMap_ok (packedSlot ((vars ++ params).map ModelObject.name) coords uv up)
    names (fun n hn => by
      obtain ⟨k, hk⟩ := hat n hn
      obtain ⟨j, o, idx, -, -, -, hs⟩ := packedSlot_at h huv hup k n hk
      exact ⟨_, hs⟩)
  refine ⟨m, hm, fun n hn => ?_⟩
  obtain ⟨k, hk⟩ := hat n hn
  obtain ⟨j, o, idx, h1, h2, h3, h4⟩ := packedSlot_at h huv hup k n hk
  obtain ⟨s, hs, hd⟩ := hg n hn
  rw [h4] at hs
  cases hs
  exact ⟨k, j, o, idx, hk, h1, h2, h3, hd⟩

theorem packedMap_unknown (h : ScalarModel coords vars params)
    (huv : unpackGroup setList coords vars = .ok uv) (hup : unpackGroup setList coords params = .ok up)
    (names : List Str) (hnames : ∃ n ∈ names, n ∉ scalarNames coords (vars ++ params)) :
    makeUnpackedToPackedMap ((vars ++ params).map ModelObject.name) coords uv up names =
      .error .valueError := by
  unfold makeUnpackedToPackedMap
  rw [mapM_error_of _ .valueError]
  · rfl
  · intro n _
    by_cases hn : n ∈ scalarNames coords (vars ++ params)
    · obtain ⟨k, hk⟩ := List.mem_iff_getElem?.1 hn
      obtain ⟨j, o, idx, -, -, -, h4⟩ := packedSlot_at h huv hup k n hk
      left; rw [h4]; exact ⟨_, rfl⟩
    · right; rw [packedSlot_unknown h huv hup _ n hn]; rfl
  · obtain ⟨n, h1, h2⟩ := hnames
    exact ⟨n, h1, by rw [packedSlot_unknown h huv hup _ n h2]; rfl⟩

/-- The graphs of the equations read exactly the objects that occur in the equations. -/
theorem validateInputs_iff (h : ScalarModel coords vars params) (m : Dict Str (Str × List Nat))
    (eqs : List (SymExpr Str)) (hm : ∀ n ∈ eqs.flatMap atoms, SlotOf coords (vars ++ params) m n) :
    (validateInputs ((vars ++ params).map ModelObject.name) (eqs.map (packedGraph m)) = .ok () ∨
      validateInputs ((vars ++ params).map ModelObject.name) (eqs.map (packedGraph m)) =
        .error .valueError) ∧
    (validateInputs ((vars ++ params).map ModelObject.name) (eqs.map (packedGraph m)) = .ok () ↔
      ∀ o ∈ vars ++ params, ∃ e ∈ eqs, ∃ n ∈ e.atoms, n ∈ scalarNames coords [o]) := by
  have hatom : ∀ a, a ∈ (eqs.map (packedGraph m)).flatMap atoms ↔
      ∃ e ∈ eqs, ∃ n ∈ e.atoms, replaceScalar m n = a := by
    intro a
    rw [List.flatMap_map, List.mem_flatMap]
    constructor
    · rintro ⟨e, he, ha⟩
      obtain ⟨n, hn, hf⟩ := mem_atoms_mapAtoms _ _ _ ha
      exact ⟨e, he, n, hn, hf⟩
    · rintro ⟨e, he, n, hn, rfl⟩
      exact ⟨e, he, mem_mapAtoms_atoms _ _ _ hn⟩
  have hslot : ∀ e ∈ eqs, ∀ n ∈ e.atoms, ∃ o ∈ vars ++ params, ∃ idx,
      replaceScalar m n = .elem o.name idx ∧ n ∈ scalarNames coords [o] := by
    intro e he n hn
    obtain ⟨k, j, o, idx, h1, h2, h3, h4, h5⟩ := hm n (List.mem_flatMap.2 ⟨e, he, hn⟩)
    refine ⟨o, List.mem_of_getElem? h2, idx, by unfold replaceScalar; rw [h5], ?_⟩
    subst h4
    exact mem_scalarNames_block coords _ j o h2 _ (by simpa only [specSize] using ravelIndex_lt _ _ h3) n h1
  unfold validateInputs
  rw [if_neg (by rw [not_not]; exact h.names), if_neg]
  · have hkey : ((vars ++ params).map ModelObject.name).any (fun n =>
        !(((eqs.map (packedGraph m)).flatMap atoms).any fun a => a.input == some n)) = true ↔
        ¬ ∀ o ∈ vars ++ params, ∃ e ∈ eqs, ∃ n ∈ e.atoms, n ∈ scalarNames coords [o] := by
      rw [List.any_eq_true]
      push Not
      constructor
      · rintro ⟨b, hb, hno⟩
        obtain ⟨o, ho, rfl⟩ := List.mem_map.1 hb
        refine ⟨o, ho, fun e he n hn hno' => ?_⟩
        obtain ⟨o', ho', idx, hr, hmem⟩ := hslot e he n hn
        have := scalar_unique coords _ h.scalars n o ho o' ho' hno' hmem
        subst this
        rw [Bool.not_eq_true', List.any_eq_false] at hno
        exact hno (.elem o.name idx) ((hatom _).2 ⟨e, he, n, hn, hr⟩) (by simp [PtAtom.input])
      · rintro ⟨o, ho, hno⟩
        refine ⟨o.name, List.mem_map_of_mem ho, ?_⟩
        rw [Bool.not_eq_true', List.any_eq_false]
        intro a ha hin
        obtain ⟨e, he, n, hn, rfl⟩ := (hatom a).1 ha
        obtain ⟨o', ho', idx, hr, hmem⟩ := hslot e he n hn
        rw [hr] at hin
        have hname : o'.name = o.name := by simpa [PtAtom.input] using hin
        have : o' = o := List.inj_on_of_nodup_map h.names ho' ho hname
        subst this
        exact hno e he n hn hmem
    by_cases hu : ∀ o ∈ vars ++ params, ∃ e ∈ eqs, ∃ n ∈ e.atoms, n ∈ scalarNames coords [o]
    · rw [if_neg (by rw [hkey, not_not]; exact hu)]
      exact ⟨Or.inl rfl, fun _ => hu, fun _ => rfl⟩
    · rw [if_pos (by rw [hkey]; exact hu)]
      exact ⟨Or.inr rfl, fun h' => (nomatch h'), fun h' => absurd h' hu⟩
  · rw [List.any_eq_true]
    rintro ⟨a, ha, hnone⟩
    obtain ⟨e, he, n, hn, rfl⟩ := (hatom a).1 ha
    obtain ⟨o, -, idx, hr, -⟩ := hslot e he n hn
    rw [hr] at hnone
    cases hnone

end Verif
