import Verif.Lemmas.Expand
import Verif.Props.Flat

/-!
# C05, C06, C34: unpacking indexed objects
-/

namespace Verif

/-- Python's insertion order of a set is not specified; the only thing known is that listing the set
of a duplicate-free list gives those elements in some order. -/
def SetLister (setList : List Str → List Str) : Prop := ∀ l : List Str, l.Nodup → (setList l).Perm l

/-! ## C34 -/

/-- **C34 (expansion).**  Expanding an object over requested dims that it has, each once and known to
coords, gives – whatever `on_unused_dim` is – one copy per combination of labels, the copy for
multi-index `idx` standing at the row-major position of `idx`: it has the name and dims of the
original, the label number `idx[j]` for the j-th requested dim, and the original value for every
other dim.  If no dim repeats a label, no copy occurs twice. -/
theorem C34_expand_row_major (setList : List Str → List Str) (o : ModelObject) (coords : Coords)
    (ds : List Str) (mode : OnUnused) (hnd : ds.Nodup) (hsub : ∀ d ∈ ds, d ∈ o.dims)
    (hk : ∀ d ∈ ds, d ∈ dkeys coords) :
    ∃ out, expandObjByIndices setList o coords (some ds) mode = .ok out ∧
      out.length = (ds.map fun d => (labelsOf coords d).length).prod ∧
      (∀ idx, ValidIdx (ds.map fun d => (labelsOf coords d).length) idx →
        ∃ u, out[ravelIndex (ds.map fun d => (labelsOf coords d).length) idx]? = some u ∧
          u.name = o.name ∧ u.dims = o.dims ∧
          (∀ (j : Nat) d, ds[j]? = some d → ∃ (i : Nat) (l : Str), idx[j]? = some i ∧
            (labelsOf coords d)[i]? = some l ∧ dget u.dimVals d = some l) ∧
          (∀ d, d ∉ ds → dget u.dimVals d = dget o.dimVals d)) ∧
      ((∀ d ∈ ds, (labelsOf coords d).Nodup) → out.Nodup) := by
  refine ⟨_, expandObj_eq setList o coords ds mode hsub hk, ?_, ?_, ?_⟩
  · rw [List.length_map, length_product, List.map_map]; rfl
  · intro idx hidx
    have hsh : (ds.map (labelsOf coords)).map List.length
        = ds.map fun d => (labelsOf coords d).length := by rw [List.map_map]; rfl
    rw [← hsh] at hidx ⊢
    obtain ⟨v, hv⟩ := Option.isSome_iff_exists.1 (pick_isSome _ _ hidx)
    have hlen : v.length = ds.length := by simpa using pick_length _ _ _ hv
    have hdu : ∀ d, dget (dupdate o.dimVals (ds.zip v)) d = (dget (ds.zip v) d).or (dget o.dimVals d) :=
      fun d => dget_dupdate _ _ (by rw [dkeys_zip _ _ hlen]; exact hnd) d
    refine ⟨{ o with dimVals := dupdate o.dimVals (ds.zip v) }, ?_, rfl, rfl, ?_, ?_⟩
    · rw [List.getElem?_map, product_ravel _ _ hidx, hv]; rfl
    · intro j d hd
      obtain ⟨i, l, h1, h2, h3⟩ := pick_getElem? _ _ _ hv j (labelsOf coords d) (by simp [hd])
      refine ⟨i, l, h1, h2, ?_⟩
      show dget (dupdate o.dimVals (ds.zip v)) d = some l
      rw [hdu, dget_zip ds v hnd hlen j d hd, h3]
      rfl
    · intro d hd
      show dget (dupdate o.dimVals (ds.zip v)) d = _
      rw [hdu, (dget_eq_none_iff _ _).2 (by rw [dkeys_zip _ _ hlen]; exact hd)]
      rfl
  · intro hl
    rw [List.nodup_iff_pairwise_ne, List.pairwise_map]
    have hp : (product (ds.map (labelsOf coords))).Nodup :=
      nodup_product _ (by simpa using hl)
    refine List.Pairwise.imp_of_mem ?_ hp
    intro a b ha hb hab heq
    apply hab
    have hla : a.length = ds.length := by simpa using length_of_mem_product ha
    have hlb : b.length = ds.length := by simpa using length_of_mem_product hb
    have heq' : dupdate o.dimVals (ds.zip a) = dupdate o.dimVals (ds.zip b) := by
      injection heq
    apply List.ext_getElem? 
    intro j
    rcases Nat.lt_or_ge j ds.length with hj | hj
    · have hd : ds[j]? = some ds[j] := List.getElem?_eq_getElem hj
      have h1 := dget_dupdate o.dimVals (ds.zip a) (by rw [dkeys_zip _ _ hla]; exact hnd) ds[j]
      have h2 := dget_dupdate o.dimVals (ds.zip b) (by rw [dkeys_zip _ _ hlb]; exact hnd) ds[j]
      rw [dget_zip ds a hnd hla j _ hd, List.getElem?_eq_getElem (by omega : j < a.length)] at h1
      rw [dget_zip ds b hnd hlb j _ hd, List.getElem?_eq_getElem (by omega : j < b.length)] at h2
      rw [heq', h2] at h1
      rw [List.getElem?_eq_getElem (by omega : j < a.length),
        List.getElem?_eq_getElem (by omega : j < b.length)]
      simpa using h1.symm
    · rw [List.getElem?_eq_none (by omega), List.getElem?_eq_none (by omega)]

example : expandObjByIndices id { name := "X", dims := ["i", "j"] } exCoords (some ["j"]) .raise
    = .ok ([{ name := "X", dims := ["i", "j"], dimVals := [("j", "u")] },
      { name := "X", dims := ["i", "j"], dimVals := [("j", "v")] },
      { name := "X", dims := ["i", "j"], dimVals := [("j", "w")] }] : List ModelObject) := by decide

/-- **C34 (errors).**  A requested dim that the object does not have raises `ValueError` with
`on_unused_dim="raise"`; a dim of the object for which coords has no labels raises `KeyError`. -/
theorem C34_errors (setList : List Str → List Str) (o : ModelObject) (coords : Coords)
    (ds : List Str) (mode : OnUnused) :
    ((∃ d ∈ ds, d ∉ o.dims) →
      expandObjByIndices setList o coords (some ds) .raise = .error .valueError) ∧
    ((∀ d ∈ ds, d ∈ o.dims) → (∃ d ∈ ds, d ∉ dkeys coords) →
      expandObjByIndices setList o coords (some ds) mode = .error .keyError) := by
  constructor
  · rintro ⟨d, hd, hn⟩
    unfold expandObjByIndices validateDims
    rw [Option.getD_some, if_pos]
    · rfl
    · simp only [List.any_eq_true, decide_eq_true_eq]; exact ⟨d, hd, hn⟩
  · intro h1 h2
    unfold expandObjByIndices
    rw [Option.getD_some, validateDims_sub _ _ _ _ h1]
    simp only [bind, Except.bind, mapM_labels_error _ _ h2]

example : ∃ d ∈ (["i", "k"] : List Str), d ∉ ({ name := "X", dims := ["i"] } : ModelObject).dims := by
  decide

/-- **C34 (skipping).**  With `on_unused_dim="ignore"` the dims that the object does not have are
skipped: the result is the expansion over the remaining dims.  Missing: their order is that of a
Python set, so it need not be the requested order, see the next theorem. -/
theorem C34_ignore_partial (setList : List Str → List Str) (hset : SetLister setList)
    (o : ModelObject) (coords : Coords) (ds : List Str) (hnd : ds.Nodup) :
    ∃ ks, ks.Perm (ds.filter fun d => decide (d ∈ o.dims)) ∧
      expandObjByIndices setList o coords (some ds) .ignore
        = expandObjByIndices setList o coords (some ks) .raise := by
  by_cases h : ∀ d ∈ ds, d ∈ o.dims
  · refine ⟨ds, ?_, ?_⟩
    · rw [List.filter_eq_self.2 (by simpa using h)]
    · unfold expandObjByIndices
      simp only [Option.getD_some, validateDims_sub _ _ _ _ h]
  · refine ⟨setList (ds.filter fun d => decide (d ∈ o.dims)), hset _ (hnd.filter _), ?_⟩
    have hsub : ∀ d ∈ setList (ds.filter fun d => decide (d ∈ o.dims)), d ∈ o.dims := by
      intro d hd
      have := (hset _ (hnd.filter _)).mem_iff.1 hd
      simpa using (List.mem_filter.1 this).2
    have h' : ds.any (fun d => decide (d ∉ o.dims)) = true := by
      simpa [List.any_eq_true] using h
    unfold expandObjByIndices
    simp only [Option.getD_some, validateDims_sub _ _ _ _ hsub]
    unfold validateDims
    rw [if_pos h']

example : SetLister List.reverse := fun l _ => l.reverse_perm

/-- **C34 (negation: order).**  With an unused dim among the requested ones the order of the result
depends on the order in which the interpreter lists a set: for the listing that reverses, the second
copy is not the one at multi-index `(0, 1)`. -/
theorem C34_ignore_loses_order :
    ∃ setList, SetLister setList ∧ ∃ out u,
      expandObjByIndices setList { name := "X", dims := ["i", "j"] } exCoords
        (some ["i", "j", "k"]) .ignore = .ok out ∧ out[1]? = some u ∧
      dget u.dimVals "i".toList = some "b".toList ∧ dget u.dimVals "j".toList = some "u".toList :=
  ⟨List.reverse, fun l _ => l.reverse_perm, _, _, rfl, rfl, by decide, by decide⟩

/-- **C34 (negation: repeated dims).**  When a dim is listed twice – as on `Variable("S", dims="i,i")`
– every copy is labelled by one label only, and copies occur several times. -/
theorem C34_repeated_dim_not_distinct :
    ∃ out, expandObjByIndices id { name := "S", dims := ["i", "i"] } exCoords none .raise = .ok out ∧
      out.length = 4 ∧ ¬ out.Nodup :=
  ⟨_, rfl, by decide, by decide⟩

/-! ## C05 -/

/-- What unpacking a list of declared objects gives: the copy for object `m` and multi-index `idx`
stands at the address that the flat vector has for it. -/
theorem unpackObjects_address (setList : List Str → List Str) (coords : Coords)
    (objs : List ModelObject) (hk : ∀ o ∈ objs, KnownDims coords o)
    (hnd : ∀ o ∈ objs, o.dims.Nodup) (hfresh : ∀ o ∈ objs, o.dimVals = []) :
    ∃ us, unpackObjects setList coords objs = .ok us ∧ us.length = totalSize coords objs ∧
      us = objs.flatMap (fun o => (product (o.dims.map (labelsOf coords))).map fun ls =>
        { o with dimVals := o.dims.zip ls }) ∧
      ∀ m o idx, objs[m]? = some o → ValidIdx (specShape coords o) idx →
        ∃ u, us[offsetOf coords objs m + ravelIndex (specShape coords o) idx]? = some u ∧
          u.name = o.name ∧ u.dims = o.dims ∧
          (∀ (j : Nat) d, o.dims[j]? = some d → ∃ (i : Nat) (l : Str), idx[j]? = some i ∧
            (labelsOf coords d)[i]? = some l ∧ dget u.dimVals d = some l) := by
  have hexp : ∀ o ∈ objs, expandObjByIndices setList o coords none .ignore
      = .ok ((product (o.dims.map (labelsOf coords))).map fun ls =>
        { o with dimVals := o.dims.zip ls }) := by
    intro o ho
    have h1 := expandObj_eq setList o coords o.dims .ignore (fun d h => h) (hk o ho)
    have h2 : expandObjByIndices setList o coords none .ignore
        = expandObjByIndices setList o coords (some o.dims) .ignore := rfl
    rw [h2, h1]
    congr 1
    apply List.map_congr_left
    intro ls hls
    have hl : ls.length = o.dims.length := by simpa using length_of_mem_product hls
    rw [hfresh o ho, show dupdate [] (o.dims.zip ls) = o.dims.zip ls from
      dofPairs_of_nodup _ (by rw [show (o.dims.zip ls).map Prod.fst = o.dims from dkeys_zip _ _ hl];
                              exact hnd o ho)]
  have hm := mapM_ok_of_forall _ _ objs hexp
  let B : ModelObject → List ModelObject := fun o =>
    (product (o.dims.map (labelsOf coords))).map fun ls => { o with dimVals := o.dims.zip ls }
  have hBlen : ∀ o, (B o).length = specSize coords o := by
    intro o
    simp only [B, List.length_map, length_product, specSize, specShape, List.map_map]
    rfl
  refine ⟨(objs.map B).flatten, ?_, ?_, ?_, ?_⟩
  · unfold unpackObjects; rw [hm]; rfl
  · rw [List.length_flatten, List.map_map, totalSize]
    congr 1
    apply List.map_congr_left
    intro o _
    exact hBlen o
  · rw [List.flatMap_def]
  · intro m o idx ho hidx
    have ho' : o ∈ objs := List.mem_of_getElem? ho
    obtain ⟨out, h1, h2, h3, _⟩ := C34_expand_row_major setList o coords o.dims .ignore (hnd o ho')
      (fun d h => h) (hk o ho')
    have hout : out = B o := by
      have h4 := hexp o ho'
      have h5 : expandObjByIndices setList o coords none .ignore
        = expandObjByIndices setList o coords (some o.dims) .ignore := rfl
      rw [h5, h1] at h4
      exact Except.ok.inj h4
    obtain ⟨u, hu, g1, g2, g3, _⟩ := h3 idx hidx
    refine ⟨u, ?_, g1, g2, g3⟩
    have hlt : ravelIndex (specShape coords o) idx < (B o).length := by
      rw [hBlen]; exact ravelIndex_lt _ _ hidx
    have hoff : offsetOf coords objs m = (((objs.map B).take m).map List.length).sum := by
      simp only [offsetOf, totalSize, ← List.map_take, List.map_map]
      congr 1
      apply List.map_congr_left
      intro o _
      exact (hBlen o).symm
    rw [hoff, getElem?_flatten_block (objs.map B) m (B o) (by simp [ho]) _ hlt, ← hout]
    exact hu

/-- **C05 (objects).**  For every declared group and data set: the k-th unpacked object is a copy of
the declared object that owns position `k` of the flat vector, its labels are those at the multi-index
which row-major order assigns to `k`, and `x[k]` is the element of that object's array there. -/
theorem C05_position_denotes {α : Type _} (setList : List Str → List Str) (coords : Coords)
    (vars params : List ModelObject) (d : Dict Str (NDArray α))
    (hk : ∀ o ∈ vars ++ params, KnownDims coords o)
    (hnd : ∀ o ∈ vars ++ params, o.dims.Nodup) (hfresh : ∀ o ∈ vars ++ params, o.dimVals = [])
    (hd : ∀ o ∈ vars ++ params, DataFor coords d o)
    (x theta : List α) (hpack : variableDictToFlatArray d vars params = .ok (x, theta)) :
    ∀ group flat, (group, flat) = (vars, x) ∨ (group, flat) = (params, theta) →
      ∃ us, unpackObjects setList coords group = .ok us ∧ us.length = flat.length ∧
        ∀ (k : Nat) v, flat[k]? = some v → ∃ u a idx, us[k]? = some u ∧ dget d u.name = some a ∧
          a.at? idx = some v ∧
          ∀ (j : Nat) dim, u.dims[j]? = some dim → ∃ (i : Nat) (l : Str), idx[j]? = some i ∧
            (labelsOf coords dim)[i]? = some l ∧ dget u.dimVals dim = some l := by
  obtain ⟨a1, a2, l1, l2⟩ := C02_element_address coords vars params d hd x theta hpack
  suffices H : ∀ (group : List ModelObject) (flat : List α), (∀ o ∈ group, o ∈ vars ++ params) →
      (∀ m o idx, group[m]? = some o → ValidIdx (specShape coords o) idx →
        ∃ a v, dget d o.name = some a ∧ a.at? idx = some v ∧
          flat[offsetOf coords group m + ravelIndex (specShape coords o) idx]? = some v) →
      flat.length = totalSize coords group →
      ∃ us, unpackObjects setList coords group = .ok us ∧ us.length = flat.length ∧
        ∀ (k : Nat) v, flat[k]? = some v → ∃ u a idx, us[k]? = some u ∧ dget d u.name = some a ∧
          a.at? idx = some v ∧
          ∀ (j : Nat) dim, u.dims[j]? = some dim → ∃ (i : Nat) (l : Str), idx[j]? = some i ∧
            (labelsOf coords dim)[i]? = some l ∧ dget u.dimVals dim = some l by
    rintro group flat (h | h)
    · cases h; exact H _ _ (fun o h => List.mem_append_left _ h) a1 l1
    · cases h; exact H _ _ (fun o h => List.mem_append_right _ h) a2 l2
  intro group flat hsub haddr hlen
  obtain ⟨us, h1, h2, _, h3⟩ := unpackObjects_address setList coords group
    (fun o ho => hk o (hsub o ho)) (fun o ho => hnd o (hsub o ho)) (fun o ho => hfresh o (hsub o ho))
  refine ⟨us, h1, by omega, ?_⟩
  intro k v hkv
  have hk' : k < totalSize coords group := by
    rw [← hlen]; exact (List.getElem?_eq_some_iff.1 hkv).1
  obtain ⟨m, o, idx, hm, hidx, hp, _⟩ := C02_address_bijective coords group k hk'
  obtain ⟨u, hu, g1, g2, g3⟩ := h3 m o idx hm hidx
  obtain ⟨a, v', e1, e2, e3⟩ := haddr m o idx hm hidx
  rw [hp] at hu e3
  rw [hkv] at e3
  cases e3
  refine ⟨u, a, idx, hu, by rw [g1]; exact e1, e2, ?_⟩
  intro j dim hj
  rw [g2] at hj
  exact g3 j dim hj

example : (∀ o ∈ exVars ++ exParams, o.dims.Nodup) ∧ (∀ o ∈ exVars ++ exParams, o.dimVals = []) := by
  decide

/-- **C05 (names).**  If the generated names are distinct (see C06), the dict of unpacked objects has
exactly one entry per position of the flat vector, in that order, under the generated name.
Missing: colliding names, see `C05_collision_misaligns`. -/
theorem C05_names_in_order_partial (setList : List Str → List Str) (coords : Coords)
    (objs us : List ModelObject) (hus : unpackObjects setList coords objs = .ok us)
    (hdistinct : (us.map makeIndexedName).Nodup) :
    ∃ D, unpackGroup setList coords objs = .ok D ∧ dkeys D = us.map makeIndexedName ∧
      dvalues D = us := by
  refine ⟨(us.map makeIndexedName).zip us, ?_, ?_, ?_⟩
  · unfold unpackGroup
    rw [hus]
    simp only [Except.map]
    rw [dofPairs_of_nodup]
    rw [List.map_fst_zip (by simp)]
    exact hdistinct
  · simp only [dkeys]; rw [List.map_fst_zip (by simp)]
  · simp only [dvalues]; rw [List.map_snd_zip (by simp)]

example : unpackGroup id exCoords [{ name := "P" }, { name := "Q", dims := ["i"] }]
    = .ok ([("P", { name := "P" }),
      ("Q_a", { name := "Q", dims := ["i"], dimVals := [("i", "a")] }),
      ("Q_b", { name := "Q", dims := ["i"], dimVals := [("i", "b")] })] : Dict Str ModelObject) := by
  decide

/-- **C05 (negation).**  With labels containing `_` two scalars can get the same name; the first
position then carries the labels of the last element, and later positions are shifted. -/
theorem C05_collision_misaligns :
    ∃ (coords : Coords) (o : ModelObject) (D : Dict Str ModelObject),
      KnownDims coords o ∧ o.dims.Nodup ∧ totalSize coords [o] = 4 ∧
      unpackGroup id coords [o] = .ok D ∧ D.length = 3 ∧
      (∃ u, (dvalues D)[0]? = some u ∧ dget u.dimVals "i".toList = some "a_b".toList ∧
        dget u.dimVals "j".toList = some "c".toList) :=
  ⟨[("i", ["a", "a_b"]), ("j", ["b_c", "c"])], { name := "x", dims := ["i", "j"] }, _, by decide,
    by decide, by decide, rfl, by decide, _, rfl, by decide, by decide⟩

/-- **C05 (pytensor).**  The integer index by which `make_unpacked_to_packed_map` picks the element of
the packed tensor is the multi-index of the unpacked object, provided labels are not repeated. -/
theorem C05_packed_index (coords : Coords) (u : ModelObject) (idx : List Nat)
    (hk : KnownDims coords u) (hlen : idx.length = u.dims.length)
    (hl : ∀ dim ∈ u.dims, (labelsOf coords dim).Nodup)
    (hlab : ∀ (j : Nat) dim, u.dims[j]? = some dim → ∃ (i : Nat) (l : Str), idx[j]? = some i ∧
      (labelsOf coords dim)[i]? = some l ∧ dget u.dimVals dim = some l) :
    packedIndex coords u = .ok idx := by
  unfold packedIndex
  apply mapM_ok_pointwise _ _ _ hlen
  intro j dim hj
  obtain ⟨i, l, h1, h2, h3⟩ := hlab j dim hj
  have hm : dim ∈ u.dims := List.mem_of_getElem? hj
  refine ⟨i, h1, ?_⟩
  rw [dgetE_known (hk dim hm), dgetE_of_some h3]
  simp only [bind, Except.bind]
  exact listIndex_of_nodup (hl dim hm) h2

example : packedIndex exCoords { name := "X", dims := ["i", "j"], dimVals := [("i", "b"), ("j", "u")] }
    = .ok [1, 0] := by decide

/-! ## C06 -/

/-- The combinations of labels of the first `n` dims of an object. -/
def leadingLabels (coords : Coords) (o : ModelObject) (n : Nat) : List (List Str) :=
  product ((o.dims.take n).map (labelsOf coords))

/-- **C06.**  If labels are not repeated within a dim and contain no `_`, and no declared name is
another declared name followed by `_label` for labels of its leading dims (as many as it has more dims
than the other), then distinct (object, labels) pairs get distinct names and the unpacked group has
as many entries as the declared objects have elements.
Missing: everything else, see `C06_collisions`. -/
theorem C06_no_merge_partial (setList : List Str → List Str) (coords : Coords)
    (objs : List ModelObject) (hk : ∀ o ∈ objs, KnownDims coords o)
    (hnd : ∀ o ∈ objs, o.dims.Nodup) (hfresh : ∀ o ∈ objs, o.dimVals = [])
    (hnames : (objs.map ModelObject.name).Nodup)
    (hlab : ∀ o ∈ objs, ∀ d ∈ o.dims, (labelsOf coords d).Nodup ∧ ∀ l ∈ labelsOf coords d, '_' ∉ l)
    (hclash : ∀ o ∈ objs, ∀ o' ∈ objs, ∀ n, n + o'.dims.length = o.dims.length → 0 < n →
      ∀ ls ∈ leadingLabels coords o n, o'.name ≠ joinStr "_".toList (o.name :: ls)) :
    ∃ us D, unpackObjects setList coords objs = .ok us ∧ (us.map makeIndexedName).Nodup ∧
      unpackGroup setList coords objs = .ok D ∧ D.length = totalSize coords objs := by
  obtain ⟨us, h1, h2, h3, _⟩ := unpackObjects_address setList coords objs hk hnd hfresh
  have hname : us.map makeIndexedName = objs.flatMap fun o =>
      (product (o.dims.map (labelsOf coords))).map fun ls => withLabels o.name ls := by
    rw [h3, List.map_flatMap]
    congr 1
    funext o
    rw [List.map_map]
    apply List.map_congr_left
    intro ls hls
    have hl : ls.length = o.dims.length := by simpa using length_of_mem_product hls
    show joinStr _ (o.name :: dvalues (o.dims.zip ls)) = _
    rw [joinStr_withLabels]
    congr 1
    exact List.map_snd_zip (by omega)
  have hfree : ∀ o ∈ objs, ∀ ls ∈ product (o.dims.map (labelsOf coords)), ∀ a ∈ ls, '_' ∉ a := by
    intro o ho ls hls a ha
    obtain ⟨hl, hz⟩ := (mem_product_iff _ _).1 hls
    obtain ⟨j, hj, hja⟩ := List.getElem_of_mem ha
    have hj' : j < o.dims.length := by simpa [hl] using hj
    have := hz (a, labelsOf coords o.dims[j]) (by
      apply List.mem_of_getElem? (i := j)
      rw [List.getElem?_zip_eq_some]
      refine ⟨by rw [List.getElem?_eq_getElem hj, hja], ?_⟩
      simp [List.getElem?_eq_getElem hj'])
    exact (hlab o ho _ (List.getElem_mem hj')).2 a this
  have hpre : ∀ o ∈ objs, ∀ ls ∈ product (o.dims.map (labelsOf coords)), ∀ front back,
      ls = front ++ back → front ∈ leadingLabels coords o front.length := by
    intro o ho ls hls front back hfb
    obtain ⟨hl, hz⟩ := (mem_product_iff _ _).1 hls
    have hlen : front.length + back.length = o.dims.length := by
      have : ls.length = o.dims.length := by simpa using hl
      rw [hfb, List.length_append] at this; exact this
    unfold leadingLabels
    rw [mem_product_iff]
    refine ⟨by simp; omega, ?_⟩
    intro p hp
    obtain ⟨j, hj, hjp⟩ := List.getElem_of_mem hp
    apply hz p
    apply List.mem_of_getElem? (i := j)
    rw [List.getElem?_zip_eq_some]
    have hj2 : j < front.length := by
      simp only [List.length_zip] at hj; omega
    have hp' : (front.zip ((o.dims.take front.length).map (labelsOf coords)))[j]? = some p := by
      rw [List.getElem?_eq_getElem hj, hjp]
    rw [List.getElem?_zip_eq_some] at hp'
    refine ⟨?_, ?_⟩
    · rw [hfb, List.getElem?_append_left hj2]; exact hp'.1
    · rw [← hp'.2, List.map_take, List.getElem?_take_of_lt hj2]
  have hdist : (us.map makeIndexedName).Nodup := by
    rw [hname, List.nodup_iff_pairwise_ne, List.pairwise_flatMap]
    constructor
    · intro o ho
      rw [List.pairwise_map]
      have hp : (product (o.dims.map (labelsOf coords))).Nodup :=
        nodup_product _ (by
          intro l hl
          obtain ⟨d, hd, rfl⟩ := List.mem_map.1 hl
          exact (hlab o ho d hd).1)
      refine List.Pairwise.imp_of_mem ?_ hp
      intro a b ha hb hab heq
      obtain ⟨front, hf, _⟩ := withLabels_cancel _ _ a b (hfree o ho a ha) (hfree o ho b hb)
        (by rw [length_of_mem_product ha, length_of_mem_product hb]; exact Nat.le_refl _) heq
      have : front = [] := by
        have hl := congrArg List.length hf
        rw [List.length_append, length_of_mem_product ha, length_of_mem_product hb] at hl
        exact List.length_eq_zero_iff.1 (by omega)
      rw [this] at hf
      exact hab (by simpa using hf)
    · have hpw : objs.Pairwise fun a b => a.name ≠ b.name := by
        rw [List.nodup_iff_pairwise_ne, List.pairwise_map] at hnames
        exact hnames
      refine List.Pairwise.imp_of_mem ?_ hpw
      intro o o' ho ho' hne x hx y hy heq
      obtain ⟨ls, hls, rfl⟩ := List.mem_map.1 hx
      obtain ⟨ls', hls', rfl⟩ := List.mem_map.1 hy
      have len1 : ls.length = o.dims.length := by simpa using length_of_mem_product hls
      have len2 : ls'.length = o'.dims.length := by simpa using length_of_mem_product hls'
      have main : ∀ (o o' : ModelObject) (ls ls' : List Str), o ∈ objs → o' ∈ objs →
          ls ∈ product (o.dims.map (labelsOf coords)) →
          ls' ∈ product (o'.dims.map (labelsOf coords)) → ls.length = o.dims.length →
          ls'.length = o'.dims.length → ls'.length ≤ ls.length → o.name ≠ o'.name →
          withLabels o.name ls = withLabels o'.name ls' → False := by
        intro o o' ls ls' ho ho' hls hls' len1 len2 hle hne heq
        obtain ⟨front, hf1, hf2⟩ := withLabels_cancel _ _ ls ls' (hfree o ho ls hls)
          (hfree o' ho' ls' hls') hle heq
        cases hfr : front with
        | nil => rw [hfr] at hf2; exact hne (by simpa [withLabels] using hf2.symm)
        | cons f fs =>
          have hlen := congrArg List.length hf1
          rw [List.length_append] at hlen
          apply hclash o ho o' ho' front.length (by omega) (by rw [hfr]; simp) front
            (hpre o ho ls hls front ls' hf1)
          rw [joinStr_withLabels]
          exact hf2
      rcases Nat.le_total ls'.length ls.length with hle | hle
      · exact main o o' ls ls' ho ho' hls hls' len1 len2 hle hne heq
      · exact main o' o ls' ls ho' ho hls' hls len2 len1 hle (Ne.symm hne) heq.symm
  obtain ⟨D, d1, d2, d3⟩ := C05_names_in_order_partial setList coords objs us h1 hdist
  refine ⟨us, D, h1, hdist, d1, ?_⟩
  rw [← h2, ← d3]
  simp [dvalues]

/-- `P_X` is a scalar, `P` is indexed by sectors `a`, `b`; no clash. -/
example :
    let objs : List ModelObject := [{ name := "P_X" }, { name := "P", dims := ["i"] }]
    ∀ o ∈ objs, ∀ o' ∈ objs, ∀ n, n + o'.dims.length = o.dims.length → 0 < n →
      ∀ ls ∈ leadingLabels exCoords o n, o'.name ≠ joinStr "_".toList (o.name :: ls) := by
  intro objs o ho o' ho' n hn hpos
  have h1 : n ≤ 1 := by
    have : ∀ o ∈ objs, o.dims.length ≤ 1 := by decide
    have := this o ho
    omega
  have h2 : n = 1 := by omega
  subst h2
  revert o o'
  decide

/-- **C06 (negation).**  Distinct scalars can get the same name, and then one of them is lost: with
labels containing `_`, and – without any `_` in labels – when a scalar is called like an element of
another variable. -/
theorem C06_collisions :
    (∃ (coords : Coords) (objs : List ModelObject) (D : Dict Str ModelObject),
      (∀ o ∈ objs, KnownDims coords o ∧ o.dims.Nodup) ∧ (objs.map ModelObject.name).Nodup ∧
      (∀ o ∈ objs, ∀ d ∈ o.dims, (labelsOf coords d).Nodup) ∧ objs.length = 1 ∧
      unpackGroup id coords objs = .ok D ∧ D.length < totalSize coords objs) ∧
    (∃ (coords : Coords) (objs : List ModelObject) (D : Dict Str ModelObject),
      (∀ o ∈ objs, KnownDims coords o ∧ o.dims.Nodup) ∧ (objs.map ModelObject.name).Nodup ∧
      (∀ o ∈ objs, ∀ d ∈ o.dims, ∀ l ∈ labelsOf coords d, '_' ∉ l) ∧
      unpackGroup id coords objs = .ok D ∧ D.length < totalSize coords objs) :=
  ⟨⟨[("i", ["a", "a_b"]), ("j", ["b_c", "c"])], [{ name := "x", dims := ["i", "j"] }], _, by decide,
    by decide, by decide, rfl, rfl, by decide⟩,
   ⟨[("i", ["a", "b"])], [{ name := "x", dims := ["i"] }, { name := "x_a" }], _, by decide, by decide,
    by decide, rfl, by decide⟩⟩

/-- **C06 (negation: repeated dims).**  A variable declared over `i, i` (an n × n matrix) is unpacked
into n scalars only. -/
theorem C06_repeated_dim_loses_scalars :
    ∃ D, unpackGroup id exCoords [{ name := "S", dims := ["i", "i"] }] = .ok D ∧ D.length = 2 ∧
      totalSize exCoords [{ name := "S", dims := ["i", "i"] }] = 4 :=
  ⟨_, rfl, by decide, by decide⟩

end Verif
