import Verif.Model.Expand
import Verif.Lemmas.Flat

/-! # Helper lemmas about unpacking -/

namespace Verif

theorem pick_length {α : Type _} : ∀ (ls : List (List α)) (idx : List Nat) (v : List α),
    pick ls idx = some v → v.length = ls.length
  | [], [], v, h => by cases h; rfl
  | [], _ :: _, v, h => by cases h
  | _ :: _, [], v, h => by cases h
  | l :: ls, i :: is, v, h => by
      simp only [pick, Option.bind_eq_some_iff, Option.map_eq_some_iff] at h
      obtain ⟨a, _, w, hw, rfl⟩ := h
      simp [pick_length ls is w hw]

theorem pick_getElem? {α : Type _} : ∀ (ls : List (List α)) (idx : List Nat) (v : List α),
    pick ls idx = some v → ∀ (j : Nat) (l : List α), ls[j]? = some l → ∃ (i : Nat) (a : α), idx[j]? = some i ∧ l[i]? = some a ∧
      v[j]? = some a
  | [], [], v, h => by simp
  | [], _ :: _, v, h => by cases h
  | _ :: _, [], v, h => by cases h
  | l :: ls, i :: is, v, h => by
      simp only [pick, Option.bind_eq_some_iff, Option.map_eq_some_iff] at h
      obtain ⟨a, ha, w, hw, rfl⟩ := h
      intro j l' hj
      cases j with
      | zero => simp at hj; subst hj; exact ⟨i, a, by simp, ha, by simp⟩
      | succ j =>
        obtain ⟨i', a', h1, h2, h3⟩ := pick_getElem? ls is w hw j l' (by simpa using hj)
        exact ⟨i', a', by simpa using h1, h2, by simpa using h3⟩

theorem pick_mem_product {α : Type _} (ls : List (List α)) (idx : List Nat) (v : List α)
    (hv : ValidIdx (ls.map List.length) idx) (h : pick ls idx = some v) : v ∈ product ls := by
  have := product_ravel ls idx hv
  rw [h] at this
  exact List.mem_of_getElem? this

theorem updateAll_eq (o : ModelObject) (ps : List (Str × Str)) (h : ∀ p ∈ ps, p.1 ∈ o.dims) :
    updateAll o ps = .ok { o with dimVals := dupdate o.dimVals ps } := by
  induction ps generalizing o with
  | nil => rfl
  | cons p ps ih =>
    simp only [updateAll, updateDimValue, if_pos (h p (by simp)), bind, Except.bind]
    exact ih { o with dimVals := dset o.dimVals p.1 p.2 } (fun q hq => h q (by simp [hq]))

theorem mapM_labels (coords : Coords) (ds : List Str) (h : ∀ d ∈ ds, d ∈ dkeys coords) :
    ds.mapM (dgetE coords) = .ok (ds.map (labelsOf coords)) :=
  mapM_ok_of_forall _ _ _ fun d hd => dgetE_known (h d hd)

theorem mapM_labels_error (coords : Coords) (ds : List Str) (h : ∃ d ∈ ds, d ∉ dkeys coords) :
    ds.mapM (dgetE coords) = .error .keyError := by
  induction ds with
  | nil => simp at h
  | cons d ds ih =>
    rw [List.mapM_cons]
    by_cases hd : d ∈ dkeys coords
    · rw [dgetE_known hd, ih]
      · rfl
      · obtain ⟨e, he, hn⟩ := h
        rcases List.mem_cons.1 he with rfl | he
        · exact absurd hd hn
        · exact ⟨e, he, hn⟩
    · rw [dgetE_of_none ((dget_eq_none_iff _ _).2 hd)]
      rfl

theorem validateDims_sub (setList : List Str → List Str) (objDims ds : List Str) (mode : OnUnused)
    (h : ∀ d ∈ ds, d ∈ objDims) : validateDims setList objDims ds mode = .ok ds := by
  unfold validateDims
  rw [if_neg]
  simpa using h

theorem mem_zip_fst {α β : Type _} {l : List α} {l' : List β} {p : α × β} (h : p ∈ l.zip l') :
    p.1 ∈ l := by
  obtain ⟨a, b⟩ := p
  exact (List.of_mem_zip h).1

/-- Explicit result of expanding over requested dims. -/
theorem expandObj_eq (setList : List Str → List Str) (o : ModelObject) (coords : Coords)
    (ds : List Str) (mode : OnUnused) (hsub : ∀ d ∈ ds, d ∈ o.dims)
    (hk : ∀ d ∈ ds, d ∈ dkeys coords) :
    expandObjByIndices setList o coords (some ds) mode =
      .ok ((product (ds.map (labelsOf coords))).map fun ls =>
        { o with dimVals := dupdate o.dimVals (ds.zip ls) }) := by
  unfold expandObjByIndices
  rw [Option.getD_some, validateDims_sub _ _ _ _ hsub]
  simp only [bind, Except.bind]
  rw [mapM_labels _ _ hk]
  apply mapM_ok_of_forall
  intro ls _
  apply updateAll_eq
  intro p hp
  exact hsub _ (mem_zip_fst hp)

theorem dkeys_zip (ds ls : List Str) (h : ls.length = ds.length) : dkeys (ds.zip ls) = ds := by
  simp only [dkeys]
  exact List.map_fst_zip (by omega)

theorem dget_zip (ds ls : List Str) (hn : ds.Nodup) (h : ls.length = ds.length) (j : Nat) (d : Str)
    (hd : ds[j]? = some d) : dget (ds.zip ls) d = ls[j]? := by
  have hj : j < ds.length := (List.getElem?_eq_some_iff.1 hd).1
  have hj' : j < ls.length := by omega
  rw [List.getElem?_eq_getElem hj']
  apply dget_of_mem_nodup
  · rw [dkeys_zip _ _ h]; exact hn
  · have : (ds.zip ls)[j]? = some (d, ls[j]) := by
      rw [List.getElem?_zip_eq_some]
      exact ⟨hd, List.getElem?_eq_getElem hj'⟩
    exact List.mem_of_getElem? this

theorem length_of_mem_product {α : Type _} {ls : List (List α)} {x : List α} (h : x ∈ product ls) :
    x.length = ls.length := ((mem_product_iff _ _).1 h).1

theorem mapM_ok_pointwise {α β ε : Type _} (f : α → Except ε β) (l : List α) (r : List β)
    (hlen : r.length = l.length)
    (h : ∀ (j : Nat) a, l[j]? = some a → ∃ b, r[j]? = some b ∧ f a = .ok b) :
    l.mapM f = .ok r := by
  induction l generalizing r with
  | nil => rw [List.length_eq_zero_iff.1 hlen]; rfl
  | cons a l ih =>
    cases r with
    | nil => simp at hlen
    | cons b r =>
      obtain ⟨b', hb, hf⟩ := h 0 a rfl
      simp at hb; subst hb
      rw [List.mapM_cons, hf, ih r (by simpa using hlen)
        (fun j a' ha' => by simpa using h (j + 1) a' (by simpa using ha'))]
      rfl

theorem listIndex_of_nodup {l : List Str} {i : Nat} {a : Str} (hn : l.Nodup)
    (h : l[i]? = some a) : listIndex l a = .ok i := by
  obtain ⟨hi, ha⟩ := List.getElem?_eq_some_iff.1 h
  have : l.findIdx? (· == a) = some i := by
    rw [List.findIdx?_eq_some_iff_getElem]
    refine ⟨hi, by simp [ha], ?_⟩
    intro j hj hc
    have hc' : l[j] = a := by simpa using hc
    have := (List.getElem_inj hn).1 (hc'.trans ha.symm)
    omega
  unfold listIndex
  rw [this]

/-! ## Positions in a concatenation of blocks -/

theorem getElem?_flatten_block {α : Type _} (bs : List (List α)) (m : Nat) (b : List α)
    (hb : bs[m]? = some b) (i : Nat) (hi : i < b.length) :
    bs.flatten[((bs.take m).map List.length).sum + i]? = b[i]? := by
  induction bs generalizing m with
  | nil => simp at hb
  | cons c bs ih =>
    cases m with
    | zero =>
      simp at hb; subst hb
      simp only [List.take_zero, List.map_nil, List.sum_nil, Nat.zero_add, List.flatten_cons]
      rw [List.getElem?_append_left hi]
    | succ m =>
      simp only [List.take_succ_cons, List.map_cons, List.sum_cons, List.flatten_cons]
      rw [List.getElem?_append_right (by omega)]
      have := ih m (by simpa using hb)
      rw [← this]
      congr 1
      omega

/-! ## Unpacked names -/

theorem split_last_char (c : Char) (a b d e : Str) (hd : c ∉ d) (he : c ∉ e)
    (h : a ++ c :: d = b ++ c :: e) : a = b ∧ d = e := by
  have hr := congrArg List.reverse h
  simp only [List.reverse_append, List.reverse_cons, List.append_assoc, 
    List.cons_append, List.nil_append] at hr
  have key : ∀ (x y u v : Str), c ∉ x → c ∉ y → x ++ c :: u = y ++ c :: v → x = y ∧ u = v := by
    intro x
    induction x with
    | nil =>
      intro y u v _ hy h
      cases y with
      | nil => simpa using h
      | cons z y =>
        simp only [List.nil_append, List.cons_append, List.cons.injEq] at h
        exact absurd (by simp [h.1]) hy
    | cons w x ih =>
      intro y u v hx hy h
      cases y with
      | nil =>
        simp only [List.nil_append, List.cons_append, List.cons.injEq] at h
        exact absurd (by simp [h.1]) hx
      | cons z y =>
        simp only [List.cons_append, List.cons.injEq] at h
        simp only [List.mem_cons, not_or] at hx hy
        obtain ⟨h1, h2⟩ := ih y u v hx.2 hy.2 h.2
        exact ⟨by rw [h.1, h1], h2⟩
  obtain ⟨h1, h2⟩ := key _ _ _ _ (by simpa using hd) (by simpa using he) hr
  exact ⟨List.reverse_inj.1 h2, List.reverse_inj.1 h1⟩

/-- Text of a name followed by `_label` for each label. -/
def withLabels (n : Str) (ls : List Str) : Str := n ++ ls.flatMap ("_".toList ++ ·)

theorem joinStr_withLabels (n : Str) (ls : List Str) :
    joinStr "_".toList (n :: ls) = withLabels n ls := joinStr_cons _ _ _

theorem withLabels_concat (n : Str) (ls : List Str) (a : Str) :
    withLabels n (ls ++ [a]) = withLabels n ls ++ '_' :: a := by
  simp [withLabels]

/-- If all labels are free of `_`, equal texts have equal trailing labels. -/
theorem withLabels_cancel (n n' : Str) (ls ls' : List Str) (h1 : ∀ a ∈ ls, '_' ∉ a)
    (h2 : ∀ a ∈ ls', '_' ∉ a) (hle : ls'.length ≤ ls.length)
    (h : withLabels n ls = withLabels n' ls') :
    ∃ front, ls = front ++ ls' ∧ n' = withLabels n front := by
  have key : ∀ (k : Nat) (ls ls' : List Str), ls'.length = k → (∀ a ∈ ls, '_' ∉ a) →
      (∀ a ∈ ls', '_' ∉ a) → ls'.length ≤ ls.length → withLabels n ls = withLabels n' ls' →
      ∃ front, ls = front ++ ls' ∧ n' = withLabels n front := by
    intro k
    induction k with
    | zero =>
      intro ls ls' hk _ _ _ h
      have : ls' = [] := List.length_eq_zero_iff.1 hk
      subst this
      exact ⟨ls, by simp, by simpa [withLabels] using h.symm⟩
    | succ k ih =>
      intro ls ls' hk g1 g2 hle h
      have hne' : ls' ≠ [] := by rintro rfl; simp at hk
      have hne : ls ≠ [] := by rintro rfl; simp at hle; exact hne' hle
      have e1 := List.dropLast_concat_getLast hne
      have e2 := List.dropLast_concat_getLast hne'
      rw [← e1, ← e2, withLabels_concat, withLabels_concat] at h
      obtain ⟨h3, h4⟩ := split_last_char '_' _ _ _ _ (g1 _ (List.getLast_mem hne))
        (g2 _ (List.getLast_mem hne')) h
      obtain ⟨front, hf1, hf2⟩ := ih ls.dropLast ls'.dropLast (by simp; omega)
        (fun a ha => g1 a (List.dropLast_subset _ ha)) (fun a ha => g2 a (List.dropLast_subset _ ha))
        (by simp; omega) h3
      refine ⟨front, ?_, hf2⟩
      rw [← e1, ← e2, hf1, h4, List.append_assoc]
  exact key _ ls ls' rfl h1 h2 hle h

end Verif
