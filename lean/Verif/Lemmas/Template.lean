import Verif.Spec.Template
import Verif.Lemmas.Expand

/-! # Lemmas about marker search and replacement -/

namespace Verif

theorem marker_eq (d : Str) : marker d = '<' :: ("dim:".toList ++ d ++ ">".toList) := rfl

/-- A marker that is a prefix of another marker's text is that marker. -/
theorem marker_prefix {d d' s : Str} (h1 : '>' ∉ d) (h2 : '>' ∉ d')
    (h : (marker d').isPrefixOf (marker d ++ s) = true) : d' = d := by
  rw [List.isPrefixOf_iff_prefix] at h
  obtain ⟨r, hr⟩ := h
  unfold marker at hr
  simp only [List.append_assoc] at hr
  have hr := List.append_cancel_left hr
  have key : ∀ (x y u v : Str), '>' ∉ x → '>' ∉ y → x ++ ('>' :: u) = y ++ ('>' :: v) → x = y := by
    intro x
    induction x with
    | nil =>
      intro y u v _ hy h
      cases y with
      | nil => rfl
      | cons z y =>
        simp only [List.nil_append, List.cons_append, List.cons.injEq] at h
        exact absurd (List.mem_cons.2 (Or.inl h.1)) hy
    | cons w x ih =>
      intro y u v hx hy h
      cases y with
      | nil =>
        simp only [List.nil_append, List.cons_append, List.cons.injEq] at h
        exact absurd (by simp [h.1]) hx
      | cons z y =>
        simp only [List.cons_append, List.cons.injEq] at h
        simp only [List.mem_cons, not_or] at hx hy
        rw [h.1, ih y u v hx.2 hy.2 h.2]
  exact key d' d _ _ h2 h1 hr

theorem marker_isPrefixOf_self (d s : Str) : (marker d).isPrefixOf (marker d ++ s) = true := by
  rw [List.isPrefixOf_iff_prefix]; exact List.prefix_append _ _

theorem marker_not_prefix_of_head (d s : Str) (c : Char) (hc : c ≠ '<') :
    (marker d).isPrefixOf (c :: s) = false := by
  rw [marker_eq]
  simp [List.isPrefixOf, Ne.symm hc]

theorem Template.clean_cons {s : Seg} {t : Template} (h : Template.Clean (s :: t)) :
    Template.Clean t := fun x hx => h x (by simp [hx])

/-! ## Searching -/

theorem findMarkersGo_lit (alts : List Str) (a s : Str) (ha : '<' ∉ a) :
    findMarkersGo alts 0 (a ++ s) = findMarkersGo alts 0 s := by
  induction a with
  | nil => rfl
  | cons c a ih =>
    simp only [List.mem_cons, not_or] at ha
    rw [List.cons_append, findMarkersGo]
    have : alts.find? (fun d => (marker d).isPrefixOf (c :: (a ++ s))) = none := by
      rw [List.find?_eq_none]
      intro d _
      rw [marker_not_prefix_of_head _ _ _ (Ne.symm ha.1)]
      simp
    rw [this]
    exact ih ha.2

theorem findMarkersGo_skip (alts : List Str) (a s : Str) :
    findMarkersGo alts a.length (a ++ s) = findMarkersGo alts 0 s := by
  induction a with
  | nil => rfl
  | cons c a ih => simpa [findMarkersGo] using ih

theorem findMarkersGo_marker (alts : List Str) (d s : Str) (hd : d ∈ alts) (hgt : '>' ∉ d)
    (hall : ∀ d' ∈ alts, '>' ∉ d') :
    findMarkersGo alts 0 (marker d ++ s) = d :: findMarkersGo alts 0 s := by
  have hfind : alts.find? (fun d' => (marker d').isPrefixOf (marker d ++ s)) = some d := by
    cases hf : alts.find? (fun d' => (marker d').isPrefixOf (marker d ++ s)) with
    | none =>
      rw [List.find?_eq_none] at hf
      exact absurd (marker_isPrefixOf_self d s) (hf d hd)
    | some d' =>
      have h1 := List.find?_some hf
      have h2 := List.mem_of_find?_eq_some hf
      rw [marker_prefix hgt (hall d' h2) h1]
  have hlen : (marker d).length - 1 = ("dim:".toList ++ d ++ ">".toList).length := by
    rw [marker_eq]; simp
  rw [marker_eq, List.cons_append, findMarkersGo]
  rw [marker_eq, List.cons_append] at hfind
  rw [hfind]
  simp only [hlen]
  rw [findMarkersGo_skip]

theorem findMarkers_text (dims : List Str) (t : Template) (hc : t.Clean)
    (hd : ∀ d ∈ t.dims, d ∈ dims) (hall : ∀ d ∈ dims, '>' ∉ d) :
    findMarkers dims t.text = t.dims := by
  unfold findMarkers
  by_cases hdims : dims = []
  · -- no dims: the template has no markers
    subst hdims
    have key : ∀ t : Template, t.Clean → (∀ d ∈ t.dims, d ∈ ([] : List Str)) →
        findMarkersGo [[]] 0 t.text = t.dims := by
      intro t
      induction t with
      | nil => intros; rfl
      | cons s t ih =>
        intro hc hd
        cases s with
        | lit a =>
          have ha : '<' ∉ a := hc (.lit a) (by simp)
          show findMarkersGo _ 0 (a ++ Template.text t) = Template.dims t
          rw [findMarkersGo_lit _ _ _ ha]
          exact ih (Template.clean_cons hc) hd
        | dim d => exact absurd (hd d (by simp [Template.dims])) (by simp)
    exact key t hc hd
  · rw [if_neg hdims]
    induction t with
    | nil => rfl
    | cons s t ih =>
      cases s with
      | lit a =>
        have ha : '<' ∉ a := hc (.lit a) (by simp)
        show findMarkersGo _ 0 (a ++ Template.text t) = Template.dims t
        rw [findMarkersGo_lit _ _ _ ha]
        exact ih (Template.clean_cons hc) hd
      | dim d =>
        have h1 : '<' ∉ d ∧ '>' ∉ d := hc (.dim d) (by simp)
        show findMarkersGo _ 0 (marker d ++ Template.text t) = d :: Template.dims t
        rw [findMarkersGo_marker _ _ _ (hd d (by simp [Template.dims])) h1.2 hall]
        congr 1
        exact ih (Template.clean_cons hc) (fun d' hd' => hd d' (by
          simp only [Template.dims, List.filterMap_cons] at *
          simp [hd']))

/-! ## Replacing -/

/-- The template with the markers of `d` replaced by the plain text `v`. -/
def Template.subst (t : Template) (d v : Str) : Template :=
  t.map fun
    | .lit s => .lit s
    | .dim d' => if d' = d then .lit v else .dim d'

theorem Template.subst_clean {t : Template} {d v : Str} (hc : t.Clean) (hv : '<' ∉ v) :
    (t.subst d v).Clean := by
  intro s hs
  obtain ⟨s', hs', rfl⟩ := List.mem_map.1 hs
  cases s' with
  | lit a => exact hc _ hs'
  | dim d' =>
    dsimp only
    by_cases h : d' = d
    · rw [if_pos h]; exact hv
    · rw [if_neg h]; exact hc _ hs'

theorem replaceAll_copy_marker (d d' v s : Str) (h1 : '<' ∉ d' ∧ '>' ∉ d') (h2 : '>' ∉ d)
    (hne : d' ≠ d) :
    replaceAll (marker d) v (marker d' ++ s) = marker d' ++ replaceAll (marker d) v s := by
  have hhead : (marker d).head? = some '<' := rfl
  have hrest : '<' ∉ "dim:".toList ++ d' ++ ">".toList := by
    simp [h1.1]
  rw [marker_eq d', List.cons_append, replaceAll_cons_of_not_prefix]
  · rw [replaceAll_copy _ _ _ _ '<' hhead hrest]; rfl
  · cases hp : (marker d).isPrefixOf ('<' :: ("dim:".toList ++ d' ++ ">".toList ++ s)) with
    | false => rfl
    | true => exact absurd (marker_prefix (s := s) h1.2 h2 hp).symm hne

theorem replaceAll_text (t : Template) (d v : Str) (hc : t.Clean) (hd : '>' ∉ d) :
    replaceAll (marker d) v t.text = (t.subst d v).text := by
  induction t with
  | nil => rfl
  | cons s t ih =>
    have ih := ih (Template.clean_cons hc)
    cases s with
    | lit a =>
      have ha : '<' ∉ a := hc (.lit a) (by simp)
      show replaceAll _ v (a ++ Template.text t) = a ++ Template.text (Template.subst t d v)
      rw [replaceAll_copy _ _ _ _ '<' rfl ha, ih]
    | dim d' =>
      have h1 : '<' ∉ d' ∧ '>' ∉ d' := hc (.dim d') (by simp)
      show replaceAll _ v (marker d' ++ Template.text t) = _
      by_cases h : d' = d
      · subst h
        rw [replaceAll_pat _ _ _ (by rw [marker_eq]; simp), ih]
        simp [Template.text, Template.subst]
      · rw [replaceAll_copy_marker _ _ _ _ h1 hd h, ih]
        simp [Template.text, Template.subst, h, marker]

/-- Replace every dim that has a value. -/
def Template.substDict (t : Template) (ds : List Str) (vals : Dict Str Str) : Template :=
  t.map fun
    | .lit s => .lit s
    | .dim d => if d ∈ ds then match dget vals d with
        | some v => .lit v
        | none => .dim d
      else .dim d

theorem prettyPrint_text (t : Template) (ds : List Str) (vals : Dict Str Str) (hc : t.Clean)
    (hd : ∀ d ∈ ds, '>' ∉ d) (hv : ∀ d v, dget vals d = some v → '<' ∉ v) :
    prettyPrint t.text ds vals = (t.substDict ds vals).text := by
  unfold prettyPrint
  induction ds generalizing t with
  | nil =>
    have : t.substDict [] vals = t := by
      unfold Template.substDict
      conv => rhs; rw [← List.map_id t]
      apply List.map_congr_left
      intro s _
      cases s <;> simp
    rw [this]; rfl
  | cons d ds ih =>
    rw [List.foldl_cons]
    cases hg : dget vals d with
    | none =>
      dsimp only
      rw [ih t hc (fun d' h => hd d' (by simp [h]))]
      congr 1
      unfold Template.substDict
      apply List.map_congr_left
      intro s _
      cases s with
      | lit a => rfl
      | dim d' =>
        dsimp only
        by_cases h : d' = d
        · subst h; simp [hg]
        · simp [h]
    | some v =>
      dsimp only
      rw [replaceAll_text t d v hc (hd d (by simp)),
        ih _ (Template.subst_clean hc (hv d v hg)) (fun d' h => hd d' (by simp [h]))]
      congr 1
      unfold Template.substDict Template.subst
      rw [List.map_map]
      apply List.map_congr_left
      intro s _
      cases s with
      | lit a => rfl
      | dim d' =>
        simp only [Function.comp]
        by_cases h : d' = d
        · subst h; simp [hg]
        · simp [h]

theorem substDict_filled (t : Template) (ds : List Str) (vals : Dict Str Str) (label : Str → Str)
    (h : ∀ d ∈ t.dims, d ∈ ds ∧ dget vals d = some (label d)) :
    (t.substDict ds vals).text = t.filled label := by
  induction t with
  | nil => rfl
  | cons s t ih =>
    cases s with
    | lit a =>
      show a ++ Template.text (Template.substDict t ds vals) = a ++ Template.filled t label
      rw [ih h]
    | dim d =>
      obtain ⟨h1, h2⟩ := h d (by simp [Template.dims])
      have : Template.substDict (.dim d :: t) ds vals
          = .lit (label d) :: Template.substDict t ds vals := by
        simp [Template.substDict, h1, h2]
      rw [this]
      show label d ++ Template.text (Template.substDict t ds vals) = label d ++ Template.filled t label
      rw [ih (fun d' hd' => h d' (by
          simp only [Template.dims, List.filterMap_cons] at *
          simp [hd']))]

end Verif
