import Verif.Lemmas.Relabel
import Verif.Props.ReorderModels

/-!
# The equations of a model and the order of the labels
-/

namespace Verif

open RExpr

/-- What an index stands for when some dims have been given labels. -/
def bindGiven (g : Str → Option Str) : Str → SIdx := fun d =>
  match g d with
  | some l => sympifyLabel l
  | none => .idx d

/-- The scalar equations of a model: an equation with a label for each of its free indices. -/
def allChoices (coords : Coords) (numeraire : Option ModelObject) (eqs : List IndexedEq) :
    List (IndexedEq × (Str → Option Str)) :=
  eqs.flatMap fun q =>
    let ds := freeDims coords (numeraire.toList.map ModelObject.name) q.lhs q.rhs
    (product (ds.map (labelsOf coords))).map fun ls => (q, given ds ls)

/-- By how much one of them is off. -/
noncomputable def gapAt (coords : Coords) (numeraire : Option ModelObject) (objs : List ModelObject) (flat : List ℝ)
    (p : IndexedEq × (Str → Option Str)) : ℝ :=
  let entry := entryFixing coords (numeraire.toList.map ModelObject.name) objs flat
  p.1.lhs.value (fun x => entry x []) entry coords (bindGiven p.2) -
    p.1.rhs.value (fun x => entry x []) entry coords (bindGiven p.2)

theorem imbalances_choices (coords : Coords) (vars params : List ModelObject) (numeraire : Option ModelObject)
    (eqs : List IndexedEq) (flat : List ℝ) :
    imbalances coords vars params numeraire eqs flat =
      (allChoices coords numeraire eqs).map (gapAt coords numeraire (solvedVars numeraire vars ++ params) flat) := by
  unfold imbalances allChoices
  rw [List.map_flatMap]
  congr 1
  funext q
  rw [List.map_map]
  rfl

theorem names_choices (coords : Coords) (numeraire : Option ModelObject) (eqs : List IndexedEq) :
    eqs.flatMap (filledNames coords numeraire) =
      (allChoices coords numeraire eqs).map fun p => p.1.name.filled fun d => (p.2 d).getD [] := by
  unfold allChoices
  rw [List.map_flatMap]
  congr 1
  funext q
  rw [List.map_map]
  rfl

section
variable {coords coords₂ : Coords} {vars params : List ModelObject} {numeraire : Option ModelObject}
  {eqs : List IndexedEq}

theorem allChoices_perm (h : SameLabels coords coords₂) (hn : (dkeys coords).Nodup) :
    (allChoices coords₂ numeraire eqs).Perm (allChoices coords numeraire eqs) := by
  refine List.Perm.flatMap_left _ fun q _ => ?_
  have hp : (freeDims coords₂ (numeraire.toList.map ModelObject.name) q.lhs q.rhs).Perm
      (freeDims coords (numeraire.toList.map ModelObject.name) q.lhs q.rhs) := h.dims.filter _
  dsimp only
  exact ((h.product _).map _).trans
    (choices_perm (labelsOf coords) hp (freeDims_nodup hn _ _ _) fun g => (q, g))

theorem model_reads (h : IndexedModel coords vars params numeraire eqs) :
    ∀ o : ModelObject, ∀ ls ∈ product (o.dims.map (labelsOf coords)), ∀ l ∈ ls, ReadsBack l := by
  intro o ls hls l hl
  obtain ⟨d, -, hd⟩ := mem_product_label hls l hl
  exact (labels_readBack h.label_names d l hd).1

/-- Indices that stand for labels pick entries. -/
theorem bound_entries (ρ : Str → SIdx) (w : List SIdx) (dims : List Str)
    (hF : List.Forall₂ (fun s d =>
      (∃ i, s = .idx i ∧ i ∈ dkeys coords ∧ ∀ l ∈ labelsOf coords i, l ∈ labelsOf coords d) ∨
      (∃ l, s = sympifyLabel l ∧ l ∈ labelsOf coords d)) w dims)
    (hρ : ∀ d, SIdx.idx d ∈ w → StandsFor coords ρ d) :
    ∃ ls ∈ product (dims.map (labelsOf coords)), w.map (bindIdx ρ) = ls.map sympifyLabel := by
  induction hF with
  | nil => exact ⟨[], by simp [product], rfl⟩
  | @cons s d w dims hsd _ ih =>
    obtain ⟨ls', h1, h2⟩ := ih fun d hd => hρ d (List.mem_cons_of_mem _ hd)
    have hs : ∃ l ∈ labelsOf coords d, bindIdx ρ s = sympifyLabel l := by
      rcases hsd with ⟨i, rfl, -, hi⟩ | ⟨l, rfl, hl⟩
      · obtain ⟨l, hl, e⟩ := hρ i (by simp)
        exact ⟨l, hi l hl, e⟩
      · refine ⟨l, hl, ?_⟩
        cases hx : sympifyLabel l with
        | idx i => exact absurd hx (sympifyLabel_ne_idx _ _)
        | num n => rfl
        | lab l => rfl
    obtain ⟨l, hl, e⟩ := hs
    refine ⟨l :: ls', ?_, by rw [List.map_cons, List.map_cons, e, h2]⟩
    simp only [List.map_cons, product, List.mem_flatMap, List.mem_map]
    exact ⟨l, hl, ls', h1, rfl⟩

/-- One side of an equation. -/
theorem side_relabel (hl : SameLabels coords coords₂) {objs : List ModelObject}
    (s s₂ : List ℝ) (hs : SameEntries coords coords₂ objs s s₂) {e : RExpr}
    (hside : SideOK coords objs numeraire e) (hw : WholeRange coords e) (ρ : Str → SIdx)
    (hρ : ∀ d, hasFree (numeraire.toList.map ModelObject.name) d e = true → StandsFor coords ρ d) :
    let fixed := numeraire.toList.map ModelObject.name
    e.value (fun x => entryFixing coords₂ fixed objs s₂ x []) (entryFixing coords₂ fixed objs s₂) coords₂ ρ =
      e.value (fun x => entryFixing coords fixed objs s x []) (entryFixing coords fixed objs s) coords ρ := by
  intro fixed
  have memObjs : ∀ o ∈ objs ++ numeraire.toList, o.name ∉ fixed → o ∈ objs := by
    intro o ho hf
    rcases List.mem_append.1 ho with ho | ho
    · exact ho
    · exact absurd (List.mem_map.2 ⟨o, ho, rfl⟩) hf
  refine value_relabel hl fixed _ _ _ _ e hw ?_ ?_ ρ hρ
  · intro x hx
    unfold entryFixing
    by_cases hf : x ∈ fixed
    · rw [if_pos hf, if_pos hf]
    · rw [if_neg hf, if_neg hf]
      obtain ⟨o, ho, rfl, hd⟩ := hside.indexed.scalars x hx
      exact hs.2.2 o (memObjs o ho hf) [] (by rw [hd]; simp [product])
  · intro v hv ρ hρ
    unfold entryFixing
    by_cases hf : v.1 ∈ fixed
    · rw [if_pos hf, if_pos hf]
    · rw [if_neg hf, if_neg hf]
      obtain ⟨o, ho, hon, -, hF⟩ := hside.indexed.arrays v hv
      obtain ⟨ls, h1, h2⟩ := bound_entries ρ v.2 o.dims hF fun d hd => hρ d hf hd
      rw [h2, ← hon]
      exact hs.2.2 o (memObjs o ho (by rw [hon]; exact hf)) ls h1

theorem hasFree_known {e : RExpr} (fixed : List Str) (d : Str)
    (h : ∀ v ∈ e.indexeds, ∀ i, SIdx.idx i ∈ v.2 → i ∈ dkeys coords) (hd : hasFree fixed d e = true) :
    d ∈ dkeys coords := by
  induction e with
  | num q => cases hd
  | sym x => cases hd
  | indexed b ix =>
    simp only [hasFree, Bool.and_eq_true, List.contains_eq_mem, decide_eq_true_eq] at hd
    exact h (b, ix) (by simp [indexeds]) d hd.2
  | add a b iha ihb =>
    simp only [hasFree, Bool.or_eq_true] at hd
    rcases hd with hd | hd
    · exact iha (fun v hv => h v (by simp [indexeds, hv])) hd
    · exact ihb (fun v hv => h v (by simp [indexeds, hv])) hd
  | mul a b iha ihb =>
    simp only [hasFree, Bool.or_eq_true] at hd
    rcases hd with hd | hd
    · exact iha (fun v hv => h v (by simp [indexeds, hv])) hd
    · exact ihb (fun v hv => h v (by simp [indexeds, hv])) hd
  | pow a b iha ihb =>
    simp only [hasFree, Bool.or_eq_true] at hd
    rcases hd with hd | hd
    · exact iha (fun v hv => h v (by simp [indexeds, hv])) hd
    · exact ihb (fun v hv => h v (by simp [indexeds, hv])) hd
  | log a iha => exact iha h hd
  | exp a iha => exact iha h hd
  | red op body lims ih =>
    simp only [hasFree, Bool.and_eq_true] at hd
    exact ih h hd.1

theorem WellIndexed.known_idx {objs : List ModelObject} {e : RExpr} (h : WellIndexed coords objs e) :
    ∀ v ∈ e.indexeds, ∀ i, SIdx.idx i ∈ v.2 → i ∈ dkeys coords := by
  intro v hv i hi
  obtain ⟨o, -, -, -, hF⟩ := h.arrays v hv
  generalize v.2 = w at hF hi
  generalize o.dims = ds at hF
  induction hF with
  | nil => cases hi
  | @cons s d w ds hsd _ ih =>
    rcases List.mem_cons.1 hi with rfl | hi
    · rcases hsd with ⟨j, hj, hk, -⟩ | ⟨l, hl, -⟩
      · cases hj; exact hk
      · exact absurd hl.symm (sympifyLabel_ne_idx _ _)
    · exact ih hi

/-- One scalar equation is off by the same amount in both models. -/
theorem gapAt_relabel (h : IndexedModel coords vars params numeraire eqs) (hl : SameLabels coords coords₂)
    (hw : ∀ q ∈ eqs, WholeRange coords q.lhs ∧ WholeRange coords q.rhs) (s s₂ : List ℝ)
    (hs : SameEntries coords coords₂ (solvedVars numeraire vars ++ params) s s₂)
    (p : IndexedEq × (Str → Option Str)) (hp : p ∈ allChoices coords numeraire eqs) :
    gapAt coords₂ numeraire (solvedVars numeraire vars ++ params) s₂ p =
      gapAt coords numeraire (solvedVars numeraire vars ++ params) s p := by
  unfold allChoices at hp
  obtain ⟨q, hq, hp⟩ := List.mem_flatMap.1 hp
  obtain ⟨ls, hls, rfl⟩ := List.mem_map.1 hp
  have hnd := freeDims_nodup h.coords_nodup (numeraire.toList.map ModelObject.name) q.lhs q.rhs
  have stands : ∀ d ∈ freeDims coords (numeraire.toList.map ModelObject.name) q.lhs q.rhs,
      StandsFor coords (bindGiven (given (freeDims coords (numeraire.toList.map ModelObject.name) q.lhs q.rhs) ls))
        d := by
    intro d hd
    obtain ⟨j, hj⟩ := List.getElem?_of_mem hd
    have hlen : ls.length = (freeDims coords (numeraire.toList.map ModelObject.name) q.lhs q.rhs).length := by
      simpa using length_of_mem_product hls
    have hjl : j < ls.length := by rw [hlen]; exact (List.getElem?_eq_some_iff.1 hj).1
    have hg := dget_zip _ ls hnd hlen j d hj
    rw [List.getElem?_eq_getElem hjl] at hg
    refine ⟨ls[j], mem_labels_product hls j _ _ hj (List.getElem?_eq_getElem hjl), ?_⟩
    unfold bindGiven given
    rw [hg]
  obtain ⟨s1, s2⟩ := h.sides q hq
  have free : ∀ e, SideOK coords (solvedVars numeraire vars ++ params) numeraire e → (e = q.lhs ∨ e = q.rhs) →
      ∀ d, hasFree (numeraire.toList.map ModelObject.name) d e = true →
        d ∈ freeDims coords (numeraire.toList.map ModelObject.name) q.lhs q.rhs := by
    intro e he hor d hd
    refine List.mem_filter.2 ⟨hasFree_known _ d he.indexed.known_idx hd, ?_⟩
    rcases hor with rfl | rfl <;> simp [hd]
  unfold gapAt
  dsimp only
  rw [side_relabel hl s s₂ hs s1 (hw q hq).1 _ (fun d hd => stands d (free _ s1 (.inl rfl) d hd)),
    side_relabel hl s s₂ hs s2 (hw q hq).2 _ (fun d hd => stands d (free _ s2 (.inr rfl) d hd))]

/-- The scalar equations are off by the same amounts, in another order. -/
theorem imbalances_relabel (h : IndexedModel coords vars params numeraire eqs) (hl : SameLabels coords coords₂)
    (hw : ∀ q ∈ eqs, WholeRange coords q.lhs ∧ WholeRange coords q.rhs) (s s₂ : List ℝ)
    (hs : SameEntries coords coords₂ (solvedVars numeraire vars ++ params) s s₂) :
    imbalances coords₂ vars params numeraire eqs s₂ =
      (allChoices coords₂ numeraire eqs).map
        (gapAt coords numeraire (solvedVars numeraire vars ++ params) s) := by
  rw [imbalances_choices]
  exact List.map_congr_left fun p hp => gapAt_relabel h hl hw s s₂ hs p
    ((allChoices_perm hl h.coords_nodup).mem_iff.1 hp)

end

end Verif
