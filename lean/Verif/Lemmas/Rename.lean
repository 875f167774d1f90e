import Verif.Lemmas.RelabelModel

/-!
# The same model with other names for its objects, dims and labels
-/

namespace Verif

open RExpr

/-! ### What is compared -/

/-- New names for the objects, the dims and the labels; different ones get different names. -/
structure Renaming where
  object : Str → Str
  dim : Str → Str
  label : Str → Str
  object_inj : Function.Injective object
  dim_inj : Function.Injective dim
  label_inj : Function.Injective label

namespace Renaming

/-- An index, or a label picked in an equation. -/
def index (r : Renaming) : SIdx → SIdx
  | .idx i => .idx (r.dim i)
  | s => sympifyLabel (r.label (labelText s))

/-- An expression; the limits of sums and products are positions and stay. -/
def expr (r : Renaming) : RExpr → RExpr
  | .num q => .num q
  | .sym x => .sym (r.object x)
  | .indexed b ix => .indexed (r.object b) (ix.map r.index)
  | .add a b => .add (r.expr a) (r.expr b)
  | .mul a b => .mul (r.expr a) (r.expr b)
  | .pow a b => .pow (r.expr a) (r.expr b)
  | .log a => .log (r.expr a)
  | .exp a => .exp (r.expr a)
  | .red op body lims => .red op (r.expr body) (lims.map fun l => ⟨r.dim l.i, l.lo, l.stop⟩)

/-- An equation; in its name only the dims are replaced. -/
def equation (r : Renaming) (q : IndexedEq) : IndexedEq :=
  ⟨q.name.map fun
    | .lit s => .lit s
    | .dim d => .dim (r.dim d), r.expr q.lhs, r.expr q.rhs⟩

def coords (r : Renaming) (c : Coords) : Coords := c.map fun p => (r.dim p.1, p.2.map r.label)

def obj (r : Renaming) (o : ModelObject) : ModelObject :=
  { o with name := r.object o.name, dims := o.dims.map r.dim }

end Renaming

/-! ### Layout -/

section
variable (r : Renaming) {coords : Coords}

theorem dget_rename (d : Str) : dget (r.coords coords) (r.dim d) = (dget coords d).map (List.map r.label) := by
  induction coords with
  | nil => rfl
  | cons p c ih =>
    by_cases h : p.1 = d
    · simp [Renaming.coords, dget, h]
    · have h' : ¬ r.dim p.1 = r.dim d := fun e => h (r.dim_inj e)
      unfold Renaming.coords at ih ⊢
      simp only [List.map_cons, dget, if_neg h, if_neg h'] at ih ⊢
      exact ih

theorem labelsOf_rename (d : Str) : labelsOf (r.coords coords) (r.dim d) = (labelsOf coords d).map r.label := by
  unfold labelsOf
  rw [dget_rename]
  cases dget coords d <;> rfl

theorem dkeys_rename : dkeys (r.coords coords) = (dkeys coords).map r.dim := by
  unfold dkeys Renaming.coords
  rw [List.map_map, List.map_map]
  rfl

theorem specShape_rename (o : ModelObject) : specShape (r.coords coords) (r.obj o) = specShape coords o := by
  unfold specShape Renaming.obj
  dsimp only
  rw [List.map_map]
  refine List.map_congr_left fun d _ => ?_
  simp only [Function.comp_apply]
  rw [labelsOf_rename, List.length_map]

theorem totalSize_rename (objs : List ModelObject) :
    totalSize (r.coords coords) (objs.map r.obj) = totalSize coords objs := by
  unfold totalSize specSize
  rw [List.map_map]
  congr 1
  refine List.map_congr_left fun o _ => ?_
  simp only [Function.comp_apply]
  rw [specShape_rename]

theorem solvedVars_rename (numeraire : Option ModelObject) (vars : List ModelObject) :
    solvedVars (numeraire.map r.obj) (vars.map r.obj) = (solvedVars numeraire vars).map r.obj := by
  unfold solvedVars
  rw [List.filter_map]
  congr 1
  refine List.filter_congr fun o _ => ?_
  cases numeraire with
  | none => rfl
  | some n =>
    have : r.object o.name = r.object n.name ↔ o.name = n.name := r.object_inj.eq_iff
    simp [Renaming.obj, this]

theorem fixed_rename (numeraire : Option ModelObject) :
    (numeraire.map r.obj).toList.map ModelObject.name = (numeraire.toList.map ModelObject.name).map r.object := by
  cases numeraire <;> rfl

theorem idxOf_map_inj {α β : Type _} [BEq α] [LawfulBEq α] [BEq β] [LawfulBEq β]
    {f : α → β} (hf : Function.Injective f)
    (l : List α) (x : α) : (l.map f).idxOf (f x) = l.idxOf x := by
  induction l with
  | nil => rfl
  | cons a l ih =>
    rw [List.map_cons, List.idxOf_cons, List.idxOf_cons, ih]
    by_cases h : a = x
    · simp [h]
    · rw [beq_eq_false_iff_ne.2 h, beq_eq_false_iff_ne.2 fun e => h (hf e)]

/-- The entry for the renamed labels. -/
theorem arrayEntry_rename (objs : List ModelObject) (flat : List ℝ) (b : Str) (w : List SIdx)
    (hw : ∀ s ∈ w, labelText (r.index s) = r.label (labelText s)) :
    arrayEntry (r.coords coords) (objs.map r.obj) flat (r.object b) (w.map r.index) =
      arrayEntry coords objs flat b w := by
  unfold arrayEntry
  have hf : (objs.map r.obj).findIdx? (fun o => o.name = r.object b) = objs.findIdx? (fun o => o.name = b) := by
    rw [List.findIdx?_map]
    congr 1
    funext o
    simp only [Function.comp_apply, Renaming.obj, r.object_inj.eq_iff]
  rw [hf]
  cases objs.findIdx? (fun o => o.name = b) with
  | none => rfl
  | some m =>
    dsimp only
    congr 2
    · unfold offsetOf
      rw [← List.map_take, totalSize_rename]
    · rw [List.getElem?_map]
      cases objs[m]? with
      | none => rfl
      | some o =>
        simp only [Option.map_some, Option.getD_some]
        rw [specShape_rename]
        congr 1
        show List.zipWith _ (o.dims.map r.dim) _ = _
        rw [List.zipWith_map]
        generalize o.dims = ds
        induction ds generalizing w with
        | nil => rfl
        | cons d ds ih =>
          cases w with
          | nil => rfl
          | cons s w =>
            rw [List.zipWith_cons_cons, List.zipWith_cons_cons, ih w fun s hs => hw s (by simp [hs]),
              hw s (by simp), labelsOf_rename, idxOf_map_inj r.label_inj]

end

/-! ### Values -/

section
variable (r : Renaming) {coords : Coords}

theorem index_label {l : Str} (h : ReadsBack l) : r.index (sympifyLabel l) = sympifyLabel (r.label l) := by
  have h' : labelText (sympifyLabel l) = l := h
  cases hx : sympifyLabel l with
  | idx i => exact absurd hx (sympifyLabel_ne_idx _ _)
  | num n => rw [hx] at h'; simp only [Renaming.index, h']
  | lab m => rw [hx] at h'; simp only [Renaming.index, h']

theorem bindIdx_label (η : Str → SIdx) (l : Str) : bindIdx η (sympifyLabel l) = sympifyLabel l := by
  cases hx : sympifyLabel l with
  | idx i => exact absurd hx (sympifyLabel_ne_idx _ _)
  | num n => rfl
  | lab m => rfl

theorem bind_index (η η₂ : Str → SIdx) (hη : ∀ i, η₂ (r.dim i) = r.index (η i)) (s : SIdx) :
    bindIdx η₂ (r.index s) = r.index (bindIdx η s) := by
  cases s with
  | idx i => exact hη i
  | num n => exact bindIdx_label _ _
  | lab m => exact bindIdx_label _ _

theorem limLabels_rename (l : Lim) :
    limLabels (r.coords coords) ⟨r.dim l.i, l.lo, l.stop⟩ = (limLabels coords l).map r.label := by
  unfold limLabels
  rw [dget_rename]
  cases dget coords l.i with
  | none => simp
  | some ls => simp [List.map_take, List.map_drop]

theorem limLabels_mem {l : Lim} {x : Str} (h : x ∈ limLabels coords l) : x ∈ labelsOf coords l.i ∧ l.lo < l.stop := by
  unfold limLabels at h
  refine ⟨List.mem_of_mem_drop (List.mem_of_mem_take h), ?_⟩
  by_contra hc
  have : l.stop - l.lo = 0 := by omega
  rw [this] at h
  simp at h

theorem overLims_rename (hread : ∀ d, ∀ l ∈ labelsOf coords d, ReadsBack l) (op : RedOp) (η : Str → SIdx)
    (lims : List Lim) :
    ∀ (S : List Str) (F F₂ : (Str → SIdx) → ℝ),
      (∀ θ θ₂, (∀ l ∈ lims, l.lo < l.stop) → (∀ d ∈ lims.map Lim.i ++ S, StandsFor coords θ d) →
        (∀ d, d ∉ lims.map Lim.i ++ S → θ d = η d) → (∀ i, θ₂ (r.dim i) = r.index (θ i)) → F₂ θ₂ = F θ) →
      ∀ θ θ₂, (∀ d ∈ S, StandsFor coords θ d) → (∀ d, d ∉ S → θ d = η d) → (∀ i, θ₂ (r.dim i) = r.index (θ i)) →
        overLims (fun l => (limLabels (r.coords coords) l).map sympifyLabel) op
            (lims.map fun l => ⟨r.dim l.i, l.lo, l.stop⟩) F₂ θ₂ =
          overLims (fun l => (limLabels coords l).map sympifyLabel) op lims F θ := by
  induction lims with
  | nil => intro S F F₂ hF θ θ₂ h1 h2 h3; exact hF θ θ₂ (by simp) h1 h2 h3
  | cons l ls ih =>
    intro S F F₂ hF θ θ₂ h1 h2 h3
    simp only [List.map_cons, overLims]
    refine ih S _ _ ?_ θ θ₂ h1 h2 h3
    intro θ θ₂ g0 g1 g2 g3
    rw [limLabels_rename]
    congr 1
    rw [List.map_map, List.map_map, List.map_map]
    refine List.map_congr_left fun x hx => ?_
    obtain ⟨hx, hlt⟩ := limLabels_mem hx
    simp only [Function.comp_apply]
    refine hF _ _ ?_ ?_ ?_ ?_
    · intro l' hl'
      rcases List.mem_cons.1 hl' with rfl | hl'
      · exact hlt
      · exact g0 l' hl'
    · intro d hd
      by_cases hdl : d = l.i
      · exact ⟨x, by rw [hdl]; exact hx, by simp [setEnv, hdl]⟩
      · have hd' : d ∈ ls.map Lim.i ++ S := by
          simpa [hdl] using hd
        obtain ⟨l', k1, k2⟩ := g1 d hd'
        exact ⟨l', k1, by simp only [setEnv, if_neg hdl, k2]⟩
    · intro d hd
      have hdl : d ≠ l.i := by
        rintro rfl
        exact hd (by simp)
      simp only [setEnv, if_neg hdl]
      exact g2 d fun hm => hd (by rw [List.map_cons, List.cons_append]; exact List.mem_cons_of_mem _ hm)
    · intro i
      by_cases hi : i = l.i
      · subst hi
        simp only [setEnv, if_true]
        exact (index_label r (hread _ x hx)).symm
      · simp only [setEnv, if_neg hi, if_neg fun e => hi (r.dim_inj e)]
        exact g3 i

theorem value_rename (hread : ∀ d, ∀ l ∈ labelsOf coords d, ReadsBack l) (fixed : List Str)
    (σ σ₂ : Str → ℝ) (A A₂ : Str → List SIdx → ℝ) (e : RExpr)
    (hs : ∀ x ∈ e.syms, σ₂ (r.object x) = σ x)
    (hA : ∀ v ∈ e.indexeds, ∀ ρ : Str → SIdx,
      (∀ d, v.1 ∉ fixed → SIdx.idx d ∈ v.2 → StandsFor coords ρ d) →
        A₂ (r.object v.1) ((v.2.map (bindIdx ρ)).map r.index) = A v.1 (v.2.map (bindIdx ρ)))
    (ρ ρ₂ : Str → SIdx) (hr : ∀ i, ρ₂ (r.dim i) = r.index (ρ i))
    (hρ : ∀ d, hasFree fixed d e = true → StandsFor coords ρ d) :
    (r.expr e).value σ₂ A₂ (r.coords coords) ρ₂ = e.value σ A coords ρ := by
  induction e generalizing ρ ρ₂ with
  | num q => rfl
  | sym x => exact hs x (by simp [syms])
  | indexed b ix =>
    show A₂ (r.object b) ((ix.map r.index).map (bindIdx ρ₂)) = A b (ix.map (bindIdx ρ))
    rw [← hA (b, ix) (by simp [indexeds]) ρ fun d hd hm => hρ d (by
      simp only [hasFree, Bool.and_eq_true, Bool.not_eq_true', List.contains_eq_mem, decide_eq_true_eq,
        decide_eq_false_iff_not]
      exact ⟨hd, hm⟩)]
    congr 1
    rw [List.map_map, List.map_map]
    exact List.map_congr_left fun s _ => bind_index r ρ ρ₂ hr s
  | add a b iha ihb =>
    simp only [Renaming.expr, RExpr.value]
    rw [iha (fun x hx => hs x (by simp [syms, hx])) (fun v hv => hA v (by simp [indexeds, hv])) ρ ρ₂ hr
        (fun d hd => hρ d (by simp [hasFree, hd])),
      ihb (fun x hx => hs x (by simp [syms, hx])) (fun v hv => hA v (by simp [indexeds, hv])) ρ ρ₂ hr
        (fun d hd => hρ d (by simp [hasFree, hd]))]
  | mul a b iha ihb =>
    simp only [Renaming.expr, RExpr.value]
    rw [iha (fun x hx => hs x (by simp [syms, hx])) (fun v hv => hA v (by simp [indexeds, hv])) ρ ρ₂ hr
        (fun d hd => hρ d (by simp [hasFree, hd])),
      ihb (fun x hx => hs x (by simp [syms, hx])) (fun v hv => hA v (by simp [indexeds, hv])) ρ ρ₂ hr
        (fun d hd => hρ d (by simp [hasFree, hd]))]
  | pow a b iha ihb =>
    simp only [Renaming.expr, RExpr.value]
    rw [iha (fun x hx => hs x (by simp [syms, hx])) (fun v hv => hA v (by simp [indexeds, hv])) ρ ρ₂ hr
        (fun d hd => hρ d (by simp [hasFree, hd])),
      ihb (fun x hx => hs x (by simp [syms, hx])) (fun v hv => hA v (by simp [indexeds, hv])) ρ ρ₂ hr
        (fun d hd => hρ d (by simp [hasFree, hd]))]
  | log a iha =>
    simp only [Renaming.expr, RExpr.value]
    rw [iha hs hA ρ ρ₂ hr hρ]
  | exp a iha =>
    simp only [Renaming.expr, RExpr.value]
    rw [iha hs hA ρ ρ₂ hr hρ]
  | red op body lims ih =>
    simp only [Renaming.expr, RExpr.value]
    refine overLims_rename r hread op ρ lims [] _ _ ?_ ρ ρ₂ (by simp) (fun _ _ => rfl) hr
    intro θ θ₂ g0 g1 g2 g3
    rw [List.append_nil] at g1 g2
    refine ih hs hA θ θ₂ g3 fun d hd => ?_
    by_cases hdl : d ∈ lims.map Lim.i
    · exact g1 d hdl
    · have : StandsFor coords ρ d := by
        refine hρ d ?_
        simp only [hasFree, hd, Bool.true_and, List.all_eq_true, Bool.and_eq_true, bne_iff_ne, ne_eq,
          decide_eq_true_eq]
        intro l hl
        exact ⟨fun e => hdl (List.mem_map.2 ⟨l, hl, e⟩), g0 l hl⟩
      obtain ⟨x, hx, e⟩ := this
      exact ⟨x, hx, by rw [g2 d hdl, e]⟩

theorem hasFree_rename (fixed : List Str) (d : Str) (e : RExpr) :
    hasFree (fixed.map r.object) (r.dim d) (r.expr e) = hasFree fixed d e := by
  induction e with
  | num q => rfl
  | sym x => rfl
  | indexed b ix =>
    simp only [Renaming.expr, hasFree, List.contains_eq_mem]
    have h1 : r.object b ∈ fixed.map r.object ↔ b ∈ fixed := List.mem_map_of_injective r.object_inj
    have h2 : SIdx.idx (r.dim d) ∈ ix.map r.index ↔ SIdx.idx d ∈ ix := by
      constructor
      · intro h
        obtain ⟨s, hs, e⟩ := List.mem_map.1 h
        cases s with
        | idx i => cases r.dim_inj (SIdx.idx.inj e); exact hs
        | num n => exact absurd e (sympifyLabel_ne_idx _ _)
        | lab m => exact absurd e (sympifyLabel_ne_idx _ _)
      · intro h
        exact List.mem_map.2 ⟨_, h, rfl⟩
    simp only [h1, h2]
  | add a b iha ihb => simp only [Renaming.expr, hasFree, iha, ihb]
  | mul a b iha ihb => simp only [Renaming.expr, hasFree, iha, ihb]
  | pow a b iha ihb => simp only [Renaming.expr, hasFree, iha, ihb]
  | log a iha => simp only [Renaming.expr, hasFree, iha]
  | exp a iha => simp only [Renaming.expr, hasFree, iha]
  | red op body lims ih =>
    simp only [Renaming.expr, hasFree, ih, List.all_map]
    congr 2
    funext l
    simp only [Function.comp_apply]
    by_cases h : l.i = d
    · simp [h]
    · rw [bne_iff_ne.2 h, bne_iff_ne.2 fun e => h (r.dim_inj e)]

theorem freeDims_rename (fixed : List Str) (a b : RExpr) :
    freeDims (r.coords coords) (fixed.map r.object) (r.expr a) (r.expr b) = (freeDims coords fixed a b).map r.dim := by
  unfold freeDims
  rw [dkeys_rename, List.filter_map]
  congr 1
  refine List.filter_congr fun d _ => ?_
  simp only [Function.comp_apply]
  rw [hasFree_rename, hasFree_rename]

theorem product_map {α β : Type _} (f : α → β) (L : List (List α)) :
    product (L.map (List.map f)) = (product L).map (List.map f) := by
  induction L with
  | nil => rfl
  | cons a L ih =>
    simp only [List.map_cons, product, ih, List.flatMap_map, List.map_flatMap, List.map_map]
    rfl

theorem bindLabels_rename (ds ls : List Str) (hl : ∀ l ∈ ls, ReadsBack l) (i : Str) :
    bindLabels (ds.map r.dim) (ls.map r.label) (r.dim i) = r.index (bindLabels ds ls i) := by
  unfold bindLabels
  induction ds generalizing ls with
  | nil => rfl
  | cons d ds ih =>
    cases ls with
    | nil => rfl
    | cons l ls =>
      simp only [List.map_cons, List.zip_cons_cons]
      by_cases h : d = i
      · subst h
        simp only [dget, if_true]
        exact (index_label r (hl l (by simp))).symm
      · have h' : ¬ r.dim d = r.dim i := fun e => h (r.dim_inj e)
        simp only [dget, if_neg h, if_neg h']
        exact ih ls fun l hl' => hl l (by simp [hl'])

variable {vars params : List ModelObject} {numeraire : Option ModelObject} {eqs : List IndexedEq}

/-- One side of an equation. -/
theorem side_rename {objs : List ModelObject} (hread : ∀ d, ∀ l ∈ labelsOf coords d, ReadsBack l)
    (hread₂ : ∀ d, ∀ l ∈ labelsOf (r.coords coords) d, ReadsBack l) (s : List ℝ) {e : RExpr}
    (hside : SideOK coords objs numeraire e) (ρ ρ₂ : Str → SIdx) (hr : ∀ i, ρ₂ (r.dim i) = r.index (ρ i))
    (hρ : ∀ d, hasFree (numeraire.toList.map ModelObject.name) d e = true → StandsFor coords ρ d) :
    let fixed := numeraire.toList.map ModelObject.name
    let entry₂ := entryFixing (r.coords coords) (fixed.map r.object) (objs.map r.obj) s
    (r.expr e).value (fun x => entry₂ x []) entry₂ (r.coords coords) ρ₂ =
      e.value (fun x => entryFixing coords fixed objs s x []) (entryFixing coords fixed objs s) coords ρ := by
  intro fixed entry₂
  have hmem : ∀ x, r.object x ∈ fixed.map r.object ↔ x ∈ fixed := fun x => List.mem_map_of_injective r.object_inj
  refine value_rename r hread fixed _ _ _ _ e ?_ ?_ ρ ρ₂ hr hρ
  · intro x hx
    dsimp only [entry₂]
    unfold entryFixing
    by_cases hf : x ∈ fixed
    · rw [if_pos hf, if_pos ((hmem x).2 hf)]
    · rw [if_neg hf, if_neg fun h => hf ((hmem x).1 h)]
      exact arrayEntry_rename r objs s x [] (by simp)
  · intro v hv ρ hρ
    dsimp only [entry₂]
    unfold entryFixing
    by_cases hf : v.1 ∈ fixed
    · rw [if_pos hf, if_pos ((hmem _).2 hf)]
    · rw [if_neg hf, if_neg fun h => hf ((hmem _).1 h)]
      obtain ⟨o, ho, hon, -, hF⟩ := hside.indexed.arrays v hv
      obtain ⟨ls, h1, h2⟩ := bound_entries ρ v.2 o.dims hF fun d hd => hρ d hf hd
      refine arrayEntry_rename r objs s v.1 _ fun t ht => ?_
      rw [h2] at ht
      obtain ⟨l, hl, rfl⟩ := List.mem_map.1 ht
      obtain ⟨d, -, hd⟩ := mem_product_label h1 l hl
      have h1 := hread d l hd
      rw [index_label r h1]
      have h2 : ReadsBack (r.label l) := hread₂ (r.dim d) _ (by
        rw [labelsOf_rename]; exact List.mem_map.2 ⟨l, hd, rfl⟩)
      rw [show labelText (sympifyLabel (r.label l)) = r.label l from h2,
        show labelText (sympifyLabel l) = l from h1]

/-- The scalar equations of the renamed model are off by the same amounts. -/
theorem imbalances_rename (h : IndexedModel coords vars params numeraire eqs)
    (hread₂ : ∀ d, ∀ l ∈ labelsOf (r.coords coords) d, ReadsBack l) (s : List ℝ) :
    imbalances (r.coords coords) (vars.map r.obj) (params.map r.obj) (numeraire.map r.obj) (eqs.map r.equation) s =
      imbalances coords vars params numeraire eqs s := by
  have hread : ∀ d, ∀ l ∈ labelsOf coords d, ReadsBack l := fun d l hl => (labels_readBack h.label_names d l hl).1
  unfold imbalances
  rw [List.flatMap_map, solvedVars_rename, fixed_rename, ← List.map_append]
  rw [List.flatMap_def, List.flatMap_def]
  congr 1
  refine List.map_congr_left fun q hq => ?_
  obtain ⟨s1, s2⟩ := h.sides q hq
  unfold demanded
  show List.map _ (product (List.map _ (freeDims _ _ (r.expr q.lhs) (r.expr q.rhs)))) = _
  dsimp only [Renaming.equation]
  rw [freeDims_rename]
  have hp : ((freeDims coords (numeraire.toList.map ModelObject.name) q.lhs q.rhs).map r.dim).map
      (labelsOf (r.coords coords)) = ((freeDims coords (numeraire.toList.map ModelObject.name) q.lhs q.rhs).map
        (labelsOf coords)).map (List.map r.label) := by
    rw [List.map_map, List.map_map]
    exact List.map_congr_left fun d _ => labelsOf_rename r d
  rw [hp, product_map, List.map_map]
  refine List.map_congr_left fun ls hls => ?_
  have hnd := freeDims_nodup h.coords_nodup (numeraire.toList.map ModelObject.name) q.lhs q.rhs
  have hlr : ∀ l ∈ ls, ReadsBack l := by
    intro l hl
    obtain ⟨d, -, hd⟩ := mem_product_label hls l hl
    exact hread d l hd
  have stands : ∀ d ∈ freeDims coords (numeraire.toList.map ModelObject.name) q.lhs q.rhs,
      StandsFor coords (bindLabels (freeDims coords (numeraire.toList.map ModelObject.name) q.lhs q.rhs) ls) d := by
    intro d hd
    obtain ⟨j, hj⟩ := List.getElem?_of_mem hd
    have hlen : ls.length = (freeDims coords (numeraire.toList.map ModelObject.name) q.lhs q.rhs).length := by
      simpa using length_of_mem_product hls
    have hjl : j < ls.length := by rw [hlen]; exact (List.getElem?_eq_some_iff.1 hj).1
    have hg := dget_zip _ ls hnd hlen j d hj
    rw [List.getElem?_eq_getElem hjl] at hg
    refine ⟨ls[j], mem_labels_product hls j _ _ hj (List.getElem?_eq_getElem hjl), ?_⟩
    unfold bindLabels
    rw [hg]
  have free : ∀ e, SideOK coords (solvedVars numeraire vars ++ params) numeraire e → (e = q.lhs ∨ e = q.rhs) →
      ∀ d, hasFree (numeraire.toList.map ModelObject.name) d e = true →
        d ∈ freeDims coords (numeraire.toList.map ModelObject.name) q.lhs q.rhs := by
    intro e he hor d hd
    refine List.mem_filter.2 ⟨hasFree_known _ d he.indexed.known_idx hd, ?_⟩
    rcases hor with rfl | rfl <;> simp [hd]
  have hb := bindLabels_rename r (freeDims coords (numeraire.toList.map ModelObject.name) q.lhs q.rhs) ls hlr
  simp only [Function.comp_apply]
  rw [side_rename r hread hread₂ s s1 _ _ hb (fun d hd => stands d (free _ s1 (.inl rfl) d hd)),
    side_rename r hread hread₂ s s2 _ _ hb (fun d hd => stands d (free _ s2 (.inr rfl) d hd))]

end

end Verif
