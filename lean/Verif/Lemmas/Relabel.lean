import Verif.Props.Reorder

/-!
# The same labels in another order
-/

namespace Verif

open RExpr

/-! ### What is compared -/

/-- The same dims with the same labels, in any order. -/
structure SameLabels (coords coords₂ : Coords) : Prop where
  dims : (dkeys coords₂).Perm (dkeys coords)
  labels : ∀ d, (labelsOf coords₂ d).Perm (labelsOf coords d)

/-- Every sum and every product ranges over all labels of its indices. -/
def WholeRange (coords : Coords) : RExpr → Prop
  | .num _ => True
  | .sym _ => True
  | .indexed _ _ => True
  | .add a b => WholeRange coords a ∧ WholeRange coords b
  | .mul a b => WholeRange coords a ∧ WholeRange coords b
  | .pow a b => WholeRange coords a ∧ WholeRange coords b
  | .log a => WholeRange coords a
  | .exp a => WholeRange coords a
  | .red _ body lims => WholeRange coords body ∧
      ∀ l ∈ lims, l.lo = 0 ∧ l.stop = (labelsOf coords l.i).length

/-- The arrays `s` and `s₂` of the objects, one after the other, have the same entries for the same labels. -/
def SameEntries (coords coords₂ : Coords) (objs : List ModelObject) (s s₂ : List ℝ) : Prop :=
  s.length = totalSize coords objs ∧ s₂.length = totalSize coords₂ objs ∧
    ∀ o ∈ objs, ∀ ls ∈ product (o.dims.map (labelsOf coords)),
      arrayEntry coords₂ objs s₂ o.name (ls.map sympifyLabel) =
        arrayEntry coords objs s o.name (ls.map sympifyLabel)

/-! ### Lists -/

theorem product_perm {α : Type _} {L L₂ : List (List α)} (h : List.Forall₂ List.Perm L L₂) :
    (product L).Perm (product L₂) := by
  induction h with
  | nil => exact .refl _
  | @cons a b l l₂ hab _ ih =>
    simp only [product]
    exact (hab.flatMap_right _).trans (List.Perm.flatMap_left _ fun x _ => ih.map _)

theorem SameLabels.product {coords coords₂ : Coords} (h : SameLabels coords coords₂) (ds : List Str) :
    (product (ds.map (labelsOf coords₂))).Perm (product (ds.map (labelsOf coords))) := by
  apply product_perm
  induction ds with
  | nil => exact .nil
  | cons d ds ih => exact .cons (h.labels d) ih

theorem SameLabels.scalarNames {coords coords₂ : Coords} (h : SameLabels coords coords₂) (objs : List ModelObject) :
    (scalarNames coords₂ objs).Perm (scalarNames coords objs) :=
  List.Perm.flatMap_left _ fun o _ => (h.product o.dims).map _

theorem SameLabels.size {coords coords₂ : Coords} (h : SameLabels coords coords₂) (objs : List ModelObject) :
    totalSize coords₂ objs = totalSize coords objs := by
  rw [← length_scalarNames, ← length_scalarNames, (h.scalarNames objs).length_eq]

/-- The labels given to the dims. -/
def given (ds ls : List Str) : Str → Option Str := fun d => dget (ds.zip ls) d

theorem given_cons (d l : Str) (ds ls : List Str) :
    given (d :: ds) (l :: ls) = fun e => if e = d then some l else given ds ls e := by
  funext e
  unfold given
  rw [List.zip_cons_cons]
  by_cases h : e = d
  · subst h; simp [dget]
  · rw [if_neg h]
    simp [dget, Ne.symm h]

theorem choices_perm {α : Type _} (L : Str → List Str) {ds ds₂ : List Str} (hp : ds₂.Perm ds) (hn : ds.Nodup)
    (F : (Str → Option Str) → α) :
    ((product (ds₂.map L)).map fun ls => F (given ds₂ ls)).Perm
      ((product (ds.map L)).map fun ls => F (given ds ls)) := by
  induction hp generalizing F with
  | nil => exact .refl _
  | @cons d l₁ l₂ hp ih =>
    simp only [List.map_cons, product, List.map_flatMap, List.map_map, Function.comp_def, given_cons]
    refine List.Perm.flatMap_left _ fun x _ => ?_
    exact ih (List.nodup_cons.1 hn).2 fun g => F fun e => if e = d then some x else g e
  | swap a b l =>
    have hab : a ≠ b := by
      rintro rfl
      exact (List.nodup_cons.1 hn).1 (by simp)
    simp only [List.map_cons, product, List.map_flatMap, List.flatMap_map, List.map_map, Function.comp_def,
      given_cons]
    have key : ∀ (A B : List Str) (f g : Str → Str → List α), (∀ x y, f x y = g y x) →
        (B.flatMap fun x => A.flatMap fun y => f x y).Perm (A.flatMap fun y => B.flatMap fun x => g y x) := by
      intro A B f g hfg
      induction B with
      | nil => simp
      | cons b B ih =>
        rw [List.flatMap_cons]
        refine (List.Perm.append_left _ ih).trans ?_
        clear ih
        induction A with
        | nil => simp
        | cons a A ihA =>
          simp only [List.flatMap_cons]
          rw [hfg]
          refine List.Perm.trans ?_ (List.Perm.append_left _ ihA)
          simp only [List.append_assoc]
          refine List.Perm.append_left _ ?_
          rw [← List.append_assoc, ← List.append_assoc]
          exact List.Perm.append_right _ List.perm_append_comm
    apply key
    intro x y
    refine List.map_congr_left fun ls _ => ?_
    congr 1
    funext e
    by_cases h1 : e = a
    · subst h1
      simp [hab]
    · simp [h1]
  | @trans l₁ l₂ l₃ h₁ h₂ ih₁ ih₂ =>
    exact (ih₁ (h₂.nodup_iff.2 hn) F).trans (ih₂ hn F)

/-- Where the elements of a rearranged list were. -/
theorem positions_of_perm {N₁ N₂ : List Str} (h : N₂.Perm N₁) (hn : N₁.Nodup) :
    (N₂.map N₁.idxOf).Perm (List.range N₁.length) ∧ N₂ = pickAt [] (N₂.map N₁.idxOf) N₁ := by
  constructor
  · refine (h.map _).trans ?_
    have : N₁.map N₁.idxOf = List.range N₁.length := by
      apply List.ext_getElem?
      intro i
      rw [List.getElem?_map]
      rcases Nat.lt_or_ge i N₁.length with hi | hi
      · rw [List.getElem?_eq_getElem hi, List.getElem?_range hi, Option.map_some,
          idxOf_of_nodup hn (List.getElem?_eq_getElem hi)]
      · rw [List.getElem?_eq_none hi, List.getElem?_eq_none (by simpa using hi)]
        rfl
    rw [this]
  · unfold pickAt
    rw [List.map_map]
    conv => lhs; rw [← List.map_id N₂]
    refine List.map_congr_left fun n hm => ?_
    have hm' := h.mem_iff.1 hm
    have hlt := List.idxOf_lt_length_of_mem hm'
    simp only [id, Function.comp_apply]
    rw [List.getD_eq_getElem?_getD, List.getElem?_eq_getElem hlt]
    simp

/-- The positions in the first layout of the scalars in the order of the second one. -/
def placeIn (coords coords₂ : Coords) (objs : List ModelObject) : List Nat :=
  (scalarNames coords₂ objs).map (scalarNames coords objs).idxOf

section
variable {coords coords₂ : Coords} {objs : List ModelObject}

theorem placeIn_perm (h : SameLabels coords coords₂) (hN : (scalarNames coords objs).Nodup) :
    (placeIn coords coords₂ objs).Perm (List.range (totalSize coords objs)) := by
  have := (positions_of_perm (h.scalarNames objs) hN).1
  rwa [length_scalarNames] at this

theorem sameEntries_iff (h : SameLabels coords coords₂) (hN : (scalarNames coords objs).Nodup)
    (hn : (objs.map ModelObject.name).Nodup)
    (hr : ∀ o ∈ objs, ∀ ls ∈ product (o.dims.map (labelsOf coords)), ∀ l ∈ ls, ReadsBack l) (s s₂ : List ℝ) :
    SameEntries coords coords₂ objs s s₂ ↔
      s.length = totalSize coords objs ∧ s₂ = pickAt 0 (placeIn coords coords₂ objs) s := by
  have hp := h.scalarNames objs
  have hN₂ := hp.nodup_iff.2 hN
  obtain ⟨q1, q2⟩ := positions_of_perm hp hN
  have lm : (placeIn coords coords₂ objs).length = totalSize coords₂ objs := by
    rw [placeIn, List.length_map, length_scalarNames]
  have entry : ∀ s₂ : List ℝ, ∀ o ∈ objs, ∀ ls ∈ product (o.dims.map (labelsOf coords)),
      arrayEntry coords₂ objs s₂ o.name (ls.map sympifyLabel) =
        flatPoint (scalarNames coords₂ objs) s₂ (joinStr "_".toList (o.name :: ls)) := fun s₂ o ho ls hls =>
    (flatPoint_entry coords₂ objs hN₂ hn s₂ o ho ls ((h.product o.dims).mem_iff.2 hls)
      (hr o ho ls hls)).symm
  constructor
  · rintro ⟨l1, l2, he⟩
    refine ⟨l1, ?_⟩
    apply List.ext_getElem?
    intro i
    rcases Nat.lt_or_ge i (totalSize coords₂ objs) with hi | hi
    · have hi' : i < (scalarNames coords₂ objs).length := by rw [length_scalarNames]; exact hi
      obtain ⟨n, hni⟩ : ∃ n, (scalarNames coords₂ objs)[i]? = some n := ⟨_, List.getElem?_eq_getElem hi'⟩
      have hmem := List.mem_of_getElem? hni
      unfold scalarNames at hmem
      obtain ⟨o, ho, hm⟩ := List.mem_flatMap.1 hmem
      obtain ⟨ls, hls, rfl⟩ := List.mem_map.1 hm
      have hls' := (h.product o.dims).mem_iff.1 hls
      have := he o ho ls hls'
      rw [entry s₂ o ho ls hls', flatPoint_at hN₂ s₂ hni,
        ← flatPoint_entry coords objs hN hn s o ho ls hls' (hr o ho ls hls')] at this
      rw [getElem?_pickAt 0 _ s i _ (by rw [placeIn, List.getElem?_map, hni, Option.map_some]),
        List.getElem?_eq_getElem (by omega)]
      rw [List.getD_eq_getElem?_getD, List.getElem?_eq_getElem (by omega), Option.getD_some] at this
      rw [this]
      rfl
    · rw [List.getElem?_eq_none (by omega), List.getElem?_eq_none (by rw [length_pickAt, lm]; exact hi)]
  · rintro ⟨l1, rfl⟩
    refine ⟨l1, by rw [length_pickAt, lm], fun o ho ls hls => ?_⟩
    rw [entry _ o ho ls hls, ← flatPoint_entry coords objs hN hn s o ho ls hls (hr o ho ls hls)]
    exact congrFun (flatPoint_pick hN q1 q2 s (by rw [l1, length_scalarNames])) _

end

/-! ### Values -/

/-- The index stands for one of its labels. -/
def StandsFor (coords : Coords) (ρ : Str → SIdx) (d : Str) : Prop :=
  ∃ l ∈ labelsOf coords d, ρ d = sympifyLabel l

theorem reduceVals_perm (op : RedOp) {a b : List ℝ} (h : a.Perm b) : reduceVals op a = reduceVals op b := by
  cases op
  · exact h.sum_eq
  · exact h.prod_eq

theorem overLims_relabel {coords coords₂ : Coords} (h : SameLabels coords coords₂) (op : RedOp) (η : Str → SIdx)
    (lims : List Lim) (hw : ∀ l ∈ lims, l.lo = 0 ∧ l.stop = (labelsOf coords l.i).length) :
    ∀ (S : List Str) (F G : (Str → SIdx) → ℝ),
      (∀ θ, (∀ d ∈ lims.map Lim.i ++ S, StandsFor coords θ d) → (∀ d, d ∉ lims.map Lim.i ++ S → θ d = η d) →
        F θ = G θ) →
      ∀ θ, (∀ d ∈ S, StandsFor coords θ d) → (∀ d, d ∉ S → θ d = η d) →
        overLims (fun l => (limLabels coords₂ l).map sympifyLabel) op lims F θ =
          overLims (fun l => (limLabels coords l).map sympifyLabel) op lims G θ := by
  induction lims with
  | nil => intro S F G hFG θ h1 h2; exact hFG θ h1 h2
  | cons l ls ih =>
    intro S F G hFG θ h1 h2
    simp only [overLims]
    refine ih (fun l hl => hw l (by simp [hl])) S _ _ ?_ θ h1 h2
    intro θ g1 g2
    obtain ⟨w1, w2⟩ := hw l (by simp)
    have e1 : limLabels coords l = labelsOf coords l.i := by
      unfold limLabels
      rw [w1, w2]
      simp [labelsOf]
    have e2 : limLabels coords₂ l = labelsOf coords₂ l.i := by
      unfold limLabels
      rw [w1, w2, ← (h.labels l.i).length_eq]
      simp [labelsOf]
    rw [e1, e2]
    refine (reduceVals_perm op (((h.labels l.i).map sympifyLabel).map _)).trans ?_
    congr 1
    rw [List.map_map, List.map_map]
    refine List.map_congr_left fun x hx => ?_
    refine hFG _ ?_ ?_
    · intro d hd
      by_cases hdl : d = l.i
      · exact ⟨x, by rw [hdl]; exact hx, by simp [setEnv, hdl]⟩
      · have hd' : d ∈ ls.map Lim.i ++ S := by
          simpa [hdl] using hd
        obtain ⟨l', k1, k2⟩ := g1 d hd'
        exact ⟨l', k1, by simp only [setEnv, if_neg hdl, k2]⟩
    · intro d hd
      have hdl : d ≠ l.i := by
        rintro rfl
        exact hd (by simp)
      simp only [setEnv, if_neg hdl]
      exact g2 d fun hm => hd (by rw [List.map_cons, List.cons_append]; exact List.mem_cons_of_mem _ hm)

/-- An expression has the same value in both models when the entries are the same for the same labels. -/
theorem value_relabel {coords coords₂ : Coords} (h : SameLabels coords coords₂) (fixed : List Str)
    (σ σ₂ : Str → ℝ) (A A₂ : Str → List SIdx → ℝ) (e : RExpr) (hw : WholeRange coords e)
    (hs : ∀ x ∈ e.syms, σ₂ x = σ x)
    (hA : ∀ v ∈ e.indexeds, ∀ ρ : Str → SIdx,
      (∀ d, v.1 ∉ fixed → SIdx.idx d ∈ v.2 → StandsFor coords ρ d) →
        A₂ v.1 (v.2.map (bindIdx ρ)) = A v.1 (v.2.map (bindIdx ρ)))
    (ρ : Str → SIdx) (hρ : ∀ d, hasFree fixed d e = true → StandsFor coords ρ d) :
    e.value σ₂ A₂ coords₂ ρ = e.value σ A coords ρ := by
  induction e generalizing ρ with
  | num q => rfl
  | sym x => exact hs x (by simp [syms])
  | indexed b ix =>
    refine hA (b, ix) (by simp [indexeds]) ρ fun d hd hm => hρ d ?_
    simp only [hasFree, Bool.and_eq_true, Bool.not_eq_true', List.contains_eq_mem, decide_eq_true_eq,
      decide_eq_false_iff_not]
    exact ⟨hd, hm⟩
  | add a b iha ihb =>
    simp only [RExpr.value]
    rw [iha hw.1 (fun x hx => hs x (by simp [syms, hx])) (fun v hv => hA v (by simp [indexeds, hv])) ρ
        (fun d hd => hρ d (by simp [hasFree, hd])),
      ihb hw.2 (fun x hx => hs x (by simp [syms, hx])) (fun v hv => hA v (by simp [indexeds, hv])) ρ
        (fun d hd => hρ d (by simp [hasFree, hd]))]
  | mul a b iha ihb =>
    simp only [RExpr.value]
    rw [iha hw.1 (fun x hx => hs x (by simp [syms, hx])) (fun v hv => hA v (by simp [indexeds, hv])) ρ
        (fun d hd => hρ d (by simp [hasFree, hd])),
      ihb hw.2 (fun x hx => hs x (by simp [syms, hx])) (fun v hv => hA v (by simp [indexeds, hv])) ρ
        (fun d hd => hρ d (by simp [hasFree, hd]))]
  | pow a b iha ihb =>
    simp only [RExpr.value]
    rw [iha hw.1 (fun x hx => hs x (by simp [syms, hx])) (fun v hv => hA v (by simp [indexeds, hv])) ρ
        (fun d hd => hρ d (by simp [hasFree, hd])),
      ihb hw.2 (fun x hx => hs x (by simp [syms, hx])) (fun v hv => hA v (by simp [indexeds, hv])) ρ
        (fun d hd => hρ d (by simp [hasFree, hd]))]
  | log a iha =>
    simp only [RExpr.value]
    rw [iha hw hs hA ρ hρ]
  | exp a iha =>
    simp only [RExpr.value]
    rw [iha hw hs hA ρ hρ]
  | red op body lims ih =>
    simp only [RExpr.value]
    refine overLims_relabel h op ρ lims hw.2 [] _ _ ?_ ρ (by simp) (fun _ _ => rfl)
    intro θ g1 g2
    rw [List.append_nil] at g1 g2
    refine ih hw.1 hs hA θ fun d hd => ?_
    by_cases hdl : d ∈ lims.map Lim.i
    · exact g1 d hdl
    · have : StandsFor coords ρ d := by
        refine hρ d ?_
        simp only [hasFree, hd, Bool.true_and, List.all_eq_true, Bool.and_eq_true, bne_iff_ne, ne_eq,
          decide_eq_true_eq]
        intro l hl
        refine ⟨fun e => hdl (List.mem_map.2 ⟨l, hl, e⟩), ?_⟩
        obtain ⟨w1, w2⟩ := hw.2 l hl
        obtain ⟨x, hx, -⟩ := g1 l.i (List.mem_map.2 ⟨l, hl, rfl⟩)
        rw [w1, w2]
        exact List.length_pos_of_mem hx
      obtain ⟨x, hx, e⟩ := this
      exact ⟨x, hx, by rw [g2 d hdl, e]⟩

end Verif
