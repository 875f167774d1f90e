import Verif.Lemmas.RelabelModel
import Verif.Spec.Transpose

/-!
# Lemmas on models with the dims of the objects in another order
-/

namespace Verif

open RExpr

variable {coords : Coords} {old new : Str → List Str}

/-! ### Lists -/

theorem dget_zip_some {α : Type _} (ds : List Str) (l : List α) (h : l.length = ds.length) (d : Str) (hd : d ∈ ds) :
    ∃ x ∈ l, dget (ds.zip l) d = some x := by
  induction ds generalizing l with
  | nil => cases hd
  | cons a ds ih =>
    cases l with
    | nil => cases h
    | cons y l =>
      by_cases e : a = d
      · exact ⟨y, by simp, by simp [dget, e]⟩
      · have hd' : d ∈ ds := by
          rcases List.mem_cons.1 hd with rfl | h
          · exact absurd rfl e
          · exact h
        obtain ⟨x, hx, hg⟩ := ih l (by simpa using h) hd'
        exact ⟨x, by simp [hx], by simpa [dget, e] using hg⟩

theorem dget_filterMap {α : Type _} (ds : List Str) (g : Str → Option α) (hg : ∀ d ∈ ds, ∃ x, g d = some x) (d : Str)
    (hd : d ∈ ds) : dget (ds.zip (ds.filterMap g)) d = g d := by
  induction ds with
  | nil => cases hd
  | cons a ds ih =>
    obtain ⟨x, hx⟩ := hg a (by simp)
    rw [List.filterMap_cons, hx]
    by_cases e : a = d
    · subst e; simp [dget, hx]
    · have hd' : d ∈ ds := by
        rcases List.mem_cons.1 hd with rfl | h
        · exact absurd rfl e
        · exact h
      simpa [dget, e] using ih (fun d hd => hg d (by simp [hd])) hd'

theorem filterMap_congr' {α : Type _} (ds : List Str) (g g' : Str → Option α) (h : ∀ d ∈ ds, g d = g' d) :
    ds.filterMap g = ds.filterMap g' := by
  induction ds with
  | nil => rfl
  | cons a ds ih =>
    rw [List.filterMap_cons, List.filterMap_cons, h a (by simp), ih fun d hd => h d (by simp [hd])]

theorem inOrder_self {α : Type _} (ds : List Str) (l : List α) (hn : ds.Nodup) (h : l.length = ds.length) :
    inOrder ds ds l = l := by
  induction ds generalizing l with
  | nil => cases l with
    | nil => rfl
    | cons => cases h
  | cons a ds ih =>
    cases l with
    | nil => cases h
    | cons y l =>
      unfold inOrder
      rw [List.zip_cons_cons, List.filterMap_cons]
      have e1 : dget ((a, y) :: ds.zip l) a = some y := by simp [dget]
      rw [e1]
      have := ih l (List.nodup_cons.1 hn).2 (by simpa using h)
      unfold inOrder at this
      conv => rhs; rw [← this]
      refine congrArg (y :: ·) (filterMap_congr' _ _ _ fun d hd => ?_)
      have : a ≠ d := by rintro rfl; exact (List.nodup_cons.1 hn).1 hd
      simp [dget, this]

section
variable {α : Type _} {ds ds₂ : List Str} (hp : ds₂.Perm ds)
include hp

theorem inOrder_back (hn : ds.Nodup) (l : List α) (h : l.length = ds.length) :
    inOrder ds₂ ds (inOrder ds ds₂ l) = l := by
  conv => rhs; rw [← inOrder_self ds l hn h]
  refine filterMap_congr' _ _ _ fun d hd => ?_
  exact dget_filterMap ds₂ _ (fun d hd => by
    obtain ⟨x, -, hx⟩ := dget_zip_some ds l h d (hp.mem_iff.1 hd)
    exact ⟨x, hx⟩) d (hp.mem_iff.2 hd)

theorem inOrder_length (l : List α) (h : l.length = ds.length) : (inOrder ds ds₂ l).length = ds₂.length := by
  have : ∀ ds' : List Str, (∀ d ∈ ds', d ∈ ds) → (ds'.filterMap fun d => dget (ds.zip l) d).length = ds'.length := by
    intro ds' hs
    induction ds' with
    | nil => rfl
    | cons a ds' ih =>
      obtain ⟨x, -, hx⟩ := dget_zip_some ds l h a (hs a (by simp))
      rw [List.filterMap_cons, hx]
      simp only [List.length_cons, ih fun d hd => hs d (by simp [hd])]
  exact this ds₂ fun d hd => hp.mem_iff.1 hd

theorem mem_of_inOrder (l : List α) (h : l.length = ds.length) (x : α) (hx : x ∈ inOrder ds ds₂ l) : x ∈ l := by
  obtain ⟨d, hd, e⟩ := List.mem_filterMap.1 hx
  obtain ⟨y, hy, e'⟩ := dget_zip_some ds l h d (hp.mem_iff.1 hd)
  rw [e] at e'
  cases e'
  exact hy

theorem mem_inOrder (hn : ds.Nodup) (l : List α) (h : l.length = ds.length) (x : α) :
    x ∈ inOrder ds ds₂ l ↔ x ∈ l := by
  refine ⟨mem_of_inOrder hp l h x, fun hx => ?_⟩
  rw [← inOrder_back hp hn l h] at hx
  exact mem_of_inOrder hp.symm _ (inOrder_length hp l h) x hx

theorem inOrder_product (hn : ds.Nodup) (L : Str → List Str) (ls : List Str) (hls : ls ∈ product (ds.map L)) :
    inOrder ds ds₂ ls ∈ product (ds₂.map L) := by
  have hperm := choices_perm L hp hn fun g => ds₂.filterMap g
  have h1 : inOrder ds ds₂ ls ∈ (product (ds.map L)).map fun ls => ds₂.filterMap (given ds ls) :=
    List.mem_map.2 ⟨ls, hls, rfl⟩
  obtain ⟨ls', hm, e⟩ := List.mem_map.1 (hperm.mem_iff.2 h1)
  have : ds₂.filterMap (given ds₂ ls') = ls' :=
    inOrder_self ds₂ ls' (hp.nodup_iff.2 hn) (by simpa using length_of_mem_product hm)
  rw [this] at e
  rwa [← e]

end

theorem inOrder_map {α β : Type _} (f : α → β) (ds ds₂ : List Str) (l : List α) :
    inOrder ds ds₂ (l.map f) = (inOrder ds ds₂ l).map f := by
  have hg : ∀ (ds : List Str) (l : List α) d, dget (ds.zip (l.map f)) d = (dget (ds.zip l) d).map f := by
    intro ds
    induction ds with
    | nil => intro l d; rfl
    | cons a ds ih =>
      intro l d
      cases l with
      | nil => rfl
      | cons y l =>
        by_cases e : a = d
        · simp [dget, e]
        · simpa [dget, e] using ih l d
  unfold inOrder
  rw [List.map_filterMap]
  exact filterMap_congr' _ _ _ fun d _ => hg ds l d

/-! ### Positions -/

/-- The names that the model gives to the elements, in the order of the transposed arrays. -/
def oldNames (coords : Coords) (new : Str → List Str) (objs : List ModelObject) : List Str :=
  objs.flatMap fun o => (product ((new o.name).map (labelsOf coords))).map fun ls =>
    joinStr "_".toList (o.name :: inOrder (new o.name) o.dims ls)

/-- Where the elements of the transposed arrays are in the arrays. -/
def placeOld (coords : Coords) (new : Str → List Str) (objs : List ModelObject) : List Nat :=
  (oldNames coords new objs).map (scalarNames coords objs).idxOf

theorem oldNames_append (a b : List ModelObject) :
    oldNames coords new (a ++ b) = oldNames coords new a ++ oldNames coords new b := by
  simp [oldNames]

theorem oldNames_perm {objs : List ModelObject} (ht : Transposes old new objs) (hd : ∀ o ∈ objs, o.dims.Nodup) :
    (oldNames coords new objs).Perm (scalarNames coords objs) := by
  refine List.Perm.flatMap_left _ fun o ho => ?_
  refine (choices_perm (labelsOf coords) (ht o ho).2 (hd o ho)
    fun g => joinStr "_".toList (o.name :: o.dims.filterMap g)).trans ?_
  refine List.Perm.of_eq (List.map_congr_left fun ls hls => ?_)
  have : o.dims.filterMap (given o.dims ls) = ls :=
    inOrder_self o.dims ls (hd o ho) (by simpa using length_of_mem_product hls)
  rw [this]

theorem length_oldNames (objs : List ModelObject) :
    (oldNames coords new objs).length = totalSize coords (objs.map (ModelObject.transposed new)) := by
  rw [← length_scalarNames]
  unfold oldNames scalarNames
  rw [List.flatMap_map, List.length_flatMap, List.length_flatMap]
  simp only [List.length_map]
  rfl

theorem totalSize_transposed {objs : List ModelObject} (ht : Transposes old new objs) (hd : ∀ o ∈ objs, o.dims.Nodup) :
    totalSize coords (objs.map (ModelObject.transposed new)) = totalSize coords objs := by
  rw [← length_oldNames, (oldNames_perm ht hd).length_eq, length_scalarNames]

theorem placeOld_perm {objs : List ModelObject} (ht : Transposes old new objs) (hd : ∀ o ∈ objs, o.dims.Nodup)
    (hN : (scalarNames coords objs).Nodup) :
    (placeOld coords new objs).Perm (List.range (totalSize coords objs)) := by
  have := (positions_of_perm (oldNames_perm (coords := coords) ht hd) hN).1
  rwa [length_scalarNames] at this

theorem flatPoint_two {K : Type _} (l : List K) (f g : K → Str) (hf : (l.map f).Nodup) (hg : (l.map g).Nodup)
    (s : List ℝ) (k : K) (hk : k ∈ l) : flatPoint (l.map f) s (f k) = flatPoint (l.map g) s (g k) := by
  obtain ⟨i, hi⟩ := List.getElem?_of_mem hk
  rw [flatPoint_at hf s (k := i) (by rw [List.getElem?_map, hi]; rfl),
    flatPoint_at hg s (k := i) (by rw [List.getElem?_map, hi]; rfl)]

theorem flat_ext {N : List Str} (hN : N.Nodup) {s s' : List ℝ} (h : s.length = N.length) (h' : s'.length = N.length)
    (he : ∀ n ∈ N, flatPoint N s n = flatPoint N s' n) : s = s' := by
  apply List.ext_getElem?
  intro i
  rcases Nat.lt_or_ge i N.length with hi | hi
  · have := he N[i] (List.getElem_mem _)
    rw [flatPoint_at hN s (List.getElem?_eq_getElem hi), flatPoint_at hN s' (List.getElem?_eq_getElem hi),
      List.getD_eq_getElem?_getD, List.getD_eq_getElem?_getD, List.getElem?_eq_getElem (by omega),
      List.getElem?_eq_getElem (by omega)] at this
    rw [List.getElem?_eq_getElem (by omega), List.getElem?_eq_getElem (by omega)]
    exact congrArg some this
  · rw [List.getElem?_eq_none (by omega), List.getElem?_eq_none (by omega)]

section
variable {objs : List ModelObject} (ht : Transposes old new objs) (hd : ∀ o ∈ objs, o.dims.Nodup)
  (hN : (scalarNames coords objs).Nodup) (hN₂ : (scalarNames coords (objs.map (ModelObject.transposed new))).Nodup)
  (hn : (objs.map ModelObject.name).Nodup) (hr : ∀ d, ∀ l ∈ labelsOf coords d, ReadsBack l)
include ht hd hN hN₂ hn hr

theorem entry_old (s₂ : List ℝ) (o : ModelObject) (ho : o ∈ objs) (ls : List Str)
    (hls : ls ∈ product (o.dims.map (labelsOf coords))) :
    arrayEntry coords (objs.map (ModelObject.transposed new)) s₂ o.name
        ((inOrder o.dims (new o.name) ls).map sympifyLabel) =
      flatPoint (oldNames coords new objs) s₂ (joinStr "_".toList (o.name :: ls)) := by
  have hm := inOrder_product (ht o ho).2 (hd o ho) (labelsOf coords) ls hls
  have e1 := flatPoint_entry coords (objs.map (ModelObject.transposed new)) hN₂
    (by rw [List.map_map]; exact hn) s₂ (o.transposed new) (List.mem_map_of_mem ho) (inOrder o.dims (new o.name) ls) hm
    (fun l hl => by
      obtain ⟨d, -, hd⟩ := mem_product_label hm l hl
      exact hr d l hd)
  refine e1.symm.trans ?_
  let K : List (ModelObject × List Str) :=
    objs.flatMap fun o => (product ((new o.name).map (labelsOf coords))).map fun ls => (o, ls)
  have k1 : scalarNames coords (objs.map (ModelObject.transposed new)) =
      K.map fun k => joinStr "_".toList (k.1.name :: k.2) := by
    simp only [K, scalarNames, List.map_flatMap, List.flatMap_map, List.map_map]
    rfl
  have k2 : oldNames coords new objs =
      K.map fun k => joinStr "_".toList (k.1.name :: inOrder (new k.1.name) k.1.dims k.2) := by
    simp only [K, oldNames, List.map_flatMap, List.map_map]
    rfl
  have hNo : (oldNames coords new objs).Nodup := (oldNames_perm ht hd).nodup_iff.2 hN
  rw [k1] at hN₂ ⊢
  rw [k2] at hNo ⊢
  have key := flatPoint_two K _ _ hN₂ hNo s₂ (o, inOrder o.dims (new o.name) ls)
    (List.mem_flatMap.2 ⟨o, ho, List.mem_map.2 ⟨_, hm, rfl⟩⟩)
  dsimp only at key
  rw [inOrder_back (ht o ho).2 (hd o ho) ls (by simpa using length_of_mem_product hls)] at key
  exact key

theorem sameTransposed_iff (s s₂ : List ℝ) :
    SameTransposed coords new objs s s₂ ↔
      s.length = totalSize coords objs ∧ s₂ = pickAt 0 (placeOld coords new objs) s := by
  have hp := oldNames_perm (coords := coords) ht hd
  obtain ⟨q1, q2⟩ := positions_of_perm hp hN
  have lm : (placeOld coords new objs).length = totalSize coords (objs.map (ModelObject.transposed new)) := by
    rw [placeOld, List.length_map, length_oldNames]
  have entry := entry_old ht hd hN hN₂ hn hr
  have reads : ∀ o ∈ objs, ∀ ls ∈ product (o.dims.map (labelsOf coords)), ∀ l ∈ ls, ReadsBack l := by
    intro o _ ls hls l hl
    obtain ⟨d, -, hd⟩ := mem_product_label hls l hl
    exact hr d l hd
  have pick : s.length = totalSize coords objs →
      flatPoint (oldNames coords new objs) (pickAt 0 (placeOld coords new objs) s) =
        flatPoint (scalarNames coords objs) s := fun l1 =>
    flatPoint_pick hN q1 q2 s (by rw [l1, length_scalarNames])
  constructor
  · rintro ⟨l1, l2, he⟩
    refine ⟨l1, flat_ext (hp.nodup_iff.2 hN) (by rw [l2, length_oldNames])
      (by rw [length_pickAt, lm, length_oldNames]) fun n hm => ?_⟩
    rw [pick l1]
    have hm' := hp.mem_iff.1 hm
    unfold scalarNames at hm'
    obtain ⟨o, ho, hm'⟩ := List.mem_flatMap.1 hm'
    obtain ⟨ls, hls, rfl⟩ := List.mem_map.1 hm'
    rw [← entry s₂ o ho ls hls, he o ho ls hls, flatPoint_entry coords objs hN hn s o ho ls hls (reads o ho ls hls)]
  · rintro ⟨l1, rfl⟩
    refine ⟨l1, by rw [length_pickAt, lm], fun o ho ls hls => ?_⟩
    rw [entry _ o ho ls hls, pick l1, flatPoint_entry coords objs hN hn s o ho ls hls (reads o ho ls hls)]

end

theorem placeOld_append {vs ps : List ModelObject} (ht : Transposes old new (vs ++ ps))
    (hd : ∀ o ∈ vs ++ ps, o.dims.Nodup) (hN : (scalarNames coords (vs ++ ps)).Nodup) (x t : List ℝ)
    (hx : x.length = totalSize coords vs) :
    pickAt 0 (placeOld coords new (vs ++ ps)) (x ++ t) =
      pickAt 0 (placeOld coords new vs) x ++ pickAt 0 (placeOld coords new ps) t := by
  have hv := oldNames_perm (coords := coords) (objs := vs) (fun o ho => ht o (by simp [ho])) (fun o ho => hd o (by simp [ho]))
  have hp := oldNames_perm (coords := coords) (objs := ps) (fun o ho => ht o (by simp [ho])) (fun o ho => hd o (by simp [ho]))
  rw [scalarNames_append] at hN
  obtain ⟨-, -, hdis⟩ := List.nodup_append.1 hN
  unfold placeOld pickAt
  rw [oldNames_append, scalarNames_append, List.map_append, List.map_append]
  simp only [List.map_map]
  congr 1
  · refine List.map_congr_left fun n hn => ?_
    have hm := hv.mem_iff.1 hn
    have hlt := List.idxOf_lt_length_of_mem hm
    rw [length_scalarNames] at hlt
    simp only [Function.comp_apply]
    rw [List.idxOf_append_of_mem hm, List.getD_eq_getElem?_getD, List.getD_eq_getElem?_getD,
      List.getElem?_append_left (by omega)]
  · refine List.map_congr_left fun n hn => ?_
    have hm := hp.mem_iff.1 hn
    have hnot : n ∉ scalarNames coords vs := fun hv => hdis n hv n hm rfl
    simp only [Function.comp_apply]
    rw [List.idxOf_append_of_notMem hnot, length_scalarNames, List.getD_eq_getElem?_getD, List.getD_eq_getElem?_getD,
      List.getElem?_append_right (by omega), hx, Nat.add_sub_cancel_left]

/-! ### Values -/

theorem overLims_stands (op : RedOp) (lims : List Lim) (F G : (Str → SIdx) → ℝ) (η : Str → SIdx)
    (hF : (∀ l ∈ lims, limLabels coords l ≠ []) → ∀ θ, (∀ d ∈ lims.map Lim.i, StandsFor coords θ d) →
      (∀ d, d ∉ lims.map Lim.i → θ d = η d) → F θ = G θ) :
    overLims (fun l => (limLabels coords l).map sympifyLabel) op lims F η =
      overLims (fun l => (limLabels coords l).map sympifyLabel) op lims G η := by
  induction lims generalizing F G with
  | nil => exact hF (by simp) η (by simp) (fun _ _ => rfl)
  | cons l ls ih =>
    simp only [overLims]
    apply ih
    intro hne θ h1 h2
    rw [List.map_map, List.map_map]
    congr 1
    refine List.map_congr_left fun x hx => ?_
    have hxl : x ∈ labelsOf coords l.i := List.mem_of_mem_drop (List.mem_of_mem_take hx)
    refine hF ?_ _ ?_ ?_
    · intro l' hl'
      rcases List.mem_cons.1 hl' with rfl | hl'
      · exact List.ne_nil_of_mem hx
      · exact hne l' hl'
    · intro d hd
      by_cases hdl : d = l.i
      · exact ⟨x, by rw [hdl]; exact hxl, by simp [setEnv, hdl]⟩
      · obtain ⟨y, hy, ey⟩ := h1 d (by simpa [hdl] using hd)
        exact ⟨y, hy, by simp only [setEnv, if_neg hdl, ey]⟩
    · intro d hd
      rw [List.map_cons, List.mem_cons, not_or] at hd
      simp only [setEnv, if_neg hd.1, h2 d hd.2]

theorem value_transposed (fixed : List Str)
    (σ σ₂ : Str → ℝ) (A A₂ : Str → List SIdx → ℝ) (e : RExpr)
    (hs : ∀ x ∈ e.syms, σ₂ x = σ x)
    (hA : ∀ v ∈ e.indexeds, ∀ ρ : Str → SIdx,
      (∀ d, v.1 ∉ fixed → SIdx.idx d ∈ v.2 → StandsFor coords ρ d) →
      A₂ v.1 ((inOrder (old v.1) (new v.1) v.2).map (bindIdx ρ)) = A v.1 (v.2.map (bindIdx ρ)))
    (ρ : Str → SIdx) (hρ : ∀ d, hasFree fixed d e = true → StandsFor coords ρ d) :
    (e.transposed old new).value σ₂ A₂ coords ρ = e.value σ A coords ρ := by
  induction e generalizing ρ with
  | num q => rfl
  | sym x => exact hs x (by simp [syms])
  | indexed b ix =>
    exact hA (b, ix) (by simp [indexeds]) ρ fun d hd hm => hρ d (by
      simp only [hasFree, Bool.and_eq_true, Bool.not_eq_true', List.contains_eq_mem, decide_eq_true_eq,
        decide_eq_false_iff_not]
      exact ⟨hd, hm⟩)
  | add a b iha ihb =>
    simp only [RExpr.transposed, RExpr.value]
    rw [iha (fun x hx => hs x (by simp [syms, hx])) (fun v hv => hA v (by simp [indexeds, hv])) ρ
        (fun d hd => hρ d (by simp [hasFree, hd])),
      ihb (fun x hx => hs x (by simp [syms, hx])) (fun v hv => hA v (by simp [indexeds, hv])) ρ
        (fun d hd => hρ d (by simp [hasFree, hd]))]
  | mul a b iha ihb =>
    simp only [RExpr.transposed, RExpr.value]
    rw [iha (fun x hx => hs x (by simp [syms, hx])) (fun v hv => hA v (by simp [indexeds, hv])) ρ
        (fun d hd => hρ d (by simp [hasFree, hd])),
      ihb (fun x hx => hs x (by simp [syms, hx])) (fun v hv => hA v (by simp [indexeds, hv])) ρ
        (fun d hd => hρ d (by simp [hasFree, hd]))]
  | pow a b iha ihb =>
    simp only [RExpr.transposed, RExpr.value]
    rw [iha (fun x hx => hs x (by simp [syms, hx])) (fun v hv => hA v (by simp [indexeds, hv])) ρ
        (fun d hd => hρ d (by simp [hasFree, hd])),
      ihb (fun x hx => hs x (by simp [syms, hx])) (fun v hv => hA v (by simp [indexeds, hv])) ρ
        (fun d hd => hρ d (by simp [hasFree, hd]))]
  | log a iha =>
    simp only [RExpr.transposed, RExpr.value]
    rw [iha hs hA ρ hρ]
  | exp a iha =>
    simp only [RExpr.transposed, RExpr.value]
    rw [iha hs hA ρ hρ]
  | red op body lims ih =>
    simp only [RExpr.transposed, RExpr.value]
    refine overLims_stands _ _ _ _ _ fun hne θ h1 h2 => ?_
    refine ih hs hA θ fun d hd => ?_
    by_cases hdl : d ∈ lims.map Lim.i
    · exact h1 d hdl
    · have : StandsFor coords ρ d := by
        refine hρ d ?_
        simp only [hasFree, hd, Bool.true_and, List.all_eq_true, Bool.and_eq_true, bne_iff_ne, ne_eq,
          decide_eq_true_eq]
        intro l hl
        refine ⟨fun e => hdl (List.mem_map.2 ⟨l, hl, e⟩), ?_⟩
        by_contra hge
        refine hne l hl ?_
        unfold limLabels
        rw [show l.stop - l.lo = 0 by omega, List.take_zero]
      obtain ⟨x, hx, e⟩ := this
      exact ⟨x, hx, by rw [h2 d hdl, e]⟩

theorem hasFree_transposed (fixed : List Str) (d : Str) (e : RExpr)
    (h : ∀ v ∈ e.indexeds, ∀ x, x ∈ inOrder (old v.1) (new v.1) v.2 ↔ x ∈ v.2) :
    hasFree fixed d (e.transposed old new) = hasFree fixed d e := by
  induction e with
  | num q => rfl
  | sym x => rfl
  | indexed b ix =>
    simp only [RExpr.transposed, hasFree]
    congr 1
    rw [Bool.eq_iff_iff, List.contains_iff_mem, List.contains_iff_mem]
    exact h (b, ix) (by simp [indexeds]) _
  | add a b iha ihb =>
    simp only [RExpr.transposed, hasFree]
    rw [iha fun v hv => h v (by simp [indexeds, hv]), ihb fun v hv => h v (by simp [indexeds, hv])]
  | mul a b iha ihb =>
    simp only [RExpr.transposed, hasFree]
    rw [iha fun v hv => h v (by simp [indexeds, hv]), ihb fun v hv => h v (by simp [indexeds, hv])]
  | pow a b iha ihb =>
    simp only [RExpr.transposed, hasFree]
    rw [iha fun v hv => h v (by simp [indexeds, hv]), ihb fun v hv => h v (by simp [indexeds, hv])]
  | log a iha => exact iha h
  | exp a iha => exact iha h
  | red op body lims ih =>
    simp only [RExpr.transposed, hasFree]
    rw [ih h]

/-! ### The equations -/

variable {vars params : List ModelObject} {numeraire : Option ModelObject} {eqs : List IndexedEq}

theorem solvedVars_transposed :
    solvedVars (numeraire.map (ModelObject.transposed new)) (vars.map (ModelObject.transposed new)) =
      (solvedVars numeraire vars).map (ModelObject.transposed new) := by
  unfold solvedVars
  rw [List.filter_map]
  congr 1
  refine List.filter_congr fun o _ => ?_
  cases numeraire <;> rfl

theorem names_transposed : (numeraire.map (ModelObject.transposed new)).toList.map ModelObject.name =
    numeraire.toList.map ModelObject.name := by
  cases numeraire <;> rfl

theorem side_mem (h : IndexedModel coords vars params numeraire eqs) {e : RExpr}
    (he : SideOK coords (solvedVars numeraire vars ++ params) numeraire e) :
    ∀ v ∈ e.indexeds, ∃ o ∈ vars ++ params, o.name = v.1 ∧ v.2.length = o.dims.length ∧ List.Forall₂ (fun s d =>
      (∃ i, s = .idx i ∧ i ∈ dkeys coords ∧ ∀ l ∈ labelsOf coords i, l ∈ labelsOf coords d) ∨
      (∃ l, s = sympifyLabel l ∧ l ∈ labelsOf coords d)) v.2 o.dims := by
  intro v hv
  obtain ⟨o, ho, h1, -, hF⟩ := he.indexed.arrays v hv
  refine ⟨o, ?_, h1, hF.length_eq, hF⟩
  rcases List.mem_append.1 ho with ho | ho
  · rcases List.mem_append.1 ho with ho | ho
    · exact List.mem_append_left _ (List.mem_filter.1 ho).1
    · exact List.mem_append_right _ ho
  · exact List.mem_append_left _ (h.numeraire_mem o (by simpa using ho))

theorem side_inOrder (h : IndexedModel coords vars params numeraire eqs) (ht : Transposes old new (vars ++ params))
    {e : RExpr} (he : SideOK coords (solvedVars numeraire vars ++ params) numeraire e) :
    ∀ v ∈ e.indexeds, ∀ x, x ∈ inOrder (old v.1) (new v.1) v.2 ↔ x ∈ v.2 := by
  intro v hv x
  obtain ⟨o, ho, e1, e2, -⟩ := side_mem h he v hv
  rw [← e1, (ht o ho).1]
  exact mem_inOrder (ht o ho).2 (h.scalar.dims o ho) _ e2 x

theorem solved_mem {o : ModelObject} (ho : o ∈ solvedVars numeraire vars ++ params) : o ∈ vars ++ params := by
  rcases List.mem_append.1 ho with ho | ho
  · exact List.mem_append_left _ (List.mem_filter.1 ho).1
  · exact List.mem_append_right _ ho

theorem imbalances_transposed (h : IndexedModel coords vars params numeraire eqs)
    (ht : Transposes old new (vars ++ params)) (s s₂ : List ℝ)
    (hs : SameTransposed coords new (solvedVars numeraire vars ++ params) s s₂) :
    imbalances coords (vars.map (ModelObject.transposed new)) (params.map (ModelObject.transposed new))
        (numeraire.map (ModelObject.transposed new)) (eqs.map (IndexedEq.transposed old new)) s₂ =
      imbalances coords vars params numeraire eqs s := by
  unfold imbalances
  rw [solvedVars_transposed, ← List.map_append, names_transposed, List.flatMap_map, List.flatMap_def, List.flatMap_def]
  congr 1
  refine List.map_congr_left fun q hq => ?_
  obtain ⟨s1, s2⟩ := h.sides q hq
  have hds : freeDims coords (numeraire.toList.map ModelObject.name) (q.lhs.transposed old new) (q.rhs.transposed old new) =
      freeDims coords (numeraire.toList.map ModelObject.name) q.lhs q.rhs := by
    unfold freeDims
    refine List.filter_congr fun d _ => ?_
    rw [hasFree_transposed _ d _ (side_inOrder h ht s1), hasFree_transposed _ d _ (side_inOrder h ht s2)]
  unfold demanded
  simp only [IndexedEq.transposed]
  rw [hds]
  refine List.map_congr_left fun ls hmem => ?_
  have hnd := freeDims_nodup h.coords_nodup (numeraire.toList.map ModelObject.name) q.lhs q.rhs
  have stands : ∀ d ∈ freeDims coords (numeraire.toList.map ModelObject.name) q.lhs q.rhs,
      StandsFor coords (bindLabels (freeDims coords (numeraire.toList.map ModelObject.name) q.lhs q.rhs) ls) d := by
    intro d hd
    obtain ⟨j, hj⟩ := List.getElem?_of_mem hd
    have hlen : ls.length = (freeDims coords (numeraire.toList.map ModelObject.name) q.lhs q.rhs).length := by
      simpa using length_of_mem_product hmem
    have hjl : j < ls.length := by rw [hlen]; exact (List.getElem?_eq_some_iff.1 hj).1
    have hg := dget_zip _ ls hnd hlen j d hj
    rw [List.getElem?_eq_getElem hjl] at hg
    refine ⟨ls[j], mem_labels_product hmem j _ _ hj (List.getElem?_eq_getElem hjl), ?_⟩
    unfold bindLabels
    rw [hg]
  have free : ∀ e, SideOK coords (solvedVars numeraire vars ++ params) numeraire e → (e = q.lhs ∨ e = q.rhs) →
      ∀ d, hasFree (numeraire.toList.map ModelObject.name) d e = true →
        d ∈ freeDims coords (numeraire.toList.map ModelObject.name) q.lhs q.rhs := by
    intro e he hor d hd
    refine List.mem_filter.2 ⟨hasFree_known _ d he.indexed.known_idx hd, ?_⟩
    rcases hor with rfl | rfl <;> simp [hd]
  have memObjs : ∀ o ∈ (solvedVars numeraire vars ++ params) ++ numeraire.toList,
      o.name ∉ numeraire.toList.map ModelObject.name → o ∈ solvedVars numeraire vars ++ params := by
    intro o ho hf
    rcases List.mem_append.1 ho with ho | ho
    · exact ho
    · exact absurd (List.mem_map.2 ⟨o, ho, rfl⟩) hf
  have hval : ∀ e, SideOK coords (solvedVars numeraire vars ++ params) numeraire e → ∀ ρ : Str → SIdx,
      (∀ d, hasFree (numeraire.toList.map ModelObject.name) d e = true → StandsFor coords ρ d) →
      (e.transposed old new).value (fun x => entryFixing coords (numeraire.toList.map ModelObject.name)
          ((solvedVars numeraire vars ++ params).map (ModelObject.transposed new)) s₂ x [])
        (entryFixing coords (numeraire.toList.map ModelObject.name)
          ((solvedVars numeraire vars ++ params).map (ModelObject.transposed new)) s₂) coords ρ =
      e.value (fun x => entryFixing coords (numeraire.toList.map ModelObject.name)
          (solvedVars numeraire vars ++ params) s x [])
        (entryFixing coords (numeraire.toList.map ModelObject.name) (solvedVars numeraire vars ++ params) s)
        coords ρ := by
    intro e he ρ hρ
    refine value_transposed (numeraire.toList.map ModelObject.name) _ _ _ _ e ?_ ?_ ρ hρ
    · intro x hx
      unfold entryFixing
      by_cases hf : x ∈ numeraire.toList.map ModelObject.name
      · rw [if_pos hf, if_pos hf]
      · rw [if_neg hf, if_neg hf]
        obtain ⟨o, ho, rfl, hd⟩ := he.indexed.scalars x hx
        have ho' := memObjs o ho hf
        have e0 : new o.name = [] := by
          have := (ht o (solved_mem ho')).2
          rw [hd] at this
          exact this.eq_nil
        have := hs.2.2 o ho' [] (by rw [hd]; simp [product])
        rw [e0] at this
        exact this
    · intro v hv ρ hρ
      unfold entryFixing
      by_cases hf : v.1 ∈ numeraire.toList.map ModelObject.name
      · rw [if_pos hf, if_pos hf]
      · rw [if_neg hf, if_neg hf]
        obtain ⟨o, ho, hon, -, hF⟩ := he.indexed.arrays v hv
        have ho' := memObjs o ho (by rw [hon]; exact hf)
        obtain ⟨ls, h1, h2⟩ := bound_entries ρ v.2 o.dims hF fun d hd => hρ d hf hd
        rw [← inOrder_map, h2, inOrder_map, ← hon, (ht o (solved_mem ho')).1]
        exact hs.2.2 o ho' ls h1
  rw [hval _ s1 _ (fun d hd => stands d (free _ s1 (.inl rfl) d hd)),
    hval _ s2 _ (fun d hd => stands d (free _ s2 (.inr rfl) d hd))]

end Verif
