import Verif.Lemmas.Put
import Verif.Spec.OneLabel
import Verif.Props.SatelliteIndexed

/-!
# Models whose dims have one label each
-/

namespace Verif

open RExpr

variable {coords : Coords}

/-! ### Values -/

theorem overLims_single (vals : Lim → List SIdx) (op : RedOp) (lims : List Lim)
    (hv : ∀ l ∈ lims, ∃ x ∈ labelsOf coords l.i, vals l = [sympifyLabel x]) (F : (Str → SIdx) → ℝ) (η : Str → SIdx) :
    ∃ θ, overLims vals op lims F η = F θ ∧ (∀ d ∈ lims.map Lim.i, StandsFor coords θ d) ∧
      ∀ d, d ∉ lims.map Lim.i → θ d = η d := by
  induction lims generalizing F with
  | nil => exact ⟨η, rfl, by simp, fun _ _ => rfl⟩
  | cons l ls ih =>
    obtain ⟨θ, h1, h2, h3⟩ := ih (fun l hl => hv l (List.mem_cons_of_mem _ hl))
      (fun η => reduceVals op ((vals l).map fun s => F (setEnv η l.i s)))
    obtain ⟨x, hx, e⟩ := hv l (by simp)
    refine ⟨setEnv θ l.i (sympifyLabel x), ?_, ?_, ?_⟩
    · rw [overLims, h1, e]
      cases op <;> simp [reduceVals]
    · intro d hd
      by_cases hdl : d = l.i
      · exact ⟨x, by rw [hdl]; exact hx, by simp [setEnv, hdl]⟩
      · obtain ⟨y, hy, ey⟩ := h2 d (by simpa [hdl] using hd)
        exact ⟨y, hy, by simp only [setEnv, if_neg hdl, ey]⟩
    · intro d hd
      rw [List.map_cons, List.mem_cons, not_or] at hd
      simp only [setEnv, if_neg hd.1, h3 d hd.2]

theorem value_withoutDims (hone : OneLabel coords) (fixed : List Str)
    (σ σ₂ : Str → ℝ) (A A₂ : Str → List SIdx → ℝ) (e : RExpr) (hp : AllPlain coords e) (ho : OverOne e)
    (hs : ∀ x ∈ e.syms, σ₂ x = σ x)
    (hA : ∀ v ∈ e.indexeds, ∀ ρ : Str → SIdx,
      (∀ d, v.1 ∉ fixed → SIdx.idx d ∈ v.2 → StandsFor coords ρ d) → σ₂ v.1 = A v.1 (v.2.map (bindIdx ρ)))
    (ρ ρ₂ : Str → SIdx) (hρ : ∀ d, hasFree fixed d e = true → StandsFor coords ρ d) :
    e.withoutDims.value σ₂ A₂ [] ρ₂ = e.value σ A coords ρ := by
  induction e generalizing ρ with
  | num q => rfl
  | sym x => exact hs x (by simp [syms])
  | indexed b ix =>
    exact hA (b, ix) (by simp [indexeds]) ρ fun d hd hm => hρ d (by
      simp only [hasFree, Bool.and_eq_true, Bool.not_eq_true', List.contains_eq_mem, decide_eq_true_eq,
        decide_eq_false_iff_not]
      exact ⟨hd, hm⟩)
  | add a b iha ihb =>
    simp only [RExpr.withoutDims, RExpr.value]
    rw [iha hp.1 ho.1 (fun x hx => hs x (by simp [syms, hx])) (fun v hv => hA v (by simp [indexeds, hv])) ρ
        (fun d hd => hρ d (by simp [hasFree, hd])),
      ihb hp.2 ho.2 (fun x hx => hs x (by simp [syms, hx])) (fun v hv => hA v (by simp [indexeds, hv])) ρ
        (fun d hd => hρ d (by simp [hasFree, hd]))]
  | mul a b iha ihb =>
    simp only [RExpr.withoutDims, RExpr.value]
    rw [iha hp.1 ho.1 (fun x hx => hs x (by simp [syms, hx])) (fun v hv => hA v (by simp [indexeds, hv])) ρ
        (fun d hd => hρ d (by simp [hasFree, hd])),
      ihb hp.2 ho.2 (fun x hx => hs x (by simp [syms, hx])) (fun v hv => hA v (by simp [indexeds, hv])) ρ
        (fun d hd => hρ d (by simp [hasFree, hd]))]
  | pow a b iha ihb =>
    simp only [RExpr.withoutDims, RExpr.value]
    rw [iha hp.1 ho.1 (fun x hx => hs x (by simp [syms, hx])) (fun v hv => hA v (by simp [indexeds, hv])) ρ
        (fun d hd => hρ d (by simp [hasFree, hd])),
      ihb hp.2 ho.2 (fun x hx => hs x (by simp [syms, hx])) (fun v hv => hA v (by simp [indexeds, hv])) ρ
        (fun d hd => hρ d (by simp [hasFree, hd]))]
  | log a iha =>
    simp only [RExpr.withoutDims, RExpr.value]
    rw [iha hp ho hs hA ρ hρ]
  | exp a iha =>
    simp only [RExpr.withoutDims, RExpr.value]
    rw [iha hp ho hs hA ρ hρ]
  | red op body lims ih =>
    simp only [RExpr.withoutDims, RExpr.value]
    have hbody : ∀ e : RExpr, RedFree e → AllPlain coords e := by
      intro e he
      induction e with
      | num | sym | indexed => trivial
      | add a b iha ihb => exact ⟨iha he.1, ihb he.2⟩
      | mul a b iha ihb => exact ⟨iha he.1, ihb he.2⟩
      | pow a b iha ihb => exact ⟨iha he.1, ihb he.2⟩
      | log a iha => exact iha he
      | exp a iha => exact iha he
      | red => exact he.elim
    obtain ⟨θ, h1, h2, h3⟩ := overLims_single (coords := coords)
      (fun l => (limLabels coords l).map sympifyLabel) op lims (by
        intro l hl
        obtain ⟨k1, k2⟩ := ho.2 l hl
        have hb := hp.bounds l hl
        rw [k2] at hb
        have hmem : l.i ∈ dkeys coords := by
          by_contra hm
          have : dget coords l.i = none := by
            cases hd : dget coords l.i with
            | none => rfl
            | some ls => exact absurd ((mem_dkeys_iff coords l.i).2 ⟨ls, hd⟩) hm
          rw [this] at hb
          simp at hb
        obtain ⟨x, hx⟩ := hone l.i hmem
        refine ⟨x, by rw [hx]; simp, ?_⟩
        have : limLabels coords l = [x] := by
          unfold limLabels
          rw [k1, k2]
          show (List.drop 0 (labelsOf coords l.i)).take 1 = _
          rw [hx]
          rfl
        rw [this]
        rfl) (RExpr.value σ A coords body) ρ
    rw [h1]
    refine ih (hbody _ hp.redFree) ho.1 hs hA θ fun d hd => ?_
    by_cases hdl : d ∈ lims.map Lim.i
    · exact h2 d hdl
    · have : StandsFor coords ρ d := by
        refine hρ d ?_
        simp only [hasFree, hd, Bool.true_and, List.all_eq_true, Bool.and_eq_true, bne_iff_ne, ne_eq,
          decide_eq_true_eq]
        intro l hl
        obtain ⟨k1, k2⟩ := ho.2 l hl
        exact ⟨fun e => hdl (List.mem_map.2 ⟨l, hl, e⟩), by omega⟩
      obtain ⟨x, hx, e⟩ := this
      exact ⟨x, hx, by rw [h3 d hdl, e]⟩

theorem hasFree_withoutDims (fixed : List Str) (d : Str) (e : RExpr) : hasFree fixed d e.withoutDims = false := by
  induction e with
  | num | sym | indexed => rfl
  | add a b iha ihb => simp only [RExpr.withoutDims, hasFree, iha, ihb, Bool.or_false]
  | mul a b iha ihb => simp only [RExpr.withoutDims, hasFree, iha, ihb, Bool.or_false]
  | pow a b iha ihb => simp only [RExpr.withoutDims, hasFree, iha, ihb, Bool.or_false]
  | log a iha => exact iha
  | exp a iha => exact iha
  | red op body lims ih => exact ih

/-! ### Layout -/

theorem product_single {α : Type _} (Ls : List (List α)) (h : ∀ L ∈ Ls, ∃ x, L = [x]) : ∃ ls, product Ls = [ls] := by
  induction Ls with
  | nil => exact ⟨[], rfl⟩
  | cons L Ls ih =>
    obtain ⟨x, rfl⟩ := h L (by simp)
    obtain ⟨ls, hls⟩ := ih fun L hL => h L (by simp [hL])
    exact ⟨x :: ls, by simp [product, hls]⟩

theorem specSize_one (hone : OneLabel coords) (o : ModelObject) (hk : ∀ d ∈ o.dims, d ∈ dkeys coords) :
    specSize coords o = 1 := by
  unfold specSize specShape
  rw [List.map_congr_left (g := fun _ => 1) fun d hd => by
    obtain ⟨l, hl⟩ := hone d (hk d hd)
    rw [hl]; rfl]
  simp

theorem totalSize_one (hone : OneLabel coords) (objs : List ModelObject)
    (hk : ∀ o ∈ objs, ∀ d ∈ o.dims, d ∈ dkeys coords) : totalSize coords objs = objs.length := by
  unfold totalSize
  rw [List.map_congr_left (g := fun _ => 1) fun o ho => specSize_one hone o (hk o ho)]
  simp

theorem totalSize_withoutDims (objs : List ModelObject) :
    totalSize [] (objs.map ModelObject.withoutDims) = objs.length := by
  rw [totalSize_one (fun d hd => by simp [dkeys] at hd) _ (by
    intro o ho d hd
    obtain ⟨o', -, rfl⟩ := List.mem_map.1 ho
    cases hd), List.length_map]

theorem solvedVars_withoutDims (numeraire : Option ModelObject) (vars : List ModelObject) :
    solvedVars (numeraire.map ModelObject.withoutDims) (vars.map ModelObject.withoutDims) =
      (solvedVars numeraire vars).map ModelObject.withoutDims := by
  unfold solvedVars
  rw [List.filter_map]
  congr 1
  refine List.filter_congr fun o _ => ?_
  cases numeraire <;> simp [ModelObject.withoutDims] <;> congr

theorem fixed_withoutDims (numeraire : Option ModelObject) :
    (numeraire.map ModelObject.withoutDims).toList.map ModelObject.name = numeraire.toList.map ModelObject.name := by
  cases numeraire <;> rfl

theorem arrayEntry_one (hone : OneLabel coords) (objs : List ModelObject)
    (hk : ∀ o ∈ objs, ∀ d ∈ o.dims, d ∈ dkeys coords)
    (hN : (scalarNames coords objs).Nodup) (hn : (objs.map ModelObject.name).Nodup)
    (hN₂ : (scalarNames [] (objs.map ModelObject.withoutDims)).Nodup) (flat : List ℝ)
    (o : ModelObject) (ho : o ∈ objs) (ls : List Str) (hls : ls ∈ product (o.dims.map (labelsOf coords)))
    (hr : ∀ l ∈ ls, ReadsBack l) :
    arrayEntry [] (objs.map ModelObject.withoutDims) flat o.name [] =
      arrayEntry coords objs flat o.name (ls.map sympifyLabel) := by
  obtain ⟨V, P, rfl⟩ := List.append_of_mem ho
  obtain ⟨ls', hls'⟩ := product_single (o.dims.map (labelsOf coords)) (by
    intro L hL
    obtain ⟨d, hd, rfl⟩ := List.mem_map.1 hL
    exact hone d (hk o ho d hd))
  rw [hls', List.mem_singleton] at hls
  subst hls
  rw [arrayEntry_behind hN hn flat 0 ls (by rw [hls']; rfl) hr,
    totalSize_one hone V fun o ho => hk o (by simp [ho])]
  have hn₂ : ((V.map ModelObject.withoutDims ++ o.withoutDims :: P.map ModelObject.withoutDims).map
      ModelObject.name).Nodup := by
    have : (V.map ModelObject.withoutDims ++ o.withoutDims :: P.map ModelObject.withoutDims).map ModelObject.name =
        (V ++ o :: P).map ModelObject.name := by
      simp [ModelObject.withoutDims, Function.comp_def]
    rw [this]
    exact hn
  rw [List.map_append, List.map_cons] at hN₂ ⊢
  have := arrayEntry_behind (coords := []) hN₂ hn₂ flat 0 [] rfl (by simp)
  rw [totalSize_withoutDims] at this
  exact this

variable {vars params : List ModelObject} {numeraire : Option ModelObject} {eqs eqs₂ : List IndexedEq}

/-- The equations without dims are off by the same amounts. -/
theorem imbalances_withoutDims (hone : OneLabel coords) (h : IndexedModel coords vars params numeraire eqs)
    (hover : ∀ q ∈ eqs, OverOne q.lhs ∧ OverOne q.rhs) (heqs : SameWithoutDims eqs eqs₂)
    (hN₂ : (scalarNames [] ((solvedVars numeraire vars ++ params).map ModelObject.withoutDims)).Nodup) (s : List ℝ) :
    imbalances [] (vars.map ModelObject.withoutDims) (params.map ModelObject.withoutDims)
      (numeraire.map ModelObject.withoutDims) eqs₂ s = imbalances coords vars params numeraire eqs s := by
  have hss := solvedModel (numeraire := numeraire) h.scalar
  unfold imbalances
  rw [solvedVars_withoutDims, fixed_withoutDims, ← List.map_append]
  have hq : ∀ q ∈ eqs, ∀ q₂ : IndexedEq, q₂.lhs = q.lhs.withoutDims → q₂.rhs = q.rhs.withoutDims →
      demanded [] (numeraire.toList.map ModelObject.name)
        ((solvedVars numeraire vars ++ params).map ModelObject.withoutDims) s q₂ =
      demanded coords (numeraire.toList.map ModelObject.name) (solvedVars numeraire vars ++ params) s q := by
    intro q hq q₂ el er
    obtain ⟨s1, s2⟩ := h.sides q hq
    have hval : ∀ e, SideOK coords (solvedVars numeraire vars ++ params) numeraire e → OverOne e → ∀ ρ ρ₂ : Str → SIdx,
        (∀ d, hasFree (numeraire.toList.map ModelObject.name) d e = true → StandsFor coords ρ d) →
        e.withoutDims.value (fun x => entryFixing [] (numeraire.toList.map ModelObject.name)
            ((solvedVars numeraire vars ++ params).map ModelObject.withoutDims) s x [])
          (entryFixing [] (numeraire.toList.map ModelObject.name)
            ((solvedVars numeraire vars ++ params).map ModelObject.withoutDims) s) [] ρ₂ =
        e.value (fun x => entryFixing coords (numeraire.toList.map ModelObject.name)
            (solvedVars numeraire vars ++ params) s x [])
          (entryFixing coords (numeraire.toList.map ModelObject.name) (solvedVars numeraire vars ++ params) s)
          coords ρ := by
      intro e he hov ρ ρ₂ hρ
      refine value_withoutDims hone (numeraire.toList.map ModelObject.name) _ _ _ _ e he.plain hov ?_ ?_ ρ ρ₂ hρ
      · intro x hx
        obtain ⟨o, ho, rfl, hd⟩ := he.indexed.scalars x hx
        rcases List.mem_append.1 ho with ho | ho
        · have := arrayEntry_one hone _ hss.known hss.scalars hss.names hN₂ s o ho []
            (by rw [hd]; simp [product]) (by simp)
          simp only [entryFixing, if_neg (notFixed ho h)]
          exact this
        · have hm : o.name ∈ numeraire.toList.map ModelObject.name := List.mem_map_of_mem ho
          simp only [entryFixing, if_pos hm]
      · intro v hv ρ hρ
        obtain ⟨o, ho, hon, hd, hF⟩ := he.indexed.arrays v hv
        rcases List.mem_append.1 ho with ho | ho
        · have hn := notFixed ho h
          rw [hon] at hn
          obtain ⟨ls, h1, h2⟩ := bound_entries ρ v.2 o.dims hF fun d hd => hρ d hn hd
          rw [entryFixing, entryFixing, if_neg hn, if_neg hn, h2, ← hon]
          refine arrayEntry_one hone _ hss.known hss.scalars hss.names hN₂ s o ho ls h1 ?_
          intro l hl
          obtain ⟨d, -, hd⟩ := mem_product_label h1 l hl
          exact (labels_readBack h.label_names d l hd).1
        · have hm : v.1 ∈ numeraire.toList.map ModelObject.name := hon ▸ List.mem_map_of_mem ho
          rw [entryFixing, entryFixing, if_pos hm, if_pos hm]
    unfold demanded
    dsimp only
    rw [el, er]
    have hfd : freeDims [] (numeraire.toList.map ModelObject.name) q.lhs.withoutDims q.rhs.withoutDims = [] := rfl
    obtain ⟨ls, hls⟩ := product_single ((freeDims coords (numeraire.toList.map ModelObject.name) q.lhs q.rhs).map
      (labelsOf coords)) (by
        intro L hL
        obtain ⟨d, hd, rfl⟩ := List.mem_map.1 hL
        exact hone d (List.mem_filter.1 hd).1)
    rw [hfd, hls]
    have hmem : ls ∈ product ((freeDims coords (numeraire.toList.map ModelObject.name) q.lhs q.rhs).map
      (labelsOf coords)) := by rw [hls]; simp
    have hnd := freeDims_nodup h.coords_nodup (numeraire.toList.map ModelObject.name) q.lhs q.rhs
    have stands : ∀ d ∈ freeDims coords (numeraire.toList.map ModelObject.name) q.lhs q.rhs,
        StandsFor coords (bindLabels (freeDims coords (numeraire.toList.map ModelObject.name) q.lhs q.rhs) ls) d := by
      intro d hd
      obtain ⟨j, hj⟩ := List.getElem?_of_mem hd
      have hlen : ls.length = (freeDims coords (numeraire.toList.map ModelObject.name) q.lhs q.rhs).length := by
        simpa using length_of_mem_product hmem
      have hjl : j < ls.length := by rw [hlen]; exact (List.getElem?_eq_some_iff.1 hj).1
      have hg := dget_zip _ ls hnd hlen j d hj
      rw [List.getElem?_eq_getElem hjl] at hg
      refine ⟨ls[j], mem_labels_product hmem j _ _ hj (List.getElem?_eq_getElem hjl), ?_⟩
      unfold bindLabels
      rw [hg]
    have free : ∀ e, SideOK coords (solvedVars numeraire vars ++ params) numeraire e → (e = q.lhs ∨ e = q.rhs) →
        ∀ d, hasFree (numeraire.toList.map ModelObject.name) d e = true →
          d ∈ freeDims coords (numeraire.toList.map ModelObject.name) q.lhs q.rhs := by
      intro e he hor d hd
      refine List.mem_filter.2 ⟨hasFree_known _ d he.indexed.known_idx hd, ?_⟩
      rcases hor with rfl | rfl <;> simp [hd]
    simp only [List.map_nil, product, List.map_cons]
    rw [hval _ s1 (hover q hq).1 _ _ (fun d hd => stands d (free _ s1 (.inl rfl) d hd)),
      hval _ s2 (hover q hq).2 _ _ (fun d hd => stands d (free _ s2 (.inr rfl) d hd))]
  clear hover
  have hsub : ∀ q ∈ eqs, q ∈ eqs := fun _ h => h
  clear h
  induction heqs with
  | nil => rfl
  | @cons q q₂ l l₂ e _ ih =>
    rw [List.flatMap_cons, List.flatMap_cons, hq q (by simp) q₂ e.1 e.2,
      ih (fun q h => hq q (List.mem_cons_of_mem _ h)) (fun _ h => h)]

end Verif
