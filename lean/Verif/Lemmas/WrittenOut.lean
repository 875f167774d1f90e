import Verif.Lemmas.Put
import Verif.Spec.WrittenOut

/-!
# Lemmas on models written out label by label
-/

namespace Verif

open RExpr

variable {coords : Coords}

/-! ### Values -/

theorem joined_value (σ : Str → ℝ) (A : Str → List SIdx → ℝ) (c : Coords) (ρ : Str → SIdx) (op : RedOp) (l : List RExpr) :
    (joined op l).value σ A c ρ = reduceVals op (l.map fun e => e.value σ A c ρ) := by
  induction l with
  | nil => cases op <;> simp [joined, RExpr.value, reduceVals]
  | cons a l ih =>
    cases l with
    | nil => cases op <;> simp [joined, reduceVals]
    | cons b l =>
      cases op
      · simp only [joined, RExpr.value, ih, reduceVals, List.map_cons, List.sum_cons]
      · simp only [joined, RExpr.value, ih, reduceVals, List.map_cons, List.prod_cons]

theorem overLabels_value (σ : Str → ℝ) (A : Str → List SIdx → ℝ) (c : Coords) (ρ₂ : Str → SIdx) (op : RedOp)
    (lims : List Lim) (W : (Str → SIdx) → RExpr) (F : (Str → SIdx) → ℝ) (η : Str → SIdx)
    (hF : (∀ l ∈ lims, limLabels coords l ≠ []) → ∀ θ, (∀ d ∈ lims.map Lim.i, StandsFor coords θ d) →
      (∀ d, d ∉ lims.map Lim.i → θ d = η d) → (W θ).value σ A c ρ₂ = F θ) :
    (overLabels coords op lims W η).value σ A c ρ₂ =
      overLims (fun l => (limLabels coords l).map sympifyLabel) op lims F η := by
  induction lims generalizing W F with
  | nil => exact hF (by simp) η (by simp) (fun _ _ => rfl)
  | cons l ls ih =>
    simp only [overLabels, overLims]
    apply ih
    intro hne θ h1 h2
    rw [joined_value, List.map_map, List.map_map]
    congr 1
    refine List.map_congr_left fun x hx => ?_
    have hxl : x ∈ labelsOf coords l.i := List.mem_of_mem_drop (List.mem_of_mem_take hx)
    refine hF ?_ _ ?_ ?_
    · intro l' hl'
      rcases List.mem_cons.1 hl' with rfl | hl'
      · exact List.ne_nil_of_mem hx
      · exact hne l' hl'
    · intro d hd
      by_cases hdl : d = l.i
      · exact ⟨x, by rw [hdl]; exact hxl, by simp [setEnv, hdl]⟩
      · obtain ⟨y, hy, ey⟩ := h1 d (by simpa [hdl] using hd)
        exact ⟨y, hy, by simp only [setEnv, if_neg hdl, ey]⟩
    · intro d hd
      rw [List.map_cons, List.mem_cons, not_or] at hd
      simp only [setEnv, if_neg hd.1, h2 d hd.2]

theorem value_written (fixed : List Str)
    (σ σ₂ : Str → ℝ) (A A₂ : Str → List SIdx → ℝ) (e : RExpr) (hp : AllPlain coords e)
    (hs : ∀ x ∈ e.syms, σ₂ x = σ x)
    (hA : ∀ v ∈ e.indexeds, ∀ ρ : Str → SIdx,
      (∀ d, v.1 ∉ fixed → SIdx.idx d ∈ v.2 → StandsFor coords ρ d) →
      σ₂ (joinStr "_".toList (v.1 :: v.2.map fun s => labelText (bindIdx ρ s))) = A v.1 (v.2.map (bindIdx ρ)))
    (ρ ρ₂ : Str → SIdx) (hρ : ∀ d, hasFree fixed d e = true → StandsFor coords ρ d) :
    (e.written coords ρ).value σ₂ A₂ [] ρ₂ = e.value σ A coords ρ := by
  induction e generalizing ρ with
  | num q => rfl
  | sym x => exact hs x (by simp [syms])
  | indexed b ix =>
    exact hA (b, ix) (by simp [indexeds]) ρ fun d hd hm => hρ d (by
      simp only [hasFree, Bool.and_eq_true, Bool.not_eq_true', List.contains_eq_mem, decide_eq_true_eq,
        decide_eq_false_iff_not]
      exact ⟨hd, hm⟩)
  | add a b iha ihb =>
    simp only [RExpr.written, RExpr.value]
    rw [iha hp.1 (fun x hx => hs x (by simp [syms, hx])) (fun v hv => hA v (by simp [indexeds, hv])) ρ
        (fun d hd => hρ d (by simp [hasFree, hd])),
      ihb hp.2 (fun x hx => hs x (by simp [syms, hx])) (fun v hv => hA v (by simp [indexeds, hv])) ρ
        (fun d hd => hρ d (by simp [hasFree, hd]))]
  | mul a b iha ihb =>
    simp only [RExpr.written, RExpr.value]
    rw [iha hp.1 (fun x hx => hs x (by simp [syms, hx])) (fun v hv => hA v (by simp [indexeds, hv])) ρ
        (fun d hd => hρ d (by simp [hasFree, hd])),
      ihb hp.2 (fun x hx => hs x (by simp [syms, hx])) (fun v hv => hA v (by simp [indexeds, hv])) ρ
        (fun d hd => hρ d (by simp [hasFree, hd]))]
  | pow a b iha ihb =>
    simp only [RExpr.written, RExpr.value]
    rw [iha hp.1 (fun x hx => hs x (by simp [syms, hx])) (fun v hv => hA v (by simp [indexeds, hv])) ρ
        (fun d hd => hρ d (by simp [hasFree, hd])),
      ihb hp.2 (fun x hx => hs x (by simp [syms, hx])) (fun v hv => hA v (by simp [indexeds, hv])) ρ
        (fun d hd => hρ d (by simp [hasFree, hd]))]
  | log a iha =>
    simp only [RExpr.written, RExpr.value]
    rw [iha hp hs hA ρ hρ]
  | exp a iha =>
    simp only [RExpr.written, RExpr.value]
    rw [iha hp hs hA ρ hρ]
  | red op body lims ih =>
    simp only [RExpr.written, RExpr.value]
    have hbody : ∀ e : RExpr, RedFree e → AllPlain coords e := by
      intro e he
      induction e with
      | num | sym | indexed => trivial
      | add a b iha ihb => exact ⟨iha he.1, ihb he.2⟩
      | mul a b iha ihb => exact ⟨iha he.1, ihb he.2⟩
      | pow a b iha ihb => exact ⟨iha he.1, ihb he.2⟩
      | log a iha => exact iha he
      | exp a iha => exact iha he
      | red => exact he.elim
    refine overLabels_value _ _ _ _ _ _ _ _ _ fun hne θ h1 h2 => ?_
    refine ih (hbody _ hp.redFree) hs hA θ fun d hd => ?_
    by_cases hdl : d ∈ lims.map Lim.i
    · exact h1 d hdl
    · have : StandsFor coords ρ d := by
        refine hρ d ?_
        simp only [hasFree, hd, Bool.true_and, List.all_eq_true, Bool.and_eq_true, bne_iff_ne, ne_eq,
          decide_eq_true_eq]
        intro l hl
        refine ⟨fun e => hdl (List.mem_map.2 ⟨l, hl, e⟩), ?_⟩
        by_contra hge
        refine hne l hl ?_
        unfold limLabels
        rw [show l.stop - l.lo = 0 by omega, List.take_zero]
      obtain ⟨x, hx, e⟩ := this
      exact ⟨x, hx, by rw [h2 d hdl, e]⟩

/-! ### Layout -/

theorem writtenOut_append (a b : List ModelObject) : writtenOut coords (a ++ b) = writtenOut coords a ++ writtenOut coords b := by
  simp [writtenOut, scalarNames_append]

theorem scalarNames_writtenOut (objs : List ModelObject) :
    scalarNames [] (writtenOut coords objs) = scalarNames coords objs := by
  unfold writtenOut
  generalize scalarNames coords objs = N
  induction N with
  | nil => rfl
  | cons n N ih =>
    rw [List.map_cons]
    unfold scalarNames at ih ⊢
    rw [List.flatMap_cons, ih]
    rfl

theorem names_writtenOut (objs : List ModelObject) :
    (writtenOut coords objs).map ModelObject.name = scalarNames coords objs := by
  unfold writtenOut
  rw [List.map_map]
  exact List.map_id _

theorem totalSize_writtenOut (objs : List ModelObject) : totalSize [] (writtenOut coords objs) = totalSize coords objs := by
  rw [← length_scalarNames, scalarNames_writtenOut, length_scalarNames]

theorem arrayEntry_writtenOut (objs : List ModelObject) (hN : (scalarNames coords objs).Nodup) (flat : List ℝ) (n : Str)
    (hn : n ∈ scalarNames coords objs) :
    arrayEntry [] (writtenOut coords objs) flat n [] = flatPoint (scalarNames coords objs) flat n := by
  have := flatPoint_entry [] (writtenOut coords objs) (by rw [scalarNames_writtenOut]; exact hN)
    (by rw [names_writtenOut]; exact hN) flat { name := n } (List.mem_map.2 ⟨n, hn, rfl⟩) [] (by simp [product])
    (by simp)
  rw [scalarNames_writtenOut] at this
  exact this.symm

variable {vars params : List ModelObject} {numeraire : Option ModelObject} {eqs eqs₂ : List IndexedEq}

theorem scalar_ne_numeraire (hsc : ScalarModel coords vars params) {z : ModelObject} (hz : z ∈ vars) (hd : z.dims = [])
    {o : ModelObject} (ho : o ∈ vars ++ params) (hne : o.name ≠ z.name) (n : Str) (hn : n ∈ scalarNames coords [o]) :
    n ≠ z.name := by
  rintro rfl
  have hmem : z.name ∈ scalarNames coords [z] := by
    simp [scalarNames, hd, product, joinStr]
  have hz' : z ∈ vars ++ params := List.mem_append_left _ hz
  have hN := hsc.scalars
  obtain ⟨A, B, e⟩ := List.append_of_mem hz'
  rw [e] at ho hN
  have hcons : z :: B = [z] ++ B := rfl
  rw [hcons, scalarNames_append, scalarNames_append, List.nodup_append, List.nodup_append] at hN
  have sub : ∀ l : List ModelObject, o ∈ l → z.name ∈ scalarNames coords l := by
    intro l hl
    unfold scalarNames at hn ⊢
    rw [List.flatMap_cons, List.flatMap_nil, List.append_nil] at hn
    exact List.mem_flatMap.2 ⟨o, hl, hn⟩
  rcases List.mem_append.1 ho with ho | ho
  · exact hN.2.2 _ (sub A ho) _ (List.mem_append_left _ hmem) rfl
  · rcases List.mem_cons.1 ho with rfl | ho
    · exact hne rfl
    · exact hN.2.1.2.2 _ hmem _ (sub B ho) rfl

theorem solvedVars_cat (n : Option ModelObject) (a b : List ModelObject) :
    solvedVars n (a ++ b) = solvedVars n a ++ solvedVars n b := by
  simp [solvedVars]

theorem solvedVars_writtenOut (hsc : ScalarModel coords vars params)
    (hmem : ∀ o, numeraire = some o → o ∈ vars) (hd : ∀ o, numeraire = some o → o.dims = []) :
    solvedVars numeraire (writtenOut coords vars) = writtenOut coords (solvedVars numeraire vars) := by
  cases numeraire with
  | none => rw [solvedVars_none, solvedVars_none]
  | some z =>
    have key : ∀ l : List ModelObject, (∀ o ∈ l, o ∈ vars) →
        solvedVars (some z) (writtenOut coords l) = writtenOut coords (solvedVars (some z) l) := by
      intro l hl
      induction l with
      | nil => rfl
      | cons o l ih =>
        have hcons : o :: l = [o] ++ l := rfl
        rw [hcons, writtenOut_append, solvedVars_cat, solvedVars_cat, writtenOut_append,
          ih fun o ho => hl o (List.mem_cons_of_mem _ ho)]
        congr 1
        by_cases hn : o.name = z.name
        · have hoz : o = z := List.inj_on_of_nodup_map hsc.names (List.mem_append_left _ (hl o (by simp)))
            (List.mem_append_left _ (hmem z rfl)) hn
          subst hoz
          have h1 : writtenOut coords [o] = [{ name := o.name }] := by
            simp [writtenOut, scalarNames, hd o rfl, product, joinStr]
          rw [h1]
          simp [solvedVars, writtenOut, scalarNames]
        · have h1 : solvedVars (some z) [o] = [o] := by simp [solvedVars, hn]
          rw [h1]
          unfold solvedVars
          rw [List.filter_eq_self]
          intro o' ho'
          obtain ⟨n, hnm, rfl⟩ := List.mem_map.1 ho'
          have := scalar_ne_numeraire hsc (hmem z rfl) (hd z rfl) (List.mem_append_left _ (hl o (by simp))) hn n hnm
          simpa using this
    exact key vars fun _ h => h

noncomputable def gapWith (coords : Coords) (numeraire : Option ModelObject) (objs : List ModelObject) (flat : List ℝ)
    (p : IndexedEq × (Str → SIdx)) : ℝ :=
  let entry := entryFixing coords (numeraire.toList.map ModelObject.name) objs flat
  p.1.lhs.value (fun x => entry x []) entry coords p.2 - p.1.rhs.value (fun x => entry x []) entry coords p.2

theorem imbalances_instances (coords : Coords) (vars params : List ModelObject) (numeraire : Option ModelObject)
    (eqs : List IndexedEq) (flat : List ℝ) :
    imbalances coords vars params numeraire eqs flat =
      (instances coords numeraire eqs).map (gapWith coords numeraire (solvedVars numeraire vars ++ params) flat) := by
  unfold imbalances instances
  rw [List.map_flatMap]
  congr 1
  funext q
  rw [List.map_map]
  rfl

/-- The equations written out are off by the same amounts. -/
theorem imbalances_writtenOut (h : IndexedModel coords vars params numeraire eqs)
    (hd : ∀ o, numeraire = some o → o.dims = []) (heqs : EqsWrittenOut coords numeraire eqs eqs₂) (s : List ℝ) :
    imbalances [] (writtenOut coords vars) (writtenOut coords params) numeraire eqs₂ s =
      imbalances coords vars params numeraire eqs s := by
  have hss := solvedModel (numeraire := numeraire) h.scalar
  have hone : ∀ q₂ : IndexedEq, demanded [] (numeraire.toList.map ModelObject.name)
      (writtenOut coords (solvedVars numeraire vars ++ params)) s q₂ =
      [gapWith [] numeraire (writtenOut coords (solvedVars numeraire vars ++ params)) s (q₂, bindLabels [] [])] := fun _ => rfl
  have hq : ∀ p ∈ instances coords numeraire eqs, ∀ q₂ : IndexedEq,
      q₂.lhs = p.1.lhs.written coords p.2 → q₂.rhs = p.1.rhs.written coords p.2 →
      gapWith [] numeraire (writtenOut coords (solvedVars numeraire vars ++ params)) s (q₂, bindLabels [] []) =
      gapWith coords numeraire (solvedVars numeraire vars ++ params) s p := by
    intro p hp q₂ el er
    obtain ⟨q, hq, hp⟩ := List.mem_flatMap.1 hp
    obtain ⟨ls, hmem, rfl⟩ := List.mem_map.1 hp
    obtain ⟨s1, s2⟩ := h.sides q hq
    dsimp only at el er
    have hentry : ∀ o ∈ solvedVars numeraire vars ++ params, ∀ ls ∈ product (o.dims.map (labelsOf coords)),
        entryFixing [] (numeraire.toList.map ModelObject.name) (writtenOut coords (solvedVars numeraire vars ++ params)) s
          (joinStr "_".toList (o.name :: ls)) [] =
        entryFixing coords (numeraire.toList.map ModelObject.name) (solvedVars numeraire vars ++ params) s o.name
          (ls.map sympifyLabel) := by
      intro o ho ls hls
      have hn : joinStr "_".toList (o.name :: ls) ∈ scalarNames coords [o] := by
        simp only [scalarNames, List.flatMap_cons, List.flatMap_nil, List.append_nil]
        exact List.mem_map.2 ⟨ls, hls, rfl⟩
      have hn' : joinStr "_".toList (o.name :: ls) ∈ scalarNames coords (solvedVars numeraire vars ++ params) :=
        List.mem_flatMap.2 ⟨o, ho, List.mem_map.2 ⟨ls, hls, rfl⟩⟩
      have hfix : joinStr "_".toList (o.name :: ls) ∉ numeraire.toList.map ModelObject.name := by
        intro hm
        obtain ⟨z, hz, hzn⟩ := List.mem_map.1 hm
        have hz : numeraire = some z := by simpa using hz
        have ho' : o ∈ vars ++ params := by
          rcases List.mem_append.1 ho with ho | ho
          · exact List.mem_append_left _ (List.mem_filter.1 ho).1
          · exact List.mem_append_right _ ho
        exact scalar_ne_numeraire h.scalar (h.numeraire_mem z hz) (hd z hz) ho'
          (fun e => notFixed ho h (List.mem_map.2 ⟨z, by simp [hz], e.symm⟩)) _ hn hzn.symm
      rw [entryFixing, entryFixing, if_neg hfix, if_neg (notFixed ho h), arrayEntry_writtenOut _ hss.scalars s _ hn']
      refine flatPoint_entry coords _ hss.scalars hss.names s o ho ls hls fun l hl => ?_
      obtain ⟨d, -, hd⟩ := mem_product_label hls l hl
      exact (labels_readBack h.label_names d l hd).1
    have hval : ∀ e, SideOK coords (solvedVars numeraire vars ++ params) numeraire e → ∀ ρ ρ₂ : Str → SIdx,
        (∀ d, hasFree (numeraire.toList.map ModelObject.name) d e = true → StandsFor coords ρ d) →
        (e.written coords ρ).value (fun x => entryFixing [] (numeraire.toList.map ModelObject.name)
            (writtenOut coords (solvedVars numeraire vars ++ params)) s x [])
          (entryFixing [] (numeraire.toList.map ModelObject.name)
            (writtenOut coords (solvedVars numeraire vars ++ params)) s) [] ρ₂ =
        e.value (fun x => entryFixing coords (numeraire.toList.map ModelObject.name)
            (solvedVars numeraire vars ++ params) s x [])
          (entryFixing coords (numeraire.toList.map ModelObject.name) (solvedVars numeraire vars ++ params) s)
          coords ρ := by
      intro e he ρ ρ₂ hρ
      refine value_written (numeraire.toList.map ModelObject.name) _ _ _ _ e he.plain ?_ ?_ ρ ρ₂ hρ
      · intro x hx
        obtain ⟨o, ho, rfl, hd⟩ := he.indexed.scalars x hx
        rcases List.mem_append.1 ho with ho | ho
        · exact hentry o ho [] (by rw [hd]; simp [product])
        · have hm : o.name ∈ numeraire.toList.map ModelObject.name := List.mem_map_of_mem ho
          simp only [entryFixing, if_pos hm]
      · intro v hv ρ hρ
        obtain ⟨o, ho, hon, hdims, hF⟩ := he.indexed.arrays v hv
        rcases List.mem_append.1 ho with ho | ho
        · have hn := notFixed ho h
          rw [hon] at hn
          obtain ⟨ls, h1, h2⟩ := bound_entries ρ v.2 o.dims hF fun d hd => hρ d hn hd
          have h3 : (v.2.map fun s => labelText (bindIdx ρ s)) = ls := by
            have : (v.2.map fun s => labelText (bindIdx ρ s)) = (v.2.map (bindIdx ρ)).map labelText := by
              rw [List.map_map]; rfl
            rw [this, h2, List.map_map]
            refine (List.map_congr_left (g := id) fun l hl => ?_).trans (List.map_id _)
            obtain ⟨d, -, hd⟩ := mem_product_label h1 l hl
            exact (labels_readBack h.label_names d l hd).1
          rw [h3, h2, ← hon]
          exact hentry o ho ls h1
        · exact absurd (hd o (by simpa using ho)) hdims
    have hnd := freeDims_nodup h.coords_nodup (numeraire.toList.map ModelObject.name) q.lhs q.rhs
    have stands : ∀ d ∈ freeDims coords (numeraire.toList.map ModelObject.name) q.lhs q.rhs,
        StandsFor coords (bindLabels (freeDims coords (numeraire.toList.map ModelObject.name) q.lhs q.rhs) ls) d := by
      intro d hd
      obtain ⟨j, hj⟩ := List.getElem?_of_mem hd
      have hlen : ls.length = (freeDims coords (numeraire.toList.map ModelObject.name) q.lhs q.rhs).length := by
        simpa using length_of_mem_product hmem
      have hjl : j < ls.length := by rw [hlen]; exact (List.getElem?_eq_some_iff.1 hj).1
      have hg := dget_zip _ ls hnd hlen j d hj
      rw [List.getElem?_eq_getElem hjl] at hg
      refine ⟨ls[j], mem_labels_product hmem j _ _ hj (List.getElem?_eq_getElem hjl), ?_⟩
      unfold bindLabels
      rw [hg]
    have free : ∀ e, SideOK coords (solvedVars numeraire vars ++ params) numeraire e → (e = q.lhs ∨ e = q.rhs) →
        ∀ d, hasFree (numeraire.toList.map ModelObject.name) d e = true →
          d ∈ freeDims coords (numeraire.toList.map ModelObject.name) q.lhs q.rhs := by
      intro e he hor d hd
      refine List.mem_filter.2 ⟨hasFree_known _ d he.indexed.known_idx hd, ?_⟩
      rcases hor with rfl | rfl <;> simp [hd]
    unfold gapWith
    dsimp only
    rw [el, er]
    rw [hval _ s1 _ _ (fun d hd => stands d (free _ s1 (.inl rfl) d hd)),
      hval _ s2 _ _ (fun d hd => stands d (free _ s2 (.inr rfl) d hd))]
  rw [imbalances_instances coords]
  unfold imbalances
  rw [solvedVars_writtenOut h.scalar h.numeraire_mem hd, ← writtenOut_append]
  rw [show demanded [] _ _ s = fun q₂ => _ from funext hone]
  unfold EqsWrittenOut at heqs
  generalize instances coords numeraire eqs = C at heqs hq
  clear h
  induction heqs with
  | nil => rfl
  | @cons p q₂ l l₂ e _ ih =>
    rw [List.flatMap_cons, List.map_cons, hq p (by simp) q₂ e.1 e.2,
      ih (fun q h => hq q (List.mem_cons_of_mem _ h))]
    rfl

end Verif
