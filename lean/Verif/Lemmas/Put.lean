import Verif.Spec.Put
import Verif.Lemmas.Rename

/-!
# Equations in which objects are replaced
-/

namespace Verif

open RExpr

variable {coords : Coords}

theorem overLims_same (vals : Lim → List SIdx) (hv : ∀ l, vals l = (limLabels coords l).map sympifyLabel) (op : RedOp)
    (η : Str → SIdx) (lims : List Lim) :
    ∀ (S : List Str) (F F₂ : (Str → SIdx) → ℝ),
      (∀ θ, (∀ l ∈ lims, l.lo < l.stop) → (∀ d ∈ lims.map Lim.i ++ S, StandsFor coords θ d) →
        (∀ d, d ∉ lims.map Lim.i ++ S → θ d = η d) → F₂ θ = F θ) →
      ∀ θ, (∀ d ∈ S, StandsFor coords θ d) → (∀ d, d ∉ S → θ d = η d) →
        overLims vals op lims F₂ θ = overLims vals op lims F θ := by
  induction lims with
  | nil => intro S F F₂ hF θ h1 h2; exact hF θ (by simp) h1 h2
  | cons l ls ih =>
    intro S F F₂ hF θ h1 h2
    simp only [overLims]
    refine ih S _ _ ?_ θ h1 h2
    intro θ g0 g1 g2
    congr 1
    rw [hv l, List.map_map, List.map_map]
    refine List.map_congr_left fun x hx => ?_
    obtain ⟨hx, hlt⟩ := limLabels_mem hx
    simp only [Function.comp_apply]
    refine hF _ ?_ ?_ ?_
    · intro l' hl'
      rcases List.mem_cons.1 hl' with rfl | hl'
      · exact hlt
      · exact g0 l' hl'
    · intro d hd
      by_cases hdl : d = l.i
      · exact ⟨x, by rw [hdl]; exact hx, by simp [setEnv, hdl]⟩
      · have hd' : d ∈ ls.map Lim.i ++ S := by
          simpa [hdl] using hd
        obtain ⟨l', k1, k2⟩ := g1 d hd'
        exact ⟨l', k1, by simp only [setEnv, if_neg hdl, k2]⟩
    · intro d hd
      have hdl : d ≠ l.i := by
        rintro rfl
        exact hd (by simp)
      simp only [setEnv, if_neg hdl]
      exact g2 d fun hm => hd (by rw [List.map_cons, List.cons_append]; exact List.mem_cons_of_mem _ hm)

/-- The value of an expression in which objects are replaced. -/
theorem value_put (s : Str → RExpr) (f : Str → Str) (fixed : List Str)
    (σ σ₂ : Str → ℝ) (A A₂ : Str → List SIdx → ℝ) (e : RExpr)
    (hs : ∀ x ∈ e.syms, ∀ ρ, (s x).value σ₂ A₂ coords ρ = σ x)
    (hA : ∀ v ∈ e.indexeds, ∀ ρ : Str → SIdx,
      (∀ d, v.1 ∉ fixed → SIdx.idx d ∈ v.2 → StandsFor coords ρ d) →
        A₂ (f v.1) (v.2.map (bindIdx ρ)) = A v.1 (v.2.map (bindIdx ρ)))
    (ρ : Str → SIdx) (hρ : ∀ d, hasFree fixed d e = true → StandsFor coords ρ d) :
    (e.put s f).value σ₂ A₂ coords ρ = e.value σ A coords ρ := by
  induction e generalizing ρ with
  | num q => rfl
  | sym x => exact hs x (by simp [syms]) ρ
  | indexed b ix =>
    exact hA (b, ix) (by simp [indexeds]) ρ fun d hd hm => hρ d (by
      simp only [hasFree, Bool.and_eq_true, Bool.not_eq_true', List.contains_eq_mem, decide_eq_true_eq,
        decide_eq_false_iff_not]
      exact ⟨hd, hm⟩)
  | add a b iha ihb =>
    simp only [RExpr.put, RExpr.value]
    rw [iha (fun x hx => hs x (by simp [syms, hx])) (fun v hv => hA v (by simp [indexeds, hv])) ρ
        (fun d hd => hρ d (by simp [hasFree, hd])),
      ihb (fun x hx => hs x (by simp [syms, hx])) (fun v hv => hA v (by simp [indexeds, hv])) ρ
        (fun d hd => hρ d (by simp [hasFree, hd]))]
  | mul a b iha ihb =>
    simp only [RExpr.put, RExpr.value]
    rw [iha (fun x hx => hs x (by simp [syms, hx])) (fun v hv => hA v (by simp [indexeds, hv])) ρ
        (fun d hd => hρ d (by simp [hasFree, hd])),
      ihb (fun x hx => hs x (by simp [syms, hx])) (fun v hv => hA v (by simp [indexeds, hv])) ρ
        (fun d hd => hρ d (by simp [hasFree, hd]))]
  | pow a b iha ihb =>
    simp only [RExpr.put, RExpr.value]
    rw [iha (fun x hx => hs x (by simp [syms, hx])) (fun v hv => hA v (by simp [indexeds, hv])) ρ
        (fun d hd => hρ d (by simp [hasFree, hd])),
      ihb (fun x hx => hs x (by simp [syms, hx])) (fun v hv => hA v (by simp [indexeds, hv])) ρ
        (fun d hd => hρ d (by simp [hasFree, hd]))]
  | log a iha =>
    simp only [RExpr.put, RExpr.value]
    rw [iha hs hA ρ hρ]
  | exp a iha =>
    simp only [RExpr.put, RExpr.value]
    rw [iha hs hA ρ hρ]
  | red op body lims ih =>
    simp only [RExpr.put, RExpr.value]
    refine overLims_same _ (fun _ => rfl) op ρ lims [] _ _ ?_ ρ (by simp) (fun _ _ => rfl)
    intro θ g0 g1 g2
    rw [List.append_nil] at g1 g2
    refine ih hs hA θ fun d hd => ?_
    by_cases hdl : d ∈ lims.map Lim.i
    · exact g1 d hdl
    · have : StandsFor coords ρ d := by
        refine hρ d ?_
        simp only [hasFree, hd, Bool.true_and, List.all_eq_true, Bool.and_eq_true, bne_iff_ne, ne_eq,
          decide_eq_true_eq]
        intro l hl
        exact ⟨fun e => hdl (List.mem_map.2 ⟨l, hl, e⟩), g0 l hl⟩
      obtain ⟨x, hx, e⟩ := this
      exact ⟨x, hx, by rw [g2 d hdl, e]⟩

theorem hasFree_put (s : Str → RExpr) (f : Str → Str) (fixed : List Str) (d : Str) (e : RExpr)
    (hs : ∀ x ∈ e.syms, hasFree fixed d (s x) = false)
    (hf : ∀ v ∈ e.indexeds, f v.1 ∈ fixed ↔ v.1 ∈ fixed) : hasFree fixed d (e.put s f) = hasFree fixed d e := by
  induction e with
  | num q => rfl
  | sym x => exact hs x (by simp [syms])
  | indexed b ix => simp only [RExpr.put, hasFree, List.contains_eq_mem, hf (b, ix) (by simp [indexeds])]
  | add a b iha ihb =>
    simp only [RExpr.put, hasFree]
    rw [iha (fun x hx => hs x (by simp [syms, hx])) (fun v hv => hf v (by simp [indexeds, hv])),
      ihb (fun x hx => hs x (by simp [syms, hx])) (fun v hv => hf v (by simp [indexeds, hv]))]
  | mul a b iha ihb =>
    simp only [RExpr.put, hasFree]
    rw [iha (fun x hx => hs x (by simp [syms, hx])) (fun v hv => hf v (by simp [indexeds, hv])),
      ihb (fun x hx => hs x (by simp [syms, hx])) (fun v hv => hf v (by simp [indexeds, hv]))]
  | pow a b iha ihb =>
    simp only [RExpr.put, hasFree]
    rw [iha (fun x hx => hs x (by simp [syms, hx])) (fun v hv => hf v (by simp [indexeds, hv])),
      ihb (fun x hx => hs x (by simp [syms, hx])) (fun v hv => hf v (by simp [indexeds, hv]))]
  | log a iha => simp only [RExpr.put, hasFree]; rw [iha hs hf]
  | exp a iha => simp only [RExpr.put, hasFree]; rw [iha hs hf]
  | red op body lims ih => simp only [RExpr.put, hasFree]; rw [ih hs hf]

variable {vars params : List ModelObject} {numeraire : Option ModelObject} {eqs : List IndexedEq}

theorem notFixed {o : ModelObject} (ho : o ∈ solvedVars numeraire vars ++ params)
    (h : IndexedModel coords vars params numeraire eqs) : o.name ∉ numeraire.toList.map ModelObject.name := by
  intro hm
  obtain ⟨o', ho', hn⟩ := List.mem_map.1 hm
  exact numeraire_absent h (by simpa using ho') ho hn.symm

/-- What an equation demands when objects are replaced by others with the same entries, or by their values. -/
theorem demanded_put (s : Str → RExpr) (f : Str → Str) (h : IndexedModel coords vars params numeraire eqs)
    (objs₂ : List ModelObject) (flat flat₂ : List ℝ)
    (hfix : ∀ b ∈ numeraire.toList.map ModelObject.name, s b = .sym b ∧ f b = b)
    (hfree : ∀ x d, hasFree (numeraire.toList.map ModelObject.name) d (s x) = false)
    (hf : ∀ o ∈ solvedVars numeraire vars ++ params, f o.name ∉ numeraire.toList.map ModelObject.name)
    (hs : ∀ o ∈ solvedVars numeraire vars ++ params, o.dims = [] → ∀ ρ,
      (s o.name).value (fun x => entryFixing coords (numeraire.toList.map ModelObject.name) objs₂ flat₂ x [])
        (entryFixing coords (numeraire.toList.map ModelObject.name) objs₂ flat₂) coords ρ =
      arrayEntry coords (solvedVars numeraire vars ++ params) flat o.name [])
    (hA : ∀ o ∈ solvedVars numeraire vars ++ params, o.dims ≠ [] → ∀ ls ∈ product (o.dims.map (labelsOf coords)),
      arrayEntry coords objs₂ flat₂ (f o.name) (ls.map sympifyLabel) =
        arrayEntry coords (solvedVars numeraire vars ++ params) flat o.name (ls.map sympifyLabel))
    (q : IndexedEq) (hq : q ∈ eqs) :
    demanded coords (numeraire.toList.map ModelObject.name) objs₂ flat₂ ⟨q.name, q.lhs.put s f, q.rhs.put s f⟩ =
      demanded coords (numeraire.toList.map ModelObject.name) (solvedVars numeraire vars ++ params) flat q := by
  have hread : ∀ d, ∀ l ∈ labelsOf coords d, ReadsBack l := fun d l hl => (labels_readBack h.label_names d l hl).1
  obtain ⟨s1, s2⟩ := h.sides q hq
  have hff : ∀ e, SideOK coords (solvedVars numeraire vars ++ params) numeraire e → ∀ v ∈ e.indexeds,
      f v.1 ∈ numeraire.toList.map ModelObject.name ↔ v.1 ∈ numeraire.toList.map ModelObject.name := by
    intro e he v hv
    obtain ⟨o, ho, hon, -, -⟩ := he.indexed.arrays v hv
    rw [← hon]
    rcases List.mem_append.1 ho with ho | ho
    · exact iff_of_false (hf o ho) (notFixed ho h)
    · have hm : o.name ∈ numeraire.toList.map ModelObject.name := List.mem_map_of_mem ho
      rw [(hfix _ hm).2]
  have hfd : freeDims coords (numeraire.toList.map ModelObject.name) (q.lhs.put s f) (q.rhs.put s f) =
      freeDims coords (numeraire.toList.map ModelObject.name) q.lhs q.rhs := by
    unfold freeDims
    refine List.filter_congr fun d _ => ?_
    rw [hasFree_put s f _ d _ (fun x _ => hfree x d) (hff _ s1), hasFree_put s f _ d _ (fun x _ => hfree x d) (hff _ s2)]
  have hval : ∀ e, SideOK coords (solvedVars numeraire vars ++ params) numeraire e → ∀ ρ : Str → SIdx,
      (∀ d, hasFree (numeraire.toList.map ModelObject.name) d e = true → StandsFor coords ρ d) →
      (e.put s f).value (fun x => entryFixing coords (numeraire.toList.map ModelObject.name) objs₂ flat₂ x [])
        (entryFixing coords (numeraire.toList.map ModelObject.name) objs₂ flat₂) coords ρ =
      e.value (fun x => entryFixing coords (numeraire.toList.map ModelObject.name)
          (solvedVars numeraire vars ++ params) flat x [])
        (entryFixing coords (numeraire.toList.map ModelObject.name) (solvedVars numeraire vars ++ params) flat)
        coords ρ := by
    intro e he ρ hρ
    refine value_put s f (numeraire.toList.map ModelObject.name) _ _ _ _ e ?_ ?_ ρ hρ
    · intro x hx ρ
      obtain ⟨o, ho, rfl, hd⟩ := he.indexed.scalars x hx
      rcases List.mem_append.1 ho with ho | ho
      · rw [hs o ho hd ρ, entryFixing, if_neg (notFixed ho h)]
      · have hm : o.name ∈ numeraire.toList.map ModelObject.name := List.mem_map_of_mem ho
        rw [(hfix _ hm).1]
        simp only [RExpr.value, entryFixing, if_pos hm]
    · intro v hv ρ hρ
      obtain ⟨o, ho, hon, hd, hF⟩ := he.indexed.arrays v hv
      rcases List.mem_append.1 ho with ho | ho
      · have hn := notFixed ho h
        rw [hon] at hn
        obtain ⟨ls, h1, h2⟩ := bound_entries ρ v.2 o.dims hF fun d hd => hρ d hn hd
        have hf' := hf o ho
        rw [hon] at hf'
        rw [entryFixing, entryFixing, if_neg hn, if_neg hf', h2, ← hon]
        exact hA o ho hd ls h1
      · have hm : v.1 ∈ numeraire.toList.map ModelObject.name := hon ▸ List.mem_map_of_mem ho
        rw [(hfix _ hm).2, entryFixing, entryFixing, if_pos hm, if_pos hm]
  unfold demanded
  dsimp only
  rw [hfd]
  refine List.map_congr_left fun ls hls => ?_
  have hnd := freeDims_nodup h.coords_nodup (numeraire.toList.map ModelObject.name) q.lhs q.rhs
  have stands : ∀ d ∈ freeDims coords (numeraire.toList.map ModelObject.name) q.lhs q.rhs,
      StandsFor coords (bindLabels (freeDims coords (numeraire.toList.map ModelObject.name) q.lhs q.rhs) ls) d := by
    intro d hd
    obtain ⟨j, hj⟩ := List.getElem?_of_mem hd
    have hlen : ls.length = (freeDims coords (numeraire.toList.map ModelObject.name) q.lhs q.rhs).length := by
      simpa using length_of_mem_product hls
    have hjl : j < ls.length := by rw [hlen]; exact (List.getElem?_eq_some_iff.1 hj).1
    have hg := dget_zip _ ls hnd hlen j d hj
    rw [List.getElem?_eq_getElem hjl] at hg
    refine ⟨ls[j], mem_labels_product hls j _ _ hj (List.getElem?_eq_getElem hjl), ?_⟩
    unfold bindLabels
    rw [hg]
  have free : ∀ e, SideOK coords (solvedVars numeraire vars ++ params) numeraire e → (e = q.lhs ∨ e = q.rhs) →
      ∀ d, hasFree (numeraire.toList.map ModelObject.name) d e = true →
        d ∈ freeDims coords (numeraire.toList.map ModelObject.name) q.lhs q.rhs := by
    intro e he hor d hd
    refine List.mem_filter.2 ⟨hasFree_known _ d he.indexed.known_idx hd, ?_⟩
    rcases hor with rfl | rfl <;> simp [hd]
  rw [hval _ s1 _ (fun d hd => stands d (free _ s1 (.inl rfl) d hd)),
    hval _ s2 _ (fun d hd => stands d (free _ s2 (.inr rfl) d hd))]

end Verif
