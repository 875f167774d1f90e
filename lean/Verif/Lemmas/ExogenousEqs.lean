import Verif.Lemmas.Put
import Verif.Props.SatelliteIndexed

/-!
# What the equations are off by, when a parameter is a number or a variable fixed by an equation
-/

namespace Verif

variable {coords : Coords}

/-- The entries of an object are the same in a longer list of objects. -/
theorem arrayEntry_narrow {vs zs ps us : List ModelObject}
    (hN : (scalarNames coords (vs ++ zs ++ (ps ++ us))).Nodup)
    (hn : ((vs ++ zs ++ (ps ++ us)).map ModelObject.name).Nodup) (x z t u : List ℝ)
    (hx : x.length = totalSize coords vs) (hz : z.length = totalSize coords zs)
    (ht : t.length = totalSize coords ps) (hu : u.length = totalSize coords us)
    (o : ModelObject) (ho : o ∈ vs ++ ps) (ls : List Str) (hls : ls ∈ product (o.dims.map (labelsOf coords)))
    (hr : ∀ l ∈ ls, ReadsBack l) :
    arrayEntry coords (vs ++ zs ++ (ps ++ us)) ((x ++ z) ++ (t ++ u)) o.name (ls.map sympifyLabel) =
      arrayEntry coords (vs ++ ps) (x ++ t) o.name (ls.map sympifyLabel) := by
  have hsub : (vs ++ ps).Sublist (vs ++ zs ++ (ps ++ us)) :=
    (List.sublist_append_left _ _).append (List.sublist_append_left _ _)
  rw [← flatPoint_entry coords _ hN hn _ o (hsub.subset ho) ls hls hr,
    ← flatPoint_entry coords _ (hN.sublist (scalarNames_sublist hsub)) (hn.sublist (hsub.map _)) _ o ho ls hls hr]
  have hin : joinStr "_".toList (o.name :: ls) ∈ scalarNames coords (vs ++ ps) := by
    unfold scalarNames
    exact List.mem_flatMap.2 ⟨o, ho, List.mem_map.2 ⟨ls, hls, rfl⟩⟩
  simp only [scalarNames_append] at hN hin ⊢
  rw [flatPoint_narrow _ _ _ _ hN (x ++ z) (t ++ u)
    (by rw [List.length_append, hx, hz, length_scalarNames, length_scalarNames])
    (by rw [List.length_append, ht, hu, length_scalarNames, length_scalarNames]) _ hin,
    length_scalarNames, length_scalarNames, List.take_left' hx, List.take_left' ht]

variable {vars params : List ModelObject} {numeraire : Option ModelObject} {eqs : List IndexedEq}

theorem labelsBack (h : IndexedModel coords vars params numeraire eqs) {ds ls : List Str}
    (hls : ls ∈ product (ds.map (labelsOf coords))) : ∀ l ∈ ls, ReadsBack l := by
  intro l hl
  obtain ⟨d, -, hd⟩ := mem_product_label hls l hl
  exact (labels_readBack h.label_names d l hd).1

/-- A number for a scalar parameter that has this value. -/
theorem imbalances_withNumber {k : ModelObject} (hk : k.dims = [])
    (h : IndexedModel coords vars (params ++ [k]) numeraire eqs) (q : ℚ) (x t : List ℝ)
    (hx : x.length = totalSize coords (solvedVars numeraire vars)) (ht : t.length = totalSize coords params) :
    imbalances coords vars params numeraire (eqs.map (IndexedEq.withNumber k.name q)) (x ++ t) =
      imbalances coords vars (params ++ [k]) numeraire eqs (x ++ (t ++ [(q : ℝ)])) := by
  have hss := solvedModel (numeraire := numeraire) h.scalar
  have hkn : k.name ∉ numeraire.toList.map ModelObject.name := notFixed (by simp) h
  have hne : ∀ o ∈ solvedVars numeraire vars ++ params, o.name ≠ k.name := by
    intro o ho
    have hnd := hss.names
    rw [← List.append_assoc, List.map_append, List.nodup_append] at hnd
    exact hnd.2.2 o.name (List.mem_map_of_mem ho) k.name (by simp)
  have hentry : ∀ o ∈ solvedVars numeraire vars ++ params, ∀ ls ∈ product (o.dims.map (labelsOf coords)),
      arrayEntry coords (solvedVars numeraire vars ++ params) (x ++ t) o.name (ls.map sympifyLabel) =
      arrayEntry coords (solvedVars numeraire vars ++ (params ++ [k])) (x ++ (t ++ [(q : ℝ)])) o.name
        (ls.map sympifyLabel) := by
    intro o ho ls hls
    have := arrayEntry_narrow (vs := solvedVars numeraire vars) (zs := []) (ps := params) (us := [k])
      (by simpa using hss.scalars) (by simpa using hss.names) x [] t [(q : ℝ)] hx rfl ht
      (by simp [totalSize, specSize, specShape, hk]) o ho ls hls (labelsBack h hls)
    simp only [List.append_nil] at this
    exact this.symm
  have hkv : arrayEntry coords (solvedVars numeraire vars ++ (params ++ [k])) (x ++ (t ++ [(q : ℝ)])) k.name [] = q := by
    have := arrayEntry_behind (coords := coords) (V := solvedVars numeraire vars ++ params) (Z := k) (P := [])
      (by simpa using hss.scalars) (by simpa using hss.names) (x ++ (t ++ [(q : ℝ)])) 0 [] (by rw [hk]; rfl) (by simp)
    rw [List.append_assoc] at this
    rw [List.map_nil] at this
    rw [this, totalSize_append, ← hx, ← ht, ← List.append_assoc, ← List.length_append, List.getD_eq_getElem?_getD]
    simp
  have h0 : ([] : List Str) ∈ product (([] : List Str).map (labelsOf coords)) := by simp [product]
  unfold imbalances
  rw [List.flatMap_map]
  apply List.flatMap_congr
  intro e he
  refine demanded_put (fun x => if x = k.name then .num q else .sym x) id h _ (x ++ (t ++ [(q : ℝ)])) (x ++ t)
    ?_ ?_ ?_ ?_ ?_ e he
  · intro b hb
    refine ⟨if_neg ?_, rfl⟩
    rintro rfl
    exact hkn hb
  · intro x d
    split <;> rfl
  · intro o ho
    exact notFixed ho h
  · intro o ho hd ρ
    by_cases hok : o.name = k.name
    · rw [if_pos hok, hok, hkv]
      simp [RExpr.value]
    · rw [if_neg hok]
      have ho' : o ∈ solvedVars numeraire vars ++ params := by
        rw [← List.append_assoc] at ho
        rcases List.mem_append.1 ho with ho | ho
        · exact ho
        · rw [List.mem_singleton] at ho
          exact absurd (by rw [ho]) hok
      have := hentry o ho' [] (by rw [hd]; exact h0)
      simp only [List.map_nil] at this
      rw [← this]
      simp only [RExpr.value, entryFixing, if_neg (notFixed ho h)]
  · intro o ho hd ls hls
    have hok : o ≠ k := fun e => hd (by rw [e, hk])
    have ho' : o ∈ solvedVars numeraire vars ++ params := by
      rw [← List.append_assoc] at ho
      rcases List.mem_append.1 ho with ho | ho
      · exact ho
      · rw [List.mem_singleton] at ho
        exact absurd ho hok
    exact hentry o ho' ls hls

/-! ## A variable fixed at a parameter -/

theorem filter_mem_of_sublist {l₁ l₂ : List Str} (h : l₁.Sublist l₂) (hn : l₂.Nodup) :
    l₂.filter (fun d => decide (d ∈ l₁)) = l₁ := by
  induction h with
  | slnil => rfl
  | @cons l₁ l₂ a h ih =>
    rw [List.nodup_cons] at hn
    rw [List.filter_cons_of_neg (by simpa using fun hm => hn.1 (h.subset hm)), ih hn.2]
  | @cons_cons l₁ l₂ a h ih =>
    rw [List.nodup_cons] at hn
    rw [List.filter_cons_of_pos (by simp)]
    congr 1
    refine Eq.trans ?_ (ih hn.2)
    refine List.filter_congr fun d hd => ?_
    have : d ≠ a := fun e => hn.1 (e ▸ hd)
    simp [this]

variable {z p : ModelObject}

/-- `z` for a parameter `p`: as if `p` had the values of `z`. -/
theorem imbalances_instead (hz : z.dims = p.dims) {name : Template}
    (h₁ : IndexedModel coords (vars ++ [z]) (params ++ [p]) numeraire
      (eqs.map (IndexedEq.instead p.name z.name) ++ [fixedAt name z p]))
    (h₂ : IndexedModel coords vars (params ++ [p]) numeraire eqs)
    (hord : p.dims.Sublist (dkeys coords)) (x w t u : List ℝ)
    (hx : x.length = totalSize coords (solvedVars numeraire vars)) (hw : w.length = specSize coords p)
    (ht : t.length = totalSize coords params) (hu : u.length = specSize coords p) :
    solvedVars numeraire [z] = [z] ∧
    imbalances coords (vars ++ [z]) (params ++ [p]) numeraire
      (eqs.map (IndexedEq.instead p.name z.name) ++ [fixedAt name z p]) ((x ++ w) ++ (t ++ u)) =
      imbalances coords vars (params ++ [p]) numeraire eqs (x ++ (t ++ w)) ++ List.zipWith (· - ·) w u := by
  have hnum : z.name ∉ numeraire.toList.map ModelObject.name := by
    intro hmem
    obtain ⟨o, ho, hon⟩ := List.mem_map.1 hmem
    have ho' : o ∈ vars := h₂.numeraire_mem o (by simpa using ho)
    have hnd := h₁.scalar.names
    rw [List.map_append] at hnd
    have hnd := hnd.of_append_left
    rw [List.map_append, List.nodup_append] at hnd
    exact hnd.2.2 o.name (List.mem_map_of_mem ho') z.name (by simp) hon
  have hsolved : solvedVars numeraire [z] = [z] := by
    unfold solvedVars
    rw [List.filter_eq_self]
    intro o ho
    rw [List.mem_singleton] at ho
    subst ho
    simpa using hnum
  refine ⟨hsolved, ?_⟩
  have hsz : specSize coords z = specSize coords p := by simp only [specSize, specShape, hz]
  have hs1 : ∀ o : ModelObject, totalSize coords [o] = specSize coords o := fun o => by simp [totalSize]
  have hss := solvedModel (numeraire := numeraire) h₁.scalar
  have hss₂ := solvedModel (numeraire := numeraire) h₂.scalar
  rw [solvedVars_append, hsolved] at hss
  have hpn : p.name ∉ numeraire.toList.map ModelObject.name := notFixed (by simp) h₂
  have hne : ∀ o ∈ solvedVars numeraire vars ++ params, o.name ≠ p.name := by
    intro o ho
    have hnd := hss₂.names
    rw [← List.append_assoc, List.map_append, List.nodup_append] at hnd
    exact hnd.2.2 o.name (List.mem_map_of_mem ho) p.name (by simp)
  have hbase : ∀ o ∈ solvedVars numeraire vars ++ params, ∀ ls ∈ product (o.dims.map (labelsOf coords)),
      arrayEntry coords (solvedVars numeraire vars ++ [z] ++ (params ++ [p])) ((x ++ w) ++ (t ++ u)) o.name
        (ls.map sympifyLabel) =
      arrayEntry coords (solvedVars numeraire vars ++ (params ++ [p])) (x ++ (t ++ w)) o.name (ls.map sympifyLabel) := by
    intro o ho ls hls
    have hback := labelsBack h₂ hls
    rw [arrayEntry_narrow hss.scalars hss.names x w t u hx (by rw [hs1, hw, hsz]) ht (by rw [hs1, hu]) o ho ls hls hback]
    have := arrayEntry_narrow (vs := solvedVars numeraire vars) (zs := []) (ps := params) (us := [p])
      (by simpa using hss₂.scalars) (by simpa using hss₂.names) x [] t w hx rfl ht
      (by rw [hs1, hw]) o ho ls hls hback
    simp only [List.append_nil] at this
    exact this.symm
  have hplen : (product (p.dims.map (labelsOf coords))).length = specSize coords p := by
    rw [← hs1, ← length_scalarNames]
    simp [scalarNames]
  have hzentry : ∀ (i : Nat) ls, (product (p.dims.map (labelsOf coords)))[i]? = some ls →
      arrayEntry coords (solvedVars numeraire vars ++ [z] ++ (params ++ [p])) ((x ++ w) ++ (t ++ u)) z.name
        (ls.map sympifyLabel) = w.getD i 0 := by
    intro i ls hi
    have hil := (List.getElem?_eq_some_iff.1 hi).1
    have hobj : solvedVars numeraire vars ++ [z] ++ (params ++ [p]) =
      solvedVars numeraire vars ++ z :: (params ++ [p]) := by simp
    have a1 := hss.scalars
    have a2 := hss.names
    rw [hobj] at a1 a2 ⊢
    rw [arrayEntry_behind a1 a2 _ i ls (by rw [hz]; exact hi) (labelsBack h₂ (List.mem_of_getElem? hi)), ← hx,
      List.getD_eq_getElem?_getD, List.getD_eq_getElem?_getD, List.append_assoc,
      List.getElem?_append_right (by omega), Nat.add_sub_cancel_left, List.getElem?_append_left (by omega)]
  have hpentry : ∀ (i : Nat) ls, (product (p.dims.map (labelsOf coords)))[i]? = some ls →
      arrayEntry coords (solvedVars numeraire vars ++ [z] ++ (params ++ [p])) ((x ++ w) ++ (t ++ u)) p.name
        (ls.map sympifyLabel) = u.getD i 0 := by
    intro i ls hi
    have hobj : solvedVars numeraire vars ++ [z] ++ (params ++ [p]) =
      (solvedVars numeraire vars ++ [z] ++ params) ++ p :: [] := by simp
    have a1 := hss.scalars
    have a2 := hss.names
    rw [hobj] at a1 a2 ⊢
    have hl : totalSize coords (solvedVars numeraire vars ++ [z] ++ params) = (x ++ w ++ t).length := by
      rw [totalSize_append, totalSize_append, hs1, hsz, List.length_append, List.length_append, hx, hw, ht]
    rw [arrayEntry_behind a1 a2 _ i ls hi (labelsBack h₂ (List.mem_of_getElem? hi)), hl,
      List.getD_eq_getElem?_getD, List.getD_eq_getElem?_getD, ← List.append_assoc (x ++ w),
      List.getElem?_append_right (by omega), Nat.add_sub_cancel_left]
  have hpentry₂ : ∀ (i : Nat) ls, (product (p.dims.map (labelsOf coords)))[i]? = some ls →
      arrayEntry coords (solvedVars numeraire vars ++ (params ++ [p])) (x ++ (t ++ w)) p.name
        (ls.map sympifyLabel) = w.getD i 0 := by
    intro i ls hi
    have hobj : solvedVars numeraire vars ++ (params ++ [p]) = (solvedVars numeraire vars ++ params) ++ p :: [] := by simp
    have a1 := hss₂.scalars
    have a2 := hss₂.names
    rw [hobj] at a1 a2 ⊢
    have hl : totalSize coords (solvedVars numeraire vars ++ params) = (x ++ t).length := by
      rw [totalSize_append, List.length_append, hx, ht]
    rw [arrayEntry_behind a1 a2 _ i ls hi (labelsBack h₂ (List.mem_of_getElem? hi)), hl,
      List.getD_eq_getElem?_getD, List.getD_eq_getElem?_getD, ← List.append_assoc,
      List.getElem?_append_right (by omega), Nat.add_sub_cancel_left]
  have hall : ∀ o ∈ solvedVars numeraire vars ++ (params ++ [p]), ∀ ls ∈ product (o.dims.map (labelsOf coords)),
      arrayEntry coords (solvedVars numeraire vars ++ [z] ++ (params ++ [p])) ((x ++ w) ++ (t ++ u))
        (if o.name = p.name then z.name else o.name) (ls.map sympifyLabel) =
      arrayEntry coords (solvedVars numeraire vars ++ (params ++ [p])) (x ++ (t ++ w)) o.name (ls.map sympifyLabel) := by
    intro o ho ls hls
    rw [← List.append_assoc] at ho
    rcases List.mem_append.1 ho with ho | ho
    · rw [if_neg (hne o ho)]
      exact hbase o ho ls hls
    · rw [List.mem_singleton] at ho
      subst ho
      obtain ⟨i, hi⟩ := List.getElem?_of_mem hls
      rw [if_pos rfl, hzentry i ls hi, hpentry₂ i ls hi]
  have hin : ∀ o ∈ solvedVars numeraire vars ++ (params ++ [p]),
      (if o.name = p.name then z.name else o.name) ∉ numeraire.toList.map ModelObject.name := by
    intro o ho
    split
    · exact hnum
    · exact notFixed ho h₂
  have h0 : ([] : List Str) ∈ product (([] : List Str).map (labelsOf coords)) := by simp [product]
  rw [imbalances_append]
  congr 1
  · unfold imbalances
    rw [List.flatMap_map]
    apply List.flatMap_congr
    intro e he
    rw [solvedVars_append, hsolved]
    refine demanded_put (fun x => .sym (if x = p.name then z.name else x)) (fun b => if b = p.name then z.name else b) h₂
      _ (x ++ (t ++ w)) ((x ++ w) ++ (t ++ u)) ?_ ?_ ?_ ?_ ?_ e he
    · intro b hb
      have : b ≠ p.name := fun e => hpn (e ▸ hb)
      rw [if_neg this]
      exact ⟨rfl, rfl⟩
    · intro x d
      rfl
    · exact hin
    · intro o ho hd ρ
      have := hall o ho [] (by rw [hd]; exact h0)
      simp only [List.map_nil] at this
      rw [← this]
      simp only [RExpr.value, entryFixing, if_neg (hin o ho)]
    · intro o ho hd ls hls
      exact hall o ho ls hls
  · have hhas : ∀ o : ModelObject, o.name ∉ numeraire.toList.map ModelObject.name → ∀ d,
        hasFree (numeraire.toList.map ModelObject.name) d (wholeOf o) = decide (d ∈ o.dims) := by
      intro o ho d
      unfold wholeOf
      split
      · rename_i he
        simp [hasFree, he]
      · simp only [hasFree, List.contains_eq_mem, ho, decide_false, Bool.not_false, Bool.true_and]
        simp
    have hfd : freeDims coords (numeraire.toList.map ModelObject.name) (wholeOf z) (wholeOf p) = p.dims := by
      refine Eq.trans ?_ (filter_mem_of_sublist hord h₂.coords_nodup)
      unfold freeDims
      refine List.filter_congr fun d _ => ?_
      rw [hhas z hnum, hhas p hpn, hz, Bool.or_self]
    have hval : ∀ o : ModelObject, o.name ∉ numeraire.toList.map ModelObject.name → o.dims = p.dims → ∀ ls ∈
        product (p.dims.map (labelsOf coords)),
        (wholeOf o).value (fun s => entryFixing coords (numeraire.toList.map ModelObject.name)
          (solvedVars numeraire vars ++ [z] ++ (params ++ [p])) ((x ++ w) ++ (t ++ u)) s [])
          (entryFixing coords (numeraire.toList.map ModelObject.name)
          (solvedVars numeraire vars ++ [z] ++ (params ++ [p])) ((x ++ w) ++ (t ++ u))) coords (bindLabels p.dims ls) =
        arrayEntry coords (solvedVars numeraire vars ++ [z] ++ (params ++ [p])) ((x ++ w) ++ (t ++ u)) o.name
          (ls.map sympifyLabel) := by
      intro o ho hd ls hls
      have hlen : ls.length = p.dims.length := by simpa using length_of_mem_product hls
      unfold wholeOf
      split
      · rename_i he
        have : ls = [] := by
          apply List.eq_nil_of_length_eq_zero
          rw [hlen, ← hd, he]
          rfl
        simp only [RExpr.value, entryFixing, if_neg ho, this, List.map_nil]
      · simp only [RExpr.value, entryFixing, if_neg ho]
        rw [hd, bound_own _ _ (h₂.scalar.dims p (by simp)) hlen]
    unfold imbalances
    rw [List.flatMap_singleton, solvedVars_append, hsolved]
    unfold demanded fixedAt
    dsimp only
    rw [hfd]
    apply List.ext_getElem?
    intro i
    rw [List.getElem?_map]
    by_cases hi : i < specSize coords p
    · have hpi := List.getElem?_eq_getElem (l := product (p.dims.map (labelsOf coords))) (i := i) (by omega)
      rw [hpi, Option.map_some, hval z hnum hz _ (List.mem_of_getElem? hpi), hval p hpn rfl _ (List.mem_of_getElem? hpi),
        hzentry i _ hpi, hpentry i _ hpi, List.getElem?_zipWith, List.getElem?_eq_getElem (by omega),
        List.getElem?_eq_getElem (by omega), List.getD_eq_getElem?_getD, List.getD_eq_getElem?_getD,
        List.getElem?_eq_getElem (by omega), List.getElem?_eq_getElem (by omega)]
      rfl
    · rw [List.getElem?_eq_none (by omega), List.getElem?_eq_none (by rw [List.length_zipWith]; omega)]
      rfl

end Verif
