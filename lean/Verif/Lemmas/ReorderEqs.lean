import Verif.Lemmas.ReorderSolve
import Verif.Props.NumbaSimulate

/-!
# What the equations demand does not depend on the order of the objects
-/

namespace Verif

open RExpr

variable {coords : Coords} {vars params : List ModelObject} {numeraire : Option ModelObject}
  {eqs : List IndexedEq}

/-- The imbalances of one equation are values of expressions over the scalars of the model; the expressions
do not depend on the order of the objects. -/
theorem demanded_value (h : IndexedModel coords vars params numeraire eqs) (q : IndexedEq) (hq : q ∈ eqs) :
    ∃ r, standardize id id coords numeraire ⟨q.name.text, q.lhs, q.rhs⟩ = .ok
        { name := q.name.text
          dims := freeDims coords (numeraire.toList.map ModelObject.name) q.lhs q.rhs, eq := r } ∧
      ∀ flat, demanded coords (numeraire.toList.map ModelObject.name)
          (solvedVars numeraire vars ++ params) flat q =
        (product ((freeDims coords (numeraire.toList.map ModelObject.name) q.lhs q.rhs).map
          (labelsOf coords))).map fun ls => (scal (r.mapIx fun _ ix => ix.map (bindIdx (bindLabels
            (freeDims coords (numeraire.toList.map ModelObject.name) q.lhs q.rhs) ls)))).eval
            (flatPoint (scalarNames coords (solvedVars numeraire vars ++ params)) flat) := by
  obtain ⟨r, h1, hrf, hval, hwell, hfree⟩ := standardize_spec id (fun _ _ => Iff.rfl) id
    (fun _ _ => Iff.rfl) numeraire
    (solvedVars numeraire vars ++ params) h.label_names (fun o ho => ⟨h.scalar.fresh o
      (List.mem_append_left _ (h.numeraire_mem o ho)), fun o' ho' => numeraire_absent h ho ho'⟩) q (h.sides q hq).1 (h.sides q hq).2
  refine ⟨r, h1, fun flat => ?_⟩
  unfold demanded
  generalize hfix : numeraire.toList.map ModelObject.name = fixed at *
  have hnd := freeDims_nodup h.coords_nodup fixed q.lhs q.rhs
  generalize freeDims coords fixed q.lhs q.rhs = ds at *
  have hbound : ∀ ls ∈ product (ds.map (labelsOf coords)),
      ∀ v ∈ (r.mapIx fun _ ix => ix.map (bindIdx (bindLabels ds ls))).indexeds,
      ∃ o ∈ solvedVars numeraire vars ++ params, o.name = v.1 ∧ o.dims ≠ [] ∧
        ∃ ls' ∈ product (o.dims.map (labelsOf coords)), v.2 = ls'.map sympifyLabel := by
    intro ls hls v hv
    rw [indexeds_mapIx, List.mem_map] at hv
    obtain ⟨w, hw, rfl⟩ := hv
    obtain ⟨o, ho, hon, hod, hF⟩ := hwell.arrays w hw
    refine ⟨o, ho, hon, hod, ?_⟩
    refine bound_labels ds ls hnd hls w.2 o.dims hF fun d hd => hfree w hw d hd ?_
    clear hod hon
    revert hd
    generalize w.2 = a at hF
    generalize o.dims = b at hF
    induction hF with
    | nil => intro hd; cases hd
    | cons hsd _ ih =>
      intro hd
      rcases List.mem_cons.1 hd with rfl | hd
      · rcases hsd with ⟨i, hi, hk, -⟩ | ⟨l, hl, -⟩
        · cases hi; exact hk
        · exact absurd hl.symm (sympifyLabel_ne_idx _ _)
      · exact ih hd
  have hback : ∀ (o : ModelObject) (ls' : List Str), ls' ∈ product (o.dims.map (labelsOf coords)) →
      ∀ l ∈ ls', ReadsBack l := by
    intro o ls' hls' l hl
    obtain ⟨d, -, hd⟩ := mem_product_label hls' l hl
    exact (labels_readBack h.label_names d l hd).1
  apply List.map_congr_left
  intro ls hls
  symm
  rw [← hval, eval_scal _ _ (redFree_mapIx _ _ hrf), value_eq_val _ _ _ _ hrf, ← val_mapIx
    (V := arrayEntry coords (solvedVars numeraire vars ++ params) flat)]
  have hfp := flatPoint_entry coords (solvedVars numeraire vars ++ params)
    (solvedModel h.scalar).scalars (solvedModel h.scalar).names flat
  rw [val_congr_syms _ (fun x => arrayEntry coords (solvedVars numeraire vars ++ params) flat x [])]
  · apply val_congr
    intro v hv
    obtain ⟨o, ho, hon, -, ls', hls', hv2⟩ := hbound ls hls v hv
    rw [hv2, map_readsBack (hback o ls' hls'), ← hon]
    exact hfp o ho ls' hls' (hback o ls' hls')
  · intro x hx
    rw [syms_mapIx] at hx
    obtain ⟨o, ho, rfl, hd⟩ := hwell.scalars x hx
    have := hfp o ho [] (by rw [hd]; simp [product]) (by simp)
    simpa [joinStr] using this

/-- The number of scalar equations of an indexed equation. -/
def scalarCount (coords : Coords) (numeraire : Option ModelObject) (q : IndexedEq) : Nat :=
  (product ((freeDims coords (numeraire.toList.map ModelObject.name) q.lhs q.rhs).map
    (labelsOf coords))).length

theorem length_demanded (coords : Coords) (numeraire : Option ModelObject) (objs : List ModelObject)
    (flat : List ℝ) (q : IndexedEq) :
    (demanded coords (numeraire.toList.map ModelObject.name) objs flat q).length =
      scalarCount coords numeraire q := by
  simp [demanded, scalarCount]

theorem solved_perm {vars₂ : List ModelObject} (hv : vars₂.Perm vars) :
    (solvedVars numeraire vars₂).Perm (solvedVars numeraire vars) := hv.filter _

variable {vars₂ params₂ : List ModelObject} {eqs₂ : List IndexedEq}

/-- An equation of both models demands the same of the same named arrays. -/
theorem demanded_perm (h₁ : IndexedModel coords vars params numeraire eqs)
    (h₂ : IndexedModel coords vars₂ params₂ numeraire eqs₂) (hv : vars₂.Perm vars)
    (hp : params₂.Perm params) (q : IndexedEq) (hq : q ∈ eqs) (hq₂ : q ∈ eqs₂)
    (d : Dict Str (NDArray ℝ)) (hd : ∀ o ∈ solvedVars numeraire vars ++ params, DataFor coords d o) :
    demanded coords (numeraire.toList.map ModelObject.name) (solvedVars numeraire vars₂ ++ params₂)
        (flatOf d (solvedVars numeraire vars₂ ++ params₂)) q =
      demanded coords (numeraire.toList.map ModelObject.name) (solvedVars numeraire vars ++ params)
        (flatOf d (solvedVars numeraire vars ++ params)) q := by
  obtain ⟨r, g1, g2⟩ := demanded_value h₁ q hq
  obtain ⟨r', g3, g4⟩ := demanded_value h₂ q hq₂
  rw [g1] at g3
  injection g3 with g3
  have g3 : r = r' := congrArg SymEquation.eq g3
  subst g3
  rw [g2, g4, flatPoint_perm ((solved_perm hv).append hp) (solvedModel h₁.scalar).scalars d hd]

end Verif
