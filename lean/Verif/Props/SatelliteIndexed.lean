import Verif.Props.Satellite

/-!
# C103: reports with dims

A report `Z[i] = formula` for every combination of labels of the dims of `Z`.
-/

namespace Verif

open SymExpr

variable {coords : Coords} {vars params more extra : List ModelObject} {numeraire : Option ModelObject}
  {eqs further : List IndexedEq}

/-- The equation `Z[i, j, …] = rhs`. -/
def indexedReport (name : Template) (Z : ModelObject) (rhs : RExpr) : IndexedEq :=
  ⟨name, .indexed Z.name (Z.dims.map .idx), rhs⟩

theorem bound_own (ds ls : List Str) (hnd : ds.Nodup) (hlen : ls.length = ds.length) :
    (ds.map SIdx.idx).map (bindIdx (bindLabels ds ls)) = ls.map sympifyLabel := by
  apply List.ext_getElem?
  intro j
  simp only [List.getElem?_map]
  by_cases hj : j < ds.length
  · have hj' : j < ls.length := by omega
    rw [List.getElem?_eq_getElem hj, List.getElem?_eq_getElem hj']
    have hg := dget_zip ds ls hnd hlen j ds[j] (List.getElem?_eq_getElem hj)
    rw [List.getElem?_eq_getElem hj'] at hg
    simp only [Option.map_some, bindIdx, bindLabels, hg]
  · rw [List.getElem?_eq_none (by omega), List.getElem?_eq_none (by omega)]
    rfl

theorem freeDims_own {fixed : List Str} {Z : ModelObject} {rhs : RExpr}
    (hfree : freeDims coords fixed (.num 0) rhs = Z.dims) :
    freeDims coords fixed (.indexed Z.name (Z.dims.map .idx)) rhs = Z.dims := by
  refine Eq.trans ?_ hfree
  unfold freeDims
  apply List.filter_congr
  intro d hd
  simp only [hasFree, Bool.false_or]
  cases hr : hasFree fixed d rhs with
  | true => simp
  | false =>
    rw [Bool.or_false, Bool.and_eq_false_iff]
    right
    have hnot : d ∉ Z.dims := by
      rw [← hfree]
      unfold freeDims
      simp [hasFree, hr]
    simpa using hnot

theorem report_indexedModel {name : Template} {rhs : RExpr} {Z : ModelObject} {vars' params' : List ModelObject}
    {eqs' : List IndexedEq} (hs : ScalarModel coords vars params)
    (hnum : ∀ o, numeraire = some o → o ∈ vars) (h : IndexedModel coords vars' params' numeraire eqs')
    (hq : indexedReport name Z rhs ∈ eqs')
    (hside : SideOK coords (solvedVars numeraire vars ++ params) numeraire rhs)
    (hfree : freeDims coords (numeraire.toList.map ModelObject.name) (.num 0) rhs = Z.dims) :
    IndexedModel coords vars params numeraire [⟨name, .num 0, rhs⟩] where
  scalar := hs
  coords_nodup := h.coords_nodup
  dim_names := h.dim_names
  label_names := h.label_names
  numeraire_mem := hnum
  sides := by
    intro q hq
    rw [List.mem_singleton] at hq
    subst hq
    exact ⟨sideOK_zero _, hside⟩
  clean := by
    intro q hq'
    rw [List.mem_singleton] at hq'
    subst hq'
    exact h.clean (indexedReport name Z rhs) hq
  markers := by
    intro q hq'
    rw [List.mem_singleton] at hq'
    subst hq'
    have := h.markers _ hq
    unfold indexedReport at this
    dsimp only at this ⊢
    rw [freeDims_own hfree] at this
    rwa [hfree]
  names := by
    have hn := h.names
    rw [List.nodup_flatMap] at hn
    have := hn.1 _ hq
    unfold indexedReport at this
    dsimp only at this
    rw [freeDims_own hfree] at this
    simp only [List.flatMap_singleton, hfree]
    exact this

/-- The entries of an object behind others. -/
theorem arrayEntry_behind {V P : List ModelObject} {Z : ModelObject} (hN : (scalarNames coords (V ++ Z :: P)).Nodup)
    (hn : ((V ++ Z :: P).map ModelObject.name).Nodup) (flat : List ℝ) (i : Nat) (ls : List Str)
    (hi : (product (Z.dims.map (labelsOf coords)))[i]? = some ls) (hr : ∀ l ∈ ls, ReadsBack l) :
    arrayEntry coords (V ++ Z :: P) flat Z.name (ls.map sympifyLabel) = flat.getD (totalSize coords V + i) 0 := by
  rw [← flatPoint_entry coords _ hN hn flat Z (by simp) ls (List.mem_of_getElem? hi) hr]
  apply flatPoint_at hN
  rw [scalarNames_append, List.getElem?_append_right (by rw [length_scalarNames]; omega), length_scalarNames,
    Nat.add_sub_cancel_left]
  have : scalarNames coords (Z :: P) = (product (Z.dims.map (labelsOf coords))).map
      (fun ls => joinStr "_".toList (Z.name :: ls)) ++ scalarNames coords P := by
    unfold scalarNames
    rw [List.flatMap_cons]
  rw [this, List.getElem?_append_left (by
    rw [List.length_map]; exact (List.getElem?_eq_some_iff.1 hi).1), List.getElem?_map, hi]
  rfl

/-- What the report is off by: each entry of `Z` less a number that does not depend on `Z`. -/
theorem indexedReport_off {name : Template} {rhs : RExpr} {Z : ModelObject}
    (h₁ : IndexedModel coords (vars ++ [Z]) (params ++ extra) numeraire (eqs ++ [indexedReport name Z rhs]))
    (h₂ : IndexedModel coords vars params numeraire eqs)
    (hside : SideOK coords (solvedVars numeraire vars ++ (params ++ extra)) numeraire rhs)
    (hfree : freeDims coords (numeraire.toList.map ModelObject.name) (.num 0) rhs = Z.dims) (x t : List ℝ)
    (hx : x.length = totalSize coords (solvedVars numeraire (vars ++ [Z])))
    (ht : t.length = totalSize coords (params ++ extra)) :
    totalSize coords (solvedVars numeraire [Z]) = specSize coords Z ∧
    ∃ v : Nat → ℝ, ∀ i j : Nat, i < specSize coords Z → j < specSize coords Z → ∀ u,
      (imbalances coords (vars ++ [Z]) (params ++ extra) numeraire [indexedReport name Z rhs]
        ((x ++ t).set (totalSize coords (solvedVars numeraire vars) + j) u)).getD i 0 =
      ((x ++ t).set (totalSize coords (solvedVars numeraire vars) + j) u).getD
        (totalSize coords (solvedVars numeraire vars) + i) 0 - v i := by
  have hq₁ := h₁.sides (indexedReport name Z rhs) (by simp)
  have hsub : (vars ++ (params ++ extra)).Sublist (vars ++ [Z] ++ (params ++ extra)) :=
    (List.sublist_append_left _ _).append (List.Sublist.refl _)
  have hsc : ScalarModel coords vars (params ++ extra) :=
    { known := fun o ho => h₁.scalar.known o (hsub.subset ho)
      dims := fun o ho => h₁.scalar.dims o (hsub.subset ho)
      fresh := fun o ho => h₁.scalar.fresh o (hsub.subset ho)
      labels := fun o ho => h₁.scalar.labels o (hsub.subset ho)
      names := h₁.scalar.names.sublist (hsub.map _)
      scalars := h₁.scalar.scalars.sublist (scalarNames_sublist hsub) }
  have hext : params ++ extra ++ [] = params ++ extra := List.append_nil _
  have hm₁ : IndexedModel coords (vars ++ [Z]) (params ++ extra ++ []) numeraire ([⟨name, .num 0, rhs⟩] ++ []) := by
    rw [hext]
    exact report_indexedModel h₁.scalar h₁.numeraire_mem h₁ (by simp) hq₁.2 hfree
  have hm₂ : IndexedModel coords vars (params ++ extra) numeraire [⟨name, .num 0, rhs⟩] :=
    report_indexedModel hsc h₂.numeraire_mem h₁ (by simp) hside hfree
  -- `Z` is not the numeraire
  have hnum : Z.name ∉ numeraire.toList.map ModelObject.name := by
    intro hmem
    obtain ⟨o, ho, hon⟩ := List.mem_map.1 hmem
    have ho' : o ∈ vars := h₂.numeraire_mem o (by simpa using ho)
    have hnd := h₁.scalar.names
    rw [List.map_append] at hnd
    have hnd := hnd.of_append_left
    rw [List.map_append, List.nodup_append] at hnd
    exact hnd.2.2 o.name (List.mem_map_of_mem ho') Z.name (by simp) hon
  have hsolved : solvedVars numeraire [Z] = [Z] := by
    unfold solvedVars
    rw [List.filter_eq_self]
    intro o ho
    rw [List.mem_singleton] at ho
    subst ho
    simpa using hnum
  have hsize : totalSize coords [Z] = specSize coords Z := by simp [totalSize]
  have hplen : (product (Z.dims.map (labelsOf coords))).length = specSize coords Z := by
    rw [← hsize, ← length_scalarNames]
    simp [scalarNames]
  have hZmem : Z ∈ vars ++ [Z] ++ (params ++ extra) := by simp
  refine ⟨by rw [hsolved, hsize], fun i => -(demanded coords (numeraire.toList.map ModelObject.name)
    (solvedVars numeraire vars ++ (params ++ extra))
    (x.take (totalSize coords (solvedVars numeraire vars)) ++ t.take (totalSize coords (params ++ extra)))
    ⟨name, .num 0, rhs⟩).getD i 0, fun i j hi hj u => ?_⟩
  have hlt : totalSize coords (solvedVars numeraire vars) + j < x.length := by
    rw [hx, solvedVars_append, hsolved, totalSize_append, hsize]
    omega
  have key := demanded_narrow hm₁ hm₂ ⟨name, .num 0, rhs⟩ (by simp)
    (x.set (totalSize coords (solvedVars numeraire vars) + j) u) t (by rw [List.length_set, hx])
    (by rw [hext]; exact ht)
  rw [take_set_ge _ _ _ _ (by omega), hext] at key
  rw [List.set_append_left _ _ hlt, ← key]
  generalize x.set (totalSize coords (solvedVars numeraire vars) + j) u ++ t = flat
  unfold imbalances
  rw [List.flatMap_singleton]
  unfold demanded indexedReport
  dsimp only
  rw [freeDims_own hfree, hfree]
  have hi' : i < (product (Z.dims.map (labelsOf coords))).length := by rw [hplen]; exact hi
  have hpi := List.getElem?_eq_getElem hi'
  simp only [List.getD_eq_getElem?_getD, List.getElem?_map, hpi, Option.map_some, Option.getD_some, RExpr.value]
  have hmem := List.mem_of_getElem? hpi
  rw [bound_own _ _ (h₁.scalar.dims Z hZmem) (by simpa using length_of_mem_product hmem)]
  rw [entryFixing, if_neg hnum, solvedVars_append, hsolved]
  have hobj : solvedVars numeraire vars ++ [Z] ++ (params ++ extra) =
      solvedVars numeraire vars ++ Z :: (params ++ extra) := by simp
  have hss := solvedModel (numeraire := numeraire) h₁.scalar
  rw [solvedVars_append, hsolved] at hss
  have hs1 := hss.scalars
  have hs2 := hss.names
  rw [hobj] at hs1 hs2
  rw [hobj, arrayEntry_behind hs1 hs2 flat i _ hpi]
  · rw [List.getD_eq_getElem?_getD]
    simp
  · intro l hl
    obtain ⟨d, -, hd⟩ := mem_product_label hmem l hl
    exact (labels_readBack h₁.label_names d l hd).1

/-- **C103, reports with dims.**  Add a variable `Z`, perhaps parameters `extra`, and the equation `Z[i, j, …] = rhs` to a
model, where `rhs` mentions only these parameters and objects of the model, and its free indices are the dims of `Z`, in
the order of the coordinates.  If the Euler function of the model returns and the powers and logarithms are defined where
it solved for a direction, then it also returns for the larger model, and `simulate` returns for both, with the same
arrays for the objects of the model. -/
theorem C103_indexed_report {name : Template} {rhs : RExpr} {Z : ModelObject}
    (hside : SideOK coords (solvedVars numeraire vars ++ (params ++ extra)) numeraire rhs)
    (hfree : freeDims coords (numeraire.toList.map ModelObject.name) (.num 0) rhs = Z.dims)
    {es₁ es₂ : List (SymExpr Str)} {b₁ b₂ : EulerBackend} {dx₁ dx₂ : StepSolve ℝ}
    {env₁ env₂ : SamEnv ℝ (List (NDArray ℝ))}
    (hm₁ : BuiltOn coords (vars ++ [Z]) (params ++ extra) numeraire (eqs ++ [indexedReport name Z rhs]) es₁ b₁ dx₁ env₁)
    (hm₂ : BuiltOn coords vars params numeraire eqs es₂ b₂ dx₂ env₂) (hb : b₂.rk4 = b₁.rk4)
    (hsq₁ : es₁.length = totalSize coords (solvedVars numeraire (vars ++ [Z])))
    (hsq₂ : es₂.length = totalSize coords (solvedVars numeraire vars))
    (fl : SimFlags) (add mul : NDArray ℝ → NDArray ℝ → NDArray ℝ) (heap₁ heap₂ : Heap (NDArray ℝ)) (c₁ c₂ : SimCall ℝ)
    (hr₁ : RequestOK coords (solvedVars numeraire (vars ++ [Z])) (params ++ extra) add mul heap₁ c₁)
    (hr₂ : RequestOK coords (solvedVars numeraire vars) params add mul heap₂ c₂)
    (heul₁ : c₁.useEuler = true) (hopt₁ : c₁.useOptimizer = false)
    (heul₂ : c₂.useEuler = true) (hopt₂ : c₂.useOptimizer = false)
    (h1 : 1 ≤ c₁.nIterEuler) (hn : c₂.nIterEuler = c₁.nIterEuler)
    (hinit : ∀ o ∈ solvedVars numeraire vars ++ params, seen heap₂ c₂.initial o.name = seen heap₁ c₁.initial o.name)
    (hwant : ∀ o ∈ params, wantedValue add mul heap₂ c₂ o.name = wantedValue add mul heap₁ c₁ o.name)
    (outs₂ : List (NDArray ℝ))
    (hrun : env₂.euler (derefDict heap₂ c₂.initial) (wantedFlat add mul heap₂ c₂ params) c₂.nIterEuler = .ok outs₂)
    (hreg : ∀ t, t < c₂.nIterEuler → ∀ s₂ ∈ b₂.points dx₂ (totalSize coords (solvedVars numeraire vars))
        (b₂.stateAfter (solvedVars numeraire vars) params (derefDict heap₂ c₂.initial) outs₂ t)
        (stepVec c₂.nIterEuler (wantedFlat add mul heap₂ c₂ params) (initialFlat heap₂ c₂ params)),
      ∀ s, SameArrays coords (solvedVars numeraire (vars ++ [Z]) ++ (params ++ extra))
          (solvedVars numeraire vars ++ params) s s₂ →
        (∀ e ∈ es₁, Regular (flatPoint (scalarNames coords
          (solvedVars numeraire (vars ++ [Z]) ++ (params ++ extra))) s) e) ∧
        ∀ e ∈ es₂, Regular (flatPoint (scalarNames coords (solvedVars numeraire vars ++ params)) s₂) e) :
    ∃ e₁ e₂ outs,
      env₁.euler (derefDict heap₁ c₁.initial) (wantedFlat add mul heap₁ c₁ (params ++ extra)) c₁.nIterEuler = .ok outs ∧
      simulateCompute (simEnvOf env₁ (fun _ => false) fl add mul) heap₁ c₁ = .ok ⟨some e₁, none, none, false⟩ ∧
      simulateCompute (simEnvOf env₂ (fun _ => false) fl add mul) heap₂ c₂ = .ok ⟨some e₂, none, none, false⟩ ∧
      ∀ o ∈ solvedVars numeraire vars ++ params, DataFor coords e₁.start o ∧
        dget e₂.start o.name = dget e₁.start o.name := by
  have hmod₁ := (hm₁.stepsFrom hsq₁).1
  have hmod₂ := (hm₂.stepsFrom hsq₂).1
  refine C103_returns (more := [Z]) (further := [indexedReport name Z rhs]) hm₁ hm₂
    hb hsq₁ hsq₂ fl add mul heap₁ heap₂ c₁ c₂ hr₁ hr₂ heul₁ hopt₁ heul₂ hopt₂ h1 hn hinit hwant outs₂ hrun ?_
  intro t ht s₂ hs₂ s hss
  obtain ⟨o1, o2⟩ := hreg t ht s₂ hs₂ s hss
  refine ⟨o1, o2, fun E hE => ?_⟩
  obtain ⟨d, w1, w2, -⟩ := hss
  have lx := (flatOf_spec coords d _ fun o ho => w1 o (List.mem_append_left _ ho)).1
  have lt := (flatOf_spec coords d _ fun o ho => w1 o (List.mem_append_right _ ho)).1
  rw [flatOf_append] at w2
  obtain ⟨hsize, v, hv⟩ := indexedReport_off hmod₁ hmod₂ hside hfree _ _ lx lt
  rw [← w2] at hv
  have hlen : s.length = totalSize coords (solvedVars numeraire vars) + totalSize coords (solvedVars numeraire [Z]) +
      totalSize coords (params ++ extra) := by
    rw [w2, List.length_append, lx, lt, solvedVars_append, totalSize_append]
  have hE1 : E = 1 := by
    ext i j
    have hij := hE i j
    have hi := i.isLt
    have hj := j.isLt
    have hfun : (fun u => (imbalances coords (vars ++ [Z]) (params ++ extra) numeraire [indexedReport name Z rhs]
        (s.set (totalSize coords (solvedVars numeraire vars) + j) u)).getD i 0) = fun u =>
          (s.set (totalSize coords (solvedVars numeraire vars) + j) u).getD
            (totalSize coords (solvedVars numeraire vars) + i) 0 - v i := by
      funext u
      exact hv i j (by omega) (by omega) u
    rw [hfun] at hij
    by_cases h : i = j
    · subst h
      rw [Matrix.one_apply_eq]
      refine hij.unique ?_
      have : (fun u : ℝ => (s.set (totalSize coords (solvedVars numeraire vars) + i) u).getD
          (totalSize coords (solvedVars numeraire vars) + i) 0 - v i) = fun u => u - v i := by
        funext u
        rw [List.getD_eq_getElem?_getD, List.getElem?_set_self (by omega)]
        rfl
      rw [this]
      exact (hasDerivAt_id _).sub_const _
    · rw [Matrix.one_apply_ne h]
      refine hij.unique ?_
      have hne : (j : Nat) ≠ i := fun e => h (Fin.ext e.symm)
      have : (fun u : ℝ => (s.set (totalSize coords (solvedVars numeraire vars) + j) u).getD
          (totalSize coords (solvedVars numeraire vars) + i) 0 - v i) = fun _ => s.getD
          (totalSize coords (solvedVars numeraire vars) + i) 0 - v i := by
        funext u
        rw [List.getD_eq_getElem?_getD, List.getElem?_set_ne (by omega), ← List.getD_eq_getElem?_getD]
      rw [this]
      exact hasDerivAt_const _ _
  rw [hE1, Matrix.det_one]
  exact one_ne_zero

/-! ## An example

To the model `x + y = p`, `x = y` of C83, now in a model with sectors `a` and `b`, add a report `V[i] = w[i] * x` for each
sector. -/

def ixCoords : Coords := [("i".toList, ["a".toList, "b".toList])]
def ixReport : ModelObject := { name := "V", dims := ["i".toList] }
def ixWeight : ModelObject := { name := "w", dims := ["i".toList] }
def ixVars : List ModelObject := duoVars ++ [ixReport]
def ixParams : List ModelObject := sqParams ++ [ixWeight]
def ixRhs : RExpr := .mul (.indexed "w".toList [.idx "i".toList]) (.sym "x".toList)
def ixName : Template := [.lit "report ".toList, .dim "i".toList]
def ixEqs : List IndexedEq := duoEqs ++ [indexedReport ixName ixReport ixRhs]

def ixEs : List (SymExpr Str) :=
  duoEs ++ [.add (.sym "V_a".toList) (.mul (.num (-1)) (.mul (.sym "w_a".toList) (.sym "x".toList))),
    .add (.sym "V_b".toList) (.mul (.num (-1)) (.mul (.sym "w_b".toList) (.sym "x".toList)))]

theorem ix_labels : ∀ d ls, dget ixCoords d = some ls →
    ∀ (k : Nat) (l : Str), ls[k]? = some l → FitLabel ls.length k l ∧ '<' ∉ l := by
  intro i ls h k l hl
  have hmem := mem_of_dget _ h
  have hl := List.mem_of_getElem? hl
  simp only [ixCoords, List.mem_singleton, Prod.mk.injEq] at hmem
  obtain ⟨-, rfl⟩ := hmem
  simp only [List.mem_cons, List.not_mem_nil, or_false] at hl
  rcases hl with rfl | rfl <;> simp [FitLabel, NotNumeral, Char.isDigit]

theorem ix_side (objs : List ModelObject) (e : RExpr) (h1 : AllPlain ixCoords e)
    (h2 : ∀ x ∈ e.syms, ∃ o ∈ objs, o.name = x ∧ o.dims = [])
    (h3 : ∀ v ∈ e.indexeds, ∃ o ∈ objs, o.name = v.1 ∧ o.dims = ["i".toList] ∧ v.2 = [.idx "i".toList]) :
    SideOK ixCoords objs none e := by
  refine ⟨h1, ⟨fun x hx => ?_, fun v hv => ?_⟩, fun o ho => (nomatch ho), fun o ho => (nomatch ho)⟩
  · obtain ⟨o, ho, h⟩ := h2 x hx
    exact ⟨o, by simpa using ho, h⟩
  · obtain ⟨o, ho, hn, hd, hv⟩ := h3 v hv
    refine ⟨o, by simpa using ho, hn, by rw [hd]; decide, ?_⟩
    rw [hd, hv]
    exact .cons (.inl ⟨"i".toList, rfl, by decide, fun l hl => hl⟩) .nil

theorem ixModel : IndexedModel ixCoords ixVars ixParams none ixEqs where
  scalar :=
    { known := by decide +kernel
      dims := by decide +kernel
      fresh := by decide +kernel
      labels := by decide +kernel
      names := by decide +kernel
      scalars := by decide +kernel }
  coords_nodup := by decide +kernel
  dim_names := by decide +kernel
  label_names := ix_labels
  numeraire_mem := by rintro o ⟨⟩
  sides := by
    intro q hq
    simp only [ixEqs, duoEqs, List.cons_append, List.nil_append, List.mem_cons, List.not_mem_nil, or_false] at hq
    rcases hq with rfl | rfl | rfl
    · exact ⟨ix_side _ _ ⟨trivial, trivial⟩ (by decide +kernel) (by decide +kernel),
        ix_side _ _ trivial (by decide +kernel) (by decide +kernel)⟩
    · exact ⟨ix_side _ _ trivial (by decide +kernel) (by decide +kernel),
        ix_side _ _ trivial (by decide +kernel) (by decide +kernel)⟩
    · exact ⟨ix_side _ _ trivial (by decide +kernel) (by decide +kernel),
        ix_side _ _ ⟨trivial, trivial⟩ (by decide +kernel) (by decide +kernel)⟩
  clean := by
    intro q hq
    simp only [ixEqs, duoEqs, List.cons_append, List.nil_append, List.mem_cons, List.not_mem_nil, or_false] at hq
    rcases hq with rfl | rfl | rfl <;> decide +kernel
  markers := by decide +kernel
  names := by decide +kernel

theorem ixDuo : IndexedModel ixCoords duoVars sqParams none duoEqs where
  scalar :=
    { known := by decide +kernel
      dims := by decide +kernel
      fresh := by decide +kernel
      labels := by decide +kernel
      names := by decide +kernel
      scalars := by decide +kernel }
  coords_nodup := by decide +kernel
  dim_names := by decide +kernel
  label_names := ix_labels
  numeraire_mem := by rintro o ⟨⟩
  sides := by
    intro q hq
    simp only [duoEqs, List.mem_cons, List.not_mem_nil, or_false] at hq
    rcases hq with rfl | rfl
    · exact ⟨ix_side _ _ ⟨trivial, trivial⟩ (by decide +kernel) (by decide +kernel),
        ix_side _ _ trivial (by decide +kernel) (by decide +kernel)⟩
    · exact ⟨ix_side _ _ trivial (by decide +kernel) (by decide +kernel),
        ix_side _ _ trivial (by decide +kernel) (by decide +kernel)⟩
  clean := by
    intro q hq
    simp only [duoEqs, List.mem_cons, List.not_mem_nil, or_false] at hq
    rcases hq with rfl | rfl <;> decide +kernel
  markers := by decide +kernel
  names := by decide +kernel

theorem ixNumba : ∃ uv up K, BuiltNumba ixCoords ixVars ixParams ixEqs ixEs uv up K :=
  ⟨_, _, _, ⟨id, id, id, id, _, fun _ _ => Iff.rfl, fun _ _ => Iff.rfl, fun _ _ => Iff.rfl, rfl, rfl,
    rfl, rfl, rfl⟩⟩

theorem ixDuoNumba : ∃ uv up K, BuiltNumba ixCoords duoVars sqParams duoEqs duoEs uv up K ∧
    dkeys uv = ["x".toList, "y".toList] ∧ dkeys up = ["p".toList] :=
  ⟨_, _, _, ⟨id, id, id, id, _, fun _ _ => Iff.rfl, fun _ _ => Iff.rfl, fun _ _ => Iff.rfl, rfl, rfl,
    rfl, rfl, rfl⟩, rfl, rfl⟩

/-- A model with sectors on the numba back-end without an optimizer. -/
noncomputable def ixEnv (vars params : List ModelObject) (order : List Str) (es : List (SymExpr Str))
    (uv up : Dict Str ModelObject) (K : NumbaFns) : SamEnv ℝ (List (NDArray ℝ)) :=
  ⟨vars, params, ixCoords, ["euler".toList],
    .flat (callNumba (dkeys uv) (dkeys up) K.system),
    .flat fun x theta => (callNumba (dkeys uv) (dkeys up) [K.loss] x theta).map fun l => l.headD 0,
    [], fun _ _ _ _ => .error .valueError, fun _ _ _ _ => .error .valueError, fun x0 theta n => runEuler .numba
      (numbaDX order (dkeys uv) (dkeys up) es) vars params ixCoords theta n x0⟩

theorem ixEulerNames : EulerNames (scalarNames ixCoords (ixVars ++ ixParams)) where
  nodup := by decide +kernel
  word := by decide +kernel
  noZero := by
    intro a ha b hb
    revert a b
    decide +kernel
  noExog := by decide +kernel
  noEndog := by decide +kernel
  noNumpy := by decide +kernel

theorem ixDuoNames : EulerNames (scalarNames ixCoords (duoVars ++ sqParams)) where
  nodup := by decide +kernel
  word := by decide +kernel
  noZero := by
    intro a ha b hb
    revert a b
    decide +kernel
  noExog := by decide +kernel
  noEndog := by decide +kernel
  noNumpy := by decide +kernel

theorem ixEuler : EulerModel ixCoords ixVars ixParams where
  labelled := ⟨by decide +kernel, by decide +kernel, by decide +kernel, by decide +kernel⟩
  nonempty := by decide +kernel
  someVar := by decide +kernel
  someParam := by decide +kernel
  keywords := by decide +kernel

theorem ixDuoEuler : EulerModel ixCoords duoVars sqParams where
  labelled := ⟨by decide +kernel, by decide +kernel, by decide +kernel, by decide +kernel⟩
  nonempty := by decide +kernel
  someVar := by decide +kernel
  someParam := by decide +kernel
  keywords := by decide +kernel

/-- As `duoCall`, with `V = w = (5, 7)`. -/
def ixCall : SimCall ℝ where
  initial := [("x".toList, .num ⟨[], [1]⟩), ("y".toList, .num ⟨[], [1]⟩), ("V".toList, .num ⟨[2], [5, 7]⟩),
    ("p".toList, .num ⟨[], [2]⟩), ("w".toList, .num ⟨[2], [5, 7]⟩)]
  finalValues := some [("p".toList, .num ⟨[], [6]⟩)]
  useOptimizer := false

theorem ixRequest (add mul : NDArray ℝ → NDArray ℝ → NDArray ℝ) :
    RequestOK ixCoords (solvedVars none ixVars) ixParams add mul [] ixCall where
  nodup := by simp [ixCall, dkeys]
  exact := by intro n; simp [ixCall, dkeys, ixVars, duoVars, ixParams, sqParams, solvedVars, ixReport, ixWeight]
  distinct := by simp [ixCall, dkeys]
  some_change := by simp [ixCall, dkeys]
  known := by simp [ixCall, dkeys]
  valid := by simp [ixCall, ValidRefs, refsOf]
  unshared := by simp [ixCall, refsOf]
  shaped := by
    intro o ho
    have : o = { name := "x" } ∨ o = { name := "y" } ∨ o = ixReport ∨ o = { name := "p" } ∨ o = ixWeight := by
      simpa [ixVars, duoVars, ixParams, sqParams, solvedVars] using ho
    rcases this with rfl | rfl | rfl | rfl | rfl
    · exact ⟨⟨[], [1]⟩, rfl, rfl, rfl⟩
    · exact ⟨⟨[], [1]⟩, rfl, rfl, rfl⟩
    · exact ⟨⟨[2], [5, 7]⟩, rfl, rfl, rfl⟩
    · exact ⟨⟨[], [2]⟩, rfl, rfl, rfl⟩
    · exact ⟨⟨[2], [5, 7]⟩, rfl, rfl, rfl⟩
  sized := by
    intro o ho
    have : o = { name := "p" } ∨ o = ixWeight := by simpa [ixParams, sqParams] using ho
    rcases this with rfl | rfl
    · exact ⟨⟨[], [6]⟩, rfl, rfl⟩
    · exact ⟨⟨[2], [5, 7]⟩, rfl, rfl⟩

theorem ixDuoRequest (add mul : NDArray ℝ → NDArray ℝ → NDArray ℝ) :
    RequestOK ixCoords (solvedVars none duoVars) sqParams add mul [] duoCall where
  nodup := (duoRequest add mul).nodup
  exact := (duoRequest add mul).exact
  distinct := (duoRequest add mul).distinct
  some_change := (duoRequest add mul).some_change
  known := (duoRequest add mul).known
  valid := (duoRequest add mul).valid
  unshared := (duoRequest add mul).unshared
  shaped := by
    intro o ho
    have : o = { name := "x" } ∨ o = { name := "y" } ∨ o = { name := "p" } := by
      simpa [duoVars, sqParams, solvedVars] using ho
    rcases this with rfl | rfl | rfl
    · exact ⟨⟨[], [1]⟩, rfl, rfl, rfl⟩
    · exact ⟨⟨[], [1]⟩, rfl, rfl, rfl⟩
    · exact ⟨⟨[], [2]⟩, rfl, rfl, rfl⟩
  sized := by
    intro o ho
    have : o = { name := "p" } := by simpa [sqParams] using ho
    subst this
    exact ⟨⟨[], [6]⟩, rfl, rfl⟩

theorem ixRegular (v : Str → ℝ) : ∀ e ∈ ixEs, Regular v e := by
  intro e he
  simp only [ixEs, duoEs, List.cons_append, List.nil_append, List.mem_cons, List.not_mem_nil, or_false] at he
  rcases he with rfl | rfl | rfl | rfl <;> simp [Regular]

theorem ix_same (o : ModelObject) (ho : o ∈ solvedVars none duoVars ++ sqParams) :
    seen [] duoCall.initial o.name = seen ([] : Heap (NDArray ℝ)) ixCall.initial o.name := by
  have : o = { name := "x" } ∨ o = { name := "y" } ∨ o = { name := "p" } := by
    simpa [duoVars, sqParams, solvedVars] using ho
  rcases this with rfl | rfl | rfl <;> rfl

/-- The model without the report returns, so the model with the report by sectors does. -/
example (fl : SimFlags) (add mul : NDArray ℝ → NDArray ℝ → NDArray ℝ) :
    ∃ env₁ env₂ e₁ e₂,
      simulateCompute (simEnvOf env₁ (fun _ => false) fl add mul) [] ixCall = .ok ⟨some e₁, none, none, false⟩ ∧
      simulateCompute (simEnvOf env₂ (fun _ => false) fl add mul) [] duoCall = .ok ⟨some e₂, none, none, false⟩ ∧
      env₁.variables = ixVars ∧ env₂.variables = duoVars ∧
      dget e₂.start "y".toList = dget e₁.start "y".toList := by
  obtain ⟨uv₂, up₂, K₂, hK₂, k3, k4⟩ := ixDuoNumba
  obtain ⟨uv, up, K, hK⟩ := ixNumba
  have hN₂ : scalarNames ixCoords (duoVars ++ sqParams) = ["x".toList, "y".toList] ++ ["p".toList] := by decide +kernel
  have hm : BuiltOn ixCoords ixVars ixParams none ixEqs ixEs .numba (fun _ _ _ => .ok [])
      (ixEnv ixVars ixParams (scalarNames ixCoords (ixVars ++ ixParams)) ixEs uv up K) :=
    Or.inr ⟨rfl, rfl, scalarNames ixCoords (ixVars ++ ixParams), ixModel, ixEulerNames, ixEuler,
      fun a => Iff.rfl, rfl, rfl, rfl, List.cons_ne_nil _ _, uv, up, K, hK, rfl⟩
  have hm₂ : BuiltOn ixCoords duoVars sqParams none duoEqs duoEs .numba (fun _ _ _ => .ok [])
      (ixEnv duoVars sqParams ["p".toList, "x".toList, "y".toList] duoEs uv₂ up₂ K₂) := by
    refine Or.inr ⟨rfl, rfl, ["p".toList, "x".toList, "y".toList], ixDuo, ixDuoNames, ixDuoEuler, ?_,
      rfl, rfl, rfl, List.cons_ne_nil _ _, uv₂, up₂, K₂, hK₂, rfl⟩
    intro a
    rw [hN₂]
    simp only [List.cons_append, List.nil_append, List.mem_cons, List.not_mem_nil, or_false]
    tauto
  have hcall : EulerCall ixCoords duoVars sqParams (derefDict [] duoCall.initial)
      (wantedFlat add mul [] duoCall sqParams) := by
    obtain ⟨-, dx, A, B, -, hs⟩ := hm₂.stepsFrom rfl
    have hl := hs.lenOK
    exact (euler_setup .numba dx _ hs.steps hs.euler hl hs.coords_eq hs.variables_eq hs.parameters_eq
      hs.compiled fl add mul [] duoCall (ixDuoRequest add mul) rfl rfl).1
  have hrun : ∃ outs, (ixEnv duoVars sqParams ["p".toList, "x".toList, "y".toList] duoEs uv₂ up₂ K₂).euler
      (derefDict [] duoCall.initial) (wantedFlat add mul [] duoCall sqParams) duoCall.nIterEuler = .ok outs := by
    show ∃ outs, runEuler .numba (numbaDX _ (dkeys uv₂) (dkeys up₂) duoEs) duoVars sqParams ixCoords _ _ _ = _
    rw [k3, k4, runEuler_numbaDX ixCoords duoVars sqParams _ _ hcall _ _ _ duoEs (hN₂ ▸ ixDuoNames)
      (by
        intro a
        simp only [List.cons_append, List.nil_append, List.mem_cons, List.not_mem_nil, or_false]
        tauto)
      (by
        intro e he a ha
        have := (hK₂.values ixDuo).1 e he a ((mem_atoms_iff a e).2 ha)
        rwa [hN₂] at this) rfl rfl rfl]
    cases hc : runEuler .numba (vecJac (nx := totalSize ixCoords duoVars) (np := totalSize ixCoords sqParams)
        (symA _ _ ["x".toList, "y".toList] ["p".toList] duoEs)
        (symB _ _ ["x".toList, "y".toList] ["p".toList] duoEs)).solve duoVars sqParams ixCoords
        (wantedFlat add mul [] duoCall sqParams) duoCall.nIterEuler (derefDict [] duoCall.initial) with
    | ok outs => exact ⟨outs, rfl⟩
    | error e =>
      obtain ⟨-, x, t, -, -, hs⟩ := C20_fails_only_if_singular _ _ _ _ _ _ _ _ hcall e hc
      exact absurd (duo_regular_matrix _ _) hs
  obtain ⟨outs₂, hrun⟩ := hrun
  obtain ⟨e₁, e₂, outs, -, g1, g2, g5⟩ := C103_indexed_report (Z := ixReport) (extra := [ixWeight])
    (rhs := ixRhs) (name := ixName)
    (ix_side _ _ ⟨trivial, trivial⟩ (by decide +kernel) (by decide +kernel))
    (by decide +kernel) hm hm₂ rfl rfl rfl fl add mul [] [] ixCall duoCall (ixRequest add mul) (ixDuoRequest add mul) rfl rfl
    rfl rfl (by decide) rfl ix_same
    (by
      intro o ho
      have : o = { name := "p" } := by simpa [sqParams] using ho
      subst this
      rfl) outs₂ hrun
    (fun _ _ _ _ _ _ => ⟨ixRegular _, fun e he => duoRegular _ e (List.mem_append_left _ he)⟩)
  exact ⟨_, _, e₁, e₂, g1, g2, rfl, rfl, (g5 { name := "y" } (by decide +kernel)).2⟩

end Verif
