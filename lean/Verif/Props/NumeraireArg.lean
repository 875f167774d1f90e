import Verif.Props.Numeraire

/-!
# C101: the numéraire given as an argument, or fixed by an equation

`CGEModel(numeraire=N)` replaces `N` by one in all equations and takes it out of the variables (`base/cge.py:100-103`,
`base/cge.py:155-167`, `base/cge.py:422-424`).  The documentation advises to add the equation `N = 1` instead.  As the
constructor still counts `N` among the variables (C31), the equation is needed to pass its check even if the argument is
given; this file compares the model with the equation and without the argument, and the same model with the argument.
-/

namespace Verif

open RExpr

variable {coords : Coords} {vars params : List ModelObject} {N : ModelObject} {core : List IndexedEq}

/-- The difference of the sides of an equation depends only on entries that the arrays have. -/
theorem value_inRange (objs : List ModelObject) (hcn : (dkeys coords).Nodup)
    (hlab : ∀ d ls, dget coords d = some ls → ∀ (k : Nat) (l : Str), ls[k]? = some l → FitLabel ls.length k l ∧ '<' ∉ l)
    (q : IndexedEq) (hl : SideOK coords objs none q.lhs) (hr : SideOK coords objs none q.rhs)
    (A B : Str → List SIdx → ℝ)
    (hAB : ∀ o ∈ objs, ∀ ls ∈ product (o.dims.map (labelsOf coords)), (∀ l ∈ ls, ReadsBack l) →
      A o.name (ls.map sympifyLabel) = B o.name (ls.map sympifyLabel))
    (ls : List Str) (hls : ls ∈ product ((freeDims coords [] q.lhs q.rhs).map (labelsOf coords))) :
    q.lhs.value (fun x => A x []) A coords (bindLabels (freeDims coords [] q.lhs q.rhs) ls) -
        q.rhs.value (fun x => A x []) A coords (bindLabels (freeDims coords [] q.lhs q.rhs) ls) =
      q.lhs.value (fun x => B x []) B coords (bindLabels (freeDims coords [] q.lhs q.rhs) ls) -
        q.rhs.value (fun x => B x []) B coords (bindLabels (freeDims coords [] q.lhs q.rhs) ls) := by
  obtain ⟨r, h1, hrf, -, hwell, hfree⟩ := standardize_spec id (fun _ _ => Iff.rfl) id
    (fun _ _ => Iff.rfl) none objs hlab (fun o ho => by cases ho) q hl hr
  have hlab' : FitLabels coords := fun i ls h k l hl => (hlab i ls h k l hl).1
  have hplain : AllPlain coords (.add q.lhs (.mul (.num (-1)) q.rhs)) := ⟨hl.plain, trivial, hr.plain⟩
  obtain ⟨r', g1, -, g3⟩ := C35_expansion_partial id (fun _ _ => Iff.rfl) id
    (fun _ _ => Iff.rfl) coords hlab' _ hplain
  have hrr : r' = r := by
    unfold standardize at h1
    simp only [fixNumeraire] at h1
    rw [g1] at h1
    injection h1 with h1
    exact congrArg SymEquation.eq h1
  subst hrr
  have hgen : ∀ (C : Str → List SIdx → ℝ) (η : Str → SIdx),
      q.lhs.value (fun x => C x []) C coords η - q.rhs.value (fun x => C x []) C coords η =
        r'.value (fun x => C x []) C coords η := by
    intro C η
    rw [g3]
    simp only [RExpr.value]
    push_cast
    ring
  have hnd := freeDims_nodup hcn [] q.lhs q.rhs
  simp only [Option.toList_none, List.map_nil] at hfree
  rw [hgen, hgen]
  generalize freeDims coords [] q.lhs q.rhs = ds at *
  have hback : ∀ (o : ModelObject) (ls' : List Str), ls' ∈ product (o.dims.map (labelsOf coords)) →
      ∀ l ∈ ls', ReadsBack l := by
    intro o ls' hls' l hl
    obtain ⟨d, -, hd⟩ := mem_product_label hls' l hl
    exact (labels_readBack hlab d l hd).1
  rw [value_eq_val _ _ _ _ hrf, value_eq_val _ _ _ _ hrf]
  rw [val_congr_syms _ (fun x => B x [])]
  · apply val_congr
    intro w hw
    obtain ⟨o, ho, hon, hod, hF⟩ := hwell.arrays w hw
    obtain ⟨ls', hls', he⟩ := bound_labels ds ls hnd hls w.2 o.dims hF fun d hd => hfree w hw d hd (by
      clear hod hon
      revert hd
      generalize w.2 = a at hF
      generalize o.dims = b at hF
      induction hF with
      | nil => intro hd; cases hd
      | cons hsd _ ih =>
        intro hd
        rcases List.mem_cons.1 hd with rfl | hd
        · rcases hsd with ⟨i, hi, hk, -⟩ | ⟨l, hl, -⟩
          · cases hi; exact hk
          · exact absurd hl.symm (sympifyLabel_ne_idx _ _)
        · exact ih hd)
    rw [he, ← hon]
    exact hAB o ho ls' hls' (hback o ls' hls')
  · intro x hx
    obtain ⟨o, ho, rfl, hd⟩ := hwell.scalars x hx
    have := hAB o ho [] (by rw [hd]; simp [product]) (by simp)
    simpa using this

theorem hasFree_absent (fixed : List Str) (d : Str) (e : RExpr) (h : ∀ v ∈ e.indexeds, v.1 ∉ fixed) :
    hasFree fixed d e = hasFree [] d e := by
  induction e with
  | num => rfl
  | sym => rfl
  | indexed b ix =>
    have : b ∉ fixed := h (b, ix) (by simp [indexeds])
    simp [hasFree, this]
  | add a b iha ihb =>
    simp only [hasFree]
    rw [iha fun v hv => h v (by simp [indexeds, hv]), ihb fun v hv => h v (by simp [indexeds, hv])]
  | mul a b iha ihb =>
    simp only [hasFree]
    rw [iha fun v hv => h v (by simp [indexeds, hv]), ihb fun v hv => h v (by simp [indexeds, hv])]
  | pow a b iha ihb =>
    simp only [hasFree]
    rw [iha fun v hv => h v (by simp [indexeds, hv]), ihb fun v hv => h v (by simp [indexeds, hv])]
  | log a ih => simp only [hasFree]; rw [ih h]
  | exp a ih => simp only [hasFree]; rw [ih h]
  | red o a l ih => simp only [hasFree]; rw [ih h]

/-- A numéraire without dims is nowhere used with indices. -/
theorem numeraire_not_indexed (h : IndexedModel coords vars params (some N) core) (hN : N.dims = []) (e : RExpr)
    (he : SideOK coords (solvedVars (some N) vars ++ params) (some N) e) : ∀ v ∈ e.indexeds, v.1 ∉ [N.name] := by
  intro v hv hmem
  obtain ⟨o, ho, hon, hod, -⟩ := he.indexed.arrays v hv
  rcases List.mem_append.1 ho with ho | ho
  · exact numeraire_absent h rfl ho (by rw [hon]; simpa using hmem)
  · rw [Option.toList_some, List.mem_singleton] at ho
    exact hod (ho ▸ hN)

theorem freeDims_absent (h : IndexedModel coords vars params (some N) core) (hN : N.dims = []) (q : IndexedEq)
    (hq : q ∈ core) : freeDims coords [N.name] q.lhs q.rhs = freeDims coords [] q.lhs q.rhs := by
  unfold freeDims
  congr 1
  funext d
  rw [hasFree_absent _ d _ (numeraire_not_indexed h hN _ (h.sides q hq).1),
    hasFree_absent _ d _ (numeraire_not_indexed h hN _ (h.sides q hq).2)]

theorem mem_vars_split (h : IndexedModel coords vars params (some N) core) {o : ModelObject} (ho : o ∈ vars ++ params) :
    o ∈ solvedVars (some N) vars ++ params ∨ o = N := by
  rcases List.mem_append.1 ho with ho | ho
  · by_cases hn : o.name = N.name
    · right
      have hnd := h.scalar.names
      rw [List.map_append] at hnd
      exact List.inj_on_of_nodup_map hnd.of_append_left ho (h.numeraire_mem N rfl) hn
    · left
      refine List.mem_append_left _ (List.mem_filter.2 ⟨ho, ?_⟩)
      simpa using hn
  · exact .inl (List.mem_append_right _ ho)

/-- The sides, with the numéraire an ordinary variable. -/
theorem sideOK_none (h : IndexedModel coords vars params (some N) core) (e : RExpr)
    (he : SideOK coords (solvedVars (some N) vars ++ params) (some N) e) : SideOK coords (vars ++ params) none e where
  plain := he.plain
  indexed := by
    have hsub : ∀ o, o ∈ solvedVars (some N) vars ++ params ++ (some N).toList →
        o ∈ vars ++ params ++ (none : Option ModelObject).toList := by
      intro o ho
      rw [Option.toList_none, List.append_nil]
      rcases List.mem_append.1 ho with ho | ho
      · exact solved_subset ho
      · rw [Option.toList_some, List.mem_singleton] at ho
        exact List.mem_append_left _ (ho ▸ h.numeraire_mem N rfl)
    refine ⟨fun x hx => ?_, fun v hv => ?_⟩
    · obtain ⟨o, ho, h1⟩ := he.indexed.scalars x hx
      exact ⟨o, hsub o ho, h1⟩
    · obtain ⟨o, ho, h1⟩ := he.indexed.arrays v hv
      exact ⟨o, hsub o ho, h1⟩
  own := fun o ho => by cases ho
  free := fun o ho => by cases ho

theorem solvedVars_without (vars : List ModelObject) : solvedVars none vars = vars := by
  unfold solvedVars
  rw [List.filter_eq_self]
  intro o _
  simp

/-- The numéraire between the variables before and after it. -/
theorem numeraire_between (h : IndexedModel coords vars params (some N) core) :
    ∃ L R, vars = L ++ N :: R ∧ solvedVars (some N) vars = L ++ R ∧
      positionOf coords vars N.name = totalSize coords L := by
  obtain ⟨L, R, rfl⟩ := List.append_of_mem (h.numeraire_mem N rfl)
  have hnd := h.scalar.names
  rw [List.map_append] at hnd
  have hnd := hnd.of_append_left
  rw [List.map_append, List.map_cons, List.nodup_append, List.nodup_cons] at hnd
  have hL : ∀ o ∈ L, o.name ≠ N.name := fun o ho => hnd.2.2 _ (List.mem_map_of_mem ho) _ (by simp)
  have hR : ∀ o ∈ R, o.name ≠ N.name := fun o ho e => hnd.2.1.1 (e ▸ List.mem_map_of_mem ho)
  refine ⟨L, R, rfl, ?_, ?_⟩
  · unfold solvedVars
    rw [List.filter_append, List.filter_cons_of_neg (by simp), List.filter_eq_self.2, List.filter_eq_self.2]
    · intro o ho; simpa using hR o ho
    · intro o ho; simpa using hL o ho
  · unfold positionOf
    rw [List.takeWhile_append_of_pos (by intro o ho; simpa using hL o ho), List.takeWhile_cons_of_neg (by simp),
      List.append_nil]

theorem flatPoint_erase (A B : List Str) (n m : Str) (hm : m ≠ n) (flat : List ℝ) :
    flatPoint (A ++ n :: B) flat m = flatPoint (A ++ B) (flat.eraseIdx A.length) m := by
  unfold flatPoint
  by_cases hA : m ∈ A
  · rw [List.idxOf_append_of_mem hA, List.idxOf_append_of_mem hA, List.getD_eq_getElem?_getD,
      List.getD_eq_getElem?_getD, List.getElem?_eraseIdx_of_lt (List.idxOf_lt_length_of_mem hA)]
  · rw [List.idxOf_append_of_notMem hA, List.idxOf_append_of_notMem hA, List.idxOf_cons_ne _ (Ne.symm hm),
      List.getD_eq_getElem?_getD, List.getD_eq_getElem?_getD, List.getElem?_eraseIdx_of_ge (by omega)]
    congr 2

/-- Without the numéraire the arrays of the other objects are the same. -/
theorem arrayEntry_erase (h : IndexedModel coords vars params (some N) core) (hN : N.dims = []) (flat : List ℝ)
    (o : ModelObject) (ho : o ∈ solvedVars (some N) vars ++ params) (ls : List Str)
    (hls : ls ∈ product (o.dims.map (labelsOf coords))) (hr : ∀ l ∈ ls, ReadsBack l) :
    arrayEntry coords (vars ++ params) flat o.name (ls.map sympifyLabel) =
      arrayEntry coords (solvedVars (some N) vars ++ params) (flat.eraseIdx (positionOf coords vars N.name)) o.name
        (ls.map sympifyLabel) := by
  rw [← flatPoint_entry coords _ h.scalar.scalars h.scalar.names flat o (solved_subset ho) ls hls hr,
    ← flatPoint_entry coords _ (solvedModel h.scalar).scalars (solvedModel h.scalar).names _ o ho ls hls hr]
  obtain ⟨L, R, h1, h2, h3⟩ := numeraire_between h
  have hsc := h.scalar.scalars
  have hNn : scalarNames coords [N] = [N.name] := by simp [scalarNames, hN, product, joinStr]
  have e1 : scalarNames coords (vars ++ params) = scalarNames coords L ++ N.name :: scalarNames coords (R ++ params) := by
    rw [h1, List.append_assoc, List.cons_append, scalarNames_append, ← List.singleton_append, scalarNames_append, hNn]
    rfl
  have e2 : scalarNames coords (solvedVars (some N) vars ++ params) =
      scalarNames coords L ++ scalarNames coords (R ++ params) := by
    rw [h2, List.append_assoc, scalarNames_append]
  have hmem : joinStr "_".toList (o.name :: ls) ∈ scalarNames coords L ++ scalarNames coords (R ++ params) := by
    rw [← e2]
    unfold scalarNames
    exact List.mem_flatMap.2 ⟨o, ho, List.mem_map.2 ⟨ls, hls, rfl⟩⟩
  rw [e1, e2, h3, ← length_scalarNames coords L]
  apply flatPoint_erase
  rintro he
  rw [e1] at hsc
  rw [he] at hmem
  rw [List.nodup_append, List.nodup_cons] at hsc
  rcases List.mem_append.1 hmem with hm | hm
  · exact hsc.2.2 _ hm _ (by simp) rfl
  · exact hsc.2.1.1 hm

/-- At a state in which the numéraire is one, an equation demands the same with the numéraire an ordinary variable and
with the numéraire given as argument. -/
theorem demanded_numeraire (h : IndexedModel coords vars params (some N) core) (hN : N.dims = []) (flat : List ℝ)
    (h1 : flat.getD (positionOf coords vars N.name) 0 = 1) (q : IndexedEq) (hq : q ∈ core) :
    demanded coords [] (vars ++ params) flat q = demanded coords [N.name] (solvedVars (some N) vars ++ params)
      (flat.eraseIdx (positionOf coords vars N.name)) q := by
  unfold demanded
  rw [freeDims_absent h hN q hq]
  apply List.map_congr_left
  intro ls hls
  refine value_inRange (vars ++ params) h.coords_nodup h.label_names q (sideOK_none h _ (h.sides q hq).1)
    (sideOK_none h _ (h.sides q hq).2) _ _ ?_ ls hls
  intro o ho ls' hls' hr
  unfold entryFixing
  rw [if_neg (by simp)]
  rcases mem_vars_split h ho with ho' | rfl
  · rw [if_neg (by simpa using numeraire_absent h rfl ho')]
    exact arrayEntry_erase h hN flat o ho' ls' hls' hr
  · rw [if_pos (by simp)]
    rw [hN] at hls'
    simp only [List.map_nil, product, List.mem_singleton] at hls'
    subst hls'
    rw [List.map_nil, arrayEntry_scalar coords vars params o.name flat ⟨o, h.numeraire_mem o rfl, rfl, hN⟩]
    exact h1

theorem imbalances_numeraire (h : IndexedModel coords vars params (some N) core) (hN : N.dims = []) (flat : List ℝ)
    (h1 : flat.getD (positionOf coords vars N.name) 0 = 1) :
    imbalances coords vars params none core flat =
      imbalances coords vars params (some N) core (flat.eraseIdx (positionOf coords vars N.name)) := by
  unfold imbalances
  rw [solvedVars_without]
  apply List.flatMap_congr
  intro q hq
  exact demanded_numeraire h hN _ h1 q hq

/-- **C101, the numéraire as argument.**  Take a model with the equation `N = 1`.  The values `y` of the variables and `t`
of the parameters are a solution of it if and only if `N` is one in `y` and `y` without `N` is a solution of the same
model with `numeraire=N`. -/
theorem C101_argument (name : Template)
    (h : IndexedModel coords vars params (some N) (core ++ [fixedAtOne name N.name])) (hN : N.dims = [])
    (y t : List ℝ) (hy : y.length = totalSize coords vars) :
    (∀ z ∈ imbalances coords vars params none (core ++ [fixedAtOne name N.name]) (y ++ t), z = 0) ↔
      y.getD (positionOf coords vars N.name) 0 = 1 ∧
      ∀ z ∈ imbalances coords vars params (some N) (core ++ [fixedAtOne name N.name])
        (y.eraseIdx (positionOf coords vars N.name) ++ t), z = 0 := by
  have hmem : ∃ o ∈ solvedVars none vars, o.name = N.name ∧ o.dims = [] := by
    rw [solvedVars_without]
    exact ⟨N, h.numeraire_mem N rfl, rfl, hN⟩
  have hlt : positionOf coords vars N.name < y.length := by
    rw [hy]
    have hnd := h.scalar.names
    rw [List.map_append] at hnd
    exact positionOf_lt coords vars N.name hnd.of_append_left ⟨N, h.numeraire_mem N rfl, rfl, hN⟩
  have hget : (y ++ t).getD (positionOf coords vars N.name) 0 = y.getD (positionOf coords vars N.name) 0 := by
    rw [List.getD_eq_getElem?_getD, List.getElem?_append_left hlt, ← List.getD_eq_getElem?_getD]
  have key : y.getD (positionOf coords vars N.name) 0 = 1 →
      imbalances coords vars params none (core ++ [fixedAtOne name N.name]) (y ++ t) =
        imbalances coords vars params (some N) (core ++ [fixedAtOne name N.name])
          (y.eraseIdx (positionOf coords vars N.name) ++ t) := by
    intro h1
    rw [imbalances_numeraire h hN _ (hget.trans h1), List.eraseIdx_append_of_lt_length hlt]
  constructor
  · intro hz
    have h1 : y.getD (positionOf coords vars N.name) 0 = 1 := by
      rw [imbalances_fixed name N.name _ hmem, solvedVars_without, hget] at hz
      exact sub_eq_zero.1 (hz _ (by simp))
    exact ⟨h1, key h1 ▸ hz⟩
  · rintro ⟨h1, hz⟩
    rw [key h1]
    exact hz

/-! ## An example

The model `Q = a * P`, `Y * P = Q` again, with `P` the numéraire. -/

theorem argModel : IndexedModel [] twoPrices twoParams (some { name := "P" })
    (twoCore ++ [fixedAtOne [.lit "numeraire".toList] "P".toList]) where
  scalar := (twoModel _ (.inl rfl)).scalar
  coords_nodup := by decide +kernel
  dim_names := by decide +kernel
  label_names := by intro i ls h; cases h
  numeraire_mem := by
    rintro o ho
    cases ho
    decide +kernel
  sides := by
    have hside : ∀ e : RExpr, AllPlain [] e → e.indexeds = [] → (∀ x ∈ e.syms, x ∈ ["P".toList, "Q".toList, "Y".toList, "a".toList]) →
        NotCaptured { name := "P" } e →
        SideOK [] (solvedVars (some { name := "P" }) twoPrices ++ twoParams) (some { name := "P" }) e := by
      intro e h1 h2 h3 h4
      refine ⟨h1, ⟨fun x hx => ?_, fun v hv => ?_⟩, fun o ho v hv => ?_, fun o ho => ?_⟩
      · have := h3 x hx
        simp only [List.mem_cons, List.not_mem_nil, or_false] at this
        rcases this with rfl | rfl | rfl | rfl <;> decide +kernel
      · rw [h2] at hv; cases hv
      · rw [h2] at hv; cases hv
      · cases ho; exact h4
    intro q hq
    simp only [twoCore, List.cons_append, List.nil_append, List.mem_cons, List.not_mem_nil, or_false] at hq
    rcases hq with rfl | rfl | rfl
    · exact ⟨hside _ trivial rfl (by decide +kernel) trivial,
        hside _ ⟨trivial, trivial⟩ rfl (by decide +kernel) ⟨trivial, trivial⟩⟩
    · exact ⟨hside _ ⟨trivial, trivial⟩ rfl (by decide +kernel) ⟨trivial, trivial⟩,
        hside _ trivial rfl (by decide +kernel) trivial⟩
    · exact ⟨hside _ trivial rfl (by decide +kernel) trivial, hside _ trivial rfl (by decide +kernel) trivial⟩
  clean := by decide +kernel
  markers := by decide +kernel
  names := by decide +kernel

/-- The final state of the example, and without `P` in the model with `numeraire=P`. -/
example : (∀ z ∈ imbalances [] twoPrices twoParams none
        (twoCore ++ [fixedAtOne [.lit "numeraire".toList] "P".toList]) ([1, 4, 4] ++ [4]), z = 0) ↔
      ([1, 4, 4] : List ℝ).getD (positionOf [] twoPrices "P".toList) 0 = 1 ∧
      ∀ z ∈ imbalances [] twoPrices twoParams (some { name := "P" })
        (twoCore ++ [fixedAtOne [.lit "numeraire".toList] "P".toList])
        (([1, 4, 4] : List ℝ).eraseIdx (positionOf [] twoPrices "P".toList) ++ [4]), z = 0 :=
  C101_argument (N := { name := "P" }) [.lit "numeraire".toList] argModel rfl [1, 4, 4] [4] rfl

end Verif
