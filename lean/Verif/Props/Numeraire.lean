import Verif.Lemmas.Numeraire

/-!
# C101: the choice of the numéraire does not change real outcomes

The documentation (`base/cge.py:107-111`) advises to add an equation that fixes the numéraire to one.  Take a model in
which only relative prices matter: multiplying all nominal variables (prices, incomes) by a factor multiplies both
sides of every equation but that one by a power of the factor.  Then it makes no difference which of the nominal
variables is fixed.
-/

namespace Verif

open Filter Topology Set

/-! ## Specification -/

/-- The equation `p = 1`. -/
def fixedAtOne (name : Template) (p : Str) : IndexedEq := ⟨name, .sym p, .num 1⟩

/-- The position of a variable without dims in the flat vector: behind the elements of the variables before it. -/
def positionOf (coords : Coords) (objs : List ModelObject) (p : Str) : Nat :=
  totalSize coords (objs.takeWhile fun o => decide (o.name ≠ p))

/-- For every element of the flat vector of variables: whether it belongs to a nominal variable. -/
def nominalAt (coords : Coords) (nominal : List Str) (objs : List ModelObject) (j : Fin (totalSize coords objs)) : Bool :=
  (objs.flatMap fun o => List.replicate (specSize coords o) (decide (o.name ∈ nominal))).getD j false

/-- At the variables `x` and parameters `t` only relative prices matter: multiplying the nominal variables by `c`
multiplies the difference of the sides of scalar equation `i` by `c ^ k i`. -/
def HomogeneousAt (coords : Coords) (vars params : List ModelObject) (numeraire : Option ModelObject)
    (eqs : List IndexedEq) (nominal : List Str) (k : Nat → ℝ)
    (x : Fin (totalSize coords (solvedVars numeraire vars)) → ℝ) (t : Fin (totalSize coords params) → ℝ) : Prop :=
  ∀ c : ℝ, 0 < c → ∀ i : Nat,
    (imbalances coords vars params numeraire eqs
      (List.ofFn (rescaled (nominalAt coords nominal _) c x) ++ List.ofFn t)).getD i 0 =
    c ^ k i * (imbalances coords vars params numeraire eqs (List.ofFn x ++ List.ofFn t)).getD i 0

/-- The value of a variable without dims. -/
def scalarLevel (coords : Coords) (objs : List ModelObject) (p : Str) (x : Fin (totalSize coords objs) → ℝ) : ℝ :=
  (List.ofFn x).getD (positionOf coords objs p) 0

/-- A nominal variable without dims that is solved for. -/
def NominalScalar (nominal : List Str) (objs : List ModelObject) (p : Str) : Prop :=
  p ∈ nominal ∧ ∃ o ∈ objs, o.name = p ∧ o.dims = []

/-! ## Positions -/

theorem specSize_scalar (coords : Coords) {o : ModelObject} (h : o.dims = []) : specSize coords o = 1 := by
  simp [specSize, specShape, h]

theorem positionOf_lt (coords : Coords) (objs : List ModelObject) (p : Str) (hn : (objs.map ModelObject.name).Nodup)
    (h : ∃ o ∈ objs, o.name = p ∧ o.dims = []) : positionOf coords objs p < totalSize coords objs := by
  unfold positionOf
  induction objs with
  | nil => obtain ⟨o, ho, -⟩ := h; cases ho
  | cons a l ih =>
    obtain ⟨o, ho, rfl, hd⟩ := h
    rw [List.map_cons, List.nodup_cons] at hn
    by_cases ha : a.name = o.name
    · have hao : a = o := by
        rcases List.mem_cons.1 ho with h | h
        · exact h.symm
        · exact absurd (ha ▸ List.mem_map_of_mem h) hn.1
      subst hao
      rw [List.takeWhile_cons_of_neg (by simp), totalSize_cons, specSize_scalar coords hd]
      simp [totalSize]
    · rw [List.takeWhile_cons_of_pos (by simpa using ha), totalSize_cons, totalSize_cons]
      have := ih hn.2 ⟨o, (List.mem_cons.1 ho).resolve_left fun e => ha (by rw [e]), rfl, hd⟩
      omega

theorem nominal_getD (coords : Coords) (nominal : List Str) (objs : List ModelObject) (p : Str)
    (hn : (objs.map ModelObject.name).Nodup) (h : ∃ o ∈ objs, o.name = p ∧ o.dims = []) :
    (objs.flatMap fun o => List.replicate (specSize coords o) (decide (o.name ∈ nominal))).getD
      (positionOf coords objs p) false = decide (p ∈ nominal) := by
  unfold positionOf
  induction objs with
  | nil => obtain ⟨o, ho, -⟩ := h; cases ho
  | cons a l ih =>
    obtain ⟨o, ho, rfl, hd⟩ := h
    rw [List.map_cons, List.nodup_cons] at hn
    by_cases ha : a.name = o.name
    · have hao : a = o := by
        rcases List.mem_cons.1 ho with h | h
        · exact h.symm
        · exact absurd (ha ▸ List.mem_map_of_mem h) hn.1
      subst hao
      rw [List.takeWhile_cons_of_neg (by simp), List.flatMap_cons, specSize_scalar coords hd]
      simp [totalSize]
    · rw [List.takeWhile_cons_of_pos (by simpa using ha), totalSize_cons, List.flatMap_cons]
      have := ih hn.2 ⟨o, (List.mem_cons.1 ho).resolve_left fun e => ha (by rw [e]), rfl, hd⟩
      rw [List.getD_eq_getElem?_getD, List.getElem?_append_right (by simp), List.length_replicate,
        Nat.add_sub_cancel_left, ← List.getD_eq_getElem?_getD]
      exact this

theorem takeWhile_findIdx (objs : List ModelObject) (p : Str) {m : Nat}
    (h : objs.findIdx? (fun o => o.name = p) = some m) :
    objs.take m = objs.takeWhile fun o => decide (o.name ≠ p) := by
  induction objs generalizing m with
  | nil => simp at h
  | cons a l ih =>
    rw [List.findIdx?_cons] at h
    by_cases ha : a.name = p
    · simp only [ha, decide_true, if_true, Option.some.injEq] at h
      subst h
      simp [ha]
    · simp only [ha, decide_false, Bool.false_eq_true, if_false, Option.map_eq_some_iff] at h
      obtain ⟨m', h1, rfl⟩ := h
      rw [List.take_succ_cons, List.takeWhile_cons_of_pos (by simpa using ha), ih h1]

/-- The value of a variable without dims. -/
theorem arrayEntry_scalar (coords : Coords) (V W : List ModelObject) (p : Str) (flat : List ℝ)
    (h : ∃ o ∈ V, o.name = p ∧ o.dims = []) :
    arrayEntry coords (V ++ W) flat p [] = flat.getD (positionOf coords V p) 0 := by
  obtain ⟨o, ho, rfl, hd⟩ := h
  obtain ⟨m, hm⟩ : ∃ m, V.findIdx? (fun a => a.name = o.name) = some m := by
    rw [← Option.isSome_iff_exists, List.findIdx?_isSome, List.any_eq_true]
    exact ⟨o, ho, by simp⟩
  have hm2 : (V ++ W).findIdx? (fun a => a.name = o.name) = some m := by
    rw [List.findIdx?_append, hm]; rfl
  have hlt : m < V.length := (List.findIdx?_eq_some_iff_getElem.1 hm).1
  unfold arrayEntry
  simp only [hm2]
  have hoff : offsetOf coords (V ++ W) m = positionOf coords V o.name := by
    unfold offsetOf positionOf
    rw [List.take_append_of_le_length hlt.le, takeWhile_findIdx V o.name hm]
  rw [hoff, List.zipWith_nil_right]
  have : ∀ s, ravelIndex s [] = 0 := fun s => by cases s <;> rfl
  rw [this, Nat.add_zero]

/-! ## The equation that fixes the numéraire -/

variable {coords : Coords} {vars params : List ModelObject} {numeraire : Option ModelObject}
  {core : List IndexedEq}

theorem demanded_fixed (name : Template) (p : Str) (fixed : List Str) (hf : p ∉ fixed) (V W : List ModelObject)
    (flat : List ℝ) (h : ∃ o ∈ V, o.name = p ∧ o.dims = []) :
    demanded coords fixed (V ++ W) flat (fixedAtOne name p) = [flat.getD (positionOf coords V p) 0 - 1] := by
  have hfd : freeDims coords fixed (fixedAtOne name p).lhs (fixedAtOne name p).rhs = [] := by
    simp [freeDims, fixedAtOne, hasFree]
  unfold demanded
  simp only [hfd]
  simp only [List.map_nil, product, List.map_cons, fixedAtOne]
  simp only [RExpr.value, entryFixing, if_neg hf, arrayEntry_scalar coords V W p flat h]
  simp

theorem imbalances_fixed (name : Template) (p : Str) (flat : List ℝ)
    (h : ∃ o ∈ solvedVars numeraire vars, o.name = p ∧ o.dims = []) :
    imbalances coords vars params numeraire (core ++ [fixedAtOne name p]) flat =
      imbalances coords vars params numeraire core flat ++
        [flat.getD (positionOf coords (solvedVars numeraire vars) p) 0 - 1] := by
  have hf : p ∉ numeraire.toList.map ModelObject.name := by
    obtain ⟨o, ho, rfl, -⟩ := h
    have := List.of_mem_filter ho
    simpa using this
  unfold imbalances
  rw [List.flatMap_append, List.flatMap_singleton, demanded_fixed name p _ hf _ _ flat h]

theorem solvedNames (hs : ScalarModel coords vars params) :
    ((solvedVars numeraire vars).map ModelObject.name).Nodup := by
  have := (solvedModel (numeraire := numeraire) hs).names
  rw [List.map_append] at this
  exact this.of_append_left

theorem scalarLevel_eq {V : List ModelObject} {p : Str} (x : Fin (totalSize coords V) → ℝ)
    (h : positionOf coords V p < totalSize coords V) : scalarLevel coords V p x = x ⟨_, h⟩ := by
  unfold scalarLevel
  rw [List.getD_eq_getElem?_getD, List.getElem?_ofFn]
  simp [h]

theorem level_append {V : List ModelObject} {p : Str} (x : Fin (totalSize coords V) → ℝ) (t : List ℝ)
    (h : positionOf coords V p < totalSize coords V) :
    (List.ofFn x ++ t).getD (positionOf coords V p) 0 = scalarLevel coords V p x := by
  unfold scalarLevel
  rw [List.getD_eq_getElem?_getD, List.getElem?_append_left (by simpa using h), ← List.getD_eq_getElem?_getD]

theorem zeros_iff {l : List ℝ} : (∀ y ∈ l, y = 0) ↔ ∀ i : Nat, l.getD i 0 = 0 := by
  constructor
  · intro h i
    rw [List.getD_eq_getElem?_getD]
    cases hi : l[i]? with
    | none => rfl
    | some y => exact h y (List.mem_of_getElem? hi)
  · intro h y hy
    obtain ⟨i, hi⟩ := List.mem_iff_getElem?.1 hy
    have := h i
    rw [List.getD_eq_getElem?_getD, hi] at this
    exact this

theorem nominalAt_level {nominal : List Str} {V : List ModelObject} {p : Str} (hn : (V.map ModelObject.name).Nodup)
    (h : NominalScalar nominal V p) (hl : positionOf coords V p < totalSize coords V) :
    nominalAt coords nominal V ⟨_, hl⟩ = true := by
  unfold nominalAt
  dsimp only
  rw [nominal_getD coords nominal V p hn h.2]
  simpa using h.1

/-- **C101, solutions.**  Let only relative prices matter in the equations `core` at the state `x`, and let `Q` be
positive there.  Then `x` is a solution of the model in which `P` is fixed to one if and only if `P` is one and the
state with all nominal variables divided by `Q` is a solution of the model in which `Q` is fixed to one. -/
theorem C101_solutions (nominal : List Str) (nameP nameQ : Template) (P Q : Str)
    (hs : ScalarModel coords vars params) (hP : NominalScalar nominal (solvedVars numeraire vars) P)
    (hQ : NominalScalar nominal (solvedVars numeraire vars) Q) (k : Nat → ℝ)
    (x : Fin (totalSize coords (solvedVars numeraire vars)) → ℝ) (t : Fin (totalSize coords params) → ℝ)
    (hhom : HomogeneousAt coords vars params numeraire core nominal k x t)
    (hpos : 0 < scalarLevel coords (solvedVars numeraire vars) Q x) :
    (∀ y ∈ imbalances coords vars params numeraire (core ++ [fixedAtOne nameP P]) (List.ofFn x ++ List.ofFn t),
        y = 0) ↔
      scalarLevel coords (solvedVars numeraire vars) P x = 1 ∧
      ∀ y ∈ imbalances coords vars params numeraire (core ++ [fixedAtOne nameQ Q])
        (List.ofFn (rescaled (nominalAt coords nominal _) (1 / scalarLevel coords (solvedVars numeraire vars) Q x) x) ++
          List.ofFn t), y = 0 := by
  have hn := solvedNames (numeraire := numeraire) hs
  have hlP := positionOf_lt coords _ P hn hP.2
  have hlQ := positionOf_lt coords _ Q hn hQ.2
  rw [imbalances_fixed nameP P _ hP.2, imbalances_fixed nameQ Q _ hQ.2, level_append x _ hlP,
    level_append _ _ hlQ]
  have hq1 : scalarLevel coords (solvedVars numeraire vars) Q (rescaled (nominalAt coords nominal _)
      (1 / scalarLevel coords (solvedVars numeraire vars) Q x) x) = 1 := by
    rw [scalarLevel_eq _ hlQ]
    unfold rescaled
    rw [if_pos (nominalAt_level hn hQ hlQ), ← scalarLevel_eq x hlQ]
    field_simp
  rw [hq1]
  simp only [List.mem_append, List.mem_singleton, or_imp, forall_and, forall_eq, sub_self, sub_eq_zero]
  rw [and_comm, and_true]
  refine and_congr Iff.rfl ?_
  rw [zeros_iff, zeros_iff]
  refine forall_congr' fun i => ?_
  rw [hhom _ (by positivity) i, mul_eq_zero]
  have : (1 / scalarLevel coords (solvedVars numeraire vars) Q x) ^ k i ≠ 0 := by positivity
  rw [or_iff_right this]

/-! ## Simulations -/

theorem ofFn_set {n m : Nat} (x : Fin n → ℝ) (t : Fin m → ℝ) (j : Fin n) (u : ℝ) :
    (List.ofFn x ++ List.ofFn t).set j u = List.ofFn (Function.update x j u) ++ List.ofFn t := by
  rw [List.set_append_left _ _ (by simp)]
  congr 1
  refine List.ext_getElem (by simp) fun i h1 h2 => ?_
  simp only [List.length_set, List.length_ofFn] at h1
  rw [List.getElem_set, List.getElem_ofFn, List.getElem_ofFn]
  by_cases h : j.val = i
  · subst h
    simp
  · rw [if_neg h, Function.update_of_ne (fun e => h (by rw [← e]))]

/-- The differences of the sides, as a function of the variables. -/
noncomputable def imbalanceAt (coords : Coords) (vars params : List ModelObject) (numeraire : Option ModelObject)
    (eqs : List IndexedEq) (t : Fin (totalSize coords params) → ℝ)
    (x : Fin (totalSize coords (solvedVars numeraire vars)) → ℝ)
    (i : Fin (totalSize coords (solvedVars numeraire vars))) : ℝ :=
  (imbalances coords vars params numeraire eqs (List.ofFn x ++ List.ofFn t)).getD i 0

theorem imbalanceAt_differentiable {eqs : List IndexedEq} {es : List (SymExpr Str)} {F : SympyTensorFns}
    (hF : BuiltFrom coords vars params numeraire eqs es F) (h : IndexedModel coords vars params numeraire eqs)
    (hsquare : es.length = totalSize coords (solvedVars numeraire vars))
    (x : Fin (totalSize coords (solvedVars numeraire vars)) → ℝ) (t : Fin (totalSize coords params) → ℝ)
    (hreg : ∀ e ∈ es, Regular (flatPoint (scalarNames coords (solvedVars numeraire vars ++ params))
      (List.ofFn x ++ List.ofFn t)) e) :
    DifferentiableAt ℝ (imbalanceAt coords vars params numeraire eqs t) x := by
  have hnames : scalarNames coords (solvedVars numeraire vars ++ params) =
      scalarNames coords (solvedVars numeraire vars) ++ scalarNames coords params := scalarNames_append _ _ _
  have hnd := (solvedModel (numeraire := numeraire) h.scalar).scalars
  rw [hnames] at hreg hnd
  have hget : ∀ i : Fin (totalSize coords (solvedVars numeraire vars)), es[i.val]? = some (es.getD i (.num 0)) := by
    intro i
    have : i.val < es.length := by rw [hsquare]; exact i.isLt
    rw [getD_lt this, List.getElem?_eq_getElem this]
  have hsym := symF_contDiffAt (n := 1) (eqs := es) hnd (length_scalarNames coords _) (length_scalarNames coords _)
    (p := (x, t)) fun i => by
      rw [scalarPoint_flat]
      exact hreg _ (List.mem_of_getElem? (hget i))
  have heq : imbalanceAt coords vars params numeraire eqs t = fun y => symF _ _
      (scalarNames coords (solvedVars numeraire vars)) (scalarNames coords params) es (y, t) := by
    funext y i
    unfold imbalanceAt symF
    rw [hF.values h, List.getD_eq_getElem?_getD, List.getElem?_map, hget i, hnames, scalarPoint_flat]
    rfl
  rw [heq]
  exact ((hsym.comp x ((contDiff_id.prodMk contDiff_const).contDiffAt)).differentiableAt (by simp) :)

/-- Fixing another nominal variable keeps the derivatives invertible. -/
theorem fixed_invertible (nominal : List Str) (nameP nameQ : Template) (P Q : Str)
    (hs : ScalarModel coords vars params) (hP : NominalScalar nominal (solvedVars numeraire vars) P)
    (hQ : NominalScalar nominal (solvedVars numeraire vars) Q) (k : Nat → ℝ)
    (x : Fin (totalSize coords (solvedVars numeraire vars)) → ℝ) (t : Fin (totalSize coords params) → ℝ)
    (hlen : ∀ flat, (imbalances coords vars params numeraire core flat).length + 1 =
      totalSize coords (solvedVars numeraire vars))
    (hhom : ∀ᶠ y in 𝓝 x, HomogeneousAt coords vars params numeraire core nominal k y t)
    (hpos : 0 < scalarLevel coords (solvedVars numeraire vars) Q x)
    (hsol : ∀ y ∈ imbalances coords vars params numeraire (core ++ [fixedAtOne nameP P])
      (List.ofFn x ++ List.ofFn t), y = 0)
    (hA : DifferentiableAt ℝ (imbalanceAt coords vars params numeraire (core ++ [fixedAtOne nameP P]) t) x)
    (hB : DifferentiableAt ℝ (imbalanceAt coords vars params numeraire (core ++ [fixedAtOne nameQ Q]) t)
      (rescaled (nominalAt coords nominal _) (1 / scalarLevel coords (solvedVars numeraire vars) Q x) x))
    (hinv : ∀ D : Matrix (Fin (totalSize coords (solvedVars numeraire vars)))
        (Fin (totalSize coords (solvedVars numeraire vars))) ℝ,
      (∀ i j, HasDerivAt (fun u => imbalanceAt coords vars params numeraire (core ++ [fixedAtOne nameP P]) t
        (Function.update x j u) i) (D i j) (x j)) → D.det ≠ 0)
    (D : Matrix (Fin (totalSize coords (solvedVars numeraire vars)))
        (Fin (totalSize coords (solvedVars numeraire vars))) ℝ)
    (hD : ∀ i j, HasDerivAt (fun u => imbalanceAt coords vars params numeraire (core ++ [fixedAtOne nameQ Q]) t
        (Function.update (rescaled (nominalAt coords nominal _)
          (1 / scalarLevel coords (solvedVars numeraire vars) Q x) x) j u) i) (D i j)
        (rescaled (nominalAt coords nominal _) (1 / scalarLevel coords (solvedVars numeraire vars) Q x) x j)) :
    D.det ≠ 0 := by
  have hn := solvedNames (numeraire := numeraire) hs
  have hlP := positionOf_lt coords _ P hn hP.2
  have hlQ := positionOf_lt coords _ Q hn hQ.2
  obtain ⟨m, hm⟩ : ∃ m, m = (imbalances coords vars params numeraire core []).length := ⟨_, rfl⟩
  have hlen' : ∀ flat, (imbalances coords vars params numeraire core flat).length = m := by
    intro flat; have := hlen flat; have := hlen []; omega
  have hmn : m < totalSize coords (solvedVars numeraire vars) := by rw [← hlen [], ← hm]; omega
  -- the rows
  have hcoreA : ∀ (name : Template) (p : Str), (∃ o ∈ solvedVars numeraire vars, o.name = p ∧ o.dims = []) →
      ∀ y i, i ≠ (⟨m, hmn⟩ : Fin (totalSize coords (solvedVars numeraire vars))) →
      imbalanceAt coords vars params numeraire (core ++ [fixedAtOne name p]) t y i =
        (imbalances coords vars params numeraire core (List.ofFn y ++ List.ofFn t)).getD i 0 := by
    intro name p hp y i hi
    have hi' : i.val < m := by
      have h1 := i.isLt
      have h2 : i.val ≠ m := fun e => hi (Fin.ext e)
      have := hlen []
      omega
    unfold imbalanceAt
    rw [imbalances_fixed name p _ hp, List.getD_eq_getElem?_getD, List.getElem?_append_left (by rw [hlen']; exact hi'),
      ← List.getD_eq_getElem?_getD]
  have hlastA : ∀ (name : Template) (p : Str) (hp : ∃ o ∈ solvedVars numeraire vars, o.name = p ∧ o.dims = [])
      (hl : positionOf coords (solvedVars numeraire vars) p < totalSize coords (solvedVars numeraire vars)),
      ∀ y, imbalanceAt coords vars params numeraire (core ++ [fixedAtOne name p]) t y ⟨m, hmn⟩ = y ⟨_, hl⟩ - 1 := by
    intro name p hp hl y
    unfold imbalanceAt
    rw [imbalances_fixed name p _ hp, List.getD_eq_getElem?_getD,
      List.getElem?_append_right (by rw [hlen']), hlen', level_append y _ hl, scalarLevel_eq y hl]
    simp
  have hx0 := zeros_iff.1 hsol
  have hcore0 : ∀ i, i ≠ (⟨m, hmn⟩ : Fin (totalSize coords (solvedVars numeraire vars))) →
      (imbalances coords vars params numeraire core (List.ofFn x ++ List.ofFn t)).getD i 0 = 0 := by
    intro i hi
    rw [← hcoreA nameP P hP.2 x i hi]
    exact hx0 i
  have hxp : x ⟨_, hlP⟩ = 1 := by
    have h1 := hlastA nameP P hP.2 hlP x
    have h2 : imbalanceAt coords vars params numeraire (core ++ [fixedAtOne nameP P]) t x ⟨m, hmn⟩ = 0 := hx0 m
    linarith
  have hinj : ∀ v, fderiv ℝ (imbalanceAt coords vars params numeraire (core ++ [fixedAtOne nameP P]) t) x v = 0 →
      v = 0 := by
    intro v hv
    obtain ⟨DA, hDA⟩ : ∃ DA : Matrix (Fin (totalSize coords (solvedVars numeraire vars)))
        (Fin (totalSize coords (solvedVars numeraire vars))) ℝ, ∀ i j, HasDerivAt (fun u =>
          imbalanceAt coords vars params numeraire (core ++ [fixedAtOne nameP P]) t (Function.update x j u) i)
          (DA i j) (x j) := by
      refine ⟨fun i j => fderiv ℝ (imbalanceAt coords vars params numeraire (core ++ [fixedAtOne nameP P]) t) x
        (Pi.single j 1) i, fun i j => ?_⟩
      have h2 : HasFDerivAt (imbalanceAt coords vars params numeraire (core ++ [fixedAtOne nameP P]) t)
          (fderiv ℝ (imbalanceAt coords vars params numeraire (core ++ [fixedAtOne nameP P]) t) x)
          (Function.update x j (x j)) := by
        rw [Function.update_eq_self]; exact hA.hasFDerivAt
      have h3 := h2.comp_hasDerivAt (x j) (hasDerivAt_update x j (x j))
      rw [hasDerivAt_pi] at h3
      exact h3 i
    have hdet := hinv DA hDA
    rw [fderiv_partials hA DA hDA] at hv
    by_contra hne
    exact hdet (Matrix.exists_mulVec_eq_zero_iff.1 ⟨v, hne, hv⟩)
  have hBinj := rescaled_injective (nominalAt coords nominal (solvedVars numeraire vars)) _ _ x
    (1 / scalarLevel coords (solvedVars numeraire vars) Q x) (by positivity) ⟨_, hlP⟩ ⟨_, hlQ⟩ ⟨m, hmn⟩
    (nominalAt_level hn hP hlP) (nominalAt_level hn hQ hlQ) hA hB
    (fun i => (1 / scalarLevel coords (solvedVars numeraire vars) Q x) ^ k i)
    (by
      intro i hi
      filter_upwards [hhom] with y hy
      rw [hcoreA nameQ Q hQ.2 _ i hi, hcoreA nameP P hP.2 _ i hi]
      exact hy _ (by positivity) i)
    (fun i => by positivity)
    (by
      intro i hi d hd
      rw [hcoreA nameP P hP.2 _ i hi, hhom.self_of_nhds d hd i, hcore0 i hi, mul_zero])
    (hlastA nameP P hP.2 hlP) (hlastA nameQ Q hQ.2 hlQ) hxp (by rw [← scalarLevel_eq x hlQ]; exact hpos) hinj
  intro hdet
  obtain ⟨v, hv, hDv⟩ := Matrix.exists_mulVec_eq_zero_iff.2 hdet
  exact hv (hBinj v (by rw [fderiv_partials hB D hD]; exact hDv))

/-- **C101, simulations.**  Take two models on a back-end that differentiates the residual graph, with the same
equations but one: the first fixes the nominal variable `P` to one, the second the nominal variable `Q`.  Let only
relative prices matter in the common equations near a continuous path of solutions of the first model, with `Q`
positive, on which the first model satisfies the assumptions of C74.  Let the second call start from the rescaled
initial state, with the same initial and requested parameters.  Then both calls of `simulate` with `n` steps return,
and up to `C / n` (`C / n⁴` with Runge-Kutta steps) the real variables they report are the same and the nominal ones
are in the same relation to each other: those of the second are those of the first divided by what the first reports
for `Q`. -/
theorem C101_simulate (nominal : List Str) (nameP nameQ : Template) (P Q : Str)
    (hP : NominalScalar nominal (solvedVars numeraire vars) P)
    (hQ : NominalScalar nominal (solvedVars numeraire vars) Q) (b : EulerBackend)
    (esA esB : List (SymExpr Str))
    (AA AB : (Fin (totalSize coords (solvedVars numeraire vars)) → ℝ) → (Fin (totalSize coords params) → ℝ) →
      Matrix (Fin (totalSize coords (solvedVars numeraire vars))) (Fin (totalSize coords (solvedVars numeraire vars))) ℝ)
    (BA BB : (Fin (totalSize coords (solvedVars numeraire vars)) → ℝ) → (Fin (totalSize coords params) → ℝ) →
      Matrix (Fin (totalSize coords (solvedVars numeraire vars))) (Fin (totalSize coords params)) ℝ)
    (envA envB : SamEnv ℝ (List (NDArray ℝ)))
    (hmA : EulerOnGraphs coords vars params numeraire (core ++ [fixedAtOne nameP P]) esA b AA BA envA)
    (hmB : EulerOnGraphs coords vars params numeraire (core ++ [fixedAtOne nameQ Q]) esB b AB BB envB)
    (hsquare : esA.length = totalSize coords (solvedVars numeraire vars))
    (fl : SimFlags) (add mul : NDArray ℝ → NDArray ℝ → NDArray ℝ) (heapA heapB : Heap (NDArray ℝ))
    (cA cB : SimCall ℝ) (hrA : RequestOK coords (solvedVars numeraire vars) params add mul heapA cA)
    (hrB : RequestOK coords (solvedVars numeraire vars) params add mul heapB cB)
    (heulA : cA.useEuler = true) (hoptA : cA.useOptimizer = false)
    (heulB : cB.useEuler = true) (hoptB : cB.useOptimizer = false)
    (hinit : initialFlat heapB cB params = initialFlat heapA cA params)
    (hwant : wantedFlat add mul heapB cB params = wantedFlat add mul heapA cA params)
    (φ : ℝ → Fin (totalSize coords (solvedVars numeraire vars)) → ℝ) (θ : ℝ → Fin (totalSize coords params) → ℝ)
    (hθ : ∀ s k, θ s k = (1 - s) * (initialFlat heapA cA params).getD k 0 +
      s * (wantedFlat add mul heapA cA params).getD k 0)
    (hcont : ContinuousOn φ (Icc 0 1))
    (hstartA : List.ofFn (φ 0) = initialFlat heapA cA (solvedVars numeraire vars))
    (hstartB : List.ofFn (rescaled (nominalAt coords nominal _)
      (1 / scalarLevel coords (solvedVars numeraire vars) Q (φ 0)) (φ 0)) =
        initialFlat heapB cB (solvedVars numeraire vars))
    (hsol : ∀ s ∈ Icc (0 : ℝ) 1, ∀ y ∈ imbalances coords vars params numeraire (core ++ [fixedAtOne nameP P])
      (List.ofFn (φ s) ++ List.ofFn (θ s)), y = 0)
    (hpos : ∀ s ∈ Icc (0 : ℝ) 1, 0 < scalarLevel coords (solvedVars numeraire vars) Q (φ s))
    (hhom : ∀ s ∈ Icc (0 : ℝ) 1, ∃ k, ∀ᶠ y in 𝓝 (φ s),
      HomogeneousAt coords vars params numeraire core nominal k y (θ s))
    (hregA : ∀ s ∈ Icc (0 : ℝ) 1, ∀ e ∈ esA, Regular (flatPoint (scalarNames coords
      (solvedVars numeraire vars ++ params)) (List.ofFn (φ s) ++ List.ofFn (θ s))) e)
    (hregB : ∀ s ∈ Icc (0 : ℝ) 1, ∀ e ∈ esB, Regular (flatPoint (scalarNames coords
      (solvedVars numeraire vars ++ params)) (List.ofFn (rescaled (nominalAt coords nominal _)
        (1 / scalarLevel coords (solvedVars numeraire vars) Q (φ s)) (φ s)) ++ List.ofFn (θ s))) e)
    (hinv : ∀ s ∈ Icc (0 : ℝ) 1, ∀ D : Matrix (Fin (totalSize coords (solvedVars numeraire vars))) (Fin (totalSize coords (solvedVars numeraire vars))) ℝ,
      (∀ i j : Fin (totalSize coords (solvedVars numeraire vars)), HasDerivAt (fun u =>
        (imbalances coords vars params numeraire (core ++ [fixedAtOne nameP P])
          ((List.ofFn (φ s) ++ List.ofFn (θ s)).set j u)).getD i 0) (D i j) (φ s j)) → D.det ≠ 0) :
    ∃ (C : ℝ) (M : ℕ), ∀ n, M ≤ n → 1 ≤ n → ∃ eA eB,
      simulateCompute (simEnvOf envA (fun _ => false) fl add mul) heapA { cA with nIterEuler := n } =
        .ok ⟨some eA, none, none, false⟩ ∧
      simulateCompute (simEnvOf envB (fun _ => false) fl add mul) heapB { cB with nIterEuler := n } =
        .ok ⟨some eB, none, none, false⟩ ∧
      flatOf eB.start params = flatOf eA.start params ∧
      ∀ j : Fin (totalSize coords (solvedVars numeraire vars)),
        (nominalAt coords nominal _ j = false →
          |(flatOf eB.start (solvedVars numeraire vars)).getD j 0 -
            (flatOf eA.start (solvedVars numeraire vars)).getD j 0| ≤ C / n ^ b.order) ∧
        (nominalAt coords nominal _ j = true →
          |(flatOf eB.start (solvedVars numeraire vars)).getD j 0 *
              (flatOf eA.start (solvedVars numeraire vars)).getD
                (positionOf coords (solvedVars numeraire vars) Q) 0 -
            (flatOf eA.start (solvedVars numeraire vars)).getD j 0| ≤ C / n ^ b.order) := by
  have hs := hmA.model.scalar
  have hn := solvedNames (numeraire := numeraire) hs
  have hlQ := positionOf_lt coords _ Q hn hQ.2
  obtain ⟨FA, vnA, hFA, -⟩ := hmA.system
  obtain ⟨FB, vnB, hFB, -⟩ := hmB.system
  have hlen : ∀ flat, (imbalances coords vars params numeraire core flat).length + 1 =
      totalSize coords (solvedVars numeraire vars) := by
    intro flat
    have := hFA.length hmA.model flat
    rw [imbalances_fixed nameP P _ hP.2] at this
    simpa [hsquare] using this
  have hsqB : esB.length = totalSize coords (solvedVars numeraire vars) := by
    rw [← hFB.length hmB.model [], imbalances_fixed nameQ Q _ hQ.2, List.length_append]
    simpa using hlen []
  have hlev : ∀ s, scalarLevel coords (solvedVars numeraire vars) Q (φ s) = φ s ⟨_, hlQ⟩ := fun s => scalarLevel_eq _ hlQ
  obtain ⟨ψ, hψ⟩ : ∃ ψ : ℝ → Fin (totalSize coords (solvedVars numeraire vars)) → ℝ, ψ = fun s => rescaled (nominalAt coords nominal _)
      (1 / scalarLevel coords (solvedVars numeraire vars) Q (φ s)) (φ s) := ⟨_, rfl⟩
  have hψs : ∀ s, rescaled (nominalAt coords nominal _)
      (1 / scalarLevel coords (solvedVars numeraire vars) Q (φ s)) (φ s) = ψ s := fun s => by rw [hψ]
  have hψcont : ContinuousOn ψ (Icc 0 1) := by
    rw [hψ]
    rw [continuousOn_pi] at hcont ⊢
    intro j
    unfold rescaled
    by_cases hj : nominalAt coords nominal (solvedVars numeraire vars) j = true
    · simp only [hj, if_true]
      refine ContinuousOn.mul (ContinuousOn.div continuousOn_const ?_ fun s hs => (hpos s hs).ne') (hcont j)
      simp only [hlev]
      exact hcont _
    · simp only [hj]
      exact hcont j
  have hψsol : ∀ s ∈ Icc (0 : ℝ) 1, ∀ y ∈ imbalances coords vars params numeraire (core ++ [fixedAtOne nameQ Q])
      (List.ofFn (ψ s) ++ List.ofFn (θ s)), y = 0 := by
    intro s hs1
    obtain ⟨k, hk⟩ := hhom s hs1
    rw [hψ]
    exact ((C101_solutions nominal nameP nameQ P Q hs hP hQ k (φ s) (θ s) hk.self_of_nhds (hpos s hs1)).1
      (hsol s hs1)).2
  simp only [hψs] at hregB hstartB
  obtain ⟨CA, MA, hCA⟩ := C74_simulate_converges esA b AA BA envA hmA hsquare fl add mul heapA cA hrA heulA hoptA
    φ θ hθ hcont hstartA hsol hregA hinv
  obtain ⟨CB, MB, hCB⟩ := C74_simulate_converges esB b AB BB envB hmB hsqB fl add mul heapB cB hrB heulB hoptB
    ψ θ (by rw [hinit, hwant]; exact hθ) hψcont hstartB hψsol hregB (by
      intro s hs1 D hD
      obtain ⟨k, hk⟩ := hhom s hs1
      refine fixed_invertible nominal nameP nameQ P Q hs hP hQ k (φ s) (θ s) hlen hk (hpos s hs1) (hsol s hs1)
        (imbalanceAt_differentiable hFA hmA.model hsquare _ _ (hregA s hs1)) ?_ ?_ D ?_
      · rw [hψs]
        exact imbalanceAt_differentiable hFB hmB.model hsqB _ _ (hregB s hs1)
      · intro D hD
        refine hinv s hs1 D fun i j => ?_
        simp only [ofFn_set]
        exact hD i j
      · rw [hψs]
        intro i j
        have := hD i j
        simp only [ofFn_set] at this
        exact this)
  refine ⟨|CB| * (|φ 1 ⟨_, hlQ⟩| + |CA|) + ‖ψ 1‖ * |CA| + |CA| + |CB|, max MA MB, fun n hMn h1 => ?_⟩
  obtain ⟨eA, a1, -, a2, -, a3⟩ := hCA n (le_trans (le_max_left _ _) hMn) h1
  obtain ⟨eB, b1, -, b2, -, b3⟩ := hCB n (le_trans (le_max_right _ _) hMn) h1
  refine ⟨eA, eB, a1, b1, by rw [a2, b2, hwant], fun j => ?_⟩
  have hK : (1 : ℝ) ≤ (n : ℝ) ^ b.order := one_le_pow₀ (by exact_mod_cast h1)
  have hK0 : (0 : ℝ) < (n : ℝ) ^ b.order := by linarith
  have hA' : ∀ j, |(flatOf eA.start (solvedVars numeraire vars)).getD j.val 0 - φ 1 j| ≤ |CA| / n ^ b.order :=
    fun j => (a3 j).trans (div_le_div_of_nonneg_right (le_abs_self _) hK0.le)
  have hB' : ∀ j, |(flatOf eB.start (solvedVars numeraire vars)).getD j.val 0 - ψ 1 j| ≤ |CB| / n ^ b.order :=
    fun j => (b3 j).trans (div_le_div_of_nonneg_right (le_abs_self _) hK0.le)
  obtain ⟨xA, hxA⟩ : ∃ xA, xA = (flatOf eA.start (solvedVars numeraire vars)).getD j.val 0 := ⟨_, rfl⟩
  obtain ⟨xB, hxB⟩ : ∃ xB, xB = (flatOf eB.start (solvedVars numeraire vars)).getD j.val 0 := ⟨_, rfl⟩
  obtain ⟨xQ, hxQ⟩ : ∃ xQ, xQ = (flatOf eA.start (solvedVars numeraire vars)).getD
    (positionOf coords (solvedVars numeraire vars) Q) 0 := ⟨_, rfl⟩
  have ha := hA' j
  have hb := hB' j
  have hq := hA' ⟨_, hlQ⟩
  rw [← hxA] at ha ⊢
  rw [← hxB] at hb ⊢
  rw [← hxQ] at hq ⊢
  have hCA0 := abs_nonneg CA
  have hCB0 := abs_nonneg CB
  have hψ0 := norm_nonneg (ψ 1)
  have hφ0 := abs_nonneg (φ 1 ⟨_, hlQ⟩)
  constructor
  · intro hj
    have hψj : ψ 1 j = φ 1 j := by
      rw [hψ]
      simp [rescaled, hj]
    rw [hψj] at hb
    have h2 : |xB - xA| ≤ |CB| / n ^ b.order + |CA| / n ^ b.order := by
      calc |xB - xA| = |(xB - φ 1 j) - (xA - φ 1 j)| := by ring_nf
        _ ≤ |xB - φ 1 j| + |xA - φ 1 j| := abs_sub _ _
        _ ≤ _ := add_le_add hb ha
    refine h2.trans ?_
    rw [← add_div]
    refine div_le_div_of_nonneg_right ?_ hK0.le
    have : 0 ≤ |CB| * (|φ 1 ⟨_, hlQ⟩| + |CA|) + ‖ψ 1‖ * |CA| := by positivity
    linarith
  · intro hj
    have hq1 : 0 < φ 1 ⟨_, hlQ⟩ := by
      rw [← hlev]
      exact hpos 1 ⟨zero_le_one, le_rfl⟩
    have hψj : ψ 1 j * φ 1 ⟨_, hlQ⟩ = φ 1 j := by
      rw [hψ]
      simp only [rescaled, hj, if_true, hlev]
      field_simp
    have hxq : |xQ| ≤ |φ 1 ⟨_, hlQ⟩| + |CA| := by
      have h3 : |CA| / n ^ b.order ≤ |CA| := div_le_self hCA0 hK
      calc |xQ| = |(xQ - φ 1 ⟨_, hlQ⟩) + φ 1 ⟨_, hlQ⟩| := by ring_nf
        _ ≤ |xQ - φ 1 ⟨_, hlQ⟩| + |φ 1 ⟨_, hlQ⟩| := abs_add_le _ _
        _ ≤ _ := by linarith
    have hψn : |ψ 1 j| ≤ ‖ψ 1‖ := norm_le_pi_norm (ψ 1) j
    have h2 : |xB * xQ - xA| ≤ |CB| / n ^ b.order * (|φ 1 ⟨_, hlQ⟩| + |CA|) + ‖ψ 1‖ * (|CA| / n ^ b.order) +
        |CA| / n ^ b.order := by
      calc |xB * xQ - xA| = |(xB - ψ 1 j) * xQ + ψ 1 j * (xQ - φ 1 ⟨_, hlQ⟩) + (φ 1 j - xA)| := by
            rw [← hψj]; ring_nf
        _ ≤ |(xB - ψ 1 j) * xQ + ψ 1 j * (xQ - φ 1 ⟨_, hlQ⟩)| + |φ 1 j - xA| := abs_add_le _ _
        _ ≤ |(xB - ψ 1 j) * xQ| + |ψ 1 j * (xQ - φ 1 ⟨_, hlQ⟩)| + |φ 1 j - xA| :=
            add_le_add_left (abs_add_le _ _) _
        _ ≤ _ := by
            rw [abs_mul, abs_mul, abs_sub_comm (φ 1 j)]
            refine add_le_add (add_le_add ?_ ?_) ha
            · exact mul_le_mul hb hxq (abs_nonneg _) (by positivity)
            · exact mul_le_mul hψn hq (abs_nonneg _) hψ0
    refine h2.trans ?_
    have h4 : |CB| / n ^ b.order * (|φ 1 ⟨_, hlQ⟩| + |CA|) + ‖ψ 1‖ * (|CA| / n ^ b.order) + |CA| / n ^ b.order =
        (|CB| * (|φ 1 ⟨_, hlQ⟩| + |CA|) + ‖ψ 1‖ * |CA| + |CA|) / n ^ b.order := by ring
    rw [h4]
    exact div_le_div_of_nonneg_right (by linarith) hK0.le

/-! ## An example

`Q = a * P` and `Y * P = Q`, where `P` and `Q` are prices, `Y` is a quantity and the parameter `a` rises from 1 to 4. -/

/-- A back-end whose Euler steps use the derivatives of the scalar equations. -/
noncomputable def symEnv (coords : Coords) (V params : List ModelObject) (es : List (SymExpr Str)) (b : EulerBackend)
    (F : SympyTensorFns) : SamEnv ℝ (List (NDArray ℝ)) :=
  { envOf coords V params F (fun _ _ _ _ => .error .valueError) (fun _ _ _ _ => .error .valueError) with
    euler := fun x0 theta n =>
      runEuler b (vecJac (symA (totalSize coords V) (totalSize coords params) (scalarNames coords V)
        (scalarNames coords params) es) (symB _ _ (scalarNames coords V) (scalarNames coords params) es)).solve V
        params coords theta n x0 }

/-- It meets the requirements on a back-end. -/
theorem symEnv_onGraphs {eqs : List IndexedEq} {es : List (SymExpr Str)} {F : SympyTensorFns} (b : EulerBackend)
    (hb : b ≠ .numba) (hF : BuiltFrom coords vars params numeraire eqs es F)
    (h : IndexedModel coords vars params numeraire eqs)
    (hem : EulerModel coords (solvedVars numeraire vars) params)
    (hsquare : es.length = totalSize coords (solvedVars numeraire vars)) :
    EulerOnGraphs coords vars params numeraire eqs es b
      (symA _ _ (scalarNames coords (solvedVars numeraire vars)) (scalarNames coords params) es)
      (symB _ _ (scalarNames coords (solvedVars numeraire vars)) (scalarNames coords params) es)
      (symEnv coords (solvedVars numeraire vars) params es b F) where
  model := h
  euler := hem
  coords_eq := rfl
  variables_eq := rfl
  parameters_eq := rfl
  compiled := List.cons_ne_nil _ _
  system := ⟨F, [], hF, rfl⟩
  differentiated := hb
  steps := rfl
  derivatives := by
    have hnames : scalarNames coords (solvedVars numeraire vars ++ params) =
        scalarNames coords (solvedVars numeraire vars) ++ scalarNames coords params := scalarNames_append _ _ _
    have hnd := (solvedModel (numeraire := numeraire) h.scalar).scalars
    have hlv := length_scalarNames coords (solvedVars numeraire vars)
    have hlp := length_scalarNames coords params
    have hval := hF.values h
    rw [hnames] at hnd ⊢
    simp only [hnames] at hval
    have hG : ∀ flat : List ℝ, flat.length =
        (scalarNames coords (solvedVars numeraire vars) ++ scalarNames coords params).length →
        valuesOf ((symEnv coords (solvedVars numeraire vars) params es b F).fSystem.forScipy
          (symEnv coords (solvedVars numeraire vars) params es b F).variables
          (symEnv coords (solvedVars numeraire vars) params es b F).parameters
          (symEnv coords (solvedVars numeraire vars) params es b F).coords
          (flat.take (totalSize coords (solvedVars numeraire vars)))
          (flat.drop (totalSize coords (solvedVars numeraire vars)))) =
        es.map fun e => e.eval (flatPoint (scalarNames coords (solvedVars numeraire vars) ++
          scalarNames coords params) flat) := by
      intro flat hl
      rw [List.length_append, hlv, hlp] at hl
      have := hF.fns.system h [] (flat.take (totalSize coords (solvedVars numeraire vars)))
        (flat.drop (totalSize coords (solvedVars numeraire vars))) (by rw [List.length_take]; omega)
        (by rw [List.length_drop]; omega)
      rw [List.take_append_drop] at this
      show valuesOf (wrapForScipy _ (solvedVars numeraire vars) params coords _ _) = _
      rw [this, ← hval flat]
      rfl
    have hget : ∀ i : Fin (totalSize coords (solvedVars numeraire vars)),
        es[i.val]? = some (es.getD i (.num 0)) := by
      intro i
      have : i.val < es.length := by rw [hsquare]; exact i.isLt
      rw [getD_lt this, List.getElem?_eq_getElem this]
    intro x t hok
    have hl : (List.ofFn x ++ List.ofFn t).length =
        (scalarNames coords (solvedVars numeraire vars) ++ scalarNames coords params).length := by
      simp [hlv, hlp]
    constructor
    · intro i j
      have hj : j.val < (scalarNames coords (solvedVars numeraire vars)).length := by rw [hlv]; exact j.isLt
      have hk : (scalarNames coords (solvedVars numeraire vars) ++ scalarNames coords params)[j.val]? =
          some ((scalarNames coords (solvedVars numeraire vars)).getD j []) := by
        rw [List.getElem?_append_left hj, getD_lt hj, List.getElem?_eq_getElem hj]
      have h3 := flat_hasDerivAt hnd _ es hG _ hl j _ hk i _ (hget i) (hok _ (List.mem_of_getElem? (hget i)))
      have hx : (List.ofFn x ++ List.ofFn t).getD j 0 = x j := by
        rw [List.getD_eq_getElem?_getD, List.getElem?_append_left (by simp), List.getElem?_ofFn]
        simp
      rw [hx] at h3
      unfold symA
      rw [scalarPoint_flat]
      exact h3
    · intro i k
      have hk1 : k.val < (scalarNames coords params).length := by rw [hlp]; exact k.isLt
      have hk : (scalarNames coords (solvedVars numeraire vars) ++
          scalarNames coords params)[totalSize coords (solvedVars numeraire vars) + k.val]? =
          some ((scalarNames coords params).getD k []) := by
        rw [List.getElem?_append_right (by omega), hlv, Nat.add_sub_cancel_left, getD_lt hk1,
          List.getElem?_eq_getElem hk1]
      have h3 := flat_hasDerivAt hnd _ es hG _ hl _ _ hk i _ (hget i) (hok _ (List.mem_of_getElem? (hget i)))
      have hx : (List.ofFn x ++ List.ofFn t).getD (totalSize coords (solvedVars numeraire vars) + k) 0 = t k := by
        rw [List.getD_eq_getElem?_getD, List.getElem?_append_right (by simp), List.getElem?_ofFn]
        simp
      rw [hx] at h3
      unfold symB
      rw [scalarPoint_flat]
      exact h3

def twoPrices : List ModelObject := [{ name := "P" }, { name := "Q" }, { name := "Y" }]
def twoParams : List ModelObject := [{ name := "a" }]
def twoCore : List IndexedEq :=
  [⟨[.lit "ratio".toList], .sym "Q".toList, .mul (.sym "a".toList) (.sym "P".toList)⟩,
   ⟨[.lit "budget".toList], .mul (.sym "Y".toList) (.sym "P".toList), .sym "Q".toList⟩]

theorem twoImbalances (P Q Y a : ℝ) :
    imbalances [] twoPrices twoParams none twoCore [P, Q, Y, a] = [Q - a * P, Y * P - Q] := rfl

theorem twoModel (p : Str) (hp : p = "P".toList ∨ p = "Q".toList) :
    IndexedModel [] twoPrices twoParams none (twoCore ++ [fixedAtOne [.lit "numeraire".toList] p]) where
  scalar :=
    { known := by decide +kernel
      dims := by decide +kernel
      fresh := by decide +kernel
      labels := by decide +kernel
      names := by decide +kernel
      scalars := by decide +kernel }
  coords_nodup := by decide +kernel
  dim_names := by decide +kernel
  label_names := by intro i ls h; cases h
  numeraire_mem := by rintro o ⟨⟩
  sides := by
    have hsym : ∀ s : Str, s = "P".toList ∨ s = "Q".toList ∨ s = "Y".toList ∨ s = "a".toList →
        ∃ o ∈ solvedVars none twoPrices ++ twoParams ++ (none : Option ModelObject).toList,
          o.name = s ∧ o.dims = [] := by
      rintro s hs
      rcases hs with rfl | rfl | rfl | rfl <;> decide +kernel
    intro q hq
    simp only [twoCore, List.cons_append, List.nil_append, List.mem_cons, List.not_mem_nil, or_false] at hq
    rcases hq with rfl | rfl | rfl
    · refine ⟨⟨trivial, ⟨fun x hx => ?_, fun v hv => (nomatch hv)⟩, fun o ho => (nomatch ho),
        fun o ho => (nomatch ho)⟩, ⟨⟨trivial, trivial⟩, ⟨fun x hx => ?_, fun v hv => ?_⟩,
        fun o ho => (nomatch ho), fun o ho => (nomatch ho)⟩⟩
      · simp only [RExpr.syms, List.mem_singleton] at hx
        exact hsym x (by tauto)
      · simp only [RExpr.syms, List.mem_append, List.mem_singleton] at hx
        exact hsym x (by tauto)
      · simp [RExpr.indexeds] at hv
    · refine ⟨⟨⟨trivial, trivial⟩, ⟨fun x hx => ?_, fun v hv => ?_⟩, fun o ho => (nomatch ho),
        fun o ho => (nomatch ho)⟩, ⟨trivial, ⟨fun x hx => ?_, fun v hv => (nomatch hv)⟩,
        fun o ho => (nomatch ho), fun o ho => (nomatch ho)⟩⟩
      · simp only [RExpr.syms, List.mem_append, List.mem_singleton] at hx
        exact hsym x (by tauto)
      · simp [RExpr.indexeds] at hv
      · simp only [RExpr.syms, List.mem_singleton] at hx
        exact hsym x (by tauto)
    · refine ⟨⟨trivial, ⟨fun x hx => ?_, fun v hv => (nomatch hv)⟩, fun o ho => (nomatch ho),
        fun o ho => (nomatch ho)⟩, ⟨trivial, ⟨fun x hx => (nomatch hx), fun v hv => (nomatch hv)⟩,
        fun o ho => (nomatch ho), fun o ho => (nomatch ho)⟩⟩
      have : x = p := by simpa [fixedAtOne, RExpr.syms] using hx
      exact hsym x (by rw [this]; tauto)
  clean := by
    intro q hq
    simp only [twoCore, List.cons_append, List.nil_append, List.mem_cons, List.not_mem_nil, or_false] at hq
    rcases hq with rfl | rfl | rfl
    · decide +kernel
    · decide +kernel
    · show Template.Clean [.lit "numeraire".toList]
      decide +kernel
  markers := by rcases hp with rfl | rfl <;> decide +kernel
  names := by rcases hp with rfl | rfl <;> decide +kernel

theorem twoEuler : EulerModel [] (solvedVars none twoPrices) twoParams where
  labelled := ⟨by decide +kernel, by decide +kernel, by decide +kernel, by decide +kernel⟩
  nonempty := by decide +kernel
  someVar := by decide +kernel
  someParam := by decide +kernel
  keywords := by decide +kernel

def twoEs (p : Str) : List (SymExpr Str) :=
  [.add (.sym "Q".toList) (.mul (.num (-1)) (.mul (.sym "a".toList) (.sym "P".toList))),
   .add (.mul (.sym "Y".toList) (.sym "P".toList)) (.mul (.num (-1)) (.sym "Q".toList)),
   .add (.sym p) (.mul (.num (-1)) (.num 1))]

theorem twoBuilt (p : Str) (hp : p = "P".toList ∨ p = "Q".toList) :
    ∃ F, BuiltFrom [] twoPrices twoParams none (twoCore ++ [fixedAtOne [.lit "numeraire".toList] p]) (twoEs p) F := by
  rcases hp with rfl | rfl <;>
  exact ⟨_, id, id, id, id, _, _, _, fun _ _ => Iff.rfl, fun _ _ => Iff.rfl, fun _ _ => Iff.rfl, rfl, rfl,
    rfl, rfl, rfl⟩

theorem twoRegular (p : Str) (v : Str → ℝ) : ∀ e ∈ twoEs p, Regular v e := by
  intro e he
  simp only [twoEs, List.mem_cons, List.not_mem_nil, or_false] at he
  rcases he with rfl | rfl | rfl
  · exact ⟨trivial, trivial, trivial, trivial⟩
  · exact ⟨⟨trivial, trivial⟩, trivial, trivial⟩
  · exact ⟨trivial, trivial, trivial⟩

/-- All variables and the parameter are 1; `a` becomes 4. -/
def twoCall : SimCall ℝ where
  initial := [("P".toList, .num ⟨[], [1]⟩), ("Q".toList, .num ⟨[], [1]⟩), ("Y".toList, .num ⟨[], [1]⟩),
    ("a".toList, .num ⟨[], [1]⟩)]
  finalValues := some [("a".toList, .num ⟨[], [4]⟩)]
  useOptimizer := false

theorem twoRequest (add mul : NDArray ℝ → NDArray ℝ → NDArray ℝ) :
    RequestOK [] (solvedVars none twoPrices) twoParams add mul [] twoCall where
  nodup := by simp [twoCall, dkeys]
  exact := by intro n; simp [twoCall, dkeys, twoPrices, twoParams, solvedVars]
  distinct := by simp [twoCall, dkeys]
  some_change := by simp [twoCall, dkeys]
  known := by simp [twoCall, dkeys]
  valid := by simp [twoCall, ValidRefs, refsOf]
  unshared := by simp [twoCall, refsOf]
  shaped := by
    intro o ho
    have : o = { name := "P" } ∨ o = { name := "Q" } ∨ o = { name := "Y" } ∨ o = { name := "a" } := by
      simpa [twoPrices, twoParams, solvedVars] using ho
    rcases this with rfl | rfl | rfl | rfl <;> exact ⟨⟨[], [1]⟩, rfl, rfl, rfl⟩
  sized := by
    intro o ho
    have : o = { name := "a" } := by simpa [twoParams] using ho
    subst this
    exact ⟨⟨[], [4]⟩, rfl, rfl⟩

theorem two_flat (x : Fin (totalSize [] (solvedVars none twoPrices)) → ℝ) (t : Fin (totalSize [] twoParams) → ℝ) :
    List.ofFn x ++ List.ofFn t =
      [x ⟨0, by decide⟩, x ⟨1, by decide⟩, x ⟨2, by decide⟩, t ⟨0, by decide⟩] := rfl

theorem two_rescaled (c : ℝ) (x : Fin (totalSize [] (solvedVars none twoPrices)) → ℝ)
    (t : Fin (totalSize [] twoParams) → ℝ) :
    List.ofFn (rescaled (nominalAt [] ["P".toList, "Q".toList] (solvedVars none twoPrices)) c x) ++ List.ofFn t =
      [c * x ⟨0, by decide⟩, c * x ⟨1, by decide⟩, x ⟨2, by decide⟩, t ⟨0, by decide⟩] := rfl

theorem twoHomogeneous (x : Fin (totalSize [] (solvedVars none twoPrices)) → ℝ)
    (t : Fin (totalSize [] twoParams) → ℝ) :
    HomogeneousAt [] twoPrices twoParams none twoCore ["P".toList, "Q".toList] (fun _ => 1) x t := by
  intro c _ i
  rw [two_rescaled, two_flat, twoImbalances, twoImbalances, Real.rpow_one]
  match i with
  | 0 => simp; ring
  | 1 => simp; ring
  | i + 2 => simp

theorem twoLevel (x : Fin (totalSize [] (solvedVars none twoPrices)) → ℝ) :
    scalarLevel [] (solvedVars none twoPrices) "Q".toList x = x ⟨1, by decide⟩ := rfl

theorem twoNominal (p : Str) (hp : p = "P".toList ∨ p = "Q".toList) :
    NominalScalar ["P".toList, "Q".toList] (solvedVars none twoPrices) p := by
  refine ⟨by rcases hp with rfl | rfl <;> decide, ?_⟩
  rcases hp with rfl | rfl
  · exact ⟨{ name := "P" }, by decide +kernel, rfl, rfl⟩
  · exact ⟨{ name := "Q" }, by decide +kernel, rfl, rfl⟩

theorem twoFixed (P Q Y a : ℝ) : imbalances [] twoPrices twoParams none
    (twoCore ++ [fixedAtOne [.lit "numeraire".toList] "P".toList]) [P, Q, Y, a] = [Q - a * P, Y * P - Q, P - 1] := by
  rw [imbalances_fixed _ _ _ (twoNominal _ (.inl rfl)).2, twoImbalances]
  rfl

theorem hasDerivAt_of_affine {f : ℝ → ℝ} {d e : ℝ} (x : ℝ) (h : ∀ u, f u = d * u + e) : HasDerivAt f d x := by
  have : f = fun u => d * u + e := funext h
  rw [this]
  simpa using ((hasDerivAt_id x).const_mul d).add_const e

/-- `P` stays one; `Q`, `Y` and `a` rise from one to four. -/
def twoPath (s : ℝ) (j : Fin (totalSize [] (solvedVars none twoPrices))) : ℝ := if j.val = 0 then 1 else 1 + 3 * s
def twoTheta (s : ℝ) (_ : Fin (totalSize [] twoParams)) : ℝ := 1 + 3 * s

theorem two_theta (add mul : NDArray ℝ → NDArray ℝ → NDArray ℝ) (s : ℝ) (k : Fin (totalSize [] twoParams)) :
    twoTheta s k = (1 - s) * (initialFlat [] twoCall twoParams).getD k 0 +
      s * (wantedFlat add mul [] twoCall twoParams).getD k 0 := by
  have hk : k.val = 0 := by have : k.val < 1 := k.isLt; omega
  rw [hk]
  show (1 : ℝ) + 3 * s = (1 - s) * 1 + s * 4
  ring

theorem two_cont : ContinuousOn twoPath (Icc 0 1) := by
  rw [continuousOn_pi]
  intro j
  unfold twoPath
  by_cases hj : j.val = 0
  · simp only [hj, if_true]; fun_prop
  · simp only [hj, if_false]; fun_prop

theorem two_start : List.ofFn (twoPath 0) = initialFlat [] twoCall (solvedVars none twoPrices) := by
  show [(1 : ℝ), 1 + 3 * 0, 1 + 3 * 0] = [1, 1, 1]
  norm_num

theorem two_along (s : ℝ) : List.ofFn (twoPath s) ++ List.ofFn (twoTheta s) = [1, 1 + 3 * s, 1 + 3 * s, 1 + 3 * s] := rfl

theorem two_sol (s : ℝ) : ∀ y ∈ imbalances [] twoPrices twoParams none
    (twoCore ++ [fixedAtOne [.lit "numeraire".toList] "P".toList])
    (List.ofFn (twoPath s) ++ List.ofFn (twoTheta s)), y = 0 := by
  intro y hy
  rw [two_along, twoFixed] at hy
  simp only [List.mem_cons, List.not_mem_nil, or_false] at hy
  rcases hy with rfl | rfl | rfl <;> simp

theorem two_inv (s : ℝ) (D : Matrix (Fin (totalSize [] (solvedVars none twoPrices)))
      (Fin (totalSize [] (solvedVars none twoPrices))) ℝ)
    (hD : ∀ i j : Fin (totalSize [] (solvedVars none twoPrices)), HasDerivAt (fun u =>
        (imbalances [] twoPrices twoParams none (twoCore ++ [fixedAtOne [.lit "numeraire".toList] "P".toList])
          ((List.ofFn (twoPath s) ++ List.ofFn (twoTheta s)).set j u)).getD i 0) (D i j) (twoPath s j)) :
    D.det ≠ 0 := by
  simp only [two_along] at hD
  have ent : ∀ (i j : Nat) (hi : i < 3) (hj : j < 3) (d e : ℝ), (∀ u : ℝ,
      (imbalances [] twoPrices twoParams none (twoCore ++ [fixedAtOne [.lit "numeraire".toList] "P".toList])
        (([1, 1 + 3 * s, 1 + 3 * s, 1 + 3 * s] : List ℝ).set j u)).getD i 0 = d * u + e) →
      D ⟨i, hi⟩ ⟨j, hj⟩ = d :=
    fun i j hi hj d e h => (hD ⟨i, hi⟩ ⟨j, hj⟩).unique (hasDerivAt_of_affine _ h)
  have e00 := ent 0 0 (by decide) (by decide) (-(1 + 3 * s)) (1 + 3 * s)
    (fun u => by rw [List.set_cons_zero, twoFixed, List.getD_cons_zero]; ring)
  have e01 := ent 0 1 (by decide) (by decide) 1 (-(1 + 3 * s))
    (fun u => by rw [List.set_cons_succ, List.set_cons_zero, twoFixed, List.getD_cons_zero]; ring)
  have e02 := ent 0 2 (by decide) (by decide) 0 0
    (fun u => by
      rw [List.set_cons_succ, List.set_cons_succ, List.set_cons_zero, twoFixed, List.getD_cons_zero]; ring)
  have e20 := ent 2 0 (by decide) (by decide) 1 (-1)
    (fun u => by
      rw [List.set_cons_zero, twoFixed, List.getD_cons_succ, List.getD_cons_succ, List.getD_cons_zero]; ring)
  have e21 := ent 2 1 (by decide) (by decide) 0 0
    (fun u => by
      rw [List.set_cons_succ, List.set_cons_zero, twoFixed, List.getD_cons_succ, List.getD_cons_succ,
        List.getD_cons_zero]
      ring)
  have e22 := ent 2 2 (by decide) (by decide) 0 0
    (fun u => by
      rw [List.set_cons_succ, List.set_cons_succ, List.set_cons_zero, twoFixed, List.getD_cons_succ,
        List.getD_cons_succ, List.getD_cons_zero]
      ring)
  have e12 := ent 1 2 (by decide) (by decide) 1 (-(1 + 3 * s))
    (fun u => by
      rw [List.set_cons_succ, List.set_cons_succ, List.set_cons_zero, twoFixed, List.getD_cons_succ,
        List.getD_cons_zero]
      ring)
  have hdet : D.det = 1 := by
    have h3 : D.det = (show Matrix (Fin 3) (Fin 3) ℝ from D).det := rfl
    rw [h3, Matrix.det_fin_three]
    have f00 : (show Matrix (Fin 3) (Fin 3) ℝ from D) 0 0 = -(1 + 3 * s) := e00
    have f01 : (show Matrix (Fin 3) (Fin 3) ℝ from D) 0 1 = 1 := e01
    have f02 : (show Matrix (Fin 3) (Fin 3) ℝ from D) 0 2 = 0 := e02
    have f20 : (show Matrix (Fin 3) (Fin 3) ℝ from D) 2 0 = 1 := e20
    have f21 : (show Matrix (Fin 3) (Fin 3) ℝ from D) 2 1 = 0 := e21
    have f22 : (show Matrix (Fin 3) (Fin 3) ℝ from D) 2 2 = 0 := e22
    have f12 : (show Matrix (Fin 3) (Fin 3) ℝ from D) 1 2 = 1 := e12
    rw [f00, f01, f02, f20, f21, f22, f12]
    ring
  rw [hdet]
  exact one_ne_zero

/-- Solutions: `P = 1`, `Q = Y = a` if `P` is fixed, and `Q = 1`, `P = 1 / a`, `Y = a` if `Q` is fixed. -/
example : (∀ y ∈ imbalances [] twoPrices twoParams none (twoCore ++ [fixedAtOne [.lit "numeraire".toList] "P".toList])
        (List.ofFn (twoPath 1) ++ List.ofFn (twoTheta 1)), y = 0) ↔
      scalarLevel [] (solvedVars none twoPrices) "P".toList (twoPath 1) = 1 ∧
      ∀ y ∈ imbalances [] twoPrices twoParams none (twoCore ++ [fixedAtOne [.lit "numeraire".toList] "Q".toList])
        (List.ofFn (rescaled (nominalAt [] ["P".toList, "Q".toList] _)
          (1 / scalarLevel [] (solvedVars none twoPrices) "Q".toList (twoPath 1)) (twoPath 1)) ++
          List.ofFn (twoTheta 1)), y = 0 :=
  C101_solutions ["P".toList, "Q".toList] _ _ _ _ (twoModel _ (.inl rfl)).scalar (twoNominal _ (.inl rfl))
    (twoNominal _ (.inr rfl)) (fun _ => 1) _ _ (twoHomogeneous _ _) (by
      rw [twoLevel]
      show (0 : ℝ) < 1 + 3 * 1
      norm_num)

/-- Whether the model fixes `P` or `Q`, the simulated quantity `Y` is the same in the limit, and `P` relative to `Q`
too. -/
example (b : EulerBackend) (hb : b ≠ .numba) (fl : SimFlags) (add mul : NDArray ℝ → NDArray ℝ → NDArray ℝ) :
    ∃ envA envB, ∃ (C : ℝ) (M : ℕ), ∀ n, M ≤ n → 1 ≤ n → ∃ eA eB,
      simulateCompute (simEnvOf envA (fun _ => false) fl add mul) [] { twoCall with nIterEuler := n } =
        .ok ⟨some eA, none, none, false⟩ ∧
      simulateCompute (simEnvOf envB (fun _ => false) fl add mul) [] { twoCall with nIterEuler := n } =
        .ok ⟨some eB, none, none, false⟩ ∧
      |(flatOf eB.start twoPrices).getD 2 0 - (flatOf eA.start twoPrices).getD 2 0| ≤ C / n ^ b.order ∧
      |(flatOf eB.start twoPrices).getD 0 0 * (flatOf eA.start twoPrices).getD 1 0 -
        (flatOf eA.start twoPrices).getD 0 0| ≤ C / n ^ b.order := by
  obtain ⟨FA, hFA⟩ := twoBuilt _ (.inl rfl)
  obtain ⟨FB, hFB⟩ := twoBuilt _ (.inr rfl)
  refine ⟨symEnv [] (solvedVars none twoPrices) twoParams (twoEs "P".toList) b FA,
    symEnv [] (solvedVars none twoPrices) twoParams (twoEs "Q".toList) b FB, ?_⟩
  obtain ⟨C, M, h⟩ := C101_simulate ["P".toList, "Q".toList] [.lit "numeraire".toList] [.lit "numeraire".toList]
    "P".toList "Q".toList (twoNominal _ (.inl rfl)) (twoNominal _ (.inr rfl)) b (twoEs "P".toList) (twoEs "Q".toList)
    _ _ _ _ _ _ (symEnv_onGraphs b hb hFA (twoModel _ (.inl rfl)) twoEuler rfl)
    (symEnv_onGraphs b hb hFB (twoModel _ (.inr rfl)) twoEuler rfl) rfl fl add mul [] [] twoCall twoCall
    (twoRequest add mul) (twoRequest add mul) rfl rfl rfl rfl rfl rfl
    twoPath twoTheta (two_theta add mul) two_cont two_start
    (by
      show [1 / (1 + 3 * 0) * (1 : ℝ), 1 / (1 + 3 * 0) * (1 + 3 * 0), 1 + 3 * 0] = [1, 1, 1]
      norm_num)
    (fun s _ => two_sol s)
    (by
      intro s hs
      rw [twoLevel]
      show (0 : ℝ) < 1 + 3 * s
      linarith [hs.1])
    (fun s _ => ⟨fun _ => 1, Eventually.of_forall fun y => twoHomogeneous y _⟩)
    (fun _ _ => twoRegular _ _) (fun _ _ => twoRegular _ _) (fun s _ => two_inv s)
  refine ⟨C, M, fun n hn h1 => ?_⟩
  obtain ⟨eA, eB, g1, g2, -, g3⟩ := h n hn h1
  exact ⟨eA, eB, g1, g2, (g3 ⟨2, by decide⟩).1 rfl, (g3 ⟨0, by decide⟩).2 rfl⟩

end Verif
