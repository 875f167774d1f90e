import Verif.Lemmas.Template
import Verif.Props.Expand

/-!
# C33 (and the equation part of C34): names of unpacked equations
-/

namespace Verif

/-- The labelling of dims `ds` at multi-index `idx`. -/
def labelAt (coords : Coords) (ds : List Str) (idx : List Nat) (d : Str) : Str :=
  ((idx[ds.findIdx (· == d)]?).bind fun i => (labelsOf coords d)[i]?).getD []

theorem labelAt_eq (coords : Coords) (ds : List Str) (idx : List Nat) (hn : ds.Nodup) (j : Nat)
    (d : Str) (hj : ds[j]? = some d) (i : Nat) (hi : idx[j]? = some i) (l : Str)
    (hl : (labelsOf coords d)[i]? = some l) : labelAt coords ds idx d = l := by
  have h1 : ds.findIdx (· == d) = j := by
    have := listIndex_of_nodup hn hj
    unfold listIndex at this
    cases hf : ds.findIdx? (· == d) with
    | none => rw [hf] at this; cases this
    | some k =>
      rw [hf] at this
      injection this with this
      subst this
      obtain ⟨hk, hp, hq⟩ := List.findIdx?_eq_some_iff_getElem.1 hf
      exact (List.findIdx_eq hk).2 ⟨hp, fun i hi => by simpa using hq i hi⟩
  unfold labelAt
  rw [h1, hi]
  simp [hl]

/-- Name of one equation unpacked by `unpack_equation_strings`. -/
theorem unpackEquationName_spec (coords : Coords) (t : Template) (hc : t.Clean)
    (hnd : t.dims.Nodup) (hk : ∀ d ∈ t.dims, d ∈ dkeys coords)
    (hdims : ∀ d ∈ dkeys coords, '>' ∉ d)
    (hlab : ∀ d ∈ t.dims, ∀ l ∈ labelsOf coords d, '<' ∉ l) :
    ∃ names, unpackEquationName coords t.text = .ok names ∧
      names.length = (t.dims.map fun d => (labelsOf coords d).length).prod ∧
      ∀ idx, ValidIdx (t.dims.map fun d => (labelsOf coords d).length) idx →
        names[ravelIndex (t.dims.map fun d => (labelsOf coords d).length) idx]?
          = some (t.filled (labelAt coords t.dims idx)) := by
  have hfm := findMarkers_text (dkeys coords) t hc hk hdims
  unfold unpackEquationName
  simp only [hfm]
  by_cases hd : t.dims = []
  · rw [if_pos hd]
    refine ⟨[t.text], rfl, by simp [hd], ?_⟩
    intro idx hidx
    rw [hd] at hidx ⊢
    have : idx = [] := by
      cases idx with
      | nil => rfl
      | cons i is => exact hidx.elim
    subst this
    simp only [List.map_nil, ravelIndex, List.getElem?_cons_zero, Option.some.injEq]
    have := substDict_filled t [] [] (labelAt coords [] []) (by rw [hd]; simp)
    rw [← this]
    have h2 := prettyPrint_text t [] [] hc (by simp) (by simp)
    rw [← h2]; rfl
  · rw [if_neg hd]
    simp only [bind, Except.bind, pure, Except.pure, mapM_labels _ _ hk]
    refine ⟨_, rfl, ?_, ?_⟩
    · rw [List.length_map, length_product, List.map_map]; rfl
    · intro idx hidx
      have hsh : (t.dims.map (labelsOf coords)).map List.length
          = t.dims.map fun d => (labelsOf coords d).length := by rw [List.map_map]; rfl
      rw [← hsh] at hidx ⊢
      obtain ⟨v, hv⟩ := Option.isSome_iff_exists.1 (pick_isSome _ _ hidx)
      have hlen : v.length = t.dims.length := by simpa using pick_length _ _ _ hv
      rw [List.getElem?_map, product_ravel _ _ hidx, hv]
      simp only [Option.map_some, Option.some.injEq]
      have hz : dofPairs (t.dims.zip v) = t.dims.zip v :=
        dofPairs_of_nodup _ (by rw [show (t.dims.zip v).map Prod.fst = t.dims from dkeys_zip _ _ hlen];
                                exact hnd)
      have hget : ∀ (j : Nat) d, t.dims[j]? = some d →
          dget (t.dims.zip v) d = some (labelAt coords t.dims idx d) ∧
          labelAt coords t.dims idx d ∈ labelsOf coords d := by
        intro j d hj
        obtain ⟨i, l, h1, h2, h3⟩ := pick_getElem? _ _ _ hv j (labelsOf coords d) (by simp [hj])
        rw [dget_zip _ _ hnd hlen j d hj, h3, labelAt_eq coords _ idx hnd j d hj i h1 l h2]
        exact ⟨rfl, List.mem_of_getElem? h2⟩
      have hget' : ∀ d ∈ t.dims, dget (t.dims.zip v) d = some (labelAt coords t.dims idx d) ∧
          labelAt coords t.dims idx d ∈ labelsOf coords d := by
        intro d hd
        obtain ⟨j, hj, hjd⟩ := List.getElem_of_mem hd
        exact hget j d (by rw [List.getElem?_eq_getElem hj, hjd])
      rw [hz, prettyPrint_text t _ _ hc (fun d hd => hdims d (hk d hd))]
      · exact substDict_filled _ _ _ _ fun d hd => ⟨hd, (hget' d hd).1⟩
      · intro d w hw
        have hmem : d ∈ t.dims := by
          have := (mem_dkeys_iff (t.dims.zip v) d).2 ⟨w, hw⟩
          rwa [dkeys_zip _ _ hlen] at this
        obtain ⟨h1, h2⟩ := hget' d hmem
        rw [h1] at hw
        cases hw
        exact hlab d hmem _ h2

/-- One equation of a pytensor model: its name as a template, and the residual array. -/
structure NamedResidual (α : Type _) where
  name : Template
  resid : NDArray α

/-- The axes of the residual array are the dims of the markers of the name, in the same order. -/
def NamedResidual.AxesMatch {α : Type _} (coords : Coords) (e : NamedResidual α) : Prop :=
  e.resid.shape = e.name.dims.map (fun d => (labelsOf coords d).length) ∧ e.resid.WF

/-- **C33 (array back-ends).**  If the markers of every equation name are, each once, the axes of that
equation's residual in the same order, then the list of unpacked names is as long as the residual
vector, and at the position where the vector has the element `idx` of equation `m`'s residual the list
has the name of equation `m` with the labels at `idx` put for the markers.
Missing: markers in another order, missing or repeated markers – see the negations below – and the
deduplication by `dict.fromkeys`, which is the identity when the names are distinct (next theorem). -/
theorem C33_names_match_residuals_partial {α : Type _} (coords : Coords)
    (eqs : List (NamedResidual α)) (hne : eqs ≠ [])
    (hdims : ∀ d ∈ dkeys coords, '>' ∉ d)
    (hclean : ∀ e ∈ eqs, e.name.Clean) (hnd : ∀ e ∈ eqs, e.name.dims.Nodup)
    (hk : ∀ e ∈ eqs, ∀ d ∈ e.name.dims, d ∈ dkeys coords)
    (hlab : ∀ e ∈ eqs, ∀ d ∈ e.name.dims, ∀ l ∈ labelsOf coords d, '<' ∉ l)
    (haxes : ∀ e ∈ eqs, e.AxesMatch coords) :
    ∃ names errors,
      unpackEquationStrings (eqs.map fun e => e.name.text) coords = .ok names ∧
      flattenEquations (eqs.map NamedResidual.resid) = .ok errors ∧
      names.length = errors.length ∧
      ∀ m e idx, eqs[m]? = some e → ValidIdx e.resid.shape idx →
        ∃ k v, errors[k]? = some v ∧ e.resid.at? idx = some v ∧
          names[k]? = some (e.name.filled (labelAt coords e.name.dims idx)) ∧
          k = ((eqs.take m).map fun e => e.resid.data.length).sum + ravelIndex e.resid.shape idx := by
  have hspec := fun e (he : e ∈ eqs) => unpackEquationName_spec coords e.name (hclean e he)
    (hnd e he) (hk e he) hdims (hlab e he)
  -- the blocks of names
  have hblocks : ∃ B : List (List Str), (eqs.map fun e => e.name.text).mapM (unpackEquationName coords)
      = .ok B ∧ B.length = eqs.length ∧ ∀ (m : Nat) e, eqs[m]? = some e → ∃ b, B[m]? = some b ∧
        unpackEquationName coords e.name.text = .ok b := by
    have : ∀ l : List (NamedResidual α), (∀ e ∈ l, e ∈ eqs) → ∃ B : List (List Str),
        (l.map fun e => e.name.text).mapM (unpackEquationName coords) = .ok B ∧
        B.length = l.length ∧ ∀ (m : Nat) e, l[m]? = some e → ∃ b, B[m]? = some b ∧
          unpackEquationName coords e.name.text = .ok b := by
      intro l
      induction l with
      | nil => intro _; exact ⟨[], rfl, rfl, by simp⟩
      | cons e l ih =>
        intro hl
        obtain ⟨B, h1, h2, h3⟩ := ih (fun x hx => hl x (by simp [hx]))
        obtain ⟨b, hb, _, _⟩ := hspec e (hl e (by simp))
        refine ⟨b :: B, ?_, by simp [h2], ?_⟩
        · rw [List.map_cons, List.mapM_cons, hb, h1]; rfl
        · intro m e' he'
          cases m with
          | zero => simp at he'; subst he'; exact ⟨b, rfl, hb⟩
          | succ m => simpa using h3 m e' (by simpa using he')
    exact this eqs (fun _ h => h)
  obtain ⟨B, hB, hBl, hBg⟩ := hblocks
  have hlenb : B.map List.length = eqs.map fun e => e.resid.data.length := by
    apply List.ext_getElem?
    intro m
    rw [List.getElem?_map, List.getElem?_map]
    cases he : eqs[m]? with
    | none =>
      rw [List.getElem?_eq_none_iff] at he
      rw [List.getElem?_eq_none (by omega)]; rfl
    | some e =>
      obtain ⟨b, h1, h2⟩ := hBg m e he
      have hm := List.mem_of_getElem? he
      obtain ⟨b', hb', hl, _⟩ := hspec e hm
      rw [h2] at hb'; cases hb'
      obtain ⟨hs, hwf⟩ := haxes e hm
      rw [h1]
      simp only [Option.map_some, Option.some.injEq]
      rw [hl, hwf, hs]
  refine ⟨B.flatten, ((eqs.map NamedResidual.resid).map NDArray.data).flatten, ?_, ?_, ?_, ?_⟩
  · unfold unpackEquationStrings; rw [hB]; rfl
  · unfold flattenEquations
    exact npConcatenate_ok (by simpa using hne)
  · rw [List.length_flatten, List.length_flatten, hlenb, List.map_map, List.map_map]
    rfl
  · intro m e idx he hidx
    have hm := List.mem_of_getElem? he
    obtain ⟨b, h1, h2⟩ := hBg m e he
    obtain ⟨b', hb', hl, hat⟩ := hspec e hm
    rw [h2] at hb'; cases hb'
    obtain ⟨hs, hwf⟩ := haxes e hm
    have hlt := ravelIndex_lt _ _ hidx
    have hlt' : ravelIndex e.resid.shape idx < e.resid.data.length := by rw [hwf]; exact hlt
    have hoff1 : ((B.take m).map List.length).sum
        = ((eqs.take m).map fun e => e.resid.data.length).sum := by
      rw [List.map_take, hlenb, ← List.map_take]
    have hoff2 : ((((eqs.map NamedResidual.resid).map NDArray.data).take m).map List.length).sum
        = ((eqs.take m).map fun e => e.resid.data.length).sum := by
      rw [← List.map_take, ← List.map_take, List.map_map, List.map_map]; rfl
    have herr : (((eqs.map NamedResidual.resid).map NDArray.data).flatten)[
        ((eqs.take m).map fun e => e.resid.data.length).sum + ravelIndex e.resid.shape idx]?
        = e.resid.data[ravelIndex e.resid.shape idx]? := by
      rw [← hoff2]
      exact getElem?_flatten_block _ m e.resid.data (by simp [he]) _ hlt'
    have hnam : B.flatten[((eqs.take m).map fun e => e.resid.data.length).sum
        + ravelIndex e.resid.shape idx]? = b[ravelIndex e.resid.shape idx]? := by
      rw [← hoff1]
      apply getElem?_flatten_block _ m b h1
      rw [hl, ← hs, ← hwf]; exact hlt'
    refine ⟨_, e.resid.data[ravelIndex e.resid.shape idx], ?_, ?_, ?_, rfl⟩
    · rw [herr, List.getElem?_eq_getElem hlt']
    · simp only [NDArray.at?, if_pos hidx]
      rw [List.getElem?_eq_getElem hlt']
    · rw [hnam, hs]
      rw [hs] at hidx
      exact hat idx hidx

/-- `Supply of <dim:i>` with a residual over `i`, and a scalar equation. -/
def exEqs : List (NamedResidual Int) :=
  [⟨[.lit "Supply of ", .dim "i"], ⟨[2], [10, 20]⟩⟩, ⟨[.lit "Numeraire"], ⟨[], [30]⟩⟩]

example : (∀ e ∈ exEqs, e.name.Clean) ∧ (∀ e ∈ exEqs, e.name.dims.Nodup) ∧
    unpackedEquationNames (exEqs.map fun e => e.name.text) exCoords
      = .ok (["Supply of a", "Supply of b", "Numeraire"] : List Str) := by decide

/-- **C33 (deduplication).**  When the generated names are distinct, the reported list of names is the
generated one. -/
theorem C33_distinct_names_kept_partial (names : List Str) (coords : Coords) (l : List Str)
    (h : unpackEquationStrings names coords = .ok l) (hn : l.Nodup) :
    unpackedEquationNames names coords = .ok l := by
  unfold unpackedEquationNames
  rw [h]
  simp only [Except.map]
  rw [dofPairs_of_nodup]
  · simp [dkeys, Function.comp_def]
  · simpa [Function.comp_def] using hn

example : unpackedEquationNames ["Supply of <dim:i>", "Numeraire"] exCoords
    = .ok (["Supply of a", "Supply of b", "Numeraire"] : List Str) :=
  C33_distinct_names_kept_partial _ _ _ (by decide) (by decide)

/-- **C33 (negation: order).**  With the markers in the other order than the axes, the second name
describes element `(1, 0)` while the second residual is element `(0, 1)`. -/
theorem C33_permuted_markers_mislabel :
    ∃ (t : Template) (names : List Str), t.Clean ∧ t.dims.Perm ["i", "j"] ∧
      unpackedEquationNames [t.text] exCoords = .ok names ∧
      names[ravelIndex [2, 3] [0, 1]]? = some (t.filled (labelAt exCoords ["i", "j"] [1, 0])) ∧
      names[ravelIndex [2, 3] [0, 1]]? ≠ some (t.filled (labelAt exCoords ["i", "j"] [0, 1])) :=
  ⟨[.lit "Use of ", .dim "j", .lit " in ", .dim "i"], _, by decide, List.Perm.swap _ _ _, rfl,
    by decide, by decide⟩

/-- **C33 (negation: missing or repeated markers).**  A name without the marker of an axis gives one
name for several residuals; a marker used twice gives names for which there is no residual, so that
every later equation is reported under a wrong name. -/
theorem C33_marker_count_mislabels :
    unpackedEquationNames ["Supply"] exCoords = .ok (["Supply"] : List Str) ∧
    unpackEquationStrings ["<dim:i> and <dim:i>", "Numeraire"] exCoords
      = .ok (["a and a", "b and b", "a and a", "b and b", "Numeraire"] : List Str) ∧
    unpackedEquationNames ["Supply of <dim:i>", "Supply of a"] exCoords
      = .ok (["Supply of a", "Supply of b"] : List Str) := by decide

/-! ## Equations parsed to sympy -/

variable {E : Type _}

theorem prettyPrint_single (s : Str) (dims : List Str) (d v : Str) (hn : dims.Nodup) (hd : d ∈ dims) :
    prettyPrint s dims [(d, v)] = replaceAll (marker d) v s := by
  unfold prettyPrint
  have skip : ∀ (l : List Str) (s : Str), d ∉ l →
      l.foldl (fun s dim => match dget [(d, v)] dim with
        | some v => replaceAll (marker dim) v s
        | none => s) s = s := by
    intro l
    induction l with
    | nil => intros; rfl
    | cons a l ih =>
      intro s hs
      simp only [List.mem_cons, not_or] at hs
      rw [List.foldl_cons, dget_cons, if_neg hs.1]
      exact ih s hs.2
  induction dims generalizing s with
  | nil => simp at hd
  | cons a l ih =>
    rw [List.nodup_cons] at hn
    rw [List.foldl_cons, dget_cons]
    by_cases h : d = a
    · subst h
      simp only [if_true]
      exact skip l _ hn.1
    · rw [if_neg h]
      exact ih s hn.2 (by simpa [h] using hd)

theorem updateAllEq_spec (subst : E → Str → Str → E) (t : Template) (ps : List (Str × Str))
    (q : SymEquation E) (hq : q.name = t.text) (hc : t.Clean) (hn : q.dims.Nodup)
    (hp : ∀ p ∈ ps, p.1 ∈ q.dims ∧ '>' ∉ p.1 ∧ '<' ∉ p.2) :
    ∃ q', updateAllEq subst q ps = .ok q' ∧
      q'.eq = ps.foldl (fun e p => subst e p.1 p.2) q.eq ∧
      q'.name = (ps.foldl (fun t p => t.subst p.1 p.2) t).text ∧ q'.dims = q.dims ∧
      q'.dimVals = (ps.getLast?.map fun p => [p]).getD q.dimVals := by
  induction ps generalizing q t with
  | nil => exact ⟨q, rfl, rfl, hq, rfl, rfl⟩
  | cons p ps ih =>
    obtain ⟨h1, h2, h3⟩ := hp p (by simp)
    simp only [updateAllEq, updateDimValueEq, if_pos h1, bind, Except.bind]
    obtain ⟨q', g1, g2, g3, g4, g5⟩ := ih (t.subst p.1 p.2)
      { q with eq := subst q.eq p.1 p.2, name := prettyPrint q.name q.dims [(p.1, p.2)],
               dimVals := [(p.1, p.2)] }
      (by show prettyPrint q.name q.dims [(p.1, p.2)] = _
          rw [prettyPrint_single _ _ _ _ hn h1, hq, replaceAll_text _ _ _ hc h2])
      (Template.subst_clean hc h3) hn (fun p' hp' => hp p' (by simp [hp']))
    refine ⟨q', g1, g2, g3, g4, ?_⟩
    rw [g5]
    cases ps with
    | nil => rfl
    | cons p' ps => rw [List.getLast?_cons_cons]; cases h : (p' :: ps).getLast? <;> simp_all

theorem foldl_subst_text (t : Template) (ps : List (Str × Str)) (hn : (ps.map Prod.fst).Nodup)
    (label : Str → Str) (h : ∀ d ∈ t.dims, (d, label d) ∈ ps) :
    (ps.foldl (fun t p => t.subst p.1 p.2) t).text = t.filled label := by
  have key : ∀ (ps : List (Str × Str)) (t : Template), (ps.map Prod.fst).Nodup →
      ps.foldl (fun t p => t.subst p.1 p.2) t = t.substDict (ps.map Prod.fst) ps := by
    intro ps
    induction ps with
    | nil =>
      intro t _
      unfold Template.substDict
      conv => lhs; rw [List.foldl_nil, ← List.map_id t]
      apply List.map_congr_left
      intro s _
      cases s <;> simp
    | cons p ps ih =>
      intro t hn
      rw [List.map_cons, List.nodup_cons] at hn
      rw [List.foldl_cons, ih _ hn.2]
      unfold Template.substDict Template.subst
      rw [List.map_map]
      apply List.map_congr_left
      intro s _
      obtain ⟨d, v⟩ := p
      cases s with
      | lit a => rfl
      | dim d' =>
        simp only [Function.comp, List.map_cons, List.mem_cons, dget_cons]
        by_cases hd : d' = d
        · subst hd; simp
        · by_cases hm : d' ∈ ps.map Prod.fst
          · rw [if_neg hd, if_pos (Or.inr hm)]
            simp only [if_pos hm, if_neg (Ne.symm hd)]
          · rw [if_neg hd, if_neg (by simp only [hd, false_or]; exact hm)]
            simp only [if_neg hm]
  rw [key ps t hn]
  apply substDict_filled
  intro d hd
  exact ⟨List.mem_map_of_mem (f := Prod.fst) (h d hd), dget_of_mem_nodup ps hn (h d hd)⟩

/-- **C33 / C34 (sympy back-ends).**  Unpacking an equation over its dims gives one equation per
combination of labels, in row-major order; the one for `idx` has the body with the labels at `idx`
substituted for the index symbols, and – if every marker of the name is a dim of the equation – the
name with the same labels put for the markers.  Name and body therefore belong together. -/
theorem C33_sympy_names_match_bodies (subst : E → Str → Str → E) (coords : Coords)
    (q : SymEquation E) (t : Template) (hname : q.name = t.text) (hc : t.Clean)
    (hn : q.dims.Nodup) (hk : ∀ d ∈ q.dims, d ∈ dkeys coords) (hgt : ∀ d ∈ q.dims, '>' ∉ d)
    (hsub : ∀ d ∈ t.dims, d ∈ q.dims)
    (hlab : ∀ d ∈ q.dims, ∀ l ∈ labelsOf coords d, '<' ∉ l) :
    ∃ out, expandEq subst coords q = .ok out ∧
      out.length = (q.dims.map fun d => (labelsOf coords d).length).prod ∧
      ∀ idx, ValidIdx (q.dims.map fun d => (labelsOf coords d).length) idx →
        ∃ q', out[ravelIndex (q.dims.map fun d => (labelsOf coords d).length) idx]? = some q' ∧
          q'.eq = (q.dims.map fun d => (d, labelAt coords q.dims idx d)).foldl
            (fun e p => subst e p.1 p.2) q.eq ∧
          q'.name = t.filled (labelAt coords q.dims idx) := by
  have hstep : ∀ ls ∈ product (q.dims.map (labelsOf coords)),
      ∃ q', updateAllEq subst q (q.dims.zip ls) = .ok q' ∧
        q'.eq = (q.dims.zip ls).foldl (fun e p => subst e p.1 p.2) q.eq ∧
        q'.name = ((q.dims.zip ls).foldl (fun t p => t.subst p.1 p.2) t).text := by
    intro ls hls
    obtain ⟨q', g1, g2, g3, _, _⟩ := updateAllEq_spec subst t (q.dims.zip ls) q hname hc hn (by
      intro p hp
      have hz := (mem_product_iff _ _).1 hls
      have hd := mem_zip_fst hp
      refine ⟨hd, hgt _ hd, ?_⟩
      obtain ⟨j, hj, hjp⟩ := List.getElem_of_mem hp
      have hp' : (q.dims.zip ls)[j]? = some p := by rw [List.getElem?_eq_getElem hj, hjp]
      rw [List.getElem?_zip_eq_some] at hp'
      have := hz.2 (p.2, labelsOf coords p.1) (by
        apply List.mem_of_getElem? (i := j)
        rw [List.getElem?_zip_eq_some]
        exact ⟨hp'.2, by simp [hp'.1]⟩)
      exact hlab _ hd _ this)
    exact ⟨q', g1, g2, g3⟩
  have hmap : ∃ out, (product (q.dims.map (labelsOf coords))).mapM
      (fun ls => updateAllEq subst q (q.dims.zip ls)) = .ok out ∧
      out.length = (product (q.dims.map (labelsOf coords))).length ∧
      ∀ (k : Nat) ls, (product (q.dims.map (labelsOf coords)))[k]? = some ls → ∃ q',
        out[k]? = some q' ∧ updateAllEq subst q (q.dims.zip ls) = .ok q' := by
    have : ∀ L : List (List Str), (∀ ls ∈ L, ls ∈ product (q.dims.map (labelsOf coords))) →
        ∃ out, L.mapM (fun ls => updateAllEq subst q (q.dims.zip ls)) = .ok out ∧
        out.length = L.length ∧ ∀ (k : Nat) ls, L[k]? = some ls → ∃ q',
          out[k]? = some q' ∧ updateAllEq subst q (q.dims.zip ls) = .ok q' := by
      intro L
      induction L with
      | nil => intro _; exact ⟨[], rfl, rfl, by simp⟩
      | cons ls L ih =>
        intro hL
        obtain ⟨out, h1, h2, h3⟩ := ih (fun x hx => hL x (by simp [hx]))
        obtain ⟨q', hq', _, _⟩ := hstep ls (hL ls (by simp))
        refine ⟨q' :: out, ?_, by simp [h2], ?_⟩
        · rw [List.mapM_cons, hq', h1]; rfl
        · intro k ls' hls'
          cases k with
          | zero => simp at hls'; subst hls'; exact ⟨q', rfl, hq'⟩
          | succ k => simpa using h3 k ls' (by simpa using hls')
    exact this _ (fun _ h => h)
  obtain ⟨out, h1, h2, h3⟩ := hmap
  refine ⟨out, ?_, ?_, ?_⟩
  · unfold expandEq
    simp only [bind, Except.bind, mapM_labels _ _ hk]
    exact h1
  · rw [h2, length_product, List.map_map]; rfl
  · intro idx hidx
    have hsh : (q.dims.map (labelsOf coords)).map List.length
        = q.dims.map fun d => (labelsOf coords d).length := by rw [List.map_map]; rfl
    rw [← hsh] at hidx ⊢
    obtain ⟨v, hv⟩ := Option.isSome_iff_exists.1 (pick_isSome _ _ hidx)
    have hlen : v.length = q.dims.length := by simpa using pick_length _ _ _ hv
    have hprod := product_ravel _ _ hidx
    rw [hv] at hprod
    obtain ⟨q', g1, g2⟩ := h3 _ _ hprod
    obtain ⟨q'', k1, k2, k3⟩ := hstep v (List.mem_of_getElem? hprod)
    rw [g2] at k1; cases k1
    have hzip : q.dims.zip v = q.dims.map fun d => (d, labelAt coords q.dims idx d) := by
      apply List.ext_getElem?
      intro j
      rw [List.getElem?_map]
      cases hj : q.dims[j]? with
      | none =>
        rw [List.getElem?_eq_none_iff] at hj
        rw [List.getElem?_eq_none (by simp; omega)]; rfl
      | some d =>
        obtain ⟨i, l, e1, e2, e3⟩ := pick_getElem? _ _ _ hv j (labelsOf coords d) (by simp [hj])
        rw [Option.map_some, labelAt_eq coords _ idx hn j d hj i e1 l e2,
          List.getElem?_zip_eq_some]
        exact ⟨hj, e3⟩
    refine ⟨q', g1, ?_, ?_⟩
    · rw [k2, hzip]
    · rw [k3]
      apply foldl_subst_text
      · rw [show (q.dims.zip v).map Prod.fst = q.dims from dkeys_zip _ _ hlen]; exact hn
      · intro d hd
        rw [hzip]
        exact List.mem_map.2 ⟨d, hsub d hd, rfl⟩

example : ∃ out, expandEq (E := List (Str × Str)) (fun e d v => e ++ [(d, v)]) exCoords
      { name := "Use of <dim:j> in <dim:i>", dims := ["i", "j"], eq := [] } = .ok out ∧
    out.map SymEquation.name = (["Use of u in a", "Use of v in a", "Use of w in a", "Use of u in b",
      "Use of v in b", "Use of w in b"] : List Str) := ⟨_, rfl, by decide⟩

/-- **C34 (negation for equations).**  An unpacked sympy equation over two or more dims records only
the label of its last dim in `dim_vals`. -/
theorem C34_equation_forgets_labels :
    ∃ out q', expandEq (E := Unit) (fun e _ _ => e) exCoords
        { name := "Use of <dim:j> in <dim:i>", dims := ["i", "j"], eq := () } = .ok out ∧
      out[0]? = some q' ∧ dget q'.dimVals "i".toList = none ∧
      dget q'.dimVals "j".toList = some "u".toList :=
  ⟨_, _, rfl, rfl, by decide, by decide⟩

/-- **C33 (negation for sympy).**  If the name lacks a marker, the unpacked equations share one name
and all but the last are dropped. -/
theorem C33_sympy_unmarked_equations_dropped :
    ∃ D, unpackEquationsSympy (E := List (Str × Str)) (fun e d v => e ++ [(d, v)]) exCoords
        [{ name := "Supply", dims := ["i"], eq := [] }] = .ok D ∧
      dkeys D = (["Supply"] : List Str) ∧ (dvalues D).map SymEquation.eq = [[("i".toList, "b".toList)]] :=
  ⟨_, rfl, by decide, by decide⟩

end Verif
