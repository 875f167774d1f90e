import Verif.Lemmas.Table

/-!
# C49: table headings
-/

namespace Verif

theorem headingPart_eq (l : Nat) (t : Col) : headingPart l t =
    if (levelOf l t).isEmpty then List.replicate t.columns.length none
    else match l with
      | 0 => paddedName t
      | k + 1 => (levelOf k t).flatMap fun parent =>
          if parent.children.isEmpty then [none] else parent.children.flatMap paddedName := by
  unfold headingPart
  dsimp only
  rw [nodesAt_family, leaves_family]
  cases l with
  | zero => simp [levelOf]
  | succ k => simp only [nodesAt_family]

/-- The columns the table shows are the data columns of the specification, from left to right, and the
specification's heading rows have that many cells. -/
theorem C49_columns (forest : List Col) :
    dataColumns forest = forest.flatMap Col.columns ∧
    ∀ l, (forest.flatMap (idealRow l)).length = (dataColumns forest).length := by
  have h : dataColumns forest = forest.flatMap Col.columns := by
    unfold dataColumns
    induction forest with
    | nil => rfl
    | cons t f ih =>
      rw [List.flatMap_cons, List.filter_append, List.map_append, ih, preorder_columns,
        List.flatMap_cons]
  refine ⟨h, fun l => ?_⟩
  rw [h, List.length_flatMap, List.length_flatMap]
  congr 1
  exact List.map_congr_left fun t _ => length_idealRow l t

/-- A leaf. -/
def leafCol (s : String) : Col := .mk s.toList []

example : dataColumns [.mk "A".toList [leafCol "b", leafCol "c"], leafCol "d"] =
    ["b".toList, "c".toList, "d".toList] := by decide

theorem filterMap_replicate_none (n : Nat) :
    (List.replicate n (none : Option Str)).filterMap id = [] := by
  induction n with
  | zero => rfl
  | succ n ih => rw [List.replicate_succ, List.filterMap_cons_none (by rfl), ih]

theorem filterMap_paddedName (cs : List Col) :
    (cs.flatMap paddedName).filterMap id = cs.map Col.name := by
  induction cs with
  | nil => rfl
  | cons c cs ih =>
    rw [List.flatMap_cons, List.filterMap_append, ih, paddedName,
      List.filterMap_cons_some (by rfl), filterMap_replicate_none]
    rfl

/-- **C49** (part that holds for every specification): row `l` of the headings lists the names of the
columns at level `l`, from left to right and each once. -/
theorem C49_names_partial (forest : List Col) (l : Nat) (row : List (Option Str))
    (h : (makeHeadings forest)[l]? = some row) :
    row.filterMap id = (forest.flatMap (levelOf l)).map Col.name := by
  have hpart : ∀ t, (headingPart l t).filterMap id = (levelOf l t).map Col.name := by
    intro t
    rw [headingPart_eq]
    by_cases he : (levelOf l t).isEmpty
    · rw [if_pos he, filterMap_replicate_none, List.isEmpty_iff.mp he]; rfl
    · rw [if_neg he]
      cases l with
      | zero =>
        have := filterMap_paddedName [t]
        rw [List.flatMap_cons, List.flatMap_nil, List.append_nil] at this
        exact this
      | succ k =>
        dsimp only
        rw [levelOf_succ]
        generalize levelOf k t = ps
        induction ps with
        | nil => rfl
        | cons p ps ih =>
          rw [List.flatMap_cons, List.flatMap_cons, List.filterMap_append, List.map_append, ih]
          congr 1
          by_cases hp : p.children.isEmpty
          · rw [if_pos hp, List.isEmpty_iff.mp hp]; rfl
          · rw [if_neg hp, filterMap_paddedName]
  unfold makeHeadings at h
  split at h
  · simp at h
  · rw [List.getElem?_map] at h
    cases hr : (List.range (maxLevel forest))[l]? with
    | none => rw [hr] at h; cases h
    | some k =>
      rw [hr] at h
      have hk : k = l := by
        have := List.getElem?_eq_some_iff.mp hr
        obtain ⟨h1, h2⟩ := this
        rw [List.getElem_range] at h2
        exact h2.symm
      subst hk
      simp only [Option.map_some, Option.some.injEq] at h
      subst h
      clear hr
      induction forest with
      | nil => rfl
      | cons t f ih =>
        rw [List.flatMap_cons, List.filterMap_append, hpart, List.flatMap_cons, List.map_append]
        congr 1
        by_cases hf : f.isEmpty
        · rw [List.isEmpty_iff.mp hf]; rfl
        · exact ih (by simpa using hf)

/-! ### Padding -/

theorem padding_leaf (t : Col) (h : t.children = []) : t.padding = 0 := by
  unfold Col.padding
  rw [desc_eq, nDesc_eq, h]
  rfl

theorem nDesc_leaf (t : Col) (h : t.children = []) : t.nDesc = 0 := by
  rw [nDesc_eq, h]; rfl

theorem sum_map_zero {β : Type} (l : List β) (f : β → Nat) (h : ∀ b ∈ l, f b = 0) : (l.map f).sum = 0 := by
  induction l with
  | nil => rfl
  | cons b l ih =>
    rw [List.map_cons, List.sum_cons, h b (by simp), ih fun c hc => h c (by simp [hc])]

theorem nDesc_two (t : Col) (h : DepthTwo t) : t.nDesc = t.children.length := by
  rw [nDesc_eq, sum_map_zero _ _ fun c hc => nDesc_leaf c (h c hc)]
  rfl

theorem columns_two (t : Col) (h : DepthTwo t) (hne : t.children ≠ []) :
    t.columns.length = t.children.length := by
  rw [columns_node t hne, List.length_flatMap]
  have : t.children.map (fun c => c.columns.length) = t.children.map fun _ => 1 :=
    List.map_congr_left fun c hc => by rw [columns_leaf c (h c hc)]; rfl
  rw [this]
  simp

/-- The padding of a column whose subcolumns have at most leaves. -/
theorem padding_three (t : Col) (h : DepthThree t) :
    t.padding = ((t.nDesc - 1 : Nat) : Int) -
      (t.children.map fun c => ((c.children.length - 1 : Nat) : Int)).sum := by
  unfold Col.padding
  congr 1
  rw [desc_eq, List.map_append, List.sum_append, List.map_map]
  have h1 : t.children.map ((fun d : Nat × Col => ((d.2.nDesc - 1 : Nat) : Int)) ∘ fun c => (0 + 1, c)) =
      t.children.map fun c => ((c.children.length - 1 : Nat) : Int) := by
    refine List.map_congr_left fun c hc => ?_
    show ((c.nDesc - 1 : Nat) : Int) = _
    rw [nDesc_two c (h c hc)]
  have h2 : ((t.children.flatMap (Col.desc (0 + 1))).map
      fun d => ((d.2.nDesc - 1 : Nat) : Int)).sum = 0 := by
    apply List.sum_eq_zero
    intro x hx
    obtain ⟨d, hd, rfl⟩ := List.mem_map.mp hx
    obtain ⟨c, hc, hdc⟩ := List.mem_flatMap.mp hd
    rw [desc_eq] at hdc
    rcases List.mem_append.mp hdc with hdc | hdc
    · obtain ⟨g, hg, rfl⟩ := List.mem_map.mp hdc
      dsimp only
      rw [nDesc_leaf g (h c hc g hg)]
      rfl
    · obtain ⟨g, hg, hdg⟩ := List.mem_flatMap.mp hdc
      rw [desc_eq, h c hc g hg] at hdg
      simp at hdg
  rw [h1, h2, add_zero]

theorem padding_two (t : Col) (h : DepthTwo t) : t.padding = ((t.columns.length - 1 : Nat) : Int) := by
  by_cases hne : t.children = []
  · rw [padding_leaf t hne, columns_leaf t hne]; rfl
  · rw [padding_three t fun c hc => by rw [h c hc]; simp, nDesc_two t h, columns_two t h hne]
    have : t.children.map (fun c => ((c.children.length - 1 : Nat) : Int)) =
        t.children.map fun _ => 0 :=
      List.map_congr_left fun c hc => by rw [h c hc]; rfl
    rw [this]
    simp

/-- The padding of a top column with three levels is right exactly when its subcolumns that have
subcolumns have two on average. -/
theorem padding_three_iff (t : Col) (h : DepthThree t) :
    t.padding.toNat = t.columns.length - 1 ↔ TwoOnAverage t := by
  by_cases hne : t.children = []
  · rw [padding_leaf t hne, columns_leaf t hne]
    unfold TwoOnAverage
    rw [hne]
    simp
  · have hcol : t.columns.length = (t.children.map fun c => c.columns.length).sum := by
      rw [columns_node t hne, List.length_flatMap]
    rw [padding_three t h, nDesc_eq, hcol]
    unfold TwoOnAverage
    have key : ∀ l : List Col, (∀ c ∈ l, DepthTwo c) →
        ∃ a b : Nat, -- columns with subcolumns, and the number of these subcolumns
          a = (l.filter fun c => !c.children.isEmpty).length ∧
          b = ((l.filter fun c => !c.children.isEmpty).map fun c => c.children.length).sum ∧
          (l.map Col.nDesc).sum = b ∧
          (l.map fun c => ((c.children.length - 1 : Nat) : Int)).sum = (b : Int) - a ∧
          (l.map fun c => c.columns.length).sum + a = l.length + b ∧ a ≤ l.length ∧ a ≤ b := by
      intro l
      induction l with
      | nil => intro _; exact ⟨0, 0, rfl, rfl, rfl, rfl, rfl, Nat.le_refl _, Nat.le_refl _⟩
      | cons c l ih =>
        intro hl
        obtain ⟨a, b, ha, hb, h1, h2, h3, h4, h5⟩ := ih fun d hd => hl d (by simp [hd])
        have hc := hl c (by simp)
        by_cases hce : c.children = []
        · refine ⟨a, b, ?_, ?_, ?_, ?_, ?_, ?_, h5⟩
          · rw [List.filter_cons_of_neg (by simp [hce])]; exact ha
          · rw [List.filter_cons_of_neg (by simp [hce])]; exact hb
          · rw [List.map_cons, List.sum_cons, h1, nDesc_leaf c hce, Nat.zero_add]
          · rw [List.map_cons, List.sum_cons, h2, hce]; simp
          · rw [List.map_cons, List.sum_cons, columns_leaf c hce, List.length_singleton,
              List.length_cons]
            omega
          · rw [List.length_cons]; omega
        · have hpos : 0 < c.children.length := List.length_pos_of_ne_nil hce
          have hf : (!c.children.isEmpty) = true := by simpa using hce
          refine ⟨a + 1, b + c.children.length, ?_, ?_, ?_, ?_, ?_, ?_, ?_⟩
          · rw [List.filter_cons, if_pos hf, List.length_cons, ha]
          · rw [List.filter_cons, if_pos hf, List.map_cons, List.sum_cons, hb, Nat.add_comm]
          · rw [List.map_cons, List.sum_cons, h1, nDesc_two c hc, Nat.add_comm]
          · rw [List.map_cons, List.sum_cons, h2]
            push_cast [Nat.cast_sub hpos]
            omega
          · rw [List.map_cons, List.sum_cons, columns_two c hc hce, List.length_cons]
            omega
          · rw [List.length_cons]; omega
          · omega
    obtain ⟨a, b, ha, hb, h1, h2, h3, h4, h5⟩ := key t.children h
    rw [← ha, ← hb, h1, h2]
    have hlen : 0 < t.children.length := List.length_pos_of_ne_nil hne
    omega

theorem idealRow_empty : ∀ (l : Nat) (t : Col), levelOf l t = [] →
    idealRow l t = List.replicate t.columns.length none
  | 0, t, h => by simp [levelOf] at h
  | l + 1, .mk n [], _ => by simp [idealRow, Col.columns]
  | l + 1, .mk n (c :: cs), h => by
    rw [columns_node _ (by simp [Col.children]), idealRow]
    simp only [List.isEmpty_cons, Bool.false_eq_true, if_false, Col.children]
    rw [levelOf, List.flatMap_eq_nil_iff] at h
    have hh : ∀ ds : List Col, (∀ d ∈ ds, levelOf l d = []) →
        ds.flatMap (idealRow l) = List.replicate (ds.flatMap Col.columns).length none := by
      intro ds
      induction ds with
      | nil => intro _; rfl
      | cons d ds ih =>
        intro hd
        rw [List.flatMap_cons, List.flatMap_cons, List.length_append, List.replicate_add,
          ih fun e he => hd e (by simp [he]), idealRow_empty l d (hd d (by simp))]
    exact hh _ h

theorem paddedName_eq_ideal (t : Col) (h : t.padding.toNat = t.columns.length - 1) :
    paddedName t = idealRow 0 t := by
  unfold paddedName idealRow
  rw [h]

theorem flatMap_congr' {β γ : Type} (l : List β) (f g : β → List γ) (h : ∀ b ∈ l, f b = g b) :
    l.flatMap f = l.flatMap g := by
  induction l with
  | nil => rfl
  | cons b l ih =>
    rw [List.flatMap_cons, List.flatMap_cons, h b (by simp), ih fun c hc => h c (by simp [hc])]

theorem headingPart_below (t : Col) (h : DepthThree t) (l : Nat) :
    headingPart (l + 1) t = idealRow (l + 1) t := by
  rw [headingPart_eq]
  by_cases he : (levelOf (l + 1) t).isEmpty
  · rw [if_pos he, idealRow_empty _ _ (List.isEmpty_iff.mp he)]
  · rw [if_neg he]
    dsimp only
    have hchildren : ∀ c ∈ t.children, (if c.children.isEmpty then [none]
        else c.children.flatMap paddedName) = idealRow 1 c := by
      intro c hc
      obtain ⟨m, gs⟩ := c
      show (if gs.isEmpty then [none] else gs.flatMap paddedName) =
        if gs.isEmpty then [none] else gs.flatMap (idealRow 0)
      split
      · rfl
      · refine flatMap_congr' _ _ _ fun g hg => paddedName_eq_ideal g ?_
        have hgl : g.children = [] := h (.mk m gs) hc g hg
        rw [padding_leaf g hgl, columns_leaf g hgl]; rfl
    obtain ⟨n, cs⟩ := t
    cases l with
    | zero =>
      show [Col.mk n cs].flatMap (fun parent => if parent.children.isEmpty then [none] else
        parent.children.flatMap paddedName) = if cs.isEmpty then [none] else cs.flatMap (idealRow 0)
      rw [List.flatMap_cons, List.flatMap_nil, List.append_nil]
      show (if cs.isEmpty then [none] else cs.flatMap paddedName) = _
      split
      · rfl
      · refine flatMap_congr' _ _ _ fun c hc => paddedName_eq_ideal c ?_
        rw [padding_two c (h c hc)]
        simp
    | succ l =>
      cases l with
      | zero =>
        have hne : cs.isEmpty = false := by
          rw [← Bool.not_eq_true]
          intro hcs
          apply he
          rw [List.isEmpty_iff.mp hcs]
          rfl
        show (cs.flatMap (levelOf 0)).flatMap _ = if cs.isEmpty then [none] else cs.flatMap (idealRow 1)
        rw [levelOf_one, hne]
        simp only [Bool.false_eq_true, if_false]
        exact flatMap_congr' _ _ _ hchildren
      | succ l =>
        exfalso
        apply he
        rw [List.isEmpty_iff]
        show cs.flatMap (levelOf (l + 2)) = []
        rw [List.flatMap_eq_nil_iff]
        intro c hc
        obtain ⟨m, gs⟩ := c
        show gs.flatMap (levelOf (l + 1)) = []
        rw [List.flatMap_eq_nil_iff]
        intro g hg
        have hgl : g.children = [] := h (.mk m gs) hc g hg
        obtain ⟨k, hs⟩ := g
        simp only [Col.children] at hgl
        subst hgl
        rfl

theorem padded_inj (a b : Nat) (x y : List (Option Str)) (hx : ∀ z ∈ x.head?, z ≠ none)
    (hy : ∀ z ∈ y.head?, z ≠ none)
    (h : List.replicate a none ++ x = List.replicate b none ++ y) : a = b ∧ x = y := by
  induction a generalizing b with
  | zero =>
    cases b with
    | zero => exact ⟨rfl, by simpa using h⟩
    | succ b =>
      rw [List.replicate_succ] at h
      simp only [List.replicate_zero, List.nil_append, List.cons_append] at h
      rw [h] at hx
      simp at hx
  | succ a ih =>
    cases b with
    | zero =>
      rw [List.replicate_succ] at h
      simp only [List.replicate_zero, List.nil_append, List.cons_append] at h
      rw [← h] at hy
      simp at hy
    | succ b =>
      rw [List.replicate_succ, List.replicate_succ, List.cons_append, List.cons_append,
        List.cons.injEq] at h
      obtain ⟨h1, h2⟩ := ih b h.2
      exact ⟨by rw [h1], h2⟩

theorem row_zero_iff (forest : List Col) :
    forest.flatMap paddedName = forest.flatMap (idealRow 0) ↔
      ∀ t ∈ forest, t.padding.toNat = t.columns.length - 1 := by
  constructor
  · intro h
    induction forest with
    | nil => simp
    | cons t f ih =>
      rw [List.flatMap_cons, List.flatMap_cons] at h
      simp only [paddedName, idealRow, List.cons_append, List.cons.injEq, true_and] at h
      have hh : ∀ (p : Col → Nat) (f : List Col), ∀ z ∈ (f.flatMap fun t =>
          some t.name :: List.replicate (p t) none).head?, z ≠ none := by
        intro p f
        cases f with
        | nil => simp
        | cons c f => simp
      obtain ⟨h1, h2⟩ := padded_inj _ _ _ _ (hh (fun t => t.padding.toNat) f)
        (hh (fun t => t.columns.length - 1) f) h
      intro s hs
      rcases List.mem_cons.mp hs with rfl | hs
      · exact h1
      · exact ih h2 s hs
  · intro h
    exact flatMap_congr' _ _ _ fun t ht => paddedName_eq_ideal t (h t ht)

/-- **C49** (partial).  For specifications with at most three levels the headings are right **exactly
when**, for every top column, those of its subcolumns that have subcolumns have two of them on average.
(In general the claim is false, see the counterexamples; what is missing is more than three levels.) -/
theorem C49_three_levels_partial (forest : List Col) (hne : forest ≠ [])
    (h : ∀ t ∈ forest, DepthThree t) :
    makeHeadings forest = (List.range (maxLevel forest)).map (fun l => forest.flatMap (idealRow l)) ↔
      ∀ t ∈ forest, TwoOnAverage t := by
  have h0 : forest.flatMap (headingPart 0) = forest.flatMap paddedName :=
    flatMap_congr' _ _ _ fun t _ => by rw [headingPart_eq]; simp [levelOf]
  have hs : ∀ l, forest.flatMap (headingPart (l + 1)) = forest.flatMap (idealRow (l + 1)) := fun l =>
    flatMap_congr' _ _ _ fun t ht => headingPart_below t (h t ht) l
  have hiff : (∀ t ∈ forest, TwoOnAverage t) ↔
      forest.flatMap (headingPart 0) = forest.flatMap (idealRow 0) := by
    rw [h0, row_zero_iff]
    constructor
    · exact fun hh t ht => (padding_three_iff t (h t ht)).mpr (hh t ht)
    · exact fun hh t ht => (padding_three_iff t (h t ht)).mp (hh t ht)
  rw [hiff]
  have hmk : makeHeadings forest =
      (List.range (maxLevel forest)).map fun l => forest.flatMap (headingPart l) := by
    unfold makeHeadings
    rw [if_neg (by simpa using hne)]
  rw [hmk]
  constructor
  · intro he
    have hpos : 0 ∈ List.range (maxLevel forest) := List.mem_range.mpr (Nat.succ_pos _)
    exact List.map_inj_left.mp he 0 hpos
  · intro he
    refine List.map_congr_left fun l _ => ?_
    cases l with
    | zero => exact he
    | succ l => exact hs l

example : (∀ t ∈ [Col.mk "A".toList [.mk "B".toList [leafCol "b1", leafCol "b2"], leafCol "c"], leafCol "d"],
    DepthThree t) ∧
    ∀ t ∈ [Col.mk "A".toList [.mk "B".toList [leafCol "b1", leafCol "b2"], leafCol "c"], leafCol "d"],
    TwoOnAverage t := by
  constructor
  · intro t ht
    simp only [List.mem_cons, List.not_mem_nil, or_false] at ht
    rcases ht with rfl | rfl <;> intro c hc g hg
    · simp only [Col.children, List.mem_cons, List.not_mem_nil, or_false] at hc
      rcases hc with rfl | rfl
      · simp only [Col.children, List.mem_cons, List.not_mem_nil, or_false] at hg
        rcases hg with rfl | rfl <;> rfl
      · simp [leafCol, Col.children] at hg
    · simp [leafCol, Col.children] at hc
  · intro t ht
    simp only [List.mem_cons, List.not_mem_nil, or_false] at ht
    rcases ht with rfl | rfl <;> (unfold TwoOnAverage; decide)

/-- **C49** (partial), two levels: the headings are always right. -/
theorem C49_two_levels_partial (forest : List Col) (hne : forest ≠ []) (h : ∀ t ∈ forest, DepthTwo t) :
    makeHeadings forest =
      (List.range (maxLevel forest)).map (fun l => forest.flatMap (idealRow l)) := by
  refine (C49_three_levels_partial forest hne ?_).mpr ?_
  · intro t ht c hc
    rw [h t ht c hc]; simp
  · intro t ht
    unfold TwoOnAverage
    have : t.children.filter (fun c => !c.children.isEmpty) = [] := by
      rw [List.filter_eq_nil_iff]
      intro c hc
      rw [h t ht c hc]
      simp
    rw [this]
    rfl

example : makeHeadings [.mk "A".toList [leafCol "b", leafCol "c"], leafCol "d"] =
    [[some "A".toList, none, some "d".toList], [some "b".toList, some "c".toList, none]] := by decide

/-- **C49 is false**: a chain of three columns has one data column, but the first heading row has two
cells. -/
theorem C49_chain_counterexample :
    dataColumns [.mk "A".toList [.mk "B".toList [leafCol "c"]]] = ["c".toList] ∧
    (makeHeadings [.mk "A".toList [.mk "B".toList [leafCol "c"]]])[0]? = some [some "A".toList, none] := by
  constructor <;> decide

/-- **C49 is false**: two groups of three columns; the first heading row has four cells instead of six. -/
theorem C49_wide_counterexample :
    let spec := [Col.mk "A".toList [.mk "B".toList [leafCol "1", leafCol "2", leafCol "3"],
      .mk "C".toList [leafCol "4", leafCol "5", leafCol "6"]]]
    (dataColumns spec).length = 6 ∧
    (makeHeadings spec)[0]? = some [some "A".toList, none, none, none] := by
  constructor <;> decide

/-- **C49 is false** below the third level also for the lower rows: under a data column that ends two
levels higher no empty cell is written. -/
theorem C49_deep_counterexample :
    let spec := [Col.mk "A".toList [leafCol "x", .mk "B".toList [.mk "C".toList [leafCol "y"]]]]
    dataColumns spec = ["x".toList, "y".toList] ∧ (makeHeadings spec)[3]? = some [some "y".toList] := by
  constructor <;> decide

theorem levelOf_succ_ne (l : Nat) (t : Col) (h : levelOf (l + 1) t ≠ []) : levelOf l t ≠ [] := by
  induction l generalizing t with
  | zero => simp [levelOf]
  | succ l ih =>
    cases t with
    | mk n cs =>
      rw [levelOf] at h ⊢
      intro hn
      apply h
      rw [List.flatMap_eq_nil_iff] at hn ⊢
      intro c hc
      by_contra hcn
      exact ih c hcn (hn c hc)

theorem levelOf_le (l k : Nat) (hk : k ≤ l) (t : Col) (h : levelOf l t ≠ []) : levelOf k t ≠ [] := by
  induction l with
  | zero => have : k = 0 := by omega
            subst this; exact h
  | succ l ih =>
    by_cases he : k = l + 1
    · subst he; exact h
    · exact ih (by omega) (levelOf_succ_ne l t h)

theorem foldl_max_ge (l : List Nat) (a k : Nat) : k ≤ l.foldl max a ↔ k ≤ a ∨ ∃ x ∈ l, k ≤ x := by
  induction l generalizing a with
  | nil => simp
  | cons b l ih =>
    rw [List.foldl_cons, ih]
    simp only [List.mem_cons, exists_eq_or_imp]
    rw [le_max_iff, or_assoc]

/-- **C49** (part that holds for every specification): there are exactly as many heading rows as the
specification has levels. -/
theorem C49_rows (forest : List Col) (l : Nat) :
    l < (makeHeadings forest).length ↔ ∃ t ∈ forest, levelOf l t ≠ [] := by
  unfold makeHeadings
  by_cases hf : forest = []
  · subst hf; simp
  rw [if_neg (by simpa using hf), List.length_map, List.length_range]
  unfold maxLevel
  rw [Nat.lt_succ_iff, foldl_max_ge]
  constructor
  · rintro (h | ⟨x, hx, hlx⟩)
    · obtain ⟨t, ht⟩ := List.exists_mem_of_ne_nil _ hf
      have : l = 0 := by omega
      subst this
      exact ⟨t, ht, by simp [levelOf]⟩
    · obtain ⟨t, ht, hx⟩ := List.mem_flatMap.1 hx
      obtain ⟨p, hp, rfl⟩ := List.mem_map.1 hx
      refine ⟨t, ht, levelOf_le p.1 l hlx t ?_⟩
      rw [← nodesAt_family]
      apply List.ne_nil_of_mem (a := p.2)
      exact List.mem_map.2 ⟨p, List.mem_filter.2 ⟨hp, by simp⟩, rfl⟩
  · rintro ⟨t, ht, hne⟩
    rw [← nodesAt_family] at hne
    obtain ⟨c, hc⟩ := List.exists_mem_of_ne_nil _ hne
    obtain ⟨p, hp, rfl⟩ := List.mem_map.1 hc
    obtain ⟨hp, hpl⟩ := List.mem_filter.1 hp
    have : p.1 = l := by simpa using hpl
    exact Or.inr ⟨l, List.mem_flatMap.2 ⟨t, ht, List.mem_map.2 ⟨p, hp, this⟩⟩, le_rfl⟩

example : levelOf 1 (.mk "A".toList [leafCol "b"]) ≠ [] ∧ levelOf 2 (.mk "A".toList [leafCol "b"]) = [] :=
  ⟨by simp [levelOf], by simp [levelOf, leafCol]⟩

end Verif
