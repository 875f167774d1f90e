import Verif.Model.TableBody
import Verif.Props.Table

/-!
# C88: the cells of a displayed table
-/

namespace Verif

/-! ## What the table should be -/

mutual
/-- The data columns of a dictionary of columns, from left to right. -/
def DCol.dataCols : DCol → List (List Cell)
  | .data _ cells => [cells]
  | .group _ cs => DCol.dataColsL cs
/-- The data columns of several columns. -/
def DCol.dataColsL : List DCol → List (List Cell)
  | [] => []
  | c :: cs => c.dataCols ++ DCol.dataColsL cs
end

mutual
/-- No dictionary of subcolumns is empty. -/
def DCol.NoEmpty : DCol → Prop
  | .data _ _ => True
  | .group _ cs => cs ≠ [] ∧ DCol.NoEmptyL cs
/-- No dictionary of subcolumns is empty. -/
def DCol.NoEmptyL : List DCol → Prop
  | [] => True
  | c :: cs => c.NoEmpty ∧ DCol.NoEmptyL cs
end

/-- A word made of digits. -/
def AllDigits (s : Str) : Prop := s ≠ [] ∧ ∀ c ∈ s, '0' ≤ c ∧ c ≤ '9'

theorem isNumericStr_iff (s : Str) : isNumericStr s = true ↔ AllDigits s := by
  unfold isNumericStr AllDigits
  have hd : ∀ c : Char, c.isDigit = true ↔ '0' ≤ c ∧ c ≤ '9' := by
    intro c
    unfold Char.isDigit
    simp only [Bool.and_eq_true, decide_eq_true_eq]
    exact Iff.rfl
  simp [hd, List.all_eq_true]

/-- What is shown for a datum: numbers as they are, words as text, formulas and objects in LaTeX. -/
def ShowsAs : Cell → ShownCell → Prop
  | .object l, t => t = .text l
  | .number x, t => t = .number x
  | .text s, t => t = .text s ∧ AllDigits s ∨ t = .text ("\\text{".toList ++ s ++ "}".toList) ∧ ¬ AllDigits s
  | .sympy l, t => t = .text l
  | .other, _ => False

/-! ## Lemmas -/

theorem parseData_shows (c : Cell) (h : c ≠ .other) : ∃ t, parseData c = .ok t ∧ ShowsAs c t := by
  cases c with
  | object l => exact ⟨_, rfl, rfl⟩
  | number x => exact ⟨_, rfl, rfl⟩
  | text s =>
    by_cases hs : isNumericStr s = true
    · exact ⟨.text s, by simp [parseData, hs], .inl ⟨rfl, (isNumericStr_iff s).1 hs⟩⟩
    · exact ⟨.text ("\\text{".toList ++ s ++ "}".toList), by simp [parseData, hs],
        .inr ⟨rfl, fun h => hs ((isNumericStr_iff s).2 h)⟩⟩
  | sympy l => exact ⟨_, rfl, rfl⟩
  | other => exact absurd rfl h

mutual
theorem leafData_eq : ∀ c : DCol, c.NoEmpty → c.leafData = c.dataCols.map some
  | .data _ _, _ => rfl
  | .group _ [], h => absurd rfl h.1
  | .group _ (c :: cs), h => by
    rw [DCol.leafData, DCol.dataCols, DCol.dataColsL, List.map_append, leafData_eq c h.2.1, leafDataL_eq cs h.2.2]
theorem leafDataL_eq : ∀ cs : List DCol, DCol.NoEmptyL cs → DCol.leafDataL cs = (DCol.dataColsL cs).map some
  | [], _ => rfl
  | c :: cs, h => by
    rw [DCol.leafDataL, DCol.dataColsL, List.map_append, leafData_eq c h.1, leafDataL_eq cs h.2]
end

mutual
theorem columns_toCol : ∀ c : DCol, c.NoEmpty → c.toCol.columns.length = c.dataCols.length
  | .data _ _, _ => rfl
  | .group _ [], h => absurd rfl h.1
  | .group _ (c :: cs), h => by
    rw [DCol.toCol, DCol.toColL, Col.columns, DCol.dataCols, DCol.dataColsL, List.length_append, List.length_append,
      columns_toCol c h.2.1, columns_toColL cs h.2.2]
theorem columns_toColL : ∀ cs : List DCol, DCol.NoEmptyL cs →
    (Col.columnsL (DCol.toColL cs)).length = (DCol.dataColsL cs).length
  | [], _ => rfl
  | c :: cs, h => by
    rw [DCol.toColL, Col.columnsL, DCol.dataColsL, List.length_append, List.length_append, columns_toCol c h.1,
      columns_toColL cs h.2]
end

theorem mapM_some_ok (ls : List (List Cell)) :
    (ls.map some).mapM lenOk = .ok ls := by
  induction ls with
  | nil => rfl
  | cons l ls ih => rw [List.map_cons, List.mapM_cons, ih]; rfl

theorem mapM_forall₂ {α β : Type} (f : α → Res β) (R : α → β → Prop) (xs : List α)
    (h : ∀ x ∈ xs, ∃ y, f x = .ok y ∧ R x y) : ∃ ys, xs.mapM f = .ok ys ∧ List.Forall₂ R xs ys := by
  induction xs with
  | nil => exact ⟨[], rfl, .nil⟩
  | cons x xs ih =>
    obtain ⟨y, hy, hr⟩ := h x (by simp)
    obtain ⟨ys, hys, hrs⟩ := ih fun z hz => h z (by simp [hz])
    refine ⟨y :: ys, ?_, .cons hr hrs⟩
    rw [List.mapM_cons, hy, hys]
    rfl

/-- The heading rows are as wide as the table. -/
def HeadingsFit (forest : List DCol) : Prop :=
  ∀ row ∈ makeHeadings (DCol.toColL forest), row.length = (DCol.dataColsL forest).length

/-- **C88 (cells, `_partial`: the headings fit).**  If all columns have the same length, hold only data that can be
shown and the heading rows have the right width (C49), the table consists of the heading rows and one row for every
datum of a column, and the cell in row `r` and column `c` shows the datum `r` of the data column `c`. -/
theorem C88_cells_partial (forest : List DCol) (n : Nat) (hcols : DCol.dataColsL forest ≠ [])
    (hne : DCol.NoEmptyL forest) (hlen : ∀ col ∈ DCol.dataColsL forest, col.length = n)
    (hshow : ∀ col ∈ DCol.dataColsL forest, ∀ c ∈ col, c ≠ .other) (hhead : HeadingsFit forest) :
    ∃ rows, makeTable forest =
        .ok ((makeHeadings (DCol.toColL forest)).map (fun row => row.map headingCell) ++ rows) ∧
      rows.length = n ∧
      ∀ r < n, ∃ row, rows[r]? = some row ∧ row.length = (DCol.dataColsL forest).length ∧
        ∀ (c : Nat) (col : List Cell), (DCol.dataColsL forest)[c]? = some col →
          ∃ x t, col[r]? = some x ∧ row[c]? = some t ∧ ShowsAs x t := by
  obtain ⟨first, rest, hfr⟩ := List.exists_cons_of_ne_nil hcols
  have hrow : ∀ r ∈ List.range n, ∃ row, dataRow (DCol.dataColsL forest) r = .ok row ∧
      List.Forall₂ (fun (col : List Cell) t => ∃ x, col[r]? = some x ∧ ShowsAs x t) (DCol.dataColsL forest) row := by
    intro r hr
    rw [List.mem_range] at hr
    unfold dataRow
    refine mapM_forall₂ _ _ _ fun col hcol => ?_
    have hr' : r < col.length := by rw [hlen col hcol]; exact hr
    obtain ⟨t, h1, h2⟩ := parseData_shows col[r] (hshow col hcol _ (List.getElem_mem hr'))
    refine ⟨t, ?_, col[r], List.getElem?_eq_getElem hr', h2⟩
    rw [List.getElem?_eq_getElem hr']
    exact h1
  obtain ⟨rows, hrows, hall⟩ := mapM_forall₂ (dataRow (DCol.dataColsL forest)) _ (List.range n) hrow
  have hlr : rows.length = n := by rw [← hall.length_eq, List.length_range]
  have hget : ∀ r < n, ∃ row, rows[r]? = some row ∧
      List.Forall₂ (fun (col : List Cell) t => ∃ x, col[r]? = some x ∧ ShowsAs x t) (DCol.dataColsL forest) row := by
    intro r hr
    have h1 : r < (List.range n).length := by rw [List.length_range]; exact hr
    have h2 : r < rows.length := by rw [hlr]; exact hr
    have := hall.get h1 h2
    simp only [List.get_eq_getElem, List.getElem_range] at this
    exact ⟨_, List.getElem?_eq_getElem h2, this⟩
  have hfl : first.length = n := hlen first (by rw [hfr]; simp)
  refine ⟨rows, ?_, hlr, ?_⟩
  · unfold makeTable
    dsimp only
    rw [leafDataL_eq forest hne, mapM_some_ok, hfr]
    dsimp only
    rw [← hfr, if_neg, hfl, hrows]
    · dsimp only
      rw [if_pos]
      rw [List.all_eq_true]
      intro row hrow'
      rcases List.mem_append.1 hrow' with h | h
      · obtain ⟨hd, hhd, rfl⟩ := List.mem_map.1 h
        simp [hhead hd hhd]
      · obtain ⟨r, hr, rfl⟩ := List.getElem_of_mem h
        obtain ⟨row, h1, h2⟩ := hget r (by rw [← hlr]; exact hr)
        rw [List.getElem?_eq_getElem hr] at h1
        obtain rfl := Option.some.inj h1
        simp [h2.length_eq]
    · simp only [Bool.not_eq_true', Bool.not_eq_false]
      rw [List.all_eq_true]
      intro col hcol
      simp [hlen col hcol, hfl]
  · intro r hr
    obtain ⟨row, h1, h2⟩ := hget r hr
    refine ⟨row, h1, h2.length_eq.symm, ?_⟩
    intro c col hc
    obtain ⟨hlt, rfl⟩ := List.getElem?_eq_some_iff.1 hc
    have hlt' : c < row.length := by rw [← h2.length_eq]; exact hlt
    obtain ⟨x, hx, ht⟩ := h2.get hlt hlt'
    exact ⟨x, _, hx, List.getElem?_eq_getElem hlt', ht⟩

theorem mem_toColL (cs : List DCol) : DCol.toColL cs = cs.map DCol.toCol := by
  induction cs with
  | nil => rfl
  | cons c cs ih => rw [DCol.toColL, ih, List.map_cons]

theorem columnsL_flatMap (cs : List Col) : Col.columnsL cs = cs.flatMap Col.columns := columnsL_eq cs

/-- The headings fit for dictionaries of columns with at most one level of subcolumns, such as those that
`summary` and `equation_table` make. -/
theorem C88_two_levels_fit (forest : List DCol) (hf : forest ≠ []) (hne : DCol.NoEmptyL forest)
    (h : ∀ c ∈ forest, DepthTwo c.toCol) : HeadingsFit forest := by
  have hne' : DCol.toColL forest ≠ [] := by rw [mem_toColL]; simpa using hf
  intro row hrow
  rw [C49_two_levels_partial _ hne' (by rw [mem_toColL]; simpa using h)] at hrow
  obtain ⟨l, -, rfl⟩ := List.mem_map.1 hrow
  rw [(C49_columns (DCol.toColL forest)).2 l, (C49_columns (DCol.toColL forest)).1, ← columnsL_eq,
    columns_toColL forest hne]

/-- **C88 (refusals).**  Columns of different lengths are refused with `AssertionError`, data of another kind, such as
arrays, with `ValueError`. -/
theorem C88_refused (forest : List DCol) (hne : DCol.NoEmptyL forest) :
    ((∃ a ∈ DCol.dataColsL forest, ∃ b ∈ DCol.dataColsL forest, a.length ≠ b.length) →
      makeTable forest = .error .assertion) ∧
    (∀ n, (∀ col ∈ DCol.dataColsL forest, col.length = n) →
      (∃ col ∈ DCol.dataColsL forest, Cell.other ∈ col) → makeTable forest = .error .valueError) := by
  constructor
  · rintro ⟨a, ha, b, hb, hab⟩
    unfold makeTable
    dsimp only
    rw [leafDataL_eq forest hne, mapM_some_ok]
    match hfr : DCol.dataColsL forest with
    | [] => rw [hfr] at ha; simp at ha
    | first :: rest =>
      dsimp only
      rw [if_pos]
      rw [Bool.not_eq_true', ← Bool.not_eq_true, List.all_eq_true]
      intro h
      rw [hfr] at ha hb
      have h1 := h a ha
      have h2 := h b hb
      simp only [beq_iff_eq] at h1 h2
      exact hab (h1.trans h2.symm)
  · rintro n hlen ⟨col, hcol, hother⟩
    have hrowErr : ∀ r, (dataRow (DCol.dataColsL forest) r = .error .valueError) ∨
        ((∃ row, dataRow (DCol.dataColsL forest) r = .ok row) ∧
          ∀ c ∈ DCol.dataColsL forest, c[r]? ≠ some .other) ∨ n ≤ r := by
      intro r
      by_cases hr : n ≤ r
      · exact .inr (.inr hr)
      have hlt : ∀ c ∈ DCol.dataColsL forest, r < c.length := fun c hc => by rw [hlen c hc]; omega
      clear hcol hother
      unfold dataRow
      revert hlt
      generalize DCol.dataColsL forest = cols
      intro hlt
      induction cols with
      | nil => exact .inr (.inl ⟨⟨[], rfl⟩, by simp⟩)
      | cons c cs ih =>
        have hc := hlt c (by simp)
        rw [List.mapM_cons, List.getElem?_eq_getElem hc]
        dsimp only
        by_cases ho : c[r] = .other
        · left; rw [ho]; rfl
        · obtain ⟨t, ht, -⟩ := parseData_shows _ ho
          rw [ht]
          rcases ih (fun d hd => hlt d (by simp [hd])) with h | ⟨⟨row, h⟩, h'⟩ | h
          · left; simp only [bind, Except.bind]; rw [h]
          · right; left
            refine ⟨⟨t :: row, by simp only [bind, Except.bind]; rw [h]; rfl⟩, ?_⟩
            intro d hd
            rcases List.mem_cons.1 hd with rfl | hd
            · rw [List.getElem?_eq_getElem hc]; simpa using ho
            · exact h' d hd
          · exact .inr (.inr h)
    have hrows : (List.range n).mapM (dataRow (DCol.dataColsL forest)) = .error .valueError := by
      obtain ⟨r, hr, hget⟩ := List.getElem_of_mem hother
      have hrn : r ∈ List.range n := by rw [List.mem_range, ← hlen col hcol]; exact hr
      have hbad : dataRow (DCol.dataColsL forest) r = .error .valueError := by
        rcases hrowErr r with h | ⟨-, h⟩ | h
        · exact h
        · exact absurd (by rw [List.getElem?_eq_getElem hr, hget]) (h col hcol)
        · have := List.mem_range.1 hrn; omega
      have hin : ∀ s ∈ List.range n, s < n := fun s hs => List.mem_range.1 hs
      clear hget
      revert hrn hin
      generalize List.range n = rs
      intro hrn hin
      induction rs with
      | nil => simp at hrn
      | cons s rs ih =>
        rw [List.mapM_cons]
        rcases hrowErr s with h | ⟨⟨row, h⟩, -⟩ | h
        · rw [h]; rfl
        · rw [h]
          rcases List.mem_cons.1 hrn with rfl | hrn
          · rw [hbad] at h; cases h
          · simp only [bind, Except.bind]
            rw [ih hrn fun q hq => hin q (by simp [hq])]
        · have := hin s (by simp); omega
    unfold makeTable
    dsimp only
    rw [leafDataL_eq forest hne, mapM_some_ok]
    match hfr : DCol.dataColsL forest with
    | [] => rw [hfr] at hcol; simp at hcol
    | first :: rest =>
      dsimp only
      have hfl : first.length = n := hlen first (by rw [hfr]; simp)
      rw [← hfr, if_neg, hfl, hrows]
      simp only [Bool.not_eq_true', Bool.not_eq_false]
      rw [List.all_eq_true]
      intro c hc
      simp [hlen c hc, hfl]

/-- **C88 (`equation_table`).**  On the sympy back-ends the table of the equations has one heading row and then, for
every equation in the order of the model, its number counted from one, its name without the dim markers, and its
formula. -/
theorem C88_equation_table (eqs : List ShownEquation) (display : Bool) :
    ∃ rows, equationTable true eqs display =
        .ok ([.text "\\textbf{}".toList, .text "\\textbf{Name}".toList, .text "\\textbf{Equation}".toList] :: rows) ∧
      rows.length = eqs.length ∧
      ∀ (i : Nat) (e : ShownEquation), eqs[i]? = some e →
        ∃ name, ShowsAs (.text (stripFlags e.name)) name ∧
          rows[i]? = some [.number ((i : Rat) + 1), name, .text e.latex] := by
  let forest : List DCol := [.data [] (eqs.zipIdx.map fun p => .number ((p.2 : Rat) + 1)),
     .data "Name".toList (eqs.map fun e => .text (stripFlags e.name)),
     .data "Equation".toList (eqs.map fun e => .sympy e.latex)]
  have hcols : DCol.dataColsL forest = [eqs.zipIdx.map fun p => .number ((p.2 : Rat) + 1),
      eqs.map fun e => .text (stripFlags e.name), eqs.map fun e => .sympy e.latex] := rfl
  have hne : DCol.NoEmptyL forest := ⟨trivial, trivial, trivial, trivial⟩
  have hfit : HeadingsFit forest := by
    refine C88_two_levels_fit forest (by simp [forest]) hne ?_
    intro c hc
    simp only [forest, List.mem_cons, List.not_mem_nil, or_false] at hc
    rcases hc with rfl | rfl | rfl <;> (intro d hd; simp [DCol.toCol, Col.children] at hd)
  obtain ⟨rows, h1, h2, h3⟩ := C88_cells_partial forest eqs.length (by rw [hcols]; simp) hne
    (by rw [hcols]; simp) (by rw [hcols]; simp; rintro c x y - rfl; simp) hfit
  have hhead : makeHeadings (DCol.toColL forest) = [[some [], some "Name".toList, some "Equation".toList]] := by
    change makeHeadings [.mk [] [], .mk "Name".toList [], .mk "Equation".toList []] = _
    decide
  rw [hhead] at h1
  refine ⟨rows, ?_, h2, ?_⟩
  · unfold equationTable
    rw [if_neg (by simp)]
    exact h1
  · intro i e hi
    obtain ⟨hlt, rfl⟩ := List.getElem?_eq_some_iff.1 hi
    obtain ⟨row, hrow, hl, hcell⟩ := h3 i hlt
    rw [hcols] at hcell hl
    obtain ⟨x0, t0, hx0, ht0, hs0⟩ := hcell 0 _ rfl
    obtain ⟨x1, t1, hx1, ht1, hs1⟩ := hcell 1 _ rfl
    obtain ⟨x2, t2, hx2, ht2, hs2⟩ := hcell 2 _ rfl
    simp only [List.getElem?_map, List.getElem?_zipIdx, List.getElem?_eq_getElem hlt, Option.map_some, Nat.zero_add,
      Option.some.injEq] at hx0 hx1 hx2
    subst hx0 hx1 hx2
    refine ⟨t1, hs1, ?_⟩
    rw [hrow]
    match row, hl with
    | [a, b, c], _ =>
      simp only [List.getElem?_cons_zero, List.getElem?_cons_succ, Option.some.injEq] at ht0 ht1 ht2
      subst ht0 ht1 ht2
      simp only [ShowsAs] at hs0 hs2
      rw [hs0, hs2]

/-- On the pytensor back-end `equation_table` raises `AttributeError` for every model with an equation. -/
theorem C88_equation_table_counterexample (e : ShownEquation) (eqs : List ShownEquation) (display : Bool) :
    equationTable false (e :: eqs) display = .error .attributeError := rfl

/-- C88 is false of three levels of columns: the headings of a single chain of columns have two cells for one data
column (`C49_chain_counterexample`), and the table is refused. -/
theorem C88_three_levels_counterexample :
    makeTable [.group "A".toList [.group "B".toList [.data "c".toList [.number 1]]]] = .error .valueError := by
  decide +kernel

/-- The table of one variable with the values of one result: two heading rows and a row. -/
example : makeTable [.data "Symbol".toList [.object "x".toList], .data "Description".toList [.text "Output".toList],
      .group "base".toList [.data "Initial".toList [.number 1], .data "Final".toList [.number 2]]] =
    .ok [[.text "\\textbf{Symbol}".toList, .text "\\textbf{Description}".toList, .text "\\textbf{base}".toList,
        .text []],
      [.text [], .text [], .text "\\textbf{Initial}".toList, .text "\\textbf{Final}".toList],
      [.text "x".toList, .text "\\text{Output}".toList, .number 1, .number 2]] := by
  decide +kernel

/-- **C88 (empty columns).**  A dictionary of subcolumns without subcolumns, anywhere among columns at the top,
is refused with `TypeError`. -/
theorem C88_empty_group (before after : List DCol) (name : Str) :
    (∀ c ∈ before, ∃ n cells, c = .data n cells) →
      makeTable (before ++ .group name [] :: after) = .error .typeError := by
  intro hb
  have hl : ∀ (cs : List DCol), (∀ c ∈ cs, ∃ n cells, c = .data n cells) →
      (DCol.leafDataL (cs ++ .group name [] :: after)).mapM lenOk = .error .typeError := by
    intro cs
    induction cs with
    | nil => intro _; rfl
    | cons c cs ih =>
      intro h
      obtain ⟨n, cells, rfl⟩ := h c (by simp)
      have := ih fun x hx => h x (by simp [hx])
      rw [List.cons_append, DCol.leafDataL, DCol.leafData, List.cons_append, List.mapM_cons]
      show (lenOk (some cells) >>= _) = _
      rw [List.nil_append, this]
      rfl
  unfold makeTable
  dsimp only
  rw [hl before hb]

example : makeTable [.data "Symbol".toList [], .group "base".toList []] = .error .typeError :=
  C88_empty_group [.data "Symbol".toList []] [] "base".toList (by
    intro c hc
    rw [List.mem_singleton] at hc
    exact ⟨_, _, hc⟩)

end Verif
