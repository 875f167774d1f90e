import Verif.Model.Names
import Verif.Props.Flat
import Mathlib.Data.List.Basic
import Mathlib.Tactic.ByContra

/-!
# C54: dims, subscripts and bracketed names
-/

namespace Verif

/-- The white space of ASCII: blank, tab, line feed, carriage return, vertical tab, form feed. -/
def whiteSpace : List Char := [' ', '\t', '\n', '\r', '\x0b', '\x0c']

theorem isPySpace_iff (c : Char) : isPySpace c = true ↔ c ∈ whiteSpace := by
  unfold isPySpace whiteSpace
  simp only [Bool.or_eq_true, beq_iff_eq, List.mem_cons, List.not_mem_nil, or_false, or_assoc]

theorem isPySpace_false_iff (c : Char) : isPySpace c = false ↔ c ∉ whiteSpace := by
  rw [← isPySpace_iff, Bool.not_eq_true]

/-- The text has no white space at its ends. -/
def Trimmed (s : Str) : Prop :=
  (∀ c, s.head? = some c → c ∉ whiteSpace) ∧ (∀ c, s.getLast? = some c → c ∉ whiteSpace)

instance (s : Str) : Decidable (Trimmed s) := by
  unfold Trimmed
  have h : ∀ o : Option Char, Decidable (∀ c, o = some c → c ∉ whiteSpace) := by
    intro o
    cases o with
    | none => exact isTrue (by intro c h; cases h)
    | some a => exact decidable_of_iff (a ∉ whiteSpace) ⟨fun h c hc => by cases hc; exact h,
        fun h => h a rfl⟩
  have := h s.head?
  have := h s.getLast?
  infer_instance

/-! ## Splitting and stripping -/

theorem pySplit_ne_nil (c : Char) (s : Str) : pySplit c s ≠ [] := by
  induction s with
  | nil => simp [pySplit]
  | cons a s ih =>
    unfold pySplit
    cases h : pySplit c s with
    | nil => exact absurd h ih
    | cons p ps => dsimp only; split <;> simp

theorem pySplit_noSep (c : Char) (s : Str) (h : c ∉ s) : pySplit c s = [s] := by
  induction s with
  | nil => rfl
  | cons a s ih =>
    simp only [List.mem_cons, not_or] at h
    unfold pySplit
    rw [ih h.2]
    dsimp only
    rw [if_neg (Ne.symm h.1)]

theorem pySplit_append (c : Char) (s t : Str) (h : c ∉ s) :
    pySplit c (s ++ c :: t) = s :: pySplit c t := by
  induction s with
  | nil =>
    rw [List.nil_append]
    conv_lhs => unfold pySplit
    cases ht : pySplit c t with
    | nil => exact absurd ht (pySplit_ne_nil c t)
    | cons p ps => dsimp only; rw [if_pos rfl]
  | cons a s ih =>
    simp only [List.mem_cons, not_or] at h
    rw [List.cons_append]
    conv_lhs => unfold pySplit
    rw [ih h.2]
    dsimp only
    rw [if_neg (Ne.symm h.1)]

/-- Splitting a joined text gives the pieces back. -/
theorem pySplit_join (c : Char) (l : List Str) (hl : l ≠ []) (h : ∀ s ∈ l, c ∉ s) :
    pySplit c (joinStr [c] l) = l := by
  induction l with
  | nil => exact absurd rfl hl
  | cons a l ih =>
    cases l with
    | nil => exact pySplit_noSep c a (h a (by simp))
    | cons b l =>
      rw [joinStr, List.append_assoc, List.singleton_append, pySplit_append _ _ _ (h a (by simp)),
        ih (by simp) (fun s hs => h s (by simp [hs]))]

theorem dropWhile_append_of_all (p : Char → Bool) (a s : Str) (ha : ∀ c ∈ a, p c = true) :
    (a ++ s).dropWhile p = s.dropWhile p := by
  induction a with
  | nil => rfl
  | cons b a ih =>
    rw [List.cons_append, List.dropWhile_cons, if_pos (ha b (by simp)), ih fun c hc => ha c (by simp [hc])]

theorem dropWhile_of_head (p : Char → Bool) (s : Str) (h : ∀ c, s.head? = some c → p c = false) :
    s.dropWhile p = s := by
  cases s with
  | nil => rfl
  | cons a s => rw [List.dropWhile_cons, if_neg (by simp [h a rfl])]

/-- Stripping a padded text leaves the text. -/
theorem pyStrip_padded (a s b : Str) (ha : ∀ c ∈ a, isPySpace c = true)
    (hb : ∀ c ∈ b, isPySpace c = true) (hs : Trimmed s) (hne : s ≠ []) :
    pyStrip (a ++ s ++ b) = s := by
  unfold pyStrip
  rw [List.append_assoc, dropWhile_append_of_all _ _ _ ha]
  have h1 : (s ++ b).dropWhile isPySpace = s ++ b := by
    apply dropWhile_of_head
    intro c hc
    rw [isPySpace_false_iff]
    apply hs.1 c
    cases s with
    | nil => exact absurd rfl hne
    | cons x s => simpa using hc
  rw [h1, List.reverse_append, dropWhile_append_of_all _ _ _ (by simpa using hb)]
  rw [dropWhile_of_head, List.reverse_reverse]
  intro c hc
  rw [isPySpace_false_iff]
  apply hs.2 c
  rwa [List.head?_reverse] at hc

theorem pyStrip_trimmed (s : Str) (hs : Trimmed s) : pyStrip s = s := by
  by_cases hne : s = []
  · subst hne; rfl
  · have := pyStrip_padded [] s [] (by simp) (by simp) hs hne
    simpa using this

/-! ## C54 -/

/-- **C54 (list or tuple).**  A list and a tuple of dims mean the same, whatever they contain. -/
theorem C54_list_tuple (l : List DimItem) : initializeIndex (.list l) = initializeIndex (.tuple l) := rfl

/-- **C54 (string), for at least one dim.**  Non-empty dims without commas and outer white space, given
as one text with commas between them and any white space around each, mean the same as the tuple (and
the list) of these dims, namely exactly these dims. -/
theorem C54_dims_partial (ds : List (Str × Str × Str)) (hne : ds ≠ [])
    (hd : ∀ p ∈ ds, p.2.1 ≠ [] ∧ ',' ∉ p.2.1 ∧ Trimmed p.2.1)
    (hb : ∀ p ∈ ds, (∀ c ∈ p.1, c ∈ whiteSpace) ∧ (∀ c ∈ p.2.2, c ∈ whiteSpace)) :
    initializeIndex (.str (joinStr ",".toList (ds.map fun p => p.1 ++ p.2.1 ++ p.2.2))) =
      .ok (ds.map fun p => p.2.1) ∧
    initializeIndex (.tuple (ds.map fun p => .str p.2.1)) = .ok (ds.map fun p => p.2.1) ∧
    initializeIndex (.list (ds.map fun p => .str p.2.1)) = .ok (ds.map fun p => p.2.1) := by
  simp only [← isPySpace_iff] at hb
  have hspace : ∀ a : Str, (∀ c ∈ a, isPySpace c = true) → ',' ∉ a :=
    fun a ha hc => absurd (ha ',' hc) (by decide)
  have h2 : dimItems (ds.map fun p => .str p.2.1) = .ok (ds.map fun p => p.2.1) := by
    have h0 : ∀ l : List Str, dimItems (l.map DimItem.str) = .ok l := by
      intro l
      unfold dimItems
      induction l with
      | nil => rfl
      | cons a l ih => rw [List.map_cons, List.mapM_cons, ih]; rfl
    have := h0 (ds.map fun p => p.2.1)
    rwa [List.map_map] at this
  refine ⟨?_, h2, h2⟩
  unfold initializeIndex
  have hj : pySplit ',' (joinStr ",".toList (ds.map fun p => p.1 ++ p.2.1 ++ p.2.2)) =
      ds.map fun p => p.1 ++ p.2.1 ++ p.2.2 := by
    apply pySplit_join ',' _ (by simpa using hne)
    intro s hs
    rw [List.mem_map] at hs
    obtain ⟨p, hp, rfl⟩ := hs
    simp only [List.mem_append, not_or]
    exact ⟨⟨hspace _ (hb p hp).1, (hd p hp).2.1⟩, hspace _ (hb p hp).2⟩
  dsimp only
  rw [hj, List.map_map]
  congr 1
  apply List.map_congr_left
  intro p hp
  exact pyStrip_padded _ _ _ (hb p hp).1 (hb p hp).2 (hd p hp).2.2 (hd p hp).1

example : initializeIndex (.str "i,  sector ".toList) = .ok ["i".toList, "sector".toList] ∧
    Trimmed "sector".toList ∧ Trimmed "i".toList := ⟨by rfl, by decide +kernel, by decide +kernel⟩

/-- **C54, no dims.**  The text naming no dims means one dim with an empty name, unlike the empty tuple,
the empty list and `None`; the object then has a dim no model knows. -/
theorem C54_empty_counterexample :
    initializeIndex (.str (joinStr ",".toList [])) = .ok [[]] ∧
    initializeIndex (.tuple []) = .ok [] ∧ initializeIndex (.list []) = .ok [] ∧
    initializeIndex .none = .ok [] := ⟨by rfl, by rfl, by rfl, by rfl⟩

/-- **C54, white space.**  White space around a dim disappears from a text and stays in a list. -/
theorem C54_blank_counterexample :
    initializeIndex (.str "i, j".toList) = .ok ["i".toList, "j".toList] ∧
    initializeIndex (.list [.str "i".toList, .str " j".toList]) = .ok ["i".toList, " j".toList] :=
  ⟨by rfl, by rfl⟩

theorem joinStr_comma_blank (l : List Str) (a : Str) :
    joinStr ", ".toList (a :: l) = joinStr [','] (a :: l.map (' ' :: ·)) := by
  rw [joinStr_cons, joinStr_cons, List.flatMap_map]
  rfl

/-- **C54 (subscript).**  For every list of dims, with or without values, where dims are not empty, have
no comma and no outer white space, and values have no comma: the subscript made from them splits back
into one token for each dim, in order: the dim, or the dim with its value. -/
theorem C54_subscript_tokens (dims : List Str) (dimVals : Dict Str Str)
    (hd : ∀ d ∈ dims, d ≠ [] ∧ ',' ∉ d ∧ Trimmed d)
    (hv : ∀ d v, dget dimVals d = some v → ',' ∉ v) :
    tokenizeLatexSubscript (makeLatexSubscript dims dimVals) =
      dims.map fun d => match dget dimVals d with
        | none => d
        | some v => d ++ "=\\text{".toList ++ v ++ "}".toList := by
  have htok : (dims.map fun d => match dget dimVals d with
        | none => d
        | some v => d ++ "=\\text{".toList ++ v ++ "}".toList) = dims.map (subscriptToken dimVals) := rfl
  rw [htok]
  have hcomma : ∀ d ∈ dims, ',' ∉ subscriptToken dimVals d := by
    intro d hdd
    unfold subscriptToken
    cases hg : dget dimVals d with
    | none => exact (hd d hdd).2.1
    | some v =>
      simp only [List.mem_append, not_or]
      exact ⟨⟨⟨(hd d hdd).2.1, by decide⟩, hv d v hg⟩, by decide⟩
  have hne : ∀ d ∈ dims, subscriptToken dimVals d ≠ [] := by
    intro d hdd
    unfold subscriptToken
    cases hg : dget dimVals d with
    | none => exact (hd d hdd).1
    | some v => simp
  have htrim : ∀ d ∈ dims, Trimmed (subscriptToken dimVals d) := by
    intro d hdd
    unfold subscriptToken
    cases hg : dget dimVals d with
    | none => exact (hd d hdd).2.2
    | some v =>
      constructor
      · intro c hc
        apply (hd d hdd).2.2.1 c
        obtain ⟨h1, -, -⟩ := hd d hdd
        cases d with
        | nil => exact absurd rfl h1
        | cons x d => simpa using hc
      · intro c hc
        have hc' : (d ++ "=\\text{".toList ++ v ++ ['}']).getLast? = some c := hc
        rw [List.getLast?_concat] at hc'
        cases hc'; decide
  unfold tokenizeLatexSubscript makeLatexSubscript
  cases dims with
  | nil => rfl
  | cons d0 ds =>
    rw [if_neg (show ¬ (d0 :: ds = []) by simp)]
    have hp : "_{".toList.isPrefixOf ("_{".toList ++
        joinStr ", ".toList ((d0 :: ds).map (subscriptToken dimVals)) ++ "}".toList) = true := by
      rw [List.isPrefixOf_iff_prefix, List.append_assoc]; exact List.prefix_append _ _
    dsimp only
    rw [if_pos hp]
    have hdrop : ("_{".toList ++ joinStr ", ".toList ((d0 :: ds).map (subscriptToken dimVals)) ++
        "}".toList).drop 2 =
        joinStr ", ".toList ((d0 :: ds).map (subscriptToken dimVals)) ++ "}".toList := rfl
    rw [hdrop]
    have hlast : (joinStr ", ".toList ((d0 :: ds).map (subscriptToken dimVals)) ++
        "}".toList).getLast? = some '}' := by
      show (_ ++ ['}']).getLast? = _
      simp
    rw [if_pos hlast]
    have hdl : (joinStr ", ".toList ((d0 :: ds).map (subscriptToken dimVals)) ++
        "}".toList).dropLast = joinStr ", ".toList ((d0 :: ds).map (subscriptToken dimVals)) := by
      show (_ ++ ['}']).dropLast = _
      simp
    rw [hdl, List.map_cons, joinStr_comma_blank, pySplit_join ',' _ (by simp)]
    · have hmap : (subscriptToken dimVals d0 ::
          (ds.map (subscriptToken dimVals)).map (' ' :: ·)).map pyStrip =
          subscriptToken dimVals d0 :: ds.map (subscriptToken dimVals) := by
        rw [List.map_cons, pyStrip_trimmed _ (htrim d0 (by simp)), List.map_map, List.map_map]
        congr 1
        apply List.map_congr_left
        intro d hdd
        have := pyStrip_padded [' '] (subscriptToken dimVals d) [] (by decide) (by simp)
          (htrim d (by simp [hdd])) (hne d (by simp [hdd]))
        simpa using this
      rw [hmap, if_neg]
      intro hc
      simp only [List.cons.injEq] at hc
      exact hne d0 (by simp) hc.1
    · intro s hs
      rcases List.mem_cons.1 hs with rfl | hs
      · exact hcomma d0 (by simp)
      · rw [List.mem_map] at hs
        obtain ⟨t, ht, rfl⟩ := hs
        rw [List.mem_map] at ht
        obtain ⟨d, hdd, rfl⟩ := ht
        intro hc
        rcases List.mem_cons.1 hc with hc | hc
        · exact absurd hc (by decide)
        · exact hcomma d (by simp [hdd]) hc

example : tokenizeLatexSubscript (makeLatexSubscript ["i".toList, "j".toList]
    [("j".toList, "Food and drink".toList)]) =
      ["i".toList, "j=\\text{Food and drink}".toList] := by decide +kernel

/-! ## Bracketed names -/

theorem replaceAll_char (c : Char) (rep s : Str) :
    replaceAll [c] rep s = s.flatMap fun a => if a = c then rep else [a] := by
  induction s with
  | nil => rfl
  | cons a s ih =>
    by_cases h : a = c
    · subst h
      have := replaceAll_pat [a] rep s (by simp)
      rw [List.singleton_append] at this
      rw [this, ih, List.flatMap_cons, if_pos rfl]
    · rw [replaceAll_cons_of_not_prefix, ih, List.flatMap_cons, if_neg h]
      · rfl
      · simp [List.isPrefixOf, Ne.symm h]

/-- What one character becomes. -/
def snakeChar (c : Char) : Str :=
  if c = ']' ∨ c = ' ' then [] else if c = '[' ∨ c = ',' then ['_'] else [c]

theorem bracketsToSnakeCase_eq (s : Str) : bracketsToSnakeCase s = s.flatMap snakeChar := by
  have h1 : ("]".toList : Str) = [']'] := rfl
  have h2 : ("[".toList : Str) = ['['] := rfl
  have h3 : (",".toList : Str) = [','] := rfl
  have h4 : (" ".toList : Str) = [' '] := rfl
  have h5 : ("".toList : Str) = [] := rfl
  have h6 : ("_".toList : Str) = ['_'] := rfl
  unfold bracketsToSnakeCase
  dsimp only
  rw [h1, h2, h3, h4, h5, h6, replaceAll_char, replaceAll_char, replaceAll_char, replaceAll_char]
  rw [List.flatMap_assoc, List.flatMap_assoc, List.flatMap_assoc]
  congr 1
  funext a
  unfold snakeChar
  by_cases c1 : a = ']'
  · subst c1; simp
  · by_cases c2 : a = '['
    · subst c2; simp
    · by_cases c3 : a = ','
      · subst c3; simp
      · by_cases c4 : a = ' '
        · subst c4; simp
        · simp [c1, c2, c3, c4]

/-- **C54 (no brackets).**  For every name the result has no bracket, comma or blank. -/
theorem C54_snake_clean (s : Str) : ∀ c ∈ bracketsToSnakeCase s, c ≠ '[' ∧ c ≠ ']' ∧ c ≠ ',' ∧ c ≠ ' ' := by
  rw [bracketsToSnakeCase_eq]
  intro c hc
  rw [List.mem_flatMap] at hc
  obtain ⟨a, -, hc⟩ := hc
  unfold snakeChar at hc
  split at hc
  · cases hc
  · rename_i h1
    split at hc
    · rw [List.mem_singleton] at hc
      subst hc; decide
    · rename_i h2
      rw [List.mem_singleton] at hc
      subst hc
      exact ⟨fun h => h2 (Or.inl h), fun h => h1 (Or.inl h), fun h => h2 (Or.inr h), fun h => h1 (Or.inr h)⟩

/-- **C54 (untouched names).**  A name without these characters stays as it is. -/
theorem C54_snake_fixed (s : Str) (h : ∀ c ∈ s, c ≠ '[' ∧ c ≠ ']' ∧ c ≠ ',' ∧ c ≠ ' ') :
    bracketsToSnakeCase s = s := by
  rw [bracketsToSnakeCase_eq]
  induction s with
  | nil => rfl
  | cons a s ih =>
    rw [List.flatMap_cons, ih fun c hc => h c (by simp [hc])]
    obtain ⟨h1, h2, h3, h4⟩ := h a (by simp)
    simp [snakeChar, h1, h2, h3, h4]

/-- **C54 (idempotent).**  Converting twice is converting once, for every name. -/
theorem C54_snake_idempotent (s : Str) :
    bracketsToSnakeCase (bracketsToSnakeCase s) = bracketsToSnakeCase s :=
  C54_snake_fixed _ (C54_snake_clean s)

/-- The text is a Python identifier (ASCII). -/
def IsIdent (s : Str) : Prop :=
  (∃ c r, s = c :: r ∧ (c.isAlpha = true ∨ c = '_')) ∧ ∀ c ∈ s, c.isAlphanum = true ∨ c = '_'

/-- **C54 (bracketed names).**  For a base name that is an identifier and labels made of letters, digits,
underscores and blanks, the name `base[l1, l2, …]` becomes the identifier made of the base and the labels
without their blanks, each after an underscore. -/
theorem C54_snake_of_bracketed (base : Str) (l : Str) (labels : List Str) (hb : IsIdent base)
    (hl : ∀ x ∈ l :: labels, ∀ c ∈ x, c.isAlphanum = true ∨ c = '_' ∨ c = ' ') :
    bracketsToSnakeCase (bracketName base (l :: labels)) =
      base ++ (l :: labels).flatMap (fun x => '_' :: x.filter (· ≠ ' ')) ∧
    IsIdent (bracketsToSnakeCase (bracketName base (l :: labels))) := by
  have hlab : ∀ x ∈ l :: labels, x.flatMap snakeChar = x.filter (· ≠ ' ') := by
    intro x hx
    have := hl x hx
    clear hl hx
    induction x with
    | nil => rfl
    | cons a x ih =>
      rw [List.flatMap_cons, ih fun c hc => this c (by simp [hc]), List.filter_cons]
      have ha := this a (by simp)
      by_cases hsp : a = ' '
      · subst hsp; simp [snakeChar]
      · have h1 : a ≠ '[' := by rintro rfl; revert ha; decide
        have h2 : a ≠ ']' := by rintro rfl; revert ha; decide
        have h3 : a ≠ ',' := by rintro rfl; revert ha; decide
        simp [snakeChar, hsp, h1, h2, h3]
  have hbase : base.flatMap snakeChar = base := by
    have := C54_snake_fixed base (by
      intro c hc
      have := hb.2 c hc
      refine ⟨?_, ?_, ?_, ?_⟩ <;> rintro rfl <;> revert this <;> decide)
    rwa [bracketsToSnakeCase_eq] at this
  have heq : bracketsToSnakeCase (bracketName base (l :: labels)) =
      base ++ (l :: labels).flatMap (fun x => '_' :: x.filter (· ≠ ' ')) := by
    rw [bracketsToSnakeCase_eq, bracketName, joinStr_cons, List.flatMap_append, List.flatMap_append,
      List.flatMap_append, List.flatMap_append, hbase, hlab l (by simp), List.flatMap_cons,
      List.flatMap_assoc]
    have h1 : ("[".toList : Str).flatMap snakeChar = ['_'] := by decide
    have h2 : ("]".toList : Str).flatMap snakeChar = [] := by decide
    have h3 : (", ".toList : Str).flatMap snakeChar = ['_'] := by decide
    have h4 : (labels.flatMap fun x => ((", ".toList : Str) ++ x).flatMap snakeChar) =
        labels.flatMap fun x => '_' :: x.filter (· ≠ ' ') := by
      rw [List.flatMap_def, List.flatMap_def]
      congr 1
      apply List.map_congr_left
      intro x hx
      rw [List.flatMap_append, hlab x (by simp [hx]), h3]; rfl
    rw [h1, h2, h4, List.append_nil, List.append_assoc]
    rfl
  refine ⟨heq, ?_⟩
  rw [heq]
  obtain ⟨⟨c, r, rfl, hc⟩, hall⟩ := hb
  refine ⟨⟨c, _, by rw [List.cons_append], hc⟩, ?_⟩
  intro a ha
  rcases List.mem_append.1 ha with ha | ha
  · exact hall a ha
  · rw [List.mem_flatMap] at ha
    obtain ⟨x, hx, ha⟩ := ha
    rcases List.mem_cons.1 ha with rfl | ha
    · exact Or.inr rfl
    · rw [List.mem_filter] at ha
      rcases hl x hx a ha.1 with h | h | h
      · exact Or.inl h
      · exact Or.inr h
      · exact absurd h (by simpa using ha.2)

example : bracketsToSnakeCase (bracketName "K_d".toList ["Food and drink".toList, "2".toList]) =
    "K_d_Foodanddrink_2".toList := by decide +kernel

end Verif
