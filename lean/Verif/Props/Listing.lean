import Verif.Model.Listing
import Mathlib.Tactic.Common

/-!
# C98: printed systems and tables show every entry, under its own name
-/

namespace Verif

/-! ## Reading texts back -/

/-- A text before a mark that it does not contain can be read back. -/
theorem split_at_mark (c : Char) (t a a' rest rest' : Str) (hc : c ∉ t)
    (ha : ¬ (c :: t) <:+: a) (ha' : ¬ (c :: t) <:+: a')
    (h : a ++ (c :: t) ++ rest = a' ++ (c :: t) ++ rest') : a = a' ∧ rest = rest' := by
  have key : ∀ a m rest rest' : Str, ¬ (c :: t) <:+: a ++ m →
      (c :: t) ++ rest = m ++ ((c :: t) ++ rest') → m = [] := by
    intro a m rest rest' hn he
    cases m with
    | nil => rfl
    | cons d m =>
      exfalso
      simp only [List.cons_append, List.cons.injEq] at he
      obtain ⟨rfl, he⟩ := he
      rcases List.append_eq_append_iff.1 he with ⟨u, h1, _⟩ | ⟨u, h1, h2⟩
      · exact hn ⟨a, u, by rw [h1]; simp⟩
      · cases u with
        | nil =>
          rw [List.append_nil] at h1
          exact hn ⟨a, [], by rw [h1]; simp⟩
        | cons d u =>
          simp only [List.cons_append, List.cons.injEq] at h2
          exact hc (by rw [h1, h2.1]; simp)
  rw [List.append_assoc, List.append_assoc] at h
  rcases List.append_eq_append_iff.1 h with ⟨m, h1, h2⟩ | ⟨m, h1, h2⟩
  · have hm := key a m rest rest' (by rw [← h1]; exact ha') h2
    subst hm
    rw [List.append_nil] at h1
    rw [List.nil_append] at h2
    exact ⟨h1.symm, List.append_cancel_left h2⟩
  · have hm := key a' m rest' rest (by rw [← h1]; exact ha) h2
    subst hm
    rw [List.append_nil] at h1
    rw [List.nil_append] at h2
    exact ⟨h1, (List.append_cancel_left h2).symm⟩

/-! ## Systems of equations -/

section Equations

variable {V : Type}

/-- What is to be shown of one equation: its name, its formula in LaTeX, and its number. -/
structure Shown where
  name : Str
  formula : Str
  tag : Str
  deriving DecidableEq

/-- The dictionary describes the equation. -/
structure Describes (latex pyStr : Option (InfoVal V) → Str) (d : Dict Str (InfoVal V)) (e : Shown) :
    Prop where
  name : dget d "name".toList = some (.text e.name)
  formula : latex (dget d "fancy_eq".toList) = e.formula
  tag : pyStr (dget d "eq_id".toList) = e.tag

/-- None of the three texts contains the mark which ends it. -/
structure Shown.Clean (e : Shown) : Prop where
  name : ¬ "} &\\\\".toList <:+: e.name
  formula : ¬ "&\\tag{".toList <:+: e.formula
  tag : ¬ "}\\\\".toList <:+: e.tag

/-- The LaTeX environment with a list of equations. -/
def Shown.block (e : Shown) : Str := equationBlock e.name e.formula e.tag

theorem equationBlocks_eq (latex pyStr : Option (InfoVal V) → Str) (info : List (Dict Str (InfoVal V)))
    (es : List Shown) (h : List.Forall₂ (Describes latex pyStr) info es) :
    equationBlocks latex pyStr info = .ok (es.flatMap Shown.block) := by
  induction h with
  | nil => rfl
  | cons hd _ ih =>
    rw [equationBlocks, hd.name, ih, hd.formula, hd.tag]
    rfl

theorem latexPrintEquations_eq (latex pyStr : Option (InfoVal V) → Str)
    (info : List (Dict Str (InfoVal V))) (es : List Shown)
    (h : List.Forall₂ (Describes latex pyStr) info es) :
    latexPrintEquations latex pyStr info =
      .ok ("\\begin{align}".toList ++ es.flatMap Shown.block ++ "\\end{align}".toList) := by
  rw [latexPrintEquations, equationBlocks_eq latex pyStr info es h]
  rfl

/-- Blocks with any opening and any marks, each starting with a character that does not come again in it,
can be read back. -/
theorem marked_injective (o fin t1 t2 t3 : Str) (c1 c2 c3 : Char) (h1 : c1 ∉ t1) (h2 : c2 ∉ t2)
    (h3 : c3 ∉ t3) (hend : ∀ x, fin ≠ o ++ x) :
    ∀ (es es' : List Shown),
    (∀ e ∈ es, ¬ (c1 :: t1) <:+: e.name ∧ ¬ (c2 :: t2) <:+: e.formula ∧ ¬ (c3 :: t3) <:+: e.tag) →
    (∀ e ∈ es', ¬ (c1 :: t1) <:+: e.name ∧ ¬ (c2 :: t2) <:+: e.formula ∧ ¬ (c3 :: t3) <:+: e.tag) →
    es.flatMap (fun e => o ++ e.name ++ (c1 :: t1) ++ (e.formula ++ (c2 :: t2) ++ e.tag ++ (c3 :: t3))) ++
        fin =
      es'.flatMap (fun e => o ++ e.name ++ (c1 :: t1) ++
        (e.formula ++ (c2 :: t2) ++ e.tag ++ (c3 :: t3))) ++ fin →
    es = es'
  | [], [], _, _, _ => rfl
  | [], e :: es, _, _, h => by
      simp only [List.flatMap_nil, List.nil_append, List.flatMap_cons, List.append_assoc] at h
      exact absurd h (hend _)
  | e :: es, [], _, _, h => by
      simp only [List.flatMap_nil, List.nil_append, List.flatMap_cons, List.append_assoc] at h
      exact absurd h.symm (hend _)
  | e :: es, e' :: es', hc, hc', h => by
      obtain ⟨n1, f1, g1⟩ := hc e (by simp)
      obtain ⟨n2, f2, g2⟩ := hc' e' (by simp)
      rw [List.flatMap_cons, List.flatMap_cons] at h
      simp only [List.append_assoc] at h
      have h0 := List.append_cancel_left h
      rw [← List.append_assoc, ← List.append_assoc e'.name] at h0
      obtain ⟨hn, h4⟩ := split_at_mark c1 t1 e.name e'.name _ _ h1 n1 n2 h0
      rw [← List.append_assoc, ← List.append_assoc e'.formula] at h4
      obtain ⟨hf, h5⟩ := split_at_mark c2 t2 e.formula e'.formula _ _ h2 f1 f2 h4
      rw [← List.append_assoc, ← List.append_assoc e'.tag] at h5
      obtain ⟨ht, h6⟩ := split_at_mark c3 t3 e.tag e'.tag _ _ h3 g1 g2 h5
      have ih := marked_injective o fin t1 t2 t3 c1 c2 c3 h1 h2 h3 hend es es'
        (fun x hx => hc x (by simp [hx])) (fun x hx => hc' x (by simp [hx]))
        (by simp only [List.append_assoc]; exact h6)
      rw [ih]
      cases e; cases e'
      simp_all

theorem mark1 : "} &\\\\".toList = '}' :: " &\\\\".toList := rfl
theorem mark2 : "&\\tag{".toList = '&' :: "\\tag{".toList := rfl
theorem mark3 : "}\\\\".toList = '}' :: "\\\\".toList := rfl

theorem blocks_injective (es es' : List Shown) (hc : ∀ e ∈ es, e.Clean) (hc' : ∀ e ∈ es', e.Clean)
    (h : es.flatMap Shown.block ++ "\\end{align}".toList =
      es'.flatMap Shown.block ++ "\\end{align}".toList) : es = es' := by
  apply marked_injective "\\text{".toList "\\end{align}".toList " &\\\\".toList "\\tag{".toList "\\\\".toList
    '}' '&' '}' (by decide) (by decide) (by decide)
  · intro x hx
    have e1 : "\\end{align}".toList = '\\' :: 'e' :: "nd{align}".toList := rfl
    have e2 : "\\text{".toList = '\\' :: 't' :: "ext{".toList := rfl
    rw [e1, e2] at hx
    simp only [List.cons_append, List.cons.injEq] at hx
    exact absurd hx.2.1 (by decide)
  · intro e he
    rw [← mark1, ← mark2, ← mark3]
    exact ⟨(hc e he).name, (hc e he).formula, (hc e he).tag⟩
  · intro e he
    rw [← mark1, ← mark2, ← mark3]
    exact ⟨(hc' e he).name, (hc' e he).formula, (hc' e he).tag⟩
  · rw [← mark1, ← mark2, ← mark3]
    exact h

/-- **C98 (equations).**  For every list of dictionaries that describe equations, `latex_print_equations`
returns a text, and the text determines the equations: two lists with the same text show the same names,
formulas and numbers, in the same order and equally often.  So no equation is left out, none is shown
twice, none under the name or the number of another one. -/
theorem C98_equations_partial (latex pyStr : Option (InfoVal V) → Str)
    (info info' : List (Dict Str (InfoVal V))) (es es' : List Shown)
    (h : List.Forall₂ (Describes latex pyStr) info es)
    (h' : List.Forall₂ (Describes latex pyStr) info' es')
    (hc : ∀ e ∈ es, e.Clean) (hc' : ∀ e ∈ es', e.Clean) :
    ∃ text text', latexPrintEquations latex pyStr info = .ok text ∧
      latexPrintEquations latex pyStr info' = .ok text' ∧ (text = text' ↔ es = es') := by
  refine ⟨_, _, latexPrintEquations_eq latex pyStr info es h,
    latexPrintEquations_eq latex pyStr info' es' h', ?_, fun e => by rw [e]⟩
  intro e
  simp only [List.append_assoc] at e
  exact blocks_injective es es' hc hc' (List.append_cancel_left e)

theorem forall₂_take_of {α β : Type _} {R : α → β → Prop} :
    ∀ (k : Nat) {l : List α} {l' : List β}, List.Forall₂ R l l' → List.Forall₂ R (l.take k) (l'.take k)
  | 0, _, _, _ => by simp
  | _ + 1, _, _, .nil => by simp
  | k + 1, _, _, .cons h t => .cons h (forall₂_take_of k t)

theorem forall₂_drop_of {α β : Type _} {R : α → β → Prop} :
    ∀ (k : Nat) {l : List α} {l' : List β}, List.Forall₂ R l l' → List.Forall₂ R (l.drop k) (l'.drop k)
  | 0, _, _, h => by simpa using h
  | _ + 1, _, _, .nil => by simp
  | k + 1, _, _, .cons _ t => forall₂_drop_of k t

theorem flatMap_at {α β : Type _} (f : α → List β) (l : List α) (k : Nat) (x : α) (hk : l[k]? = some x) :
    l.flatMap f = (l.take k).flatMap f ++ (f x ++ (l.drop (k + 1)).flatMap f) := by
  obtain ⟨hlt, hke⟩ := List.getElem?_eq_some_iff.1 hk
  have hs : l = l.take k ++ x :: l.drop (k + 1) := by
    rw [← hke]; simp
  conv_lhs => rw [hs]
  rw [List.flatMap_append, List.flatMap_cons]

theorem regroup (s1 s2 s3 s4 s5 s6 b a n f t : Str) :
    s1 ++ (b ++ (s3 ++ n ++ s4 ++ (f ++ s5 ++ t ++ s6) ++ a)) ++ s2 =
      s1 ++ b ++ (s3 ++ n ++ s4 ++ f ++ s5 ++ t ++ s6) ++ a ++ s2 := by
  simp only [List.append_assoc]

/-- **C98 (every equation is shown).**  The text is the environment `align` around the equations, one after
the other: at the place of equation `k` there are its name, its formula and its number. -/
theorem C98_every_equation (latex pyStr : Option (InfoVal V) → Str)
    (info : List (Dict Str (InfoVal V))) (es : List Shown)
    (h : List.Forall₂ (Describes latex pyStr) info es) (k : Nat) (e : Shown) (hk : es[k]? = some e) :
    ∃ before after : Str, latexPrintEquations latex pyStr info =
        .ok ("\\begin{align}".toList ++ before ++ ("\\text{".toList ++ e.name ++ "} &\\\\".toList ++
          e.formula ++ "&\\tag{".toList ++ e.tag ++ "}\\\\".toList) ++ after ++ "\\end{align}".toList) ∧
      latexPrintEquations latex pyStr (info.take k) =
        .ok ("\\begin{align}".toList ++ before ++ "\\end{align}".toList) ∧
      latexPrintEquations latex pyStr (info.drop (k + 1)) =
        .ok ("\\begin{align}".toList ++ after ++ "\\end{align}".toList) := by
  refine ⟨(es.take k).flatMap Shown.block, (es.drop (k + 1)).flatMap Shown.block, ?_,
    latexPrintEquations_eq latex pyStr _ _ (forall₂_take_of k h),
    latexPrintEquations_eq latex pyStr _ _ (forall₂_drop_of (k + 1) h)⟩
  refine (latexPrintEquations_eq latex pyStr info es h).trans (congrArg Except.ok ?_)
  refine (congrArg (fun b => "\\begin{align}".toList ++ b ++ "\\end{align}".toList)
    (flatMap_at Shown.block es k e hk)).trans ?_
  exact regroup "\\begin{align}".toList "\\end{align}".toList "\\text{".toList "} &\\\\".toList
    "&\\tag{".toList "}\\\\".toList _ _ e.name e.formula e.tag

/-- **C98 (refusals).**  The equations can be printed exactly when all have a string as their name;
otherwise `TypeError` is raised. -/
theorem C98_names_needed (latex pyStr : Option (InfoVal V) → Str) (info : List (Dict Str (InfoVal V))) :
    ((∃ text, latexPrintEquations latex pyStr info = .ok text) ↔
      ∀ d ∈ info, ∃ s, dget d "name".toList = some (.text s)) ∧
    ((∃ d ∈ info, ¬ ∃ s, dget d "name".toList = some (.text s)) →
      latexPrintEquations latex pyStr info = .error .typeError) := by
  have bad : (∃ d ∈ info, ¬ ∃ s, dget d "name".toList = some (.text s)) →
      equationBlocks latex pyStr info = .error .typeError := by
    induction info with
    | nil => simp
    | cons d ds ih =>
      rintro ⟨x, hx, hn⟩
      rw [equationBlocks]
      generalize hd : dget d "name".toList = o
      match o, hd with
      | none, _ => rfl
      | some (.other _), _ => rfl
      | some (.text s), hd =>
        rcases List.mem_cons.1 hx with rfl | hx
        · exact absurd ⟨s, hd⟩ hn
        · rw [ih ⟨x, hx, hn⟩]; rfl
  have bad' : (∃ d ∈ info, ¬ ∃ s, dget d "name".toList = some (.text s)) →
      latexPrintEquations latex pyStr info = .error .typeError := fun h => by
    rw [latexPrintEquations, bad h]; rfl
  refine ⟨⟨?_, ?_⟩, bad'⟩
  · rintro ⟨text, ht⟩ d hd
    by_contra hn
    rw [bad' ⟨d, hd, hn⟩] at ht
    cases ht
  · intro h
    have : ∃ body, equationBlocks latex pyStr info = .ok body := by
      clear bad bad'
      induction info with
      | nil => exact ⟨_, rfl⟩
      | cons d ds ih =>
        obtain ⟨b, hb⟩ := ih fun x hx => h x (by simp [hx])
        obtain ⟨s, hs⟩ := h d (by simp)
        exact ⟨_, by rw [equationBlocks, hs, hb]; rfl⟩
    obtain ⟨b, hb⟩ := this
    exact ⟨_, by rw [latexPrintEquations, hb]; rfl⟩

end Equations

/-! ## Tables of variables -/

section Tables

variable {V : Type}

/-- **C98 (rows of the table).**  The table of `display_info_as_table` has one row for every dictionary, in
the same order, with the dictionary's own LaTeX name and its own description as text.  It can be made
exactly when all dictionaries have both, the description being a string. -/
theorem C98_rows (info : List (Dict Str (InfoVal V))) :
    ((∃ rows, infoRows info = .ok rows) ↔ ∀ d ∈ info, (∃ l, dget d "latex_name".toList = some l) ∧
      ∃ s, dget d "description".toList = some (.text s)) ∧
    ∀ rows, infoRows info = .ok rows → List.Forall₂ (fun d row =>
      dget d "latex_name".toList = some row.1 ∧ ∃ s, dget d "description".toList = some (.text s) ∧
        row.2 = "\\text{".toList ++ s ++ "}".toList) info rows := by
  have one : ∀ (d : Dict Str (InfoVal V)) row, infoRow d = .ok row ↔
      dget d "latex_name".toList = some row.1 ∧ ∃ s, dget d "description".toList = some (.text s) ∧
        row.2 = "\\text{".toList ++ s ++ "}".toList := by
    intro d row
    rw [infoRow, dgetE, dgetE]
    generalize dget d "latex_name".toList = a
    generalize dget d "description".toList = b
    match a, b with
    | none, _ => simp [bind, Except.bind]
    | some l, none => simp [bind, Except.bind]
    | some l, some (.other v) => simp [bind, Except.bind, InfoVal.asStr]
    | some l, some (.text s) =>
      simp only [bind, Except.bind, InfoVal.asStr, pure, Except.pure, Except.ok.injEq, Option.some.injEq,
        InfoVal.text.injEq]
      constructor
      · rintro rfl; exact ⟨rfl, s, rfl, rfl⟩
      · rintro ⟨rfl, s', rfl, h⟩; exact Prod.ext rfl h.symm
  refine ⟨⟨?_, ?_⟩, ?_⟩
  · rintro ⟨rows, h⟩
    rw [infoRows] at h
    induction info generalizing rows with
    | nil => simp
    | cons d ds ih =>
      rw [List.mapM_cons] at h
      cases hd : infoRow d with
      | error e => rw [hd] at h; cases h
      | ok row =>
        cases hds : ds.mapM infoRow with
        | error e => rw [hd, hds] at h; cases h
        | ok rest =>
          intro x hx
          rcases List.mem_cons.1 hx with rfl | hx
          · obtain ⟨h1, s, h2, _⟩ := (one _ _).1 hd
            exact ⟨⟨_, h1⟩, s, h2⟩
          · exact ih rest hds x hx
  · intro h
    rw [infoRows]
    induction info with
    | nil => exact ⟨[], rfl⟩
    | cons d ds ih =>
      obtain ⟨rest, hr⟩ := ih fun x hx => h x (by simp [hx])
      obtain ⟨⟨l, hl⟩, s, hs⟩ := h d (by simp)
      have hd := (one d (l, "\\text{".toList ++ s ++ "}".toList)).2 ⟨hl, s, hs, rfl⟩
      exact ⟨_, by rw [List.mapM_cons, hd, hr]; rfl⟩
  · intro rows h
    rw [infoRows] at h
    induction info generalizing rows with
    | nil =>
      have : rows = [] := by
        have h' : (Except.ok [] : Res (List (InfoVal V × Str))) = .ok rows := h
        cases h'; rfl
      subst this
      exact .nil
    | cons d ds ih =>
      rw [List.mapM_cons] at h
      cases hd : infoRow d with
      | error e => rw [hd] at h; cases h
      | ok row =>
        cases hds : ds.mapM infoRow with
        | error e => rw [hd, hds] at h; cases h
        | ok rest =>
          rw [hd, hds] at h
          have h' : (Except.ok (row :: rest) : Res (List (InfoVal V × Str))) = .ok rows := h
          cases h'
          exact .cons ((one d row).1 hd) (ih rest hds)

end Tables

/-! ## The text of the table -/

/-- A literal without line breaks is replaced line by line. -/
theorem replaceGo_line (pat rep : Str) (hn : '\n' ∉ pat) (hp : pat ≠ []) :
    ∀ (a b : Str) (skip : Nat), skip ≤ a.length →
      replaceGo pat rep skip (a ++ '\n' :: b) = replaceGo pat rep skip a ++ '\n' :: replaceGo pat rep 0 b
  | [], b, 0, _ => by
      rw [List.nil_append, show replaceGo pat rep 0 ('\n' :: b) = '\n' :: replaceGo pat rep 0 b from ?_]
      · rfl
      · rw [replaceGo, if_neg]
        rw [List.isPrefixOf_iff_prefix]
        cases pat with
        | nil => exact absurd rfl hp
        | cons c pat =>
          intro h
          have := (List.cons_prefix_cons.1 h).1
          exact hn (by simp [this])
  | [], b, k + 1, h => by simp at h
  | c :: a, b, k + 1, h => by
      rw [List.cons_append, replaceGo, replaceGo]
      exact replaceGo_line pat rep hn hp a b k (by simpa using h)
  | c :: a, b, 0, _ => by
      rw [List.cons_append, replaceGo, replaceGo]
      have hiff : pat.isPrefixOf (c :: (a ++ '\n' :: b)) = pat.isPrefixOf (c :: a) := by
        rw [Bool.eq_iff_iff, List.isPrefixOf_iff_prefix, List.isPrefixOf_iff_prefix]
        constructor
        · intro h
          by_cases hl : pat.length ≤ (c :: a).length
          · have h2 : (c :: a) <+: c :: (a ++ '\n' :: b) := ⟨'\n' :: b, by simp⟩
            exact List.prefix_of_prefix_length_le h h2 hl
          · exfalso
            obtain ⟨t, ht⟩ := h
            have hg : (pat ++ t)[(c :: a).length]? = some '\n' := by
              rw [ht, ← List.cons_append]; simp
            rw [List.getElem?_append_left (by omega)] at hg
            exact hn (List.mem_of_getElem? hg)
        · rintro ⟨t, ht⟩
          exact ⟨t ++ '\n' :: b, by rw [← List.append_assoc, ht]; simp⟩
      rw [hiff]
      split
      · rename_i hpre
        have hl : pat.length ≤ (c :: a).length := (List.isPrefixOf_iff_prefix.1 hpre).length_le
        rw [replaceGo_line pat rep hn hp a b _ (by simp at hl; omega)]
        simp
      · rw [replaceGo_line pat rep hn hp a b 0 (Nat.zero_le _)]
        rfl

theorem replaceAll_line (pat rep a b : Str) (hn : '\n' ∉ pat) (hp : pat ≠ []) :
    replaceAll pat rep (a ++ '\n' :: b) = replaceAll pat rep a ++ '\n' :: replaceAll pat rep b :=
  replaceGo_line pat rep hn hp a b 0 (Nat.zero_le _)

theorem upToBrace_line : ∀ (a b : Str), upToBrace (a ++ '\n' :: b) = upToBrace a
  | [], b => by simp [upToBrace]
  | c :: a, b => by
      rw [List.cons_append, upToBrace, upToBrace, upToBrace_line a b]

theorem upToBrace_le : ∀ (a : Str) (k : Nat), upToBrace a = some k → k ≤ a.length
  | [], k, h => by simp [upToBrace] at h
  | c :: a, k, h => by
      rw [upToBrace] at h
      split at h
      · cases h; simp
      · split at h
        · cases h
        · cases hk : upToBrace a with
          | none => rw [hk] at h; cases h
          | some j =>
            rw [hk] at h
            cases h
            simpa using upToBrace_le a j hk

theorem captionGo_line : ∀ (a b : Str) (skip : Nat), skip ≤ a.length →
    captionGo skip (a ++ '\n' :: b) = captionGo skip a ++ '\n' :: captionGo 0 b
  | [], b, 0, _ => by
      rw [List.nil_append, show captionGo 0 ('\n' :: b) = '\n' :: captionGo 0 b from ?_]
      · rfl
      · rw [captionGo, if_neg (by simp [List.isPrefixOf])]
  | [], b, k + 1, h => by simp at h
  | c :: a, b, k + 1, h => by
      rw [List.cons_append, captionGo, captionGo]
      exact captionGo_line a b k (by simpa using h)
  | c :: a, b, 0, _ => by
      rw [List.cons_append, captionGo, captionGo]
      have hiff : "\\caption{".toList.isPrefixOf (c :: (a ++ '\n' :: b)) =
          "\\caption{".toList.isPrefixOf (c :: a) := by
        generalize hp : "\\caption{".toList = pat
        have hn : '\n' ∉ pat := by rw [← hp]; decide
        rw [Bool.eq_iff_iff, List.isPrefixOf_iff_prefix, List.isPrefixOf_iff_prefix]
        constructor
        · intro h
          by_cases hl : pat.length ≤ (c :: a).length
          · have h2 : (c :: a) <+: c :: (a ++ '\n' :: b) := ⟨'\n' :: b, by simp⟩
            exact List.prefix_of_prefix_length_le h h2 hl
          · exfalso
            obtain ⟨t, ht⟩ := h
            have hg : (pat ++ t)[(c :: a).length]? = some '\n' := by
              rw [ht, ← List.cons_append]; simp
            rw [List.getElem?_append_left (by omega)] at hg
            exact hn (List.mem_of_getElem? hg)
        · rintro ⟨t, ht⟩
          exact ⟨t ++ '\n' :: b, by rw [← List.append_assoc, ht]; simp⟩
      rw [hiff]
      split
      · rename_i hpre
        have hl : 9 ≤ (c :: a).length := (List.isPrefixOf_iff_prefix.1 hpre).length_le
        have h8 : 8 ≤ a.length := by simpa using hl
        rw [List.drop_append_of_le_length h8, upToBrace_line]
        cases hk : upToBrace (a.drop 8) with
        | none =>
          dsimp only
          rw [captionGo_line a b 0 (Nat.zero_le _)]
          rfl
        | some k =>
          dsimp only
          have := upToBrace_le _ _ hk
          rw [List.length_drop] at this
          exact captionGo_line a b _ (by omega)
      · rw [captionGo_line a b 0 (Nat.zero_le _)]
        rfl

theorem convertTable_line (a b : Str) :
    convertTable (a ++ '\n' :: b) = convertTable a ++ '\n' :: convertTable b := by
  unfold convertTable removeCaptions
  dsimp only
  rw [replaceAll_line _ _ _ _ (by decide) (by decide), replaceAll_line _ _ _ _ (by decide) (by decide),
    captionGo_line _ _ _ (Nat.zero_le _), replaceAll_line _ _ _ _ (by decide) (by decide),
    replaceAll_line _ _ _ _ (by decide) (by decide), replaceAll_line _ _ _ _ (by decide) (by decide),
    replaceAll_line _ _ _ _ (by decide) (by decide), replaceAll_line _ _ _ _ (by decide) (by decide)]

theorem replaceAll_absent (pat rep : Str) : ∀ (a : Str), ¬ pat <:+: a → replaceAll pat rep a = a
  | [], _ => rfl
  | c :: a, h => by
      rw [replaceAll_cons_of_not_prefix, replaceAll_absent pat rep a fun hi => h (hi.trans ⟨[c], [], by simp⟩)]
      rw [Bool.eq_false_iff]
      intro hp
      exact h (List.isPrefixOf_iff_prefix.1 hp).isInfix

theorem removeCaptions_absent : ∀ (a : Str), ¬ "\\caption{".toList <:+: a → removeCaptions a = a
  | [], _ => rfl
  | c :: a, h => by
      rw [removeCaptions, captionGo, if_neg]
      · have := removeCaptions_absent a fun hi => h (hi.trans ⟨[c], [], by simp⟩)
        rw [removeCaptions] at this
        rw [this]
      · intro hp
        exact h (List.isPrefixOf_iff_prefix.1 hp).isInfix

/-- The commands which the conversion looks for. -/
def tableCommands : List Str :=
  ["\\begin{table}".toList, "\\end{table}".toList, "\\caption{".toList, "\\centering".toList,
   "\\begin{center}".toList, "\\end{center}".toList, "\\begin{tabular}".toList, "\\end{tabular}".toList]

/-- **C98 (the body of the table).**  The conversion of the table into an array works on every line by
itself, and leaves a line alone that contains none of the table commands: the rows of the table are
displayed as they were written. -/
theorem C98_conversion (lines : List Str) :
    convertTable (joinStr "\n".toList lines) = joinStr "\n".toList (lines.map convertTable) ∧
    ∀ line ∈ lines, (∀ cmd ∈ tableCommands, ¬ cmd <:+: line) → convertTable line = line := by
  constructor
  · induction lines with
    | nil => rfl
    | cons a l ih =>
      cases l with
      | nil => rfl
      | cons b l =>
        rw [joinStr, List.map_cons, List.map_cons, joinStr, ← List.map_cons, ← ih, List.append_assoc,
          List.append_assoc]
        exact convertTable_line a _
  · intro line _ h
    have h' : ∀ cmd ∈ tableCommands, ¬ cmd <:+: line := h
    simp only [tableCommands, List.mem_cons, List.not_mem_nil, or_false, forall_eq_or_imp, forall_eq] at h'
    obtain ⟨h1, h2, h3, h4, h5, h6, h7, h8⟩ := h'
    unfold convertTable
    dsimp only
    rw [replaceAll_absent _ _ _ h1, replaceAll_absent _ _ _ h2, removeCaptions_absent _ h3,
      replaceAll_absent _ _ _ h4, replaceAll_absent _ _ _ h5, replaceAll_absent _ _ _ h6,
      replaceAll_absent _ _ _ h7, replaceAll_absent _ _ _ h8]

/-! ### Examples and counterexamples -/

/-- A text without one of the characters of a mark does not contain the mark. -/
theorem not_infix_of_char (c : Char) (p l : Str) (hp : c ∈ p) (hl : c ∉ l) : ¬ p <:+: l :=
  fun h => hl (h.subset hp)

/-- A description of two equations; formulas are given as their LaTeX texts. -/
def exListing : List (Dict Str (InfoVal Unit)) :=
  [[("name".toList, .text "Income".toList), ("fancy_eq".toList, .text "Y = C + S".toList),
    ("eq_id".toList, .text "1".toList)],
   [("name".toList, .text "Savings".toList), ("fancy_eq".toList, .text "S = s Y".toList),
    ("eq_id".toList, .text "2".toList)]]

/-- The text of a value that is a text. -/
def exText : Option (InfoVal Unit) → Str
  | some (.text s) => s
  | _ => "None".toList

def exShown : List Shown :=
  [⟨"Income".toList, "Y = C + S".toList, "1".toList⟩, ⟨"Savings".toList, "S = s Y".toList, "2".toList⟩]

/-- The hypotheses of `C98_equations_partial` and `C98_every_equation`. -/
example : List.Forall₂ (Describes exText exText) exListing exShown ∧ ∀ e ∈ exShown, e.Clean := by
  refine ⟨.cons ⟨rfl, rfl, rfl⟩ (.cons ⟨rfl, rfl, rfl⟩ .nil), ?_⟩
  intro e he
  simp only [exShown, List.mem_cons, List.not_mem_nil, or_false] at he
  rcases he with rfl | rfl <;>
    exact ⟨not_infix_of_char '}' _ _ (by decide) (by decide),
      not_infix_of_char '&' _ _ (by decide) (by decide), not_infix_of_char '}' _ _ (by decide) (by decide)⟩

/-- What is printed. -/
example : latexPrintEquations exText exText exListing =
    .ok ("\\begin{align}\\text{Income} &\\\\Y = C + S&\\tag{1}\\\\\\text{Savings} &\\\\S = s Y&\\tag{2}\\\\" ++
      "\\end{align}").toList := by rfl

/-- A row of a table, and a dictionary without a name. -/
example : infoRows [[("latex_name".toList, InfoVal.text (V := Unit) "Y_i".toList),
      ("description".toList, .text "Income".toList)]] =
    .ok [(.text "Y_i".toList, "\\text{Income}".toList)] := by rfl

example : latexPrintEquations exText exText [[("eq_id".toList, InfoVal.text "1".toList)]] =
    .error .typeError := by rfl

/-- A small table. -/
example : convertTable ("\\begin{table}\n\\begin{center}\n\\begin{tabular}{cc}\n$x$ & \\text{Income} \\\\\n" ++
      "\\end{tabular}\n\\end{center}\n\\caption{My table}\n\\end{table}").toList =
    ("\n\n\\begin{array}{cc}\n$x$ & \\text{Income} \\\\\n\\end{array}\n\n\n").toList := by decide +kernel

example : ∀ cmd ∈ tableCommands, ¬ cmd <:+: "$x$ & \\text{Income} \\\\".toList := by
  intro cmd hc
  simp only [tableCommands, List.mem_cons, List.not_mem_nil, or_false] at hc
  rcases hc with rfl | rfl | rfl | rfl | rfl | rfl | rfl | rfl
  · exact not_infix_of_char 'g' _ _ (by decide) (by decide)
  · exact not_infix_of_char 'd' _ _ (by decide) (by decide)
  · exact not_infix_of_char 'a' _ _ (by decide) (by decide)
  · exact not_infix_of_char 'r' _ _ (by decide) (by decide)
  · exact not_infix_of_char 'g' _ _ (by decide) (by decide)
  · exact not_infix_of_char 'd' _ _ (by decide) (by decide)
  · exact not_infix_of_char 'g' _ _ (by decide) (by decide)
  · exact not_infix_of_char 'd' _ _ (by decide) (by decide)

/-- **C98, a number with marks in it.**  Names, formulas and numbers are not escaped: two equations, and one
equation with a number that contains the marks, have the same text. -/
theorem C98_marks_counterexample :
    latexPrintEquations exText exText exListing = latexPrintEquations exText exText
      [[("name".toList, .text "Income".toList), ("fancy_eq".toList, .text "Y = C + S".toList),
        ("eq_id".toList, .text "1}\\\\\\text{Savings} &\\\\S = s Y&\\tag{2".toList)]] := by rfl

/-- **C98, a caption with braces.**  A caption is removed only up to its first closing brace. -/
theorem C98_caption_counterexample :
    convertTable "\\caption{The \\textbf{first} table}".toList = " table}".toList := by decide +kernel

end Verif
