import Verif.Lemmas.Phrase
import Verif.Model.Parsing

/-!
# C32: normalising an equation string

`Reads s e` (Model/PyExpr) says that Python's grammar reads the text `s` as the expression `e`, and
`e.value` (Spec/ExprValue) is its value under an assignment of the names.
-/

namespace Verif

theorem onlyAxisEquals_of_none {s : Str} (h : '=' ∉ s) : OnlyAxisEquals s := by
  rintro a b rfl
  exact absurd (by simp) h

theorem splitEq_append (pre l r : Str) (h : ∀ a b, l = a ++ '=' :: b → "axis".toList <:+ pre ++ a)
    (hax : ¬ "axis".toList <:+ pre ++ l) : splitEq pre (l ++ '=' :: r) = some (pre ++ l, r) := by
  induction l generalizing pre with
  | nil =>
    rw [List.append_nil] at hax ⊢
    rw [List.nil_append, splitEq, if_pos]
    refine ⟨rfl, fun hc => hax ?_⟩
    exact List.isSuffixOf_iff_suffix.1 hc
  | cons c l ih =>
    rw [List.cons_append, splitEq, if_neg, ih]
    · simp
    · rintro a b rfl
      have := h (c :: a) b rfl
      simpa using this
    · simpa using hax
    · rintro ⟨rfl, hc⟩
      have := h [] l rfl
      rw [List.append_nil] at this
      exact hc (List.isSuffixOf_iff_suffix.2 this)

theorem splitEq_none (pre s : Str) (h : '=' ∉ s) : splitEq pre s = none := by
  induction s generalizing pre with
  | nil => rfl
  | cons c s ih =>
    simp only [List.mem_cons, not_or] at h
    rw [splitEq, if_neg (fun hc => h.1 hc.1.symm), ih _ h.2]

theorem normalize_reads (lhs rhs : Str) (l r : PExpr) (hl : Reads lhs l) (hr : Reads rhs r)
    (heq : OnlyAxisEquals lhs) (hax : ¬ "axis".toList <:+ lhs) : Reads (normalizeEq (lhs ++ '=' :: rhs)) (.sub l r) := by
  unfold normalizeEq
  rw [splitEq_append [] lhs rhs heq hax, List.nil_append]
  dsimp only
  rw [reads_iff_phrase] at hl hr ⊢
  have h := Phrase.sub hl hr.paren.primary.power.factor.term
  have : lhs ++ " - (".toList ++ rhs ++ ")".toList =
      lhs ++ " - ".toList ++ ("(".toList ++ rhs ++ ")".toList) := by
    have h2 : " - (".toList = " - ".toList ++ "(".toList := rfl
    rw [h2]
    simp only [List.append_assoc]
  rw [this]
  exact h

/-- A space before a piece of text changes nothing. -/
theorem Reads.space_right {s : Str} {e : PExpr} (h : Reads s e) : Reads (s ++ " ".toList) e := by
  obtain ⟨ts, h1, h2⟩ := h
  refine ⟨ts, ?_, h2⟩
  have := tokens_append s " ".toList ts [] h1 rfl (Or.inl rfl)
  rwa [List.append_nil] at this

theorem Reads.space_left {s : Str} {e : PExpr} (h : Reads s e) : Reads (" ".toList ++ s) e := by
  obtain ⟨ts, h1, h2⟩ := h
  exact ⟨ts, tokens_append " ".toList s [] ts rfl h1 (Or.inr rfl), h2⟩

theorem onlyAxisEquals_space {s : Str} (h : OnlyAxisEquals s) : OnlyAxisEquals (s ++ " ".toList) := by
  intro a b hab
  rcases List.append_eq_append_iff.1 hab with ⟨w, hw, hr⟩ | ⟨w, hw, hr⟩
  · cases w with
    | nil => cases hr
    | cons c w =>
      have := congrArg List.length hr
      simp at this
  · cases w with
    | nil => cases hr
    | cons c w =>
      rw [List.cons_append, List.cons.injEq] at hr
      obtain ⟨rfl, -⟩ := hr
      exact h a w hw

/-- C32: for all texts `lhs` and `rhs` that Python reads as expressions, where `lhs` has no equals sign other
than those of `axis=…`, `normalize_eq("lhs = rhs")` is read as an expression, and its value is value(lhs) −
value(rhs) under every assignment. -/
theorem C32_value_is_difference (lhs rhs : Str) (l r : PExpr) (hl : Reads lhs l) (hr : Reads rhs r)
    (heq : OnlyAxisEquals lhs) :
    ∃ e, Reads (normalizeEq (lhs ++ " = ".toList ++ rhs)) e ∧
      ∀ (ι : Type) (_ : Fintype ι) (env : Str → ι → ℝ) (i : ι),
        e.value env i = l.value env i - r.value env i := by
  refine ⟨.sub l r, ?_, fun ι _ env i => rfl⟩
  have h := normalize_reads (lhs ++ " ".toList) (" ".toList ++ rhs) l r hl.space_right hr.space_left
    (onlyAxisEquals_space heq) (by
      rintro ⟨t, ht⟩
      have := congrArg List.getLast? ht
      rw [List.getLast?_append, List.getLast?_append] at this
      have h1 : "axis".toList.getLast? = some 's' := rfl
      have h2 : " ".toList.getLast? = some ' ' := rfl
      rw [h1, h2] at this
      exact absurd this (by simp))
  have h2 : " = ".toList = " ".toList ++ '=' :: " ".toList := rfl
  rw [h2]
  simpa [List.append_assoc] using h

/-- The same without spaces around the equality sign, when the left-hand side does not end in the letters
`axis`. -/
theorem C32_no_spaces (lhs rhs : Str) (l r : PExpr) (hl : Reads lhs l) (hr : Reads rhs r)
    (heq : OnlyAxisEquals lhs) (hax : ¬ "axis".toList <:+ lhs) :
    ∃ e, Reads (normalizeEq (lhs ++ "=".toList ++ rhs)) e ∧
      ∀ (ι : Type) (_ : Fintype ι) (env : Str → ι → ℝ) (i : ι),
        e.value env i = l.value env i - r.value env i := by
  refine ⟨.sub l r, ?_, fun ι _ env i => rfl⟩
  have h := normalize_reads lhs rhs l r hl hr heq hax
  have h2 : "=".toList = ['='] := rfl
  rw [h2, List.append_assoc]
  exact h

/-- C32, last part: a string without an equality sign is returned unchanged. -/
theorem C32_no_equals_unchanged (s : Str) (h : '=' ∉ s) : normalizeEq s = s := by
  unfold normalizeEq
  rw [splitEq_none [] s h]

/-- What "whatever operators" leaves out: a name ending in `axis` directly before the equality sign is
taken for the keyword argument of a reduction, and the equation is not normalised at all. -/
theorem C32_axis_name_not_normalised :
    normalizeEq "x_axis=y".toList = "x_axis=y".toList := by decide

/-- ... and a keyword argument other than `axis` is split at its own equality sign. -/
theorem C32_keyword_split_wrongly :
    normalizeEq "X.sum(axis=0, keepdims=True) = Y".toList =
      "X.sum(axis=0, keepdims - (True) = Y)".toList := by decide

/-- A space before the equals sign of `axis =0` is enough to make it the place where the equation is split. -/
theorem C32_spaced_axis_split_wrongly :
    Reads "X.sum(axis =0)".toList (.post (.var "X".toList) (.sumAxis "0".toList)) ∧
      normalizeEq "X.sum(axis =0) = Y".toList = "X.sum(axis  - (0) = Y)".toList :=
  ⟨⟨_, rfl, 20, rfl⟩, by decide⟩

/-- `wrap_in_ravel` applies `ravel` to the whole expression, whatever its operators. -/
theorem C32_ravel_whole_expression (s : Str) (e : PExpr) (h : Reads s e) :
    Reads (wrapInRavel s) (.post e (.call "ravel".toList)) := by
  rw [reads_iff_phrase] at h ⊢
  exact h.parenMethod (m := "ravel".toList) (by decide) |>.power.factor.term.sum

example : Reads (wrapInRavel "a - b".toList)
    (.post (.sub (.var "a".toList) (.var "b".toList)) (.call "ravel".toList)) :=
  C32_ravel_whole_expression _ _ ⟨_, rfl, 20, rfl⟩

/-- The hypotheses are met by right-hand sides whose meaning depends on the parentheses. -/
example : Reads "a - b".toList (.sub (.var "a".toList) (.var "b".toList)) ∧
    Reads "-x ** 2 / y".toList
      (.div (.neg (.pow (.var "x".toList) (.num "2".toList))) (.var "y".toList)) :=
  ⟨⟨_, rfl, 20, rfl⟩, ⟨_, rfl, 20, rfl⟩⟩

example : normalizeEq "Y = a - b".toList = "Y  - ( a - b)".toList := by decide

end Verif
