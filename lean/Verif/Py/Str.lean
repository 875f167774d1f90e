import Verif.Py.Basic

/-!
# Python string operations

`str.join`, literal `re.sub` / `str.replace`, `startswith`.
-/

namespace Verif

/-- `sep.join(l)`. -/
def joinStr (sep : Str) : List Str → Str
  | [] => []
  | [a] => a
  | a :: b :: l => a ++ sep ++ joinStr sep (b :: l)

/-- Left-to-right replacement of the non-overlapping occurrences of a non-empty literal `pat`;
`skip` counts the characters of the current match that are still to be dropped. -/
def replaceGo (pat rep : Str) : Nat → Str → Str
  | _, [] => []
  | skip + 1, _ :: s => replaceGo pat rep skip s
  | 0, c :: s =>
      if pat.isPrefixOf (c :: s) then rep ++ replaceGo pat rep (pat.length - 1) s
      else c :: replaceGo pat rep 0 s

/-- `s.replace(pat, rep)` / `re.sub(re.escape(pat), lambda _: rep, s)` for non-empty `pat`. -/
def replaceAll (pat rep s : Str) : Str := replaceGo pat rep 0 s

theorem joinStr_cons (sep a : Str) (l : List Str) :
    joinStr sep (a :: l) = a ++ l.flatMap (sep ++ ·) := by
  induction l generalizing a with
  | nil => simp [joinStr]
  | cons b l ih => rw [joinStr, ih]; simp

theorem isPrefixOf_append_right (p s t : Str) (h : p.isPrefixOf s = true) :
    p.isPrefixOf (s ++ t) = true := by
  rw [List.isPrefixOf_iff_prefix] at *
  exact h.trans (List.prefix_append _ _)

theorem replaceGo_skip (pat rep a s : Str) :
    replaceGo pat rep a.length (a ++ s) = replaceGo pat rep 0 s := by
  induction a with
  | nil => rfl
  | cons c a ih => simpa [replaceGo] using ih

theorem replaceAll_pat (pat rep s : Str) (hp : pat ≠ []) :
    replaceAll pat rep (pat ++ s) = rep ++ replaceAll pat rep s := by
  cases pat with
  | nil => exact absurd rfl hp
  | cons c pat =>
    have h : (c :: pat).isPrefixOf ((c :: pat) ++ s) = true := by
      rw [List.isPrefixOf_iff_prefix]; exact List.prefix_append _ _
    unfold replaceAll
    rw [List.cons_append, replaceGo, if_pos (by simpa using h)]
    congr 1
    exact replaceGo_skip (c :: pat) rep pat s

/-- Characters that cannot start a match are copied. -/
theorem replaceAll_cons_of_not_prefix (pat rep : Str) (c : Char) (s : Str)
    (h : pat.isPrefixOf (c :: s) = false) :
    replaceAll pat rep (c :: s) = c :: replaceAll pat rep s := by
  unfold replaceAll
  rw [replaceGo, if_neg (by simp [h])]

theorem replaceAll_copy (pat rep a s : Str) (c : Char) (hc : pat.head? = some c) (ha : c ∉ a) :
    replaceAll pat rep (a ++ s) = a ++ replaceAll pat rep s := by
  induction a with
  | nil => rfl
  | cons b a ih =>
    simp only [List.mem_cons, not_or] at ha
    rw [List.cons_append, replaceAll_cons_of_not_prefix, ih ha.2]
    · rfl
    · cases pat with
      | nil => simp at hc
      | cons p pat =>
        simp only [List.head?_cons, Option.some.injEq] at hc
        subst hc
        simp [List.isPrefixOf, ha.1]

end Verif
