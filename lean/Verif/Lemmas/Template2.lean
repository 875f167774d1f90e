import Verif.Model.Production
import Verif.Lemmas.Phrase

/-! `string.Template`: what `safe_substitute` makes of a template given piece by piece. -/

namespace Verif

inductive Piece where
  | lit (s : Str)
  | ph (s : Str)

namespace Piece

/-- The template text. -/
def render : List Piece → Str
  | [] => []
  | .lit s :: l => s ++ render l
  | .ph s :: l => '$' :: (s ++ render l)

/-- The result text. -/
def fill (d : Dict Str Str) : List Piece → Str
  | [] => []
  | .lit s :: l => s ++ fill d l
  | .ph s :: l => (dget d s).getD ('$' :: s) ++ fill d l

/-- The text that follows a placeholder cannot be taken as part of its name. -/
def follows : Str → Bool
  | [] => true
  | c :: _ => !phChar c

/-- A placeholder name. -/
def isPh : Str → Bool
  | [] => false
  | c :: t => phStart c && t.all phChar

def wf : List Piece → Bool
  | [] => true
  | .lit s :: l => !s.contains '$' && wf l
  | .ph s :: l => (isPh s && follows (render l)) && wf l

end Piece

theorem substRun_append (d : Dict Str Str) (p : Option Str) (a b : Str) :
    substRun d p (a ++ b) =
      ((substRun d p a).1 ++ (substRun d (substRun d p a).2 b).1, (substRun d (substRun d p a).2 b).2) := by
  induction a generalizing p with
  | nil => rfl
  | cons c a ih =>
    rw [List.cons_append, substRun, substRun, ih]
    simp [List.append_assoc]

theorem substRun_plain (d : Dict Str Str) (s : Str) (h : '$' ∉ s) : substRun d none s = (s, none) := by
  induction s with
  | nil => rfl
  | cons c s ih =>
    simp only [List.mem_cons, not_or] at h
    have hc : (c == '$') = false := by simpa using fun e : c = '$' => h.1 e.symm
    rw [substRun]
    simp only [substStep, hc, Bool.false_eq_true, if_false]
    rw [ih h.2]
    rfl

theorem substRun_name (d : Dict Str Str) (acc s : Str) (hacc : acc ≠ []) (h : s.all phChar = true) :
    substRun d (some acc) s = ([], some (acc ++ s)) := by
  induction s generalizing acc with
  | nil => simp [substRun]
  | cons c s ih =>
    rw [List.all_cons, Bool.and_eq_true] at h
    cases acc with
    | nil => exact absurd rfl hacc
    | cons a acc =>
      rw [substRun]
      simp only [substStep, h.1, if_true]
      rw [ih _ (by simp) h.2]
      simp

/-- The result after the text `s` when a placeholder `acc` is pending and `s` ends it. -/
theorem substRun_after (d : Dict Str Str) (acc s : Str) (hacc : acc ≠ [])
    (h : Piece.follows s = true) :
    (substRun d (some acc) s).1 ++
        (match (substRun d (some acc) s).2 with | none => [] | some a => phText d a) =
      phText d acc ++ ((substRun d none s).1 ++
        (match (substRun d none s).2 with | none => [] | some a => phText d a)) := by
  cases s with
  | nil => simp [substRun]
  | cons c s =>
    have hc : phChar c = false := by simpa [Piece.follows] using h
    cases acc with
    | nil => exact absurd rfl hacc
    | cons a acc =>
      rw [substRun, substRun]
      cases hd : c == '$' with
      | true =>
        simp only [substStep, hc, hd, Bool.false_eq_true, if_false, if_true, List.nil_append,
          List.append_assoc]
      | false =>
        simp only [substStep, hc, hd, Bool.false_eq_true, if_false, List.append_assoc]

theorem safeSubst_render (d : Dict Str Str) (ps : List Piece) (h : Piece.wf ps = true) :
    safeSubst (Piece.render ps) d = Piece.fill d ps := by
  induction ps with
  | nil => rfl
  | cons p ps ih =>
    cases p with
    | lit s =>
      rw [Piece.wf, Bool.and_eq_true] at h
      have hs : '$' ∉ s := by simpa using h.1
      rw [Piece.render, Piece.fill, ← ih h.2]
      unfold safeSubst
      rw [substRun_append, substRun_plain d s hs]
      simp only [List.append_assoc]
    | ph s =>
      rw [Piece.wf, Bool.and_eq_true, Bool.and_eq_true] at h
      obtain ⟨⟨h1, h2⟩, h3⟩ := h
      cases s with
      | nil => cases h1
      | cons c s =>
        rw [Piece.isPh, Bool.and_eq_true] at h1
        rw [Piece.render, Piece.fill, ← ih h3]
        have hrun : substRun d none ('$' :: ((c :: s) ++ Piece.render ps)) =
            substRun d (some (c :: s)) (Piece.render ps) := by
          rw [substRun]
          have : substStep d none '$' = ([], some []) := rfl
          simp only [this]
          rw [List.cons_append, substRun]
          have h5 : substStep d (some []) c = ([], some [c]) := by
            simp only [substStep, h1.1, if_true]
          simp only [h5, List.nil_append]
          rw [substRun_append, substRun_name d [c] s (by simp) h1.2]
          rfl
        unfold safeSubst
        rw [hrun]
        have := substRun_after d (c :: s) (Piece.render ps) (by simp) h2
        exact this

/-- A template followed by text without placeholders. -/
theorem safeSubst_append_plain (d : Dict Str Str) (t s : Str) (ht : (substRun d none t).2 = none)
    (hs : '$' ∉ s) : safeSubst (t ++ s) d = safeSubst t d ++ s := by
  unfold safeSubst
  rw [substRun_append, ht, substRun_plain d s hs]
  simp [ht]

/-- Nothing that Python reads contains a dollar sign. -/
theorem no_dollar_of_tokens (s : Str) (ts : List Token) (h : tokens s = some ts) : '$' ∉ s := by
  have key : ∀ (s : Str) (p : Pending) (x : List Token × Pending), lexRun p s = some x → '$' ∉ s := by
    intro s
    induction s with
    | nil => intro p x _ hm; cases hm
    | cons c s ih =>
      intro p x hx hm
      rw [lexRun] at hx
      rcases List.mem_cons.1 hm with rfl | hm
      · have : lexStep p '$' = none := by cases p <;> rfl
        rw [this] at hx
        cases hx
      · cases h1 : lexStep p c with
        | none => rw [h1] at hx; cases hx
        | some y =>
          rw [h1] at hx
          dsimp only at hx
          cases h2 : lexRun y.2 s with
          | none => rw [h2] at hx; cases hx
          | some z => exact ih _ _ h2 hm
  unfold tokens at h
  cases h1 : lexRun .none s with
  | none => rw [h1] at h; cases h
  | some x => exact key s _ x h1

end Verif
