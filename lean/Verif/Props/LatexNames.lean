import Verif.Model.LatexNames
import Verif.Lemmas.Template
import Verif.Props.Names

/-!
# C95: objects are displayed under their own names, with the labels of their dims
-/

namespace Verif

/-! ## Spec -/

/-- A Greek word stands at position `i` of `s`: at the beginning or right after `_` or `^`. -/
def GreekAt (s : Str) (i : Nat) : Prop :=
  (i = 0 ∨ ∃ c, s[i - 1]? = some c ∧ (c = '_' ∨ c = '^')) ∧ ∃ g ∈ greekWords, g <+: s.drop i

instance (s : Str) (i : Nat) : Decidable (GreekAt s i) := by
  unfold GreekAt
  cases h : s[i - 1]? with
  | none => exact decidable_of_iff (i = 0 ∧ ∃ g ∈ greekWords, g <+: s.drop i) (by simp)
  | some c =>
    exact decidable_of_iff ((i = 0 ∨ c = '_' ∨ c = '^') ∧ ∃ g ∈ greekWords, g <+: s.drop i) (by simp)

/-- The text with a backslash before every Greek word. -/
def withBackslashes (s : Str) : Str :=
  (List.range s.length).flatMap fun i =>
    (if GreekAt s i then ['\\'] else []) ++ (s[i]?).toList

/-! ## Greek letters -/

theorem greek_letters : ∀ g ∈ greekWords, g ≠ [] ∧ ∀ c ∈ g, isScript c = false ∧ c ≠ '\\' := by
  decide

/-- A Greek word is at the head. -/
def greekHead (s : Str) : Bool := greekWords.any (·.isPrefixOf s)

/-- The same text, without counting. -/
def greekMark : Bool → Str → Str
  | _, [] => []
  | b, c :: s => (if b && greekHead (c :: s) then ['\\', c] else [c]) ++ greekMark (isScript c) s

theorem greekMark_false_append (w r : Str) (h : ∀ c ∈ w, isScript c = false) :
    greekMark false (w ++ r) = w ++ greekMark false r := by
  induction w with
  | nil => rfl
  | cons c w ih =>
    rw [List.cons_append, greekMark, h c (by simp), ih fun a ha => h a (by simp [ha])]
    simp

theorem greekSubGo_skip (w r : Str) (h : ∀ c ∈ w, isScript c = false) (b : Bool) :
    greekSubGo w.length b (w ++ r) = w ++ greekSubGo 0 (if w = [] then b else false) r := by
  induction w generalizing b with
  | nil => rfl
  | cons c w ih =>
    rw [List.cons_append, List.length_cons, greekSubGo, h c (by simp),
      ih fun a ha => h a (by simp [ha])]
    simp

theorem greekSubGo_eq (b : Bool) (s : Str) : greekSubGo 0 b s = greekMark b s := by
  induction hn : s.length using Nat.strongRecOn generalizing b s with
  | _ n ih =>
    cases s with
    | nil => rfl
    | cons c s =>
      rw [greekSubGo, greekMark]
      unfold greekMatch greekHead
      cases b with
      | false =>
        simp only [Bool.false_eq_true, if_false, Bool.false_and]
        rw [ih s.length (by subst hn; simp) _ s rfl]; rfl
      | true =>
        simp only [if_true, Bool.true_and]
        cases hf : greekWords.find? (·.isPrefixOf (c :: s)) with
        | none =>
          have : greekWords.any (·.isPrefixOf (c :: s)) = false := by
            rw [List.any_eq_false]
            exact fun g hg => List.find?_eq_none.1 hf g hg
          simp only [Option.map_none, this, Bool.false_eq_true, if_false]
          rw [ih s.length (by subst hn; simp) _ s rfl]; rfl
        | some g =>
          have hg := List.mem_of_find?_eq_some hf
          have hp : g.isPrefixOf (c :: s) = true := by simpa using List.find?_some hf
          have : greekWords.any (·.isPrefixOf (c :: s)) = true := List.any_eq_true.2 ⟨g, hg, hp⟩
          simp only [Option.map_some, this, if_true]
          rw [List.isPrefixOf_iff_prefix] at hp
          obtain ⟨hne, hl⟩ := greek_letters g hg
          cases g with
          | nil => exact absurd rfl hne
          | cons a g =>
            obtain ⟨r, hr⟩ := hp
            rw [List.cons_append, List.cons.injEq] at hr
            obtain ⟨rfl, rfl⟩ := hr
            have hg' : ∀ c ∈ g, isScript c = false := fun x hx => (hl x (by simp [hx])).1
            rw [(hl a (by simp)).1]
            simp only [List.length_cons, Nat.add_sub_cancel, List.cons_append, List.nil_append]
            rw [greekSubGo_skip g r hg', greekMark_false_append g r hg']
            congr 3
            rw [show (if g = [] then false else false) = false by split <;> rfl]
            exact ih r.length (by subst hn; simp; omega) _ r rfl

theorem greekMark_eq_range (s pre : Str) (b : Bool)
    (hb : b = true ↔ pre = [] ∨ ∃ c, pre.getLast? = some c ∧ isScript c = true) :
    greekMark b s = (List.range s.length).flatMap fun i =>
      (if GreekAt (pre ++ s) (pre.length + i) then ['\\'] else []) ++ (s[i]?).toList := by
  induction s generalizing pre b with
  | nil => rfl
  | cons c s ih =>
    rw [greekMark, List.length_cons, List.range_succ_eq_map, List.flatMap_cons, List.flatMap_map]
    have h0 : (b && greekHead (c :: s)) = true ↔ GreekAt (pre ++ c :: s) (pre.length + 0) := by
      rw [Bool.and_eq_true, hb]
      unfold GreekAt greekHead
      rw [List.any_eq_true, Nat.add_zero, List.drop_left]
      have h1 : (pre = [] ∨ ∃ c, pre.getLast? = some c ∧ isScript c = true) ↔
          (pre.length = 0 ∨ ∃ a, (pre ++ c :: s)[pre.length - 1]? = some a ∧ (a = '_' ∨ a = '^')) := by
        rcases List.eq_nil_or_concat pre with rfl | ⟨p, a, rfl⟩
        · simp
        · simp [isScript]
      rw [h1]
      simp only [List.isPrefixOf_iff_prefix]
    congr 1
    · by_cases h : (b && greekHead (c :: s)) = true
      · rw [if_pos h, if_pos (h0.1 h)]; rfl
      · rw [if_neg h, if_neg fun h' => h (h0.2 h')]; rfl
    · rw [ih (pre ++ [c]) (isScript c) (by simp)]
      congr 1
      funext i
      have e1 : pre ++ [c] ++ s = pre ++ c :: s := by simp
      have e2 : (pre ++ [c]).length + i = pre.length + (i + 1) := by simp; omega
      rw [e1, e2]
      simp

/-- **C95 (Greek letters).**  For every name (or given `latex_name`): the LaTeX name is the same text with
a backslash before the Greek words that begin the name or follow `_` or `^`, and nowhere else. -/
theorem C95_greek (name : Str) (given : Option Str) :
    latexName name given = withBackslashes (given.getD name) := by
  unfold latexName withBackslashes
  rw [greekSubGo_eq, greekMark_eq_range _ [] true (by simp)]
  simp

example : latexName "alpha_K".toList none = "\\alpha_K".toList ∧
    latexName "Omega^phi".toList none = "\\Omega^\\phi".toList ∧
    latexName "K_s_Psi".toList none = "K_s_\\Psi".toList ∧
    latexName "x".toList (some "\\beta_x".toList) = "\\beta_x".toList := by decide

theorem greekMark_erase (b : Bool) (s : Str) :
    (greekMark b s).filter (· ≠ '\\') = s.filter (· ≠ '\\') := by
  induction s generalizing b with
  | nil => rfl
  | cons c s ih =>
    rw [greekMark, List.filter_append, ih]
    split <;> simp [List.filter_cons] <;> split <;> simp

/-- **C95 (nothing else changes).**  Without the backslashes the LaTeX name is the name; so names without
backslashes that differ have different LaTeX names. -/
theorem C95_latex_injective (n m : Str) (hn : '\\' ∉ n) (hm : '\\' ∉ m)
    (h : latexName n none = latexName m none) : n = m := by
  unfold latexName at h
  rw [greekSubGo_eq, greekSubGo_eq] at h
  have := congrArg (List.filter (· ≠ '\\')) h
  rw [greekMark_erase, greekMark_erase] at this
  have e : ∀ s : Str, '\\' ∉ s → s.filter (· ≠ '\\') = s := by
    intro s hs
    rw [List.filter_eq_self]
    intro a ha
    simp only [decide_eq_true_eq]
    rintro rfl
    exact hs ha
  simp only [Option.getD_none] at this
  rwa [e n hn, e m hm] at this

example : '\\' ∉ "alpha_K".toList ∧ '\\' ∉ "alpha_L".toList ∧
    latexName "alpha_K".toList none ≠ latexName "alpha_L".toList none := by decide

theorem prefix_of_greekMark (w s : Str) (h : ∀ c ∈ w, isScript c = false)
    (hp : w <+: greekMark false s) : w <+: s := by
  induction w generalizing s with
  | nil => exact List.nil_prefix
  | cons a w ih =>
    cases s with
    | nil => simp [greekMark] at hp
    | cons c s =>
      rw [greekMark] at hp
      simp only [Bool.false_and, Bool.false_eq_true, if_false, List.cons_append, List.nil_append] at hp
      rw [List.cons_prefix_cons] at hp ⊢
      obtain ⟨rfl, hp⟩ := hp
      rw [h a (by simp)] at hp
      exact ⟨rfl, ih s (fun x hx => h x (by simp [hx])) hp⟩

theorem greekHead_mark (c : Char) (s : Str) (h : greekHead (c :: s) = false) :
    greekHead (c :: greekMark (isScript c) s) = false := by
  unfold greekHead at *
  rw [List.any_eq_false] at *
  intro g hg hp
  apply h g hg
  rw [List.isPrefixOf_iff_prefix] at *
  obtain ⟨hne, hl⟩ := greek_letters g hg
  cases g with
  | nil => exact absurd rfl hne
  | cons a g =>
    rw [List.cons_prefix_cons] at hp ⊢
    obtain ⟨rfl, hp⟩ := hp
    rw [(hl a (by simp)).1] at hp
    exact ⟨rfl, prefix_of_greekMark g s (fun x hx => (hl x (by simp [hx])).1) hp⟩

theorem greekHead_backslash (s : Str) : greekHead ('\\' :: s) = false := by
  unfold greekHead
  rw [List.any_eq_false]
  intro g hg hp
  rw [List.isPrefixOf_iff_prefix] at hp
  obtain ⟨hne, hl⟩ := greek_letters g hg
  cases g with
  | nil => exact hne rfl
  | cons a g =>
    rw [List.cons_prefix_cons] at hp
    exact (hl a (by simp)).2 hp.1

theorem greekMark_idem (b : Bool) (s : Str) : greekMark b (greekMark b s) = greekMark b s := by
  induction s generalizing b with
  | nil => rfl
  | cons c s ih =>
    by_cases h : (b && greekHead (c :: s)) = true
    · have e : greekMark b (c :: s) = '\\' :: c :: greekMark (isScript c) s := by
        rw [greekMark, if_pos h]; rfl
      rw [e, greekMark, greekHead_backslash, greekMark, ih]
      simp [isScript]
    · have e : greekMark b (c :: s) = c :: greekMark (isScript c) s := by
        rw [greekMark, if_neg h]; rfl
      rw [e, greekMark, ih]
      have : (b && greekHead (c :: greekMark (isScript c) s)) = false := by
        cases b with
        | false => rfl
        | true =>
          simp only [Bool.true_and, Bool.not_eq_true] at h ⊢
          exact greekHead_mark c s h
      rw [this]
      rfl

/-- **C95 (given LaTeX names).**  A LaTeX name given back as `latex_name` is kept as it is. -/
theorem C95_latex_kept (name other : Str) (given : Option Str) :
    latexName other (some (latexName name given)) = latexName name given := by
  unfold latexName
  rw [Option.getD_some, greekSubGo_eq, greekSubGo_eq, greekMark_idem]

theorem prefix_before (a : Char) (g x r : Str) (hg : a ∉ g) (hp : g <+: x ++ a :: r) : g <+: x := by
  induction g generalizing x with
  | nil => exact List.nil_prefix
  | cons b g ih =>
    cases x with
    | nil =>
      rw [List.nil_append, List.cons_prefix_cons] at hp
      exact absurd (by simp [hp.1]) hg
    | cons y x =>
      rw [List.cons_append, List.cons_prefix_cons] at hp
      rw [List.cons_prefix_cons]
      exact ⟨hp.1, ih x (fun h => hg (by simp [h])) hp.2⟩

/-- The rest of a text after a word. -/
def markRest : Str → Str
  | [] => []
  | c :: r => c :: greekMark true r

/-- **C95 (only Greek letters), for names made of Greek words and words that do not begin with one.**
Then the backslashes stand before the words that are Greek letters. -/
theorem C95_words_partial (w : Str) (ws : List Str) (hs : ∀ x ∈ w :: ws, '_' ∉ x ∧ '^' ∉ x)
    (hg : ∀ x ∈ w :: ws, x ∈ greekWords ∨ ∀ g ∈ greekWords, ¬ g <+: x) :
    latexName (joinStr "_".toList (w :: ws)) none =
      joinStr "_".toList ((w :: ws).map fun x => if x ∈ greekWords then '\\' :: x else x) := by
  unfold latexName
  rw [greekSubGo_eq, Option.getD_none]
  have key : ∀ (x r : Str), ('_' ∉ x ∧ '^' ∉ x) → (x ∈ greekWords ∨ ∀ g ∈ greekWords, ¬ g <+: x) →
      (r = [] ∨ ∃ r', r = '_' :: r') →
      greekMark true (x ++ r) = (if x ∈ greekWords then '\\' :: x else x) ++
        markRest r := by
    intro x r hx hxg hr
    have hsc : ∀ c ∈ x, isScript c = false := by
      intro c hc
      unfold isScript
      simp only [Bool.or_eq_false_iff, beq_eq_false_iff_ne]
      exact ⟨fun h => hx.1 (h ▸ hc), fun h => hx.2 (h ▸ hc)⟩
    have htail : greekMark false r = markRest r := by
      rcases hr with rfl | ⟨r', rfl⟩
      · rfl
      · rw [greekMark]; rfl
    have hr0 : x = [] → greekMark true r = markRest r := by
      intro _
      rcases hr with rfl | ⟨r', rfl⟩
      · rfl
      · rw [greekMark]
        have : greekHead ('_' :: r') = false := by
          unfold greekHead
          rw [List.any_eq_false]
          intro g hg hp
          rw [List.isPrefixOf_iff_prefix] at hp
          obtain ⟨hne, hl⟩ := greek_letters g hg
          cases g with
          | nil => exact hne rfl
          | cons a g =>
            rw [List.cons_prefix_cons] at hp
            have := (hl a (by simp)).1
            rw [hp.1] at this
            exact absurd this (by decide)
        rw [this]
        rfl
    cases x with
    | nil =>
      have : ([] : Str) ∉ greekWords := fun h => (greek_letters _ h).1 rfl
      rw [if_neg this, List.nil_append, hr0 rfl, List.nil_append]
    | cons c x =>
      rw [List.cons_append, greekMark, hsc c (by simp),
        greekMark_false_append x r fun a ha => hsc a (by simp [ha]), htail]
      have hhead : greekHead (c :: (x ++ r)) = decide (c :: x ∈ greekWords) := by
        by_cases hm : c :: x ∈ greekWords
        · rw [decide_eq_true hm]
          unfold greekHead
          rw [List.any_eq_true]
          exact ⟨_, hm, by rw [List.isPrefixOf_iff_prefix]; exact ⟨r, by simp⟩⟩
        · rw [decide_eq_false hm]
          unfold greekHead
          rw [List.any_eq_false]
          intro g hgm hp
          rw [List.isPrefixOf_iff_prefix] at hp
          have hnp := (hxg.resolve_left hm) g hgm
          rw [← List.cons_append] at hp
          rcases hr with rfl | ⟨r', rfl⟩
          · exact hnp (by simpa using hp)
          · apply hnp
            obtain ⟨hne, hl⟩ := greek_letters g hgm
            exact prefix_before '_' g (c :: x) r' (fun hc => absurd (hl _ hc).1 (by decide)) hp
      rw [Bool.true_and, hhead]
      by_cases hm : c :: x ∈ greekWords
      · simp [hm]
      · simp [hm]
  induction ws generalizing w with
  | nil =>
    have := key w [] (hs w (by simp)) (hg w (by simp)) (Or.inl rfl)
    simpa [joinStr, markRest] using this
  | cons w' ws ih =>
    have h1 := key w ('_' :: joinStr "_".toList (w' :: ws)) (hs w (by simp)) (hg w (by simp))
      (Or.inr ⟨_, rfl⟩)
    have h2 := ih w' (fun x hx => hs x (by simp [List.mem_cons.1 hx])) (fun x hx => hg x (by simp [List.mem_cons.1 hx]))
    rw [joinStr]
    have e : w ++ "_".toList ++ joinStr "_".toList (w' :: ws) = w ++ ('_' :: joinStr "_".toList (w' :: ws)) := by
      simp
    rw [e, h1, List.map_cons, List.map_cons, joinStr, ← List.map_cons (f := fun x => if x ∈ greekWords then '\\' :: x else x), ← h2]
    simp [markRest]


example : ∀ x ∈ ["alpha".toList, "K".toList, "Omega".toList],
    ('_' ∉ x ∧ '^' ∉ x) ∧ (x ∈ greekWords ∨ ∀ g ∈ greekWords, ¬ g <+: x) := by decide

/-- **C95, words that begin with a Greek word.**  The pattern has no right border: `numeraire` and
`children` are displayed as the (undefined) commands `\numeraire` and `\children`, so the hypothesis on
the words of `C95_words_partial` cannot be left out. -/
theorem C95_words_counterexample :
    latexName "numeraire".toList none = "\\numeraire".toList ∧ "numeraire".toList ∉ greekWords ∧
    latexName "P_children".toList none = "P_\\children".toList ∧ "children".toList ∉ greekWords := by
  decide

/-- The Greek alphabet, each letter with its name in LaTeX. -/
def greekAlphabet : List (Char × Str) :=
  [('α', "alpha".toList), ('β', "beta".toList), ('γ', "gamma".toList), ('δ', "delta".toList),
   ('ε', "epsilon".toList), ('ζ', "zeta".toList), ('η', "eta".toList), ('θ', "theta".toList),
   ('ι', "iota".toList), ('κ', "kappa".toList), ('λ', "lambda".toList), ('μ', "mu".toList),
   ('ν', "nu".toList), ('ξ', "xi".toList), ('ο', "omicron".toList), ('π', "pi".toList),
   ('ρ', "rho".toList), ('σ', "sigma".toList), ('τ', "tau".toList), ('υ', "upsilon".toList),
   ('φ', "phi".toList), ('χ', "chi".toList), ('ψ', "psi".toList), ('ω', "omega".toList)]

/-- **C95 (the alphabet).**  An object that is called like a Greek letter, with a small or a capital initial,
is displayed as that letter; the only other word that is displayed as a letter is `varepsilon`. -/
theorem C95_alphabet (w : Str) (hs : '_' ∉ w ∧ '^' ∉ w) (hp : ∀ g ∈ greekWords, g <+: w → g = w) :
    latexName w none = '\\' :: w ↔
      ∃ g, (g = "varepsilon".toList ∨ ∃ c, (c, g) ∈ greekAlphabet) ∧
        (w = g ∨ ∃ c r, g = c :: r ∧ w = c.toUpper :: r) := by
  have hmem : w ∈ greekWords ↔ ∃ g, (g = "varepsilon".toList ∨ ∃ c, (c, g) ∈ greekAlphabet) ∧
      (w = g ∨ ∃ c r, g = c :: r ∧ w = c.toUpper :: r) := by
    have hlow : ∀ g, g ∈ greeksLower ↔ (g = "varepsilon".toList ∨ ∃ c, (c, g) ∈ greekAlphabet) := by
      intro g
      have h2 : (∃ c, (c, g) ∈ greekAlphabet) ↔ g ∈ greekAlphabet.map Prod.snd := by
        rw [List.mem_map]
        exact ⟨fun ⟨c, hc⟩ => ⟨(c, g), hc, rfl⟩, fun ⟨⟨c, g'⟩, hc, he⟩ => ⟨c, by cases he; exact hc⟩⟩
      have h3 : greeksLower = greekAlphabet.map Prod.snd ++ ["varepsilon".toList] := by rfl
      rw [h2, h3, List.mem_append, List.mem_singleton, or_comm]
    have hne : ∀ g ∈ greeksLower, g ≠ [] := by decide
    rw [greekWords, List.mem_append, List.mem_map]
    constructor
    · rintro (h | ⟨g, hg, rfl⟩)
      · exact ⟨w, (hlow w).1 h, Or.inl rfl⟩
      · refine ⟨g, (hlow g).1 hg, Or.inr ?_⟩
        cases g with
        | nil => exact absurd rfl (hne _ hg)
        | cons c r => exact ⟨c, r, rfl, rfl⟩
    · rintro ⟨g, hg, rfl | ⟨c, r, rfl, rfl⟩⟩
      · exact Or.inl ((hlow _).2 hg)
      · exact Or.inr ⟨c :: r, (hlow _).2 hg, rfl⟩
  rw [← hmem]
  have hw := C95_words_partial w [] (by simpa using hs) (by
    intro x hx
    rw [List.mem_singleton] at hx
    subst hx
    by_cases h : x ∈ greekWords
    · exact Or.inl h
    · exact Or.inr fun g hg hpre => h (by rw [← hp g hg hpre]; exact hg))
  simp only [List.map_cons, List.map_nil, joinStr] at hw
  rw [hw]
  by_cases h : w ∈ greekWords
  · simp [h]
  · rw [if_neg h]
    constructor
    · exact fun h1 => absurd (congrArg List.length h1) (by simp)
    · exact fun h1 => absurd h1 h

example : ('_' ∉ "Sigma".toList ∧ '^' ∉ "Sigma".toList) ∧
    ∀ g ∈ greekWords, g <+: "Sigma".toList → g = "Sigma".toList := by decide

/-! ## The whole displayed name -/

/-- **C95 (refused values).**  Values of dims that the object does not have are refused with a `ValueError`, all
others are accepted. -/
theorem C95_accepted (name : Str) (dims : List Str) (vals : Dict Str Str) (lx ds : Option Str)
    (pos re : Bool) (ext : Int) :
    ((∃ o, declareObj name dims (some vals) lx ds pos re ext = .ok o) ↔ ∀ d ∈ dkeys vals, d ∈ dims) ∧
    ((∃ d ∈ dkeys vals, d ∉ dims) → declareObj name dims (some vals) lx ds pos re ext = .error .valueError) := by
  unfold declareObj
  simp only [Option.getD_some]
  by_cases h : (dkeys vals).all fun d => decide (d ∈ dims)
  · rw [if_pos h]
    simp only [List.all_eq_true, decide_eq_true_eq] at h
    exact ⟨⟨fun _ => h, fun _ => ⟨_, rfl⟩⟩, fun ⟨d, h1, h2⟩ => absurd (h d h1) h2⟩
  · rw [if_neg h]
    simp only [List.all_eq_true, decide_eq_true_eq] at h
    refine ⟨⟨?_, fun h' => absurd h' h⟩, fun _ => rfl⟩
    rintro ⟨o, ho⟩
    cases ho

example : declareObj "x".toList ["i".toList] (some [("j".toList, "a".toList)]) none none true true 0 = .error .valueError :=
  (C95_accepted _ _ _ _ _ _ _ _).2 ⟨"j".toList, by decide, by decide⟩

/-- What is displayed depends on the values only. -/
theorem makeLatexSubscript_congr (dims : List Str) (v w : Dict Str Str)
    (h : ∀ d ∈ dims, dget v d = dget w d) : makeLatexSubscript dims v = makeLatexSubscript dims w := by
  unfold makeLatexSubscript
  have : dims.map (subscriptToken v) = dims.map (subscriptToken w) := by
    apply List.map_congr_left
    intro d hd
    unfold subscriptToken
    rw [h d hd]
  rw [this]

theorem fullLatexName_congr (latex : Str) (ext : Int) (dims : List Str) (v w : Dict Str Str)
    (h : ∀ d ∈ dims, dget v d = dget w d) :
    fullLatexName latex ext dims v = fullLatexName latex ext dims w := by
  unfold fullLatexName
  rw [makeLatexSubscript_congr dims v w h]

theorem updateAll_shown (o : ShownObj) (ps : List (Str × Str)) (h : ∀ p ∈ ps, p.1 ∈ o.dims)
    (hf : o.full = fullLatexName o.latex o.extend o.dims o.dimVals) :
    ∃ o', o.updateAll ps = .ok o' ∧ o'.name = o.name ∧ o'.dims = o.dims ∧ o'.latex = o.latex ∧
      o'.extend = o.extend ∧ o'.dimVals = dupdate o.dimVals ps ∧
      o'.full = fullLatexName o.latex o.extend o.dims (dupdate o.dimVals ps) := by
  induction ps generalizing o with
  | nil => exact ⟨o, rfl, rfl, rfl, rfl, rfl, rfl, hf⟩
  | cons p ps ih =>
    obtain ⟨o', h1, h2, h3, h4, h5, h6, h7⟩ := ih
      { o with
        dimVals := dset o.dimVals p.1 p.2
        full := fullLatexName o.latex o.extend o.dims (dset o.dimVals p.1 p.2)
        description := prettyPrint o.description o.dims (dset o.dimVals p.1 p.2) }
      (fun q hq => h q (by simp [hq])) rfl
    refine ⟨o', ?_, h2, h3, h4, h5, by rw [h6]; rfl, by rw [h7]; rfl⟩
    rw [ShownObj.updateAll, ShownObj.update, if_pos (h p (by simp))]
    exact h1

/-- **C95 (labels).**  Declaring an object and giving labels to its dims one after the other, in any
order and also repeatedly, displays the same name as declaring it with the labels it has in the end. -/
theorem C95_updates (name : Str) (dims : List Str) (vals : Option (Dict Str Str)) (lx ds ds' : Option Str)
    (pos re : Bool) (ext : Int) (ps : List (Str × Str)) (final : Dict Str Str) (o u : ShownObj)
    (ho : declareObj name dims vals lx ds pos re ext = .ok o) (hp : ∀ p ∈ ps, p.1 ∈ dims)
    (hf : ∀ d ∈ dims, dget final d = dget (dupdate (vals.getD []) ps) d)
    (hu : declareObj name dims (some final) lx ds' pos re ext = .ok u) :
    ∃ o', o.updateAll ps = .ok o' ∧ o'.full = u.full ∧ o'.latex = u.latex ∧ o'.name = name ∧
      o'.dims = dims ∧ ∀ d ∈ dims, dget o'.dimVals d = dget final d := by
  unfold declareObj at ho hu
  simp only at ho hu
  split at ho
  · split at hu
    · injection ho with ho
      injection hu with hu
      obtain ⟨o', h1, h2, h3, h4, h5, h6, h7⟩ := updateAll_shown o ps (by subst ho; exact hp)
        (by subst ho; rfl)
      refine ⟨o', h1, ?_, ?_, ?_, ?_, ?_⟩
      · rw [h7]
        subst ho hu
        exact fullLatexName_congr _ _ _ _ _ fun d hd => (hf d hd).symm
      · rw [h4]; subst ho hu; rfl
      · rw [h2]; subst ho; rfl
      · rw [h3]; subst ho; rfl
      · intro d hd
        rw [h6]
        subst ho
        exact (hf d hd).symm
    · cases hu
  · cases ho

/-- The displayed name of `x[i, j]` after both updates. -/
example : ((declareObj "x".toList ["i".toList, "j".toList] none none none true true 0).bind fun o =>
      o.updateAll [("j".toList, "b".toList), ("i".toList, "a".toList)]).map (·.full) =
    .ok "x_{i=\\text{a}, j=\\text{b}}".toList := by decide

/-- **C95 (unknown dims).**  A label for a dim that the object does not have is refused. -/
theorem C95_update_refused (o : ShownObj) (d v : Str) (h : d ∉ o.dims) :
    o.update d v = .error .valueError := by
  unfold ShownObj.update
  rw [if_neg h]

example : "k".toList ∉ ["i".toList, "j".toList] := by decide

/-! ## Different objects look different -/

theorem greekMark_mem (b : Bool) (s : Str) (c : Char) (hc : c ≠ '\\') :
    c ∈ greekMark b s ↔ c ∈ s := by
  have h := greekMark_erase b s
  have : c ∈ (greekMark b s).filter (· ≠ '\\') ↔ c ∈ s.filter (· ≠ '\\') := by rw [h]
  simpa [hc] using this

theorem append_sep_cancel (c : Char) {a b x y : Str} (ha : c ∉ a) (hb : c ∉ b)
    (h : a ++ c :: x = b ++ c :: y) : a = b ∧ x = y := by
  induction a generalizing b with
  | nil =>
    cases b with
    | nil => simpa using h
    | cons d b =>
      simp only [List.nil_append, List.cons_append, List.cons.injEq] at h
      exact absurd (by simp [h.1]) hb
  | cons d a ih =>
    cases b with
    | nil =>
      simp only [List.nil_append, List.cons_append, List.cons.injEq] at h
      exact absurd (by simp [h.1]) ha
    | cons e b =>
      simp only [List.cons_append, List.cons.injEq] at h
      obtain ⟨h1, h2⟩ := ih (b := b) (fun hh => ha (by simp [hh])) (fun hh => hb (by simp [hh])) h.2
      exact ⟨by rw [h.1, h1], h2⟩

theorem makeLatexSubscript_cases (dims : List Str) (v : Dict Str Str) :
    makeLatexSubscript dims v = [] ∨ ∃ r, makeLatexSubscript dims v = '_' :: '{' :: r := by
  unfold makeLatexSubscript
  split
  · exact Or.inl rfl
  · exact Or.inr ⟨_, rfl⟩

/-- The name without the subscript determines the object: the two parts can be told apart. -/
theorem fullLatexName_parts {n m : Str} (hn : '\\' ∉ n ∧ '{' ∉ n ∧ '}' ∉ n)
    (hm : '\\' ∉ m ∧ '{' ∉ m ∧ '}' ∉ m) (dims dims' : List Str) (v v' : Dict Str Str)
    (h : fullLatexName (latexName n none) 0 dims v = fullLatexName (latexName m none) 0 dims' v') :
    n = m ∧ makeLatexSubscript dims v = makeLatexSubscript dims' v' := by
  have hbr : ∀ (s : Str) (c : Char), c ≠ '\\' → (c ∈ latexName s none ↔ c ∈ s) := by
    intro s c hc
    unfold latexName
    rw [greekSubGo_eq]
    exact greekMark_mem _ _ _ hc
  unfold fullLatexName at h
  simp only [if_true] at h
  have hS := makeLatexSubscript_cases dims v
  have hS' := makeLatexSubscript_cases dims' v'
  generalize makeLatexSubscript dims v = S at h hS ⊢
  generalize makeLatexSubscript dims' v' = S' at h hS' ⊢
  -- a text in braces is not a name without underscores
  have mixed : ∀ (a b T T' : Str), '_' ∉ b → '{' ∉ b → (T' = [] ∨ ∃ r, T' = '_' :: '{' :: r) →
      ("\\text{".toList ++ a ++ "}".toList) ++ T ≠ b ++ T' := by
    intro a b T T' h1 h2 hT heq
    have e : "\\text{".toList ++ a ++ "}".toList ++ T = "\\text".toList ++ '{' :: (a ++ "}".toList ++ T) := by
      simp
    rw [e] at heq
    rcases hT with rfl | ⟨r, rfl⟩
    · rw [List.append_nil] at heq
      exact h2 (by rw [← heq]; simp)
    · have e2 : b ++ '_' :: '{' :: r = (b ++ ['_']) ++ '{' :: r := by simp
      rw [e2] at heq
      have := (append_sep_cancel '{' (by decide) (by simp [h2]) heq).1
      have : '_' ∈ "\\text".toList := by rw [this]; simp
      exact absurd this (by decide)
  have hn2 : '{' ∉ latexName n none ∧ '}' ∉ latexName n none :=
    ⟨fun hh => hn.2.1 ((hbr _ _ (by decide)).1 hh), fun hh => hn.2.2 ((hbr _ _ (by decide)).1 hh)⟩
  have hm2 : '{' ∉ latexName m none ∧ '}' ∉ latexName m none :=
    ⟨fun hh => hm.2.1 ((hbr _ _ (by decide)).1 hh), fun hh => hm.2.2 ((hbr _ _ (by decide)).1 hh)⟩
  by_cases c1 : '_' ∈ latexName n none
  · rw [if_pos c1] at h
    by_cases c2 : '_' ∈ latexName m none
    · rw [if_pos c2] at h
      simp only [List.append_assoc] at h
      have h := List.append_cancel_left h
      obtain ⟨h1, h2⟩ := append_sep_cancel '}' hn2.2 hm2.2 h
      exact ⟨C95_latex_injective n m hn.1 hm.1 h1, h2⟩
    · rw [if_neg c2] at h
      exact absurd h (mixed _ _ _ _ c2 hm2.1 hS')
  · rw [if_neg c1] at h
    by_cases c2 : '_' ∈ latexName m none
    · rw [if_pos c2] at h
      exact absurd h.symm (mixed _ _ _ _ c1 hn2.1 hS)
    · rw [if_neg c2] at h
      have key : latexName n none = latexName m none ∧ S = S' := by
        rcases hS with rfl | ⟨r, rfl⟩ <;> rcases hS' with rfl | ⟨r', rfl⟩
        · simpa using h
        · rw [List.append_nil] at h
          exact absurd (by rw [h]; simp) c1
        · rw [List.append_nil] at h
          exact absurd (by rw [← h]; simp) c2
        · obtain ⟨h1, h2⟩ := append_sep_cancel '_' c1 c2 h
          exact ⟨h1, by rw [h2]⟩
      exact ⟨C95_latex_injective n m hn.1 hm.1 key.1, key.2⟩

/-- **C95 (different objects look different), without `latex_name` and `extend_subscript`.**  Two
objects with names without backslashes and braces, dims that are not empty and have no comma, `=` or
outer white space, and labels without commas, that are displayed alike have the same name, the same dims,
and the same label (or none) for each dim. -/
theorem C95_distinct_partial {n m : Str} (dims dims' : List Str) (v v' : Dict Str Str) (ds ds' : Option Str)
    (pos re pos' re' : Bool) (o u : ShownObj)
    (hn : '\\' ∉ n ∧ '{' ∉ n ∧ '}' ∉ n) (hm : '\\' ∉ m ∧ '{' ∉ m ∧ '}' ∉ m)
    (hd : ∀ d ∈ dims ++ dims', d ≠ [] ∧ ',' ∉ d ∧ '=' ∉ d ∧ Trimmed d)
    (hv : ∀ d l, dget v d = some l ∨ dget v' d = some l → ',' ∉ l)
    (ho : declareObj n dims (some v) none ds pos re 0 = .ok o)
    (hu : declareObj m dims' (some v') none ds' pos' re' 0 = .ok u) (h : o.full = u.full) :
    n = m ∧ dims = dims' ∧ ∀ d ∈ dims, dget v d = dget v' d := by
  have hof : o.full = fullLatexName (latexName n none) 0 dims v := by
    unfold declareObj at ho
    simp only [Option.getD_some] at ho
    split at ho
    · injection ho with ho; rw [← ho]
    · cases ho
  have huf : u.full = fullLatexName (latexName m none) 0 dims' v' := by
    unfold declareObj at hu
    simp only [Option.getD_some] at hu
    split at hu
    · injection hu with hu; rw [← hu]
    · cases hu
  rw [hof, huf] at h
  obtain ⟨h1, h2⟩ := fullLatexName_parts hn hm dims dims' v v' h
  have h3 := congrArg tokenizeLatexSubscript h2
  rw [C54_subscript_tokens dims v (fun d hdd => ?_) (fun d l hl => hv d l (Or.inl hl)),
    C54_subscript_tokens dims' v' (fun d hdd => ?_) (fun d l hl => hv d l (Or.inr hl))] at h3
  · refine ⟨h1, ?_⟩
    clear h2 h hof huf ho hu
    have tok : ∀ (d d' : Str), '=' ∉ d → '=' ∉ d' →
        (match dget v d with | none => d | some l => d ++ "=\\text{".toList ++ l ++ "}".toList) =
        (match dget v' d' with | none => d' | some l => d' ++ "=\\text{".toList ++ l ++ "}".toList) →
        d = d' ∧ dget v d = dget v' d' := by
      intro d d' e1 e2 h
      cases c1 : dget v d with
      | none =>
        cases c2 : dget v' d' with
        | none => rw [c1, c2] at h; exact ⟨h, rfl⟩
        | some l' =>
          rw [c1, c2] at h
          dsimp only at h
          exact absurd (by rw [h]; simp) e1
      | some l =>
        cases c2 : dget v' d' with
        | none =>
          rw [c1, c2] at h
          dsimp only at h
          exact absurd (by rw [← h]; simp) e2
        | some l' =>
          rw [c1, c2] at h
          simp only [List.append_assoc] at h
          obtain ⟨a1, a2⟩ := append_sep_cancel '=' e1 e2 h
          have a3 : "\\text{".toList ++ (l ++ "}".toList) = "\\text{".toList ++ (l' ++ "}".toList) := a2
          have a4 := List.append_cancel_left a3
          have a5 := List.append_cancel_right a4
          exact ⟨a1, by rw [a5]⟩
    induction dims generalizing dims' with
    | nil =>
      cases dims' with
      | nil => exact ⟨rfl, by simp⟩
      | cons d' dims' => cases h3
    | cons d dims ih =>
      cases dims' with
      | nil => cases h3
      | cons d' dims' =>
        rw [List.map_cons, List.map_cons, List.cons.injEq] at h3
        obtain ⟨a1, a2⟩ := tok d d' (hd d (by simp)).2.2.1 (hd d' (by simp)).2.2.1 h3.1
        obtain ⟨a3, a4⟩ := ih dims' (fun x hx => hd x (by
          simp only [List.mem_append, List.mem_cons] at hx ⊢
          rcases hx with hx | hx
          · exact Or.inl (Or.inr hx)
          · exact Or.inr (Or.inr hx))) h3.2
        refine ⟨by rw [a1, a3], ?_⟩
        intro x hx
        rcases List.mem_cons.1 hx with rfl | hx
        · rw [a2, a1]
        · exact a4 x hx
  · exact ⟨(hd d (by simp [hdd])).1, (hd d (by simp [hdd])).2.1, (hd d (by simp [hdd])).2.2.2⟩
  · exact ⟨(hd d (by simp [hdd])).1, (hd d (by simp [hdd])).2.1, (hd d (by simp [hdd])).2.2.2⟩

/-- Objects that meet the hypotheses: two instances of `x_f[i, j]`. -/
example : ('\\' ∉ "x_f".toList ∧ '{' ∉ "x_f".toList ∧ '}' ∉ "x_f".toList) ∧
    (∀ d ∈ ["i".toList, "j".toList], d ≠ [] ∧ ',' ∉ d ∧ '=' ∉ d ∧ Trimmed d) ∧
    (declareObj "x_f".toList ["i".toList, "j".toList] (some [("i".toList, "a".toList)]) none none true true
      0).map (·.full) = .ok "\\text{x_f}_{i=\\text{a}, j}".toList ∧
    (declareObj "x_f".toList ["i".toList, "j".toList] (some [("j".toList, "a".toList)]) none none true true
      0).map (·.full) = .ok "\\text{x_f}_{i, j=\\text{a}}".toList := by decide +kernel

/-- **C95, with `extend_subscript`.**  A scalar `x_i` with `extend_subscript=True` and a variable `x` with
dim `i` are displayed alike; so are instances with the labels `a,b` and `a, b`. -/
theorem C95_distinct_counterexample :
    (declareObj "x_i".toList [] none none none true true 1).map (·.full) = .ok "x_{i}".toList ∧
    (declareObj "x".toList ["i".toList] none none none true true 0).map (·.full) = .ok "x_{i}".toList ∧
    (declareObj "x".toList ["i".toList] (some [("i".toList, "a,b".toList)]) none none true true 1).map
        (·.full) =
      (declareObj "x".toList ["i".toList] (some [("i".toList, "a, b".toList)]) none none true true 1).map
        (·.full) := by decide


/-! ## `extend_subscript` -/

theorem dropBraces_of (s : Str) (h : '{' ∉ s ∧ '}' ∉ s) : dropBraces s = s := by
  unfold dropBraces
  rw [List.filter_eq_self]
  intro c hc
  have h1 : c ≠ '{' := fun e => h.1 (e ▸ hc)
  have h2 : c ≠ '}' := fun e => h.2 (e ▸ hc)
  simp [h1, h2]

theorem mem_joinStr_underscore (w : Str) (ws : List Str) (hw : ∀ x ∈ w :: ws, '_' ∉ x) :
    '_' ∈ joinStr "_".toList (w :: ws) ↔ ws ≠ [] := by
  rw [joinStr_cons]
  cases ws with
  | nil => simpa using hw w (by simp)
  | cons a ws => simp

/-- **C95 (`extend_subscript = k`).**  For a LaTeX name made of the pieces `base` and `sub`, joined by `_`,
with `k` pieces in `sub` and at least one in `base`, the pieces of `sub` are displayed in front of the
dims, inside one subscript; more than one piece in `base` is set as text. -/
theorem C95_extend (b : Str) (base sub : List Str) (hs : sub ≠ []) (dims : List Str) (vals : Dict Str Str)
    (hw : ∀ x ∈ (b :: base) ++ sub, '_' ∉ x ∧ '{' ∉ x ∧ '}' ∉ x ∧ Trimmed x)
    (hd : ∀ d ∈ dims, d ≠ [] ∧ ',' ∉ d ∧ Trimmed d) (hv : ∀ d v, dget vals d = some v → ',' ∉ v) :
    fullLatexName (joinStr "_".toList ((b :: base) ++ sub)) sub.length dims vals =
      (if base = [] then b else "\\text{".toList ++ joinStr "_".toList (b :: base) ++ "}".toList) ++
      "_{".toList ++ joinStr ", ".toList (sub ++ dims.map fun d => match dget vals d with
        | none => d
        | some v => d ++ "=\\text{".toList ++ v ++ "}".toList) ++ "}".toList := by
  unfold fullLatexName
  have hk : (sub.length : Int) ≠ 0 := by
    cases sub with
    | nil => exact absurd rfl hs
    | cons a l => simp; omega
  have htok : ((pySplit '_' (joinStr "_".toList ((b :: base) ++ sub))).map fun x => dropBraces (pyStrip x)) =
      (b :: base) ++ sub := by
    rw [show "_".toList = ['_'] from rfl, pySplit_join '_' _ (by simp) (fun x hx => (hw x hx).1)]
    conv => rhs; rw [← List.map_id ((b :: base) ++ sub)]
    apply List.map_congr_left
    intro x hx
    rw [pyStrip_trimmed x (hw x hx).2.2.2, dropBraces_of x ⟨(hw x hx).2.1, (hw x hx).2.2.1⟩]
    rfl
  have hcut : sliceBound ((b :: base) ++ sub).length (-(sub.length : Int)) = (b :: base).length := by
    unfold sliceBound
    rw [if_pos (by omega), List.length_append]
    omega
  have hsplit : splitTokens ((b :: base) ++ sub) sub.length = (b :: base, sub) := by
    unfold splitTokens
    simp only [hcut, List.take_left, List.drop_left]
    rw [if_neg (by simp)]
  have htk : tokenizeLatexSubscript (makeLatexSubscript dims vals) = dims.map (subscriptToken vals) :=
    C54_subscript_tokens dims vals hd hv
  show _ = _ ++ "_{".toList ++ joinStr ", ".toList (sub ++ dims.map (subscriptToken vals)) ++ "}".toList
  simp only [if_neg hk, htok, hsplit, htk]
  rw [if_neg (show ¬ sub ++ dims.map (subscriptToken vals) = [] from by simp [hs])]
  have hin := mem_joinStr_underscore b base fun x hx => (hw x (List.mem_append_left _ hx)).1
  by_cases hb : base = []
  · rw [if_neg (by rw [hin]; simpa using hb), if_pos hb]
    subst hb
    simp only [joinStr, List.append_assoc]
  · rw [if_pos (hin.2 hb), if_neg hb]
    simp only [List.append_assoc]

example : fullLatexName (latexName "alpha_K".toList none) 1 ["i".toList] [("i".toList, "a".toList)] =
    "\\alpha_{K, i=\\text{a}}".toList := by decide

/-- A piece of a LaTeX name, in braces or not. -/
def bracedPiece (p : Bool × Str) : Str := if p.1 then '{' :: p.2 ++ ['}'] else p.2

/-- **C95 (braces).**  With `extend_subscript` it makes no difference whether the pieces of the LaTeX name are written in
braces: `x_{ab}` is displayed as `x_ab` is. -/
theorem C95_extend_braces (pieces : List (Bool × Str)) (hne : pieces ≠ []) (k : Int) (hk : k ≠ 0) (dims : List Str)
    (vals : Dict Str Str) (hw : ∀ p ∈ pieces, '_' ∉ p.2 ∧ '{' ∉ p.2 ∧ '}' ∉ p.2 ∧ Trimmed p.2) :
    fullLatexName (joinStr "_".toList (pieces.map bracedPiece)) k dims vals =
      fullLatexName (joinStr "_".toList (pieces.map Prod.snd)) k dims vals := by
  have h1 : ((pySplit '_' (joinStr "_".toList (pieces.map bracedPiece))).map fun x => dropBraces (pyStrip x)) =
      pieces.map Prod.snd := by
    rw [show "_".toList = ['_'] from rfl, pySplit_join '_' _ (by simpa using hne) (by
      intro x hx
      obtain ⟨p, hp, rfl⟩ := List.mem_map.1 hx
      unfold bracedPiece
      split
      · simpa using (hw p hp).1
      · exact (hw p hp).1), List.map_map]
    apply List.map_congr_left
    intro p hp
    obtain ⟨-, h2, h3, h4⟩ := hw p hp
    simp only [Function.comp_apply, bracedPiece]
    split
    · have ht : Trimmed ('{' :: p.2 ++ ['}']) := by
        constructor
        · intro c hc
          have : c = '{' := by simpa using hc.symm
          subst this; decide
        · intro c hc
          rw [List.getLast?_append] at hc
          have : c = '}' := by simpa using hc.symm
          subst this; decide
      rw [pyStrip_trimmed _ ht]
      have := dropBraces_of p.2 ⟨h2, h3⟩
      unfold dropBraces at this ⊢
      simp only [List.cons_append, List.filter_cons, List.filter_append, this]
      simp
    · rw [pyStrip_trimmed _ h4, dropBraces_of _ ⟨h2, h3⟩]
  have h2 : ((pySplit '_' (joinStr "_".toList (pieces.map Prod.snd))).map fun x => dropBraces (pyStrip x)) =
      pieces.map Prod.snd := by
    rw [show "_".toList = ['_'] from rfl, pySplit_join '_' _ (by simpa using hne) (by
      intro x hx
      obtain ⟨p, hp, rfl⟩ := List.mem_map.1 hx
      exact (hw p hp).1), List.map_map]
    apply List.map_congr_left
    intro p hp
    obtain ⟨-, h2, h3, h4⟩ := hw p hp
    simp only [Function.comp_apply]
    rw [pyStrip_trimmed _ h4, dropBraces_of _ ⟨h2, h3⟩]
  unfold fullLatexName
  simp only [if_neg hk, h1, h2]

example : fullLatexName "x_{ab}".toList 1 ["i".toList] [] = fullLatexName "x_ab".toList 1 ["i".toList] [] :=
  C95_extend_braces [(false, "x".toList), (true, "ab".toList)] (by simp) 1 (by decide) _ _ (by decide)

example : fullLatexName "x_{ab}".toList 1 ["i".toList] [] = "x_{ab, i}".toList := by decide

/-- **C95 (too large `extend_subscript`).**  If it is at least the number of pieces, all pieces stay in
front of the subscript. -/
theorem C95_extend_all (b : Str) (base : List Str) (k : Nat) (hk : base.length < k) (dims : List Str)
    (vals : Dict Str Str) (hw : ∀ x ∈ b :: base, '_' ∉ x ∧ '{' ∉ x ∧ '}' ∉ x ∧ Trimmed x)
    (hd : ∀ d ∈ dims, d ≠ [] ∧ ',' ∉ d ∧ Trimmed d) (hv : ∀ d v, dget vals d = some v → ',' ∉ v) :
    fullLatexName (joinStr "_".toList (b :: base)) k dims vals =
      fullLatexName (joinStr "_".toList (b :: base)) 0 dims vals := by
  unfold fullLatexName
  have hk0 : (k : Int) ≠ 0 := by omega
  have htok : ((pySplit '_' (joinStr "_".toList (b :: base))).map fun x => dropBraces (pyStrip x)) =
      b :: base := by
    rw [show "_".toList = ['_'] from rfl, pySplit_join '_' _ (by simp) (fun x hx => (hw x hx).1)]
    conv => rhs; rw [← List.map_id (b :: base)]
    apply List.map_congr_left
    intro x hx
    rw [pyStrip_trimmed x (hw x hx).2.2.2, dropBraces_of x ⟨(hw x hx).2.1, (hw x hx).2.2.1⟩]
    rfl
  have hcut : sliceBound (b :: base).length (-(k : Int)) = 0 := by
    unfold sliceBound
    rw [if_pos (by omega), List.length_cons]
    omega
  have hsplit : splitTokens (b :: base) k = (b :: base, []) := by
    unfold splitTokens
    simp only [hcut, List.take_zero, List.drop_zero, if_true]
  have htk := C54_subscript_tokens dims vals hd hv
  simp only [if_neg hk0, htok, hsplit, htk, List.nil_append, if_true]
  congr 1
  unfold makeLatexSubscript
  by_cases h : dims = []
  · subst h; rfl
  · rw [if_neg (by simpa using h), if_neg h]
    rfl

example : fullLatexName "x".toList 1 ["i".toList] [] = "x_{i}".toList := by decide

/-- **C95, names with an underscore.**  Without `extend_subscript`, every name with an underscore is set
inside `\text{…}`, the underscore and the commands for Greek letters included, where LaTeX allows neither:
`alpha_K` is displayed as `\text{\alpha_K}`. -/
theorem C95_underscore (n : Str) (h : '_' ∈ n) (dims : List Str) (vals : Dict Str Str) :
    ∃ u v, fullLatexName (latexName n none) 0 dims vals =
        "\\text{".toList ++ (u ++ '_' :: v) ++ "}".toList ++ makeLatexSubscript dims vals ∧
      latexName n none = u ++ '_' :: v := by
  have hm : '_' ∈ latexName n none := by
    unfold latexName
    rw [greekSubGo_eq]
    exact (greekMark_mem _ _ _ (by decide)).2 h
  obtain ⟨u, v, huv⟩ := List.append_of_mem hm
  refine ⟨u, v, ?_, huv⟩
  unfold fullLatexName
  simp only [if_true]
  rw [if_pos hm, huv]

example : fullLatexName (latexName "alpha_K".toList none) 0 [] [] = "\\text{\\alpha_K}".toList := by decide

/-! ## Descriptions -/

theorem substDict_twice (t : Template) (ds : List Str) (v w : Dict Str Str)
    (h : ∀ d l, dget v d = some l → dget w d = some l) :
    (t.substDict ds v).substDict ds w = t.substDict ds w := by
  unfold Template.substDict
  rw [List.map_map]
  apply List.map_congr_left
  intro s _
  cases s with
  | lit a => rfl
  | dim d =>
    simp only [Function.comp]
    by_cases hd : d ∈ ds
    · simp only [hd, if_true]
      cases hg : dget v d with
      | none => simp [hd]
      | some l => simp [h d l hg]
    · simp [hd]

theorem substDict_clean (t : Template) (ds : List Str) (v : Dict Str Str) (hc : t.Clean)
    (hv : ∀ d l, dget v d = some l → '<' ∉ l) : (t.substDict ds v).Clean := by
  unfold Template.substDict
  intro s hs
  rw [List.mem_map] at hs
  obtain ⟨x, hx, rfl⟩ := hs
  have := hc x hx
  cases x with
  | lit a => exact this
  | dim d =>
    dsimp only
    by_cases hd : d ∈ ds
    · rw [if_pos hd]
      cases hg : dget v d with
      | none => exact this
      | some l => exact hv d l hg
    · rw [if_neg hd]; exact this

theorem updateAll_description (t : Template) (hc : t.Clean) (o : ShownObj) (ps : List (Str × Str))
    (hdims : ∀ d ∈ o.dims, '>' ∉ d) (hp : ∀ p ∈ ps, p.1 ∈ o.dims ∧ '<' ∉ p.2)
    (hnd : (ps.map Prod.fst).Nodup) (hnew : ∀ p ∈ ps, p.1 ∉ dkeys o.dimVals)
    (hv : ∀ d l, dget o.dimVals d = some l → '<' ∉ l)
    (hdesc : o.description = (t.substDict o.dims o.dimVals).text) :
    ∃ o', o.updateAll ps = .ok o' ∧
      o'.description = (t.substDict o.dims (dupdate o.dimVals ps)).text := by
  induction ps generalizing o with
  | nil => exact ⟨o, rfl, hdesc⟩
  | cons p ps ih =>
    have hp0 := hp p (by simp)
    have hn0 := hnew p (by simp)
    rw [List.map_cons, List.nodup_cons] at hnd
    have hv' : ∀ d l, dget (dset o.dimVals p.1 p.2) d = some l → '<' ∉ l := by
      intro d l hl
      rw [dget_dset] at hl
      split at hl
      · injection hl with hl; rw [← hl]; exact hp0.2
      · exact hv d l hl
    have hdesc' : prettyPrint o.description o.dims (dset o.dimVals p.1 p.2) =
        (t.substDict o.dims (dset o.dimVals p.1 p.2)).text := by
      rw [hdesc, prettyPrint_text _ _ _ (substDict_clean t _ _ hc hv) hdims hv', substDict_twice]
      intro d l hl
      rw [dget_dset_ne]
      · exact hl
      · rintro rfl
        exact hn0 ((mem_dkeys_iff _ _).2 ⟨l, hl⟩)
    obtain ⟨o', h1, h2⟩ := ih
      { o with
        dimVals := dset o.dimVals p.1 p.2
        full := fullLatexName o.latex o.extend o.dims (dset o.dimVals p.1 p.2)
        description := prettyPrint o.description o.dims (dset o.dimVals p.1 p.2) }
      hdims (fun q hq => hp q (by simp [hq])) hnd.2
      (fun q hq => by
        show q.1 ∉ dkeys (dset o.dimVals p.1 p.2)
        rw [mem_dkeys_dset]
        rintro (h | h)
        · exact hnd.1 (h ▸ List.mem_map.2 ⟨q, hq, rfl⟩)
        · exact hnew q (by simp [hq]) h)
      hv' hdesc'
    refine ⟨o', ?_, h2⟩
    rw [ShownObj.updateAll, ShownObj.update, if_pos hp0.1]
    exact h1

/-- **C95 (descriptions), for objects declared with a description, each dim labelled once.**  In the
description of an instance every marker `<dim:d>` has been replaced by the label of `d`. -/
theorem C95_description_partial (t : Template) (hc : t.Clean) (name : Str) (dims : List Str)
    (lx : Option Str) (pos re : Bool) (ext : Int) (ls : List Str) (o : ShownObj)
    (ho : declareObj name dims none lx (some t.text) pos re ext = .ok o) (hn : dims.Nodup)
    (hlen : ls.length = dims.length) (hdims : ∀ d ∈ dims, '>' ∉ d) (hl : ∀ l ∈ ls, '<' ∉ l)
    (ht : ∀ d ∈ t.dims, d ∈ dims) (label : Str → Str)
    (hlabel : ∀ (j : Nat) (d l : Str), dims[j]? = some d → ls[j]? = some l → label d = l) :
    ∃ o', o.updateAll (dims.zip ls) = .ok o' ∧ o'.description = t.filled label := by
  unfold declareObj at ho
  simp only [Option.getD_none, dkeys, List.map_nil, List.all_nil, if_true] at ho
  injection ho with ho
  have hz : (dims.zip ls).map Prod.fst = dims := dkeys_zip dims ls hlen
  obtain ⟨o', h1, h2⟩ := updateAll_description t hc o (dims.zip ls) (by subst ho; exact hdims)
    (fun p hp => by
      subst ho
      exact ⟨(List.of_mem_zip hp).1, hl _ (List.of_mem_zip hp).2⟩)
    (by rw [hz]; exact hn) (by subst ho; simp [dkeys]) (by subst ho; simp)
    (by
      subst ho
      show prettyPrint t.text dims [] = _
      rw [prettyPrint_text t dims [] hc hdims (by simp)])
  refine ⟨o', h1, ?_⟩
  rw [h2]
  subst ho
  show (t.substDict dims (dupdate [] (dims.zip ls))).text = _
  rw [show dupdate ([] : Dict Str Str) (dims.zip ls) = dims.zip ls from
    dofPairs_of_nodup _ (by rw [hz]; exact hn)]
  apply substDict_filled
  intro d hd
  have hdm := ht d hd
  obtain ⟨j, hj⟩ := List.mem_iff_getElem?.1 hdm
  refine ⟨hdm, ?_⟩
  have hjl : j < ls.length := by
    rw [hlen]
    exact (List.getElem?_eq_some_iff.1 hj).1
  rw [dget_zip dims ls hn hlen j d hj, List.getElem?_eq_getElem hjl,
    hlabel j d _ hj (List.getElem?_eq_getElem hjl)]

example : ((declareObj "x".toList ["i".toList] none none (some "Output of <dim:i>".toList) true true 0).bind
      fun o => o.updateAll [("i".toList, "Food".toList)]).map (·.description) =
    .ok "Output of Food".toList := by decide

/-- **C95, default descriptions.**  The description made for an object that is declared without one is
never renewed: the instance `a` of `x[i]` is displayed as `x_{i=\text{a}}`, but described as
`x_{i}, Positive = True, Real = True`, while the same instance declared directly is described with its
label. -/
theorem C95_default_description_counterexample :
    ((declareObj "x".toList ["i".toList] none none none true true 0).bind fun o =>
        o.updateAll [("i".toList, "a".toList)]).map (fun o => (o.full, o.description)) =
      .ok ("x_{i=\\text{a}}".toList, "x_{i}, Positive = True, Real = True".toList) ∧
    (declareObj "x".toList ["i".toList] (some [("i".toList, "a".toList)]) none none true true 0).map
        (·.description) = .ok "x_{i=\\text{a}}, Positive = True, Real = True".toList := by decide

/-- **C95, labels given twice.**  A dim that gets a second label is displayed with the second label and
described with the first. -/
theorem C95_relabel_counterexample :
    ((declareObj "x".toList ["i".toList] none none (some "Output of <dim:i>".toList) true true 0).bind
        fun o => o.updateAll [("i".toList, "a".toList), ("i".toList, "b".toList)]).map
      (fun o => (o.full, o.description)) =
      .ok ("x_{i=\\text{b}}".toList, "Output of a".toList) := by decide

/-- **C95 (default descriptions), in general.**  For every object declared without a description, whose
displayed name has no markers: whatever labels its dims get, the description stays that of the
declaration. -/
theorem C95_default_description (name : Str) (dims : List Str) (lx : Option Str) (pos re : Bool)
    (ext : Int) (ps : List (Str × Str)) (o : ShownObj)
    (ho : declareObj name dims none lx none pos re ext = .ok o) (hp : ∀ p ∈ ps, p.1 ∈ dims)
    (hlt : '<' ∉ o.full) :
    ∃ o', o.updateAll ps = .ok o' ∧ o'.description = o.description ∧
      o.description = o.full ++ ", Positive = ".toList ++ (if pos then "True".toList else "False".toList) ++
        ", Real = ".toList ++ (if re then "True".toList else "False".toList) := by
  unfold declareObj at ho
  simp only [Option.getD_none, dkeys, List.map_nil, List.all_nil, if_true] at ho
  injection ho with ho
  have hdesc : o.description = o.full ++ ", Positive = ".toList ++ pyBool pos ++ ", Real = ".toList ++ pyBool re := by
    subst ho; rfl
  have hfree : '<' ∉ o.description := by
    rw [hdesc]
    have hb : ∀ b, '<' ∉ pyBool b := by decide
    simp only [List.mem_append, not_or]
    exact ⟨⟨⟨⟨hlt, by decide⟩, hb _⟩, by decide⟩, hb _⟩
  have hdm : o.dims = dims := by subst ho; rfl
  rw [← hdm] at hp
  clear ho hlt
  have key : ∃ o', o.updateAll ps = .ok o' ∧ o'.description = o.description := by
    clear hdesc hdm
    induction ps generalizing o with
    | nil => exact ⟨o, rfl, rfl⟩
    | cons p ps ih =>
      have hpp : prettyPrint o.description o.dims (dset o.dimVals p.1 p.2) = o.description := by
        unfold prettyPrint
        generalize dset o.dimVals p.1 p.2 = vals
        generalize o.dims = ds
        induction ds with
        | nil => rfl
        | cons d ds ihd =>
          rw [List.foldl_cons]
          cases dget vals d with
          | none => exact ihd
          | some v =>
            dsimp only
            have e2 : replaceAll (marker d) v o.description = o.description := by
              have := replaceAll_copy (marker d) v o.description [] '<' rfl hfree
              simpa [replaceAll, replaceGo] using this
            rw [e2]
            exact ihd
      obtain ⟨o', h1, h2⟩ := ih
        { o with
          dimVals := dset o.dimVals p.1 p.2
          full := fullLatexName o.latex o.extend o.dims (dset o.dimVals p.1 p.2)
          description := prettyPrint o.description o.dims (dset o.dimVals p.1 p.2) }
        (fun q hq => hp q (by simp [hq]))
        (by show '<' ∉ prettyPrint o.description o.dims _; rw [hpp]; exact hfree)
      refine ⟨o', ?_, by rw [h2]; exact hpp⟩
      rw [ShownObj.updateAll, ShownObj.update, if_pos (hp p (by simp))]
      exact h1
  obtain ⟨o', h1, h2⟩ := key
  exact ⟨o', h1, h2, hdesc⟩

/-- A wage declared over sectors and then put at the sector `a`. -/
example : ∃ o o', declareObj "w".toList ["i".toList] none none none true false 0 = .ok o ∧
    o.updateAll [("i".toList, "a".toList)] = .ok o' ∧
    o'.description = "w_{i}, Positive = True, Real = False".toList := by
  obtain ⟨o', h1, h2, h3⟩ := C95_default_description "w".toList ["i".toList] none true false 0
    [("i".toList, "a".toList)] _ rfl (by decide) (by decide)
  exact ⟨_, o', rfl, h1, by rw [h2]; decide⟩

end Verif
