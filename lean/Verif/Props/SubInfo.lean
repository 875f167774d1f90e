import Verif.Model.SubInfo
import Verif.Props.Listing

/-!
# C100: labels in the place of indices in displayed dictionaries

What a user of `sub_info_dicts(info, {i: "a", …})` relies on: every dictionary comes back with its name, and with the
labels in the place of the indices in the sub- and superscripts of its LaTeX name and in its description; nothing else
changes.  The texts are searched with regular expressions, one index after another, so this is true only of texts and
labels in which no index can be mistaken (`C100_latex_partial`, `C100_description_partial`).
-/

namespace Verif

/-! ## Specification -/

/-- The marks that begin a word of a sub- or superscript: `^ _ , {`. -/
def opensWord (c : Char) : Bool := ['^', '_', ',', '{'].contains c

/-- The marks between the words of a LaTeX name. -/
def isMark (c : Char) : Bool := opensWord c || c == '}'

/-- A text after its first word: marks, each with the word after it. -/
def segText : List (Char × Str) → Str
  | [] => []
  | (m, w) :: l => m :: (w ++ segText l)

/-- The next mark is a closing brace. -/
def closes (l : List (Char × Str)) : Bool := l.head?.map Prod.fst == some '}'

/-- The words that are in a sub- or superscript, that is, behind one of the marks `^ _ , {` or before a closing
brace, are changed by `f`. -/
def putWords (f : Str → Str) : List (Char × Str) → List (Char × Str)
  | [] => []
  | (m, w) :: l => (m, if opensWord m || closes l then f w else w) :: putWords f l

/-- The label for an index; other words stay. -/
def labelFor (sub : List (Str × Str)) (w : Str) : Str := (dget sub w).getD w

/-- The indices are words, no label is an index, and no word and no label begins or ends with an index (unless the
word is that index). -/
structure NoMistake (sub : List (Str × Str)) (ws : List Str) : Prop where
  nodup : (dkeys sub).Nodup
  keys : ∀ k ∈ dkeys sub, k ≠ [] ∧ ∀ c ∈ k, isMark c = false
  labels : ∀ v ∈ dvalues sub, v ∉ dkeys sub ∧ ∀ c ∈ v, isMark c = false
  words : ∀ w ∈ ws, ∀ c ∈ w, isMark c = false
  apart : ∀ k ∈ dkeys sub, ∀ w ∈ ws ++ dvalues sub, k <+: w ∨ k <:+ w → w = k

/-- The word stands nowhere twice in succession. -/
def NeverTwice (k : Str) : List Str → Prop
  | a :: b :: l => ¬ (a = k ∧ b = k) ∧ NeverTwice k (b :: l)
  | _ => True

/-- A word: no space and no line break in it. -/
def PlainWord (w : Str) : Prop := ' ' ∉ w ∧ '\n' ∉ w

/-- Indices and words of a description: no label has an index among its words, and no index stands twice in
succession. -/
structure NoMistakeWords (sub : List (Str × Str)) (w0 : Str) (ws : List Str) : Prop where
  nodup : (dkeys sub).Nodup
  keys : ∀ k ∈ dkeys sub, PlainWord k
  labels : ∀ v ∈ dvalues sub, ∃ vw, vw ≠ [] ∧ v = joinStr [' '] vw ∧ ∀ u ∈ vw, PlainWord u ∧ u ∉ dkeys sub
  words : ∀ w ∈ w0 :: ws, PlainWord w
  apart : ∀ k ∈ dkeys sub, NeverTwice k ws

/-! ## The LaTeX name -/

theorem isOpening_eq (c : Char) : isOpening c = opensWord c := by
  simp only [isOpening, opensWord, List.contains_cons, List.contains_nil, Bool.or_false, Bool.or_assoc]

theorem prefix_word {k w : Str} {s : Str} (hk : ∀ c ∈ k, isMark c = false)
    (hs : ∀ c ∈ s.head?, isMark c = true) (h : k <+: w ++ s) : k <+: w := by
  induction w generalizing k with
  | nil =>
    cases k with
    | nil => exact List.nil_prefix
    | cons c k =>
      obtain ⟨t, ht⟩ := h
      rw [List.nil_append] at ht
      have h1 := hs c (by rw [← ht]; rfl)
      rw [hk c (by simp)] at h1
      cases h1
  | cons a w ih =>
    cases k with
    | nil => exact List.nil_prefix
    | cons c k =>
      rw [List.cons_append, List.cons_prefix_cons] at h
      rw [List.cons_prefix_cons]
      exact ⟨h.1, ih (fun c hc => hk c (by simp [hc])) h.2⟩

theorem segText_head {l : List (Char × Str)} (hm : ∀ p ∈ l, isMark p.1 = true) :
    ∀ c ∈ (segText l).head?, isMark c = true := by
  cases l with
  | nil => simp [segText]
  | cons p l =>
    intro c hc
    simp only [segText, List.head?_cons, Option.mem_def, Option.some.injEq] at hc
    subst hc
    exact hm p (by simp)

theorem subOpenedGo_skip (k v a s : Str) : subOpenedGo k v a.length (a ++ s) = subOpenedGo k v 0 s := by
  induction a with
  | nil => rfl
  | cons c a ih => simpa [subOpenedGo] using ih

theorem subOpenedGo_word (k v w s : Str) (hw : ∀ c ∈ w, isMark c = false) :
    subOpenedGo k v 0 (w ++ s) = w ++ subOpenedGo k v 0 s := by
  induction w with
  | nil => rfl
  | cons c w ih =>
    have hc : opensWord c = false := by
      have := hw c (by simp)
      unfold isMark at this
      revert this
      cases opensWord c <;> simp
    rw [List.cons_append, subOpenedGo, isOpening_eq, hc, Bool.false_and, if_neg (by simp), ih fun c h => hw c (by simp [h])]
    rfl

/-- The first search: words behind an opening mark. -/
theorem subOpened_segs (k v : Str) (hk : ∀ c ∈ k, isMark c = false) (l : List (Char × Str))
    (hm : ∀ p ∈ l, isMark p.1 = true) (hw : ∀ p ∈ l, ∀ c ∈ p.2, isMark c = false)
    (ha : ∀ p ∈ l, k <+: p.2 → p.2 = k) :
    subOpenedGo k v 0 (segText l) =
      segText (l.map fun p => (p.1, if opensWord p.1 && p.2 == k then v else p.2)) := by
  induction l with
  | nil => rfl
  | cons p l ih =>
    obtain ⟨m, w⟩ := p
    have hl := ih (fun p h => hm p (by simp [h])) (fun p h => hw p (by simp [h])) fun p h => ha p (by simp [h])
    have hhead := segText_head (l := l) fun p h => hm p (by simp [h])
    have hww := hw (m, w) (by simp)
    simp only [segText, List.map_cons]
    rw [subOpenedGo, isOpening_eq]
    by_cases ho : opensWord m = true
    · by_cases hp : k <+: w ++ segText l
      · have : w = k := ha (m, w) (by simp) (prefix_word hk hhead hp)
        subst this
        rw [if_pos (by rw [ho, List.isPrefixOf_iff_prefix.2 hp]; rfl), subOpenedGo_skip, hl,
          if_pos (by simp [ho])]
      · have hwk : w ≠ k := by rintro rfl; exact hp (List.prefix_append _ _)
        have hpf : k.isPrefixOf (w ++ segText l) = false := by
          rw [Bool.eq_false_iff]; exact fun h => hp (List.isPrefixOf_iff_prefix.1 h)
        rw [if_neg (by rw [hpf]; simp), subOpenedGo_word _ _ _ _ hww, hl, if_neg (by simp [hwk])]
    · rw [if_neg (by simp [ho]), subOpenedGo_word _ _ _ _ hww, hl, if_neg (by simp [ho])]

theorem word_before {d : Char} {k u s : Str} (hk : d ∉ k) (hu : d ∉ u) (h : k ++ [d] <+: u ++ s) :
    (u = k ∧ ∃ t, s = d :: t) ∨ ∃ t, k = u ++ t ∧ t ≠ [] ∧ t ++ [d] <+: s := by
  induction u generalizing k with
  | nil =>
    cases k with
    | nil =>
      obtain ⟨t, ht⟩ := h
      exact .inl ⟨rfl, t, by simpa using ht.symm⟩
    | cons c k => exact .inr ⟨c :: k, rfl, by simp, by simpa using h⟩
  | cons a u ih =>
    cases k with
    | nil =>
      rw [List.nil_append, List.cons_append, List.cons_prefix_cons] at h
      exact absurd (List.mem_cons.2 (.inl h.1)) hu
    | cons c k =>
      rw [List.cons_append, List.cons_append, List.cons_prefix_cons] at h
      simp only [List.mem_cons, not_or] at hk hu
      rcases ih hk.2 hu.2 h.2 with ⟨h1, h2⟩ | ⟨t, h1, h2, h3⟩
      · exact .inl ⟨by rw [h1, h.1], h2⟩
      · exact .inr ⟨t, by rw [h1, h.1]; rfl, h2, h3⟩

/-- A text in which the pattern begins nowhere inside the word is searched from behind the word. -/
theorem replaceAll_word (pat rep w s : Str) (h : ∀ u, u ≠ [] → u <:+ w → ¬ pat <+: u ++ s) :
    replaceAll pat rep (w ++ s) = w ++ replaceAll pat rep s := by
  induction w with
  | nil => rfl
  | cons c w ih =>
    rw [List.cons_append, replaceAll_cons_of_not_prefix, ih]
    · rfl
    · exact fun u hu hs => h u hu (hs.trans (List.suffix_cons _ _))
    · rw [Bool.eq_false_iff]
      exact fun hp => h (c :: w) (by simp) (List.suffix_refl _) (List.isPrefixOf_iff_prefix.1 hp)

theorem not_mem_of_isMark {s : Str} {c : Char} (h : ∀ c ∈ s, isMark c = false) (hc : isMark c = true) : c ∉ s :=
  fun hm => by rw [h c hm] at hc; cases hc

/-- The second search, at a word. -/
theorem replaceClosed_word (k v w : Str) (hk0 : k ≠ []) (hk : ∀ c ∈ k, isMark c = false)
    (hw : ∀ c ∈ w, isMark c = false) (ha : k <:+ w → w = k) (l : List (Char × Str))
    (hm : ∀ p ∈ l, isMark p.1 = true) :
    replaceAll (k ++ ['}']) (v ++ ['}']) (w ++ segText l) =
      (if closes l && w == k then v else w) ++ replaceAll (k ++ ['}']) (v ++ ['}']) (segText l) := by
  have hb : ∀ s : Str, ¬ k ++ ['}'] <+: '}' :: s := by
    intro s h
    cases k with
    | nil => exact hk0 rfl
    | cons c k =>
      rw [List.cons_append, List.cons_prefix_cons] at h
      exact not_mem_of_isMark hk (c := '}') (by decide) (by simp [h.1])
  by_cases hc : closes l = true ∧ w = k
  · obtain ⟨hc, rfl⟩ := hc
    cases l with
    | nil => simp [closes] at hc
    | cons p l =>
      obtain ⟨m, w'⟩ := p
      have : m = '}' := by simpa [closes] using hc
      subst this
      rw [if_pos (by simp [closes])]
      simp only [segText]
      rw [show w ++ '}' :: (w' ++ segText l) = (w ++ ['}']) ++ (w' ++ segText l) by simp,
        replaceAll_pat _ _ _ (by simp), replaceAll_cons_of_not_prefix]
      · simp
      · rw [Bool.eq_false_iff]; exact fun hp => hb _ (List.isPrefixOf_iff_prefix.1 hp)
  · rw [if_neg (by simpa using hc)]
    apply replaceAll_word
    intro u hu0 hu hp
    have hum : ∀ c ∈ u, isMark c = false := fun c hc => hw c (hu.subset hc)
    rcases word_before (d := '}') (not_mem_of_isMark hk (by decide)) (not_mem_of_isMark hum (by decide)) hp with
      ⟨h1, t, h2⟩ | ⟨t, h1, h2, h3⟩
    · subst h1
      refine hc ⟨?_, ha hu⟩
      cases l with
      | nil => simp [segText] at h2
      | cons p l =>
        simp only [segText, List.cons.injEq] at h2
        simp [closes, h2.1]
    · cases t with
      | nil => exact h2 rfl
      | cons c t =>
        obtain ⟨r, hr⟩ := h3
        have := segText_head hm c (by rw [← hr]; rfl)
        rw [hk c (by rw [h1]; simp)] at this
        cases this

/-- The words before a closing brace. -/
def closeWords (k v : Str) : List (Char × Str) → List (Char × Str)
  | [] => []
  | (m, w) :: l => (m, if closes l && w == k then v else w) :: closeWords k v l

theorem replaceClosed_segs (k v : Str) (hk0 : k ≠ []) (hk : ∀ c ∈ k, isMark c = false) (l : List (Char × Str))
    (hm : ∀ p ∈ l, isMark p.1 = true) (hw : ∀ p ∈ l, ∀ c ∈ p.2, isMark c = false)
    (ha : ∀ p ∈ l, k <:+ p.2 → p.2 = k) :
    replaceAll (k ++ ['}']) (v ++ ['}']) (segText l) = segText (closeWords k v l) := by
  induction l with
  | nil => rfl
  | cons p l ih =>
    obtain ⟨m, w⟩ := p
    simp only [segText, closeWords]
    rw [replaceAll_cons_of_not_prefix, replaceClosed_word k v w hk0 hk (hw (m, w) (by simp)) (ha (m, w) (by simp)) l
      fun p h => hm p (by simp [h]),
      ih (fun p h => hm p (by simp [h])) (fun p h => hw p (by simp [h])) fun p h => ha p (by simp [h])]
    rw [Bool.eq_false_iff]
    intro hp
    cases k with
    | nil => exact hk0 rfl
    | cons c k =>
      rw [List.isPrefixOf_iff_prefix, List.cons_append, List.cons_prefix_cons] at hp
      have h1 := hm (m, w) (by simp)
      rw [← hp.1, hk c (by simp)] at h1
      cases h1

theorem closes_map (f : Char × Str → Str) (l : List (Char × Str)) : closes (l.map fun p => (p.1, f p)) = closes l := by
  cases l <;> rfl

theorem closes_putWords (f : Str → Str) (l : List (Char × Str)) : closes (putWords f l) = closes l := by
  cases l <;> rfl

/-- Both searches for one index. -/
theorem closeWords_opened (k v : Str) (hv : v ≠ k) (l : List (Char × Str)) :
    closeWords k v (l.map fun p => (p.1, if opensWord p.1 && p.2 == k then v else p.2)) =
      putWords (fun w => if w = k then v else w) l := by
  induction l with
  | nil => rfl
  | cons p l ih =>
    obtain ⟨m, w⟩ := p
    simp only [List.map_cons, closeWords, putWords, closes_map (fun p => if opensWord p.1 && p.2 == k then v else p.2),
      ih]
    congr 2
    by_cases hw : w = k
    · subst hw
      cases opensWord m <;> cases closes l <;> simp
    · cases opensWord m <;> cases closes l <;> simp [hw]

theorem mem_putWords {f : Str → Str} {l : List (Char × Str)} {q : Char × Str} (h : q ∈ putWords f l) :
    ∃ p ∈ l, q.1 = p.1 ∧ (q.2 = p.2 ∨ q.2 = f p.2) := by
  induction l with
  | nil => cases h
  | cons p l ih =>
    obtain ⟨m, w⟩ := p
    simp only [putWords, List.mem_cons] at h
    rcases h with rfl | h
    · refine ⟨(m, w), by simp, rfl, ?_⟩
      dsimp only
      split
      · exact .inr rfl
      · exact .inl rfl
    · obtain ⟨p, hp, h1⟩ := ih h
      exact ⟨p, by simp [hp], h1⟩

theorem putWords_putWords (f g : Str → Str) (l : List (Char × Str)) :
    putWords g (putWords f l) = putWords (fun w => g (f w)) l := by
  induction l with
  | nil => rfl
  | cons p l ih =>
    obtain ⟨m, w⟩ := p
    simp only [putWords, closes_putWords, ih]
    congr 2
    cases opensWord m <;> cases closes l <;> simp

/-- What is done for one index. -/
theorem subLatexOne_eq (k v w0 : Str) (hk0 : k ≠ []) (hk : ∀ c ∈ k, isMark c = false)
    (hv : ∀ c ∈ v, isMark c = false) (hvk : v ≠ k) (hva : k <:+ v → v = k) (l : List (Char × Str))
    (hm : ∀ p ∈ l, isMark p.1 = true) (hw0 : ∀ c ∈ w0, isMark c = false)
    (hw : ∀ p ∈ l, ∀ c ∈ p.2, isMark c = false) (ha0 : k <:+ w0 → w0 = k)
    (ha : ∀ p ∈ l, k <+: p.2 ∨ k <:+ p.2 → p.2 = k) :
    subLatexOne (w0 ++ segText l) (k, v) =
      (if closes l then (if w0 = k then v else w0) else w0) ++
        segText (putWords (fun w => if w = k then v else w) l) := by
  unfold subLatexOne
  dsimp only
  rw [subOpenedGo_word _ _ _ _ hw0, subOpened_segs k v hk l hm hw fun p hp h => ha p hp (.inl h)]
  have hm' : ∀ q ∈ l.map fun p => (p.1, if opensWord p.1 && p.2 == k then v else p.2), isMark q.1 = true := by
    intro q hq
    obtain ⟨p, hp, rfl⟩ := List.mem_map.1 hq
    exact hm p hp
  rw [replaceClosed_word k v w0 hk0 hk hw0 ha0 _ hm', replaceClosed_segs k v hk0 hk _ hm' ?_ ?_,
    closeWords_opened k v hvk, closes_map (fun p => if opensWord p.1 && p.2 == k then v else p.2)]
  · congr 1
    by_cases h : w0 = k
    · cases closes l <;> simp [h]
    · cases closes l <;> simp [h]
  · intro q hq
    obtain ⟨p, hp, rfl⟩ := List.mem_map.1 hq
    dsimp only
    split
    · exact hv
    · exact hw p hp
  · intro q hq
    obtain ⟨p, hp, rfl⟩ := List.mem_map.1 hq
    dsimp only
    split
    · exact hva
    · exact fun h => ha p hp (.inr h)

theorem labelFor_nil : labelFor [] = id := by
  funext w; rfl

theorem labelFor_cons (k v : Str) (sub : List (Str × Str)) (hv : v ∉ dkeys sub) (w : Str) :
    labelFor sub (if w = k then v else w) = labelFor ((k, v) :: sub) w := by
  by_cases h : w = k
  · subst h
    have : dget sub v = none := (dget_eq_none_iff sub v).2 hv
    simp [labelFor, dget, this]
  · have h' : k ≠ w := fun e => h e.symm
    simp [labelFor, dget, h, h']

/-- **C100, LaTeX names.**  If no index can be mistaken, every index in a sub- or superscript is replaced by its
label, all of them at once, and nothing else is changed. -/
theorem C100_latex_partial (sub : List (Str × Str)) (w0 : Str) (l : List (Char × Str))
    (hm : ∀ p ∈ l, isMark p.1 = true) (h : NoMistake sub (w0 :: l.map Prod.snd)) :
    subLatex sub (w0 ++ segText l) =
      (if closes l then labelFor sub w0 else w0) ++ segText (putWords (labelFor sub) l) := by
  induction sub generalizing w0 l with
  | nil =>
    have : ∀ l : List (Char × Str), putWords (labelFor []) l = l := by
      intro l
      induction l with
      | nil => rfl
      | cons p l ih =>
        obtain ⟨m, w⟩ := p
        simp [putWords, labelFor_nil] at ih ⊢
        exact ih
    rw [this, labelFor_nil]
    simp [subLatex]
  | cons kv sub ih =>
    obtain ⟨k, v⟩ := kv
    have hkeys := h.keys k (by simp [dkeys])
    have hlab := h.labels v (by simp [dvalues])
    have hvk : v ≠ k := fun e => hlab.1 (by simp [dkeys, e])
    have hvs : v ∉ dkeys sub := fun e => hlab.1 (by simp only [dkeys, List.map_cons, List.mem_cons]; exact .inr e)
    have hap := h.apart k (by simp [dkeys])
    have hstep := subLatexOne_eq k v w0 hkeys.1 hkeys.2 hlab.2 hvk (fun e => hap v (by simp [dvalues]) (.inr e)) l hm
      (h.words w0 (by simp)) (fun p hp => h.words p.2 (List.mem_cons_of_mem _ (List.mem_map_of_mem hp)))
      (fun e => hap w0 (by simp) (.inr e))
      fun p hp => hap p.2 (List.mem_append_left _ (List.mem_cons_of_mem _ (List.mem_map_of_mem hp)))
    have hpair : (k, v).1 = k ∧ (k, v).2 = v := ⟨rfl, rfl⟩
    -- the words after the first index are words or the label
    have hwords : ∀ w ∈ (if closes l then (if w0 = k then v else w0) else w0) ::
        (putWords (fun w => if w = k then v else w) l).map Prod.snd, w ∈ w0 :: l.map Prod.snd ∨ w = v := by
      intro w hw
      rcases List.mem_cons.1 hw with rfl | hw
      · split
        · split
          · exact .inr rfl
          · exact .inl (by simp)
        · exact .inl (by simp)
      · obtain ⟨q, hq, rfl⟩ := List.mem_map.1 hw
        obtain ⟨p, hp, -, h2⟩ := mem_putWords hq
        rcases h2 with h2 | h2
        · exact .inl (by rw [h2]; exact List.mem_cons_of_mem _ (List.mem_map_of_mem hp))
        · rw [h2]
          split
          · exact .inr rfl
          · exact .inl (List.mem_cons_of_mem _ (List.mem_map_of_mem hp))
    have hn := h.nodup
    simp only [dkeys, List.map_cons, List.nodup_cons] at hn
    have hclean : NoMistake sub ((if closes l then (if w0 = k then v else w0) else w0) ::
        (putWords (fun w => if w = k then v else w) l).map Prod.snd) := by
      refine ⟨hn.2, fun k' hk' => h.keys k' (by simp only [dkeys, List.map_cons, List.mem_cons]; exact .inr hk'),
        fun v' hv' => ?_, fun w hw => ?_, fun k' hk' w hw => ?_⟩
      · have := h.labels v' (by simp only [dvalues, List.map_cons, List.mem_cons]; exact .inr hv')
        exact ⟨fun e => this.1 (by simp only [dkeys, List.map_cons, List.mem_cons]; exact .inr e), this.2⟩
      · rcases hwords w hw with hw | rfl
        · exact h.words w hw
        · exact hlab.2
      · refine h.apart k' (by simp only [dkeys, List.map_cons, List.mem_cons]; exact .inr hk') w ?_
        rcases List.mem_append.1 hw with hw | hw
        · rcases hwords w hw with hw | rfl
          · exact List.mem_append_left _ hw
          · exact List.mem_append_right _ (by simp [dvalues])
        · exact List.mem_append_right _ (by simp only [dvalues, List.map_cons, List.mem_cons]; exact .inr hw)
    have hm' : ∀ p ∈ putWords (fun w => if w = k then v else w) l, isMark p.1 = true := by
      intro q hq
      obtain ⟨p, hp, h1, -⟩ := mem_putWords hq
      rw [h1]
      exact hm p hp
    show subLatex sub (subLatexOne (w0 ++ segText l) (k, v)) = _
    rw [hstep, ih _ _ hm' hclean, closes_putWords, putWords_putWords]
    congr 1
    · split
      · exact labelFor_cons k v sub hvs w0
      · rfl
    · congr 2
      funext w
      exact labelFor_cons k v sub hvs w

/-! ## The description -/

/-- Words, each behind a space. -/
def spaced (ws : List Str) : Str := ws.flatMap fun w => ' ' :: w

theorem spaced_cons (w : Str) (ws : List Str) : spaced (w :: ws) = ' ' :: (w ++ spaced ws) := by simp [spaced]

theorem spaced_append (a b : List Str) : spaced (a ++ b) = spaced a ++ spaced b := by simp [spaced]

theorem joinStr_spaced (w : Str) (ws : List Str) : joinStr [' '] (w :: ws) = w ++ spaced ws := by
  rw [joinStr_cons]
  rfl

theorem spaced_join {vw : List Str} (h : vw ≠ []) : spaced vw = ' ' :: joinStr [' '] vw := by
  cases vw with
  | nil => exact absurd rfl h
  | cons w ws => rw [spaced_cons, joinStr_spaced]

/-- The pattern ` k ` begins at a space just if the next word is `k` and another word follows. -/
theorem spaced_match {k w : Str} {ws : List Str} (hk : ' ' ∉ k) (hw : ' ' ∉ w)
    (h : ' ' :: k ++ [' '] <+: ' ' :: (w ++ spaced ws)) : w = k ∧ ws ≠ [] := by
  rw [List.cons_append, List.cons_prefix_cons] at h
  rcases word_before hk hw h.2 with ⟨h1, t, h2⟩ | ⟨t, h1, h2, h3⟩
  · refine ⟨h1, ?_⟩
    rintro rfl
    cases h2
  · exfalso
    cases t with
    | nil => exact h2 rfl
    | cons c t =>
      cases ws with
      | nil => simp [spaced] at h3
      | cons a ws =>
        rw [spaced_cons, List.cons_append, List.cons_prefix_cons] at h3
        exact hk (by rw [h1, h3.1]; simp)

/-- The search in the middle: all but the last word. -/
def putInside (k v : Str) : List Str → List Str
  | a :: b :: l => (if a = k then v else a) :: putInside k v (b :: l)
  | l => l

theorem replaceAll_spaced (k v : Str) (hk : ' ' ∉ k) (ws : List Str) (hw : ∀ w ∈ ws, ' ' ∉ w)
    (ha : NeverTwice k ws) :
    replaceAll (' ' :: k ++ [' ']) (' ' :: v ++ [' ']) (spaced ws) = spaced (putInside k v ws) := by
  have hcopy : ∀ w s : Str, ' ' ∉ w → replaceAll (' ' :: k ++ [' ']) (' ' :: v ++ [' ']) (w ++ s) =
      w ++ replaceAll (' ' :: k ++ [' ']) (' ' :: v ++ [' ']) s :=
    fun w s h => replaceAll_copy _ _ w s ' ' rfl h
  have hno : ∀ (w : Str) (l : List Str), ' ' ∉ w → (w ≠ k ∨ l = []) →
      replaceAll (' ' :: k ++ [' ']) (' ' :: v ++ [' ']) (spaced (w :: l)) =
        ' ' :: (w ++ replaceAll (' ' :: k ++ [' ']) (' ' :: v ++ [' ']) (spaced l)) := by
    intro w l hwm hne
    rw [spaced_cons, replaceAll_cons_of_not_prefix, hcopy _ _ hwm]
    rw [Bool.eq_false_iff]
    intro hp
    have := spaced_match hk hwm (List.isPrefixOf_iff_prefix.1 hp)
    rcases hne with h | h
    · exact h this.1
    · exact this.2 h
  induction ws with
  | nil => rfl
  | cons w ws ih =>
    have hih := ih (fun w h => hw w (by simp [h]))
    cases ws with
    | nil =>
      rw [hno w [] (hw w (by simp)) (.inr rfl)]
      rfl
    | cons b l =>
      have ha' : NeverTwice k (b :: l) := ha.2
      by_cases h : w = k
      · subst h
        have hb : b ≠ w := fun e => ha.1 ⟨rfl, e⟩
        rw [putInside, if_pos rfl, spaced_cons v, ← hih ha', hno b l (hw b (by simp)) (.inl hb), spaced_cons w,
          spaced_cons b,
          show ' ' :: (w ++ ' ' :: (b ++ spaced l)) = (' ' :: w ++ [' ']) ++ (b ++ spaced l) by simp,
          replaceAll_pat _ _ _ (by simp), hcopy _ _ (hw b (by simp))]
        simp
      · rw [hno w _ (hw w (by simp)) (.inl h), hih ha', putInside, if_neg h, spaced_cons]

theorem putInside_append (k v : Str) (a b : List Str) (hb : k ∉ b) (hne : b ≠ []) :
    putInside k v (a ++ b) = (a.map fun w => if w = k then v else w) ++ b := by
  induction a with
  | nil =>
    have : ∀ b : List Str, k ∉ b → putInside k v b = b := by
      intro b hb
      induction b with
      | nil => rfl
      | cons x b ih =>
        cases b with
        | nil => rfl
        | cons y b =>
          simp only [List.mem_cons, not_or] at hb
          rw [putInside, ih (by simp [hb.2]), if_neg (fun e => hb.1 e.symm)]
    simpa using this b hb
  | cons x a ih =>
    rw [List.cons_append]
    cases h : a ++ b with
    | nil => exact absurd (List.append_eq_nil_iff.1 h).2 hne
    | cons y l =>
      rw [putInside, ← h, ih]
      rfl

theorem last_word {k w A : Str} (hk : ' ' ∉ k) (hw : ' ' ∉ w) (h : (' ' :: k) <:+ A ++ ' ' :: w) : w = k := by
  rw [← List.reverse_prefix] at h
  simp only [List.reverse_cons, List.reverse_append, List.append_assoc] at h
  rcases word_before (d := ' ') (by simpa using hk) (by simpa using hw) h with ⟨h1, -⟩ | ⟨t, h1, h2, h3⟩
  · exact List.reverse_inj.1 h1
  · exfalso
    cases t with
    | nil => exact h2 rfl
    | cons c t =>
      simp only [List.cons_append, List.nil_append, List.cons_prefix_cons] at h3
      have : ' ' ∈ k.reverse := by rw [h1, h3.1]; simp
      exact hk (by simpa using this)

theorem subAtEnd_of_not (pat rep s : Str) (h1 : ¬ pat <:+ s) (h2 : ∀ c ∈ s.getLast?, c ≠ '\n') :
    subAtEnd pat rep s = s := by
  unfold subAtEnd
  rw [if_neg (by simpa using h1), if_neg]
  intro h
  obtain ⟨t, ht⟩ := List.isSuffixOf_iff_suffix.1 h
  exact h2 '\n' (by rw [← ht, ← List.append_assoc]; simp) rfl

/-- What is done for one index. -/
theorem subDescOne_eq (k v w0 : Str) (vw ws : List Str) (hk : PlainWord k) (hvw : vw ≠ []) (hv : v = joinStr [' '] vw)
    (hvp : ∀ u ∈ vw, PlainWord u ∧ u ≠ k) (hw : ∀ w ∈ w0 :: ws, PlainWord w) (ha : NeverTwice k ws)
    (ha' : ∀ a, ws = a ++ [k] → NeverTwice k (a ++ vw)) :
    subDescOne (w0 ++ spaced ws) (k, v) = w0 ++ spaced (ws.map fun w => if w = k then v else w) := by
  have hlast : ∀ c ∈ (w0 ++ spaced ws).getLast?, c ≠ '\n' := by
    rintro c hc rfl
    have hm := List.mem_of_getLast? hc
    rcases List.mem_append.1 hm with hm | hm
    · exact (hw w0 (by simp)).2 hm
    · obtain ⟨w, hww, hm⟩ := List.mem_flatMap.1 hm
      rcases List.mem_cons.1 hm with h | hm
      · cases h
      · exact (hw w (by simp [hww])).2 hm
  have hcopy : ∀ s : Str, replaceAll (' ' :: k ++ [' ']) (' ' :: v ++ [' ']) (w0 ++ s) =
      w0 ++ replaceAll (' ' :: k ++ [' ']) (' ' :: v ++ [' ']) s :=
    fun s => replaceAll_copy _ _ w0 s ' ' rfl (hw w0 (by simp)).1
  unfold subDescOne
  dsimp only
  rcases List.eq_nil_or_concat ws with rfl | ⟨a, x, rfl⟩
  · rw [subAtEnd_of_not _ _ _ ?_ hlast, hcopy]
    · rfl
    · rintro ⟨t, ht⟩
      apply (hw w0 (by simp)).1
      have : (' ' : Char) ∈ t ++ ' ' :: k := by simp
      rw [ht] at this
      simpa [spaced] using this
  · rw [List.concat_eq_append] at *
    have hx : PlainWord x := hw x (by simp)
    have hsp : w0 ++ spaced (a ++ [x]) = (w0 ++ spaced a) ++ ' ' :: x := by
      rw [spaced_append]; simp [spaced]
    by_cases hxk : x = k
    · subst hxk
      have hend : subAtEnd (' ' :: x) (' ' :: v) (w0 ++ spaced (a ++ [x])) = w0 ++ spaced (a ++ vw) := by
        unfold subAtEnd
        rw [hsp, if_pos (List.isSuffixOf_iff_suffix.2 (List.suffix_append _ _)), spaced_append, spaced_join hvw, ← hv]
        have : ((w0 ++ spaced a) ++ ' ' :: x).length - (' ' :: x).length = (w0 ++ spaced a).length := by
          simp only [List.length_append]; omega
        rw [this, List.take_left]
        simp
      rw [hend, hcopy, replaceAll_spaced x v hk.1 _ ?_ (ha' a rfl),
        putInside_append x v a vw (fun h => (hvp x h).2 rfl) hvw]
      · rw [spaced_append, spaced_join hvw, ← hv, List.map_append, spaced_append]
        simp [spaced]
      · intro w hww
        rcases List.mem_append.1 hww with h | h
        · exact (hw w (by simp [h])).1
        · exact (hvp w h).1.1
    · rw [subAtEnd_of_not _ _ _ ?_ hlast, hcopy, replaceAll_spaced k v hk.1 _
        (fun w h => (hw w (by simp only [List.mem_cons]; exact .inr h)).1) ha,
        putInside_append k v a [x] (by simpa using fun e => hxk e.symm) (by simp)]
      · simp [hxk]
      · rw [hsp]
        exact fun h => hxk (last_word hk.1 hx.1 h)

theorem neverTwice_cons {k a : Str} (h : a ≠ k) (l : List Str) : NeverTwice k (a :: l) ↔ NeverTwice k l := by
  cases l with
  | nil => simp [NeverTwice]
  | cons b l => simp [NeverTwice, h]

theorem neverTwice_prepend {k : Str} (vw : List Str) (h : ∀ u ∈ vw, u ≠ k) (l : List Str) :
    NeverTwice k (vw ++ l) ↔ NeverTwice k l := by
  induction vw with
  | nil => rfl
  | cons a vw ih =>
    rw [List.cons_append, neverTwice_cons (h a (by simp)), ih fun u hu => h u (by simp [hu])]

/-- Putting the words of a label in the place of an index makes no word stand twice. -/
theorem neverTwice_flatMap {k k' : Str} (vw : List Str) (hvw : vw ≠ []) (h : ∀ u ∈ vw, u ≠ k) (ws : List Str)
    (ha : NeverTwice k ws) : NeverTwice k (ws.flatMap fun w => if w = k' then vw else [w]) := by
  induction ws with
  | nil => exact ha
  | cons w ws ih =>
    have hws : NeverTwice k ws := by
      cases ws with
      | nil => trivial
      | cons b l => exact ha.2
    rw [List.flatMap_cons]
    by_cases hk' : w = k'
    · rw [if_pos hk', neverTwice_prepend vw h]
      exact ih hws
    · rw [if_neg hk', List.singleton_append]
      by_cases hk : w = k
      · cases ws with
        | nil => trivial
        | cons b l =>
          have hb : b ≠ k := fun e => ha.1 ⟨hk, e⟩
          have hi := ih hws
          rw [List.flatMap_cons] at hi ⊢
          by_cases hb' : b = k'
          · rw [if_pos hb'] at hi ⊢
            cases vw with
            | nil => exact absurd rfl hvw
            | cons u vw => exact ⟨fun e => h u (by simp) e.2, hi⟩
          · rw [if_neg hb'] at hi ⊢
            exact ⟨fun e => hb e.2, hi⟩
      · rw [neverTwice_cons hk]
        exact ih hws

theorem neverTwice_tail {k : Str} (a vw : List Str) (h : ∀ u ∈ vw, u ≠ k) (ha : NeverTwice k (a ++ [k])) :
    NeverTwice k (a ++ vw) := by
  induction a with
  | nil =>
    rw [List.nil_append, ← List.append_nil vw, neverTwice_prepend vw h]
    trivial
  | cons x a ih =>
    cases a with
    | nil =>
      have hx : x ≠ k := fun e => ha.1 ⟨e, rfl⟩
      rw [List.cons_append, neverTwice_cons hx]
      exact ih trivial
    | cons y a => exact ⟨ha.1, ih ha.2⟩

theorem spaced_flatMap (k v : Str) (vw : List Str) (hvw : vw ≠ []) (hv : v = joinStr [' '] vw) (f : Str → Str)
    (hf : ∀ u ∈ vw, f u = u) (ws : List Str) :
    spaced ((ws.flatMap fun w => if w = k then vw else [w]).map f) =
      spaced (ws.map fun w => if w = k then v else f w) := by
  induction ws with
  | nil => rfl
  | cons w ws ih =>
    rw [List.flatMap_cons, List.map_append, spaced_append, ih, List.map_cons, spaced_cons]
    by_cases h : w = k
    · rw [if_pos h, if_pos h, show vw.map f = vw by rw [List.map_congr_left hf]; exact List.map_id' _,
        spaced_join hvw, ← hv]
      rfl
    · rw [if_neg h, if_neg h]
      simp [spaced]

/-- **C100, descriptions.**  If no label has an index among its words and no index stands twice in succession, every
word but the first that is an index is replaced by its label, all of them at once, and nothing else is changed. -/
theorem C100_description_partial (sub : List (Str × Str)) (w0 : Str) (ws : List Str) (h : NoMistakeWords sub w0 ws) :
    subDesc sub (joinStr [' '] (w0 :: ws)) = joinStr [' '] (w0 :: ws.map (labelFor sub)) := by
  rw [joinStr_spaced, joinStr_spaced]
  induction sub generalizing ws with
  | nil => rw [labelFor_nil, List.map_id]; rfl
  | cons kv sub ih =>
    obtain ⟨k, v⟩ := kv
    obtain ⟨vw, hvw, hv, hvp⟩ := h.labels v (by simp [dvalues])
    have hkm : k ∈ dkeys ((k, v) :: sub) := by simp [dkeys]
    have hsm : ∀ x ∈ dkeys sub, x ∈ dkeys ((k, v) :: sub) := fun x hx => by
      simp only [dkeys, List.map_cons, List.mem_cons]; exact .inr hx
    have hvk : ∀ u ∈ vw, u ≠ k := fun u hu e => (hvp u hu).2 (by rw [e]; exact hkm)
    have hn := h.nodup
    simp only [dkeys, List.map_cons, List.nodup_cons] at hn
    have hstep := subDescOne_eq k v w0 vw ws (h.keys k hkm) hvw hv (fun u hu => ⟨(hvp u hu).1, hvk u hu⟩) h.words
      (h.apart k hkm) fun a e => neverTwice_tail a vw hvk (by rw [← e]; exact h.apart k hkm)
    have hclean : NoMistakeWords sub w0 (ws.flatMap fun w => if w = k then vw else [w]) := by
      refine ⟨hn.2, fun x hx => h.keys x (hsm x hx), fun v' hv' => ?_, fun w hw => ?_, fun x hx => ?_⟩
      · obtain ⟨vw', h1, h2, h3⟩ := h.labels v' (by simp only [dvalues, List.map_cons, List.mem_cons]; exact .inr hv')
        exact ⟨vw', h1, h2, fun u hu => ⟨(h3 u hu).1, fun e => (h3 u hu).2 (hsm u e)⟩⟩
      · rcases List.mem_cons.1 hw with rfl | hw
        · exact h.words w (by simp)
        · obtain ⟨w', hw', hm⟩ := List.mem_flatMap.1 hw
          split at hm
          · exact (hvp w hm).1
          · rw [List.mem_singleton] at hm
            subst hm
            exact h.words w (by simp [hw'])
      · exact neverTwice_flatMap vw hvw (fun u hu e => (hvp u hu).2 (by rw [e]; exact hsm x hx)) ws
          (h.apart x (hsm x hx))
    have hid := spaced_flatMap k v vw hvw hv id (fun _ _ => rfl) ws
    rw [List.map_id] at hid
    show subDesc sub (subDescOne (w0 ++ spaced ws) (k, v)) = _
    rw [hstep]
    simp only [id] at hid
    rw [← hid, ih _ hclean, spaced_flatMap k v vw hvw hv (labelFor sub) ?_ ws]
    · congr 3
      funext w
      by_cases hw : w = k
      · subst hw; simp [labelFor, dget]
      · have hw' : k ≠ w := fun e => hw e.symm
        simp [labelFor, dget, hw, hw']
    · intro u hu
      have : dget sub u = none := (dget_eq_none_iff sub u).2 fun e => (hvp u hu).2 (hsm u e)
      simp [labelFor, this]

/-! ### Descriptions with a line break at the end -/

theorem mem_replaceGo {pat rep : Str} {c : Char} : ∀ {n : Nat} {s : Str}, c ∈ replaceGo pat rep n s → c ∈ rep ∨ c ∈ s
  | 0, [], h => by cases h
  | n + 1, [], h => by cases h
  | n + 1, _ :: s, h => by
      rw [replaceGo] at h
      rcases mem_replaceGo h with h | h
      · exact .inl h
      · exact .inr (by simp [h])
  | 0, a :: s, h => by
      rw [replaceGo] at h
      split at h
      · rcases List.mem_append.1 h with h | h
        · exact .inl h
        · rcases mem_replaceGo h with h | h
          · exact .inl h
          · exact .inr (by simp [h])
      · rcases List.mem_cons.1 h with h | h
        · exact .inr (by simp [h])
        · rcases mem_replaceGo h with h | h
          · exact .inl h
          · exact .inr (by simp [h])

theorem mem_subAtEnd {pat rep s : Str} {c : Char} (hs : '\n' ∉ s) (h : c ∈ subAtEnd pat rep s) : c ∈ rep ∨ c ∈ s := by
  unfold subAtEnd at h
  split at h
  · rcases List.mem_append.1 h with h | h
    · exact .inr (List.mem_of_mem_take h)
    · exact .inl h
  · split at h
    · rename_i h2
      obtain ⟨t, ht⟩ := List.isSuffixOf_iff_suffix.1 h2
      exact absurd (by rw [← ht]; simp) hs
    · exact .inr h

theorem subAtEnd_line (pat rep s : Str) (hp : '\n' ∉ pat) (hp0 : pat ≠ []) (hs : '\n' ∉ s) :
    subAtEnd pat rep (s ++ ['\n']) = subAtEnd pat rep s ++ ['\n'] := by
  have h1 : pat.isSuffixOf (s ++ ['\n']) = false := by
    rw [Bool.eq_false_iff]
    intro h
    have h' := List.isSuffixOf_iff_suffix.1 h
    rcases List.eq_nil_or_concat pat with rfl | ⟨a, x, rfl⟩
    · exact hp0 rfl
    · rw [List.concat_eq_append, List.suffix_concat_iff] at h'
      rcases h' with h' | ⟨t, h', -⟩
      · simp at h'
      · rw [List.append_inj_right' h' rfl |> List.singleton_inj.1] at hp
        simp at hp
  have h2 : (pat ++ ['\n']).isSuffixOf (s ++ ['\n']) = pat.isSuffixOf s := by
    rw [Bool.eq_iff_iff, List.isSuffixOf_iff_suffix, List.isSuffixOf_iff_suffix]
    constructor
    · rintro ⟨t, ht⟩
      rw [← List.append_assoc] at ht
      exact ⟨t, List.append_inj_left' ht rfl⟩
    · rintro ⟨t, rfl⟩
      exact ⟨t, by simp⟩
  have h3 : (pat ++ ['\n']).isSuffixOf s = false := by
    rw [Bool.eq_false_iff]
    intro h
    obtain ⟨t, ht⟩ := List.isSuffixOf_iff_suffix.1 h
    exact hs (by rw [← ht]; simp)
  unfold subAtEnd
  rw [h1, h2, h3]
  by_cases h : pat.isSuffixOf s = true
  · rw [if_neg (by simp), if_pos h, if_pos h]
    have : (s ++ ['\n']).length - pat.length - 1 = s.length - pat.length := by simp; omega
    rw [this, List.take_append_of_le_length (by omega)]
  · rw [if_neg (by simp), if_neg h, if_neg h, if_neg (by simp)]

/-- **C100, line breaks.**  A line break at the end of a description stays there, and the labels are put in as if it
were not there: the last word is replaced too. -/
theorem C100_line_break (sub : List (Str × Str)) (s : Str) (hs : '\n' ∉ s)
    (hk : ∀ kv ∈ sub, '\n' ∉ kv.1 ∧ '\n' ∉ kv.2) :
    subDesc sub (s ++ ['\n']) = subDesc sub s ++ ['\n'] := by
  induction sub generalizing s with
  | nil => rfl
  | cons kv sub ih =>
    obtain ⟨h1, h2⟩ := hk kv (by simp)
    have hp : '\n' ∉ ' ' :: kv.1 := by simp [h1]
    show subDesc sub (subDescOne (s ++ ['\n']) kv) = subDesc sub (subDescOne s kv) ++ ['\n']
    have h3 : subDescOne (s ++ ['\n']) kv = subDescOne s kv ++ ['\n'] := by
      unfold subDescOne
      rw [subAtEnd_line _ _ _ hp (by simp) hs]
      exact replaceAll_line _ _ _ [] (by simp [h1]) (by simp)
    rw [h3]
    refine ih _ ?_ fun kv h => hk kv (by simp [h])
    intro h
    unfold subDescOne replaceAll at h
    rcases mem_replaceGo h with h | h
    · simp [h2] at h
    · rcases mem_subAtEnd hs h with h | h
      · simp [h2] at h
      · exact hs h

/-! ## The dictionaries -/

/-- **C100, one dictionary for every dictionary.**  The result has one dictionary for every one that was given, in
order, with the same name, the indices substituted one by one, and the labels put into its own texts; the call is
refused with a `KeyError` just if one of the dictionaries has no name, no LaTeX name or no description. -/
theorem C100_entries {Ix : Type} (subs : Ix → Ix) (sub : List (Str × Str)) (info : List (InfoDict Ix)) :
    ((∃ out, subInfoDicts subs sub info = .ok out) ↔
      ∀ d ∈ info, ∃ n l t, d.name = some n ∧ d.latexName = some l ∧ d.description = some t) ∧
    ((∃ d ∈ info, d.name = none ∨ d.latexName = none ∨ d.description = none) →
      subInfoDicts subs sub info = .error .keyError) ∧
    ∀ out, subInfoDicts subs sub info = .ok out → List.Forall₂ (fun d r => r.name = d.name ∧
      (∀ ix, d.index = some ix → r.index = some (ix.map subs)) ∧ (d.index = none → r.index = some []) ∧
      (∀ l, d.latexName = some l → r.latexName = some (subLatex sub l)) ∧
      ∀ t, d.description = some t → r.description = some (subDesc sub t)) info out := by
  have hone : ∀ d : InfoDict Ix, (d.name = none ∨ d.latexName = none ∨ d.description = none) →
      subInfoDict subs sub d = .error .keyError := by
    rintro ⟨n, ix, l, t⟩ h
    cases n <;> cases l <;> cases t <;> simp_all [subInfoDict]
  have hok : ∀ d : InfoDict Ix, ∀ n l t, d.name = some n → d.latexName = some l → d.description = some t →
      subInfoDict subs sub d =
        .ok ⟨some n, some ((d.index.getD []).map subs), some (subLatex sub l), some (subDesc sub t)⟩ := by
    rintro ⟨n, ix, l, t⟩ n' l' t' rfl rfl rfl
    rfl
  unfold subInfoDicts
  induction info with
  | nil =>
    refine ⟨⟨by simp, fun _ => ⟨[], rfl⟩⟩, by simp, ?_⟩
    rintro out h
    simp only [List.mapM_nil, pure, Except.pure, Except.ok.injEq] at h
    subst h
    exact .nil
  | cons d info ih =>
    obtain ⟨ih1, ih2, ih3⟩ := ih
    rw [List.mapM_cons]
    by_cases hd : d.name = none ∨ d.latexName = none ∨ d.description = none
    · rw [hone d hd]
      refine ⟨⟨fun ⟨_, h⟩ => (by cases h), fun h => ?_⟩, fun _ => rfl, fun _ h => (by cases h)⟩
      obtain ⟨n, l, t, h1, h2, h3⟩ := h d (by simp)
      simp [h1, h2, h3] at hd
    · simp only [not_or] at hd
      obtain ⟨n, hn⟩ := Option.ne_none_iff_exists'.1 hd.1
      obtain ⟨l, hl⟩ := Option.ne_none_iff_exists'.1 hd.2.1
      obtain ⟨t, ht⟩ := Option.ne_none_iff_exists'.1 hd.2.2
      rw [hok d n l t hn hl ht]
      cases hi : List.mapM (subInfoDict subs sub) info with
      | error e =>
        rw [hi] at ih1 ih2
        refine ⟨⟨fun ⟨_, h⟩ => (by cases h), fun h => ?_⟩, ?_, fun _ h => (by cases h)⟩
        · obtain ⟨_, h'⟩ := ih1.2 fun d' hd' => h d' (by simp [hd'])
          cases h'
        · rintro ⟨d', hd', h⟩
          rcases List.mem_cons.1 hd' with rfl | hd'
          · simp [hn, hl, ht] at h
          · have := ih2 ⟨d', hd', h⟩
            cases this
            rfl
      | ok out =>
        rw [hi] at ih1 ih2
        refine ⟨⟨fun _ d' hd' => ?_, fun _ => ⟨_, rfl⟩⟩, ?_, ?_⟩
        · rcases List.mem_cons.1 hd' with rfl | hd'
          · exact ⟨n, l, t, hn, hl, ht⟩
          · exact ih1.1 ⟨out, rfl⟩ d' hd'
        · rintro ⟨d', hd', h⟩
          rcases List.mem_cons.1 hd' with rfl | hd'
          · simp [hn, hl, ht] at h
          · cases ih2 ⟨d', hd', h⟩
        · intro r hr
          simp only [bind, Except.bind, pure, Except.pure, Except.ok.injEq] at hr
          subst hr
          refine .cons ⟨hn.symm, ?_, ?_, ?_, ?_⟩ (ih3 out hi)
          · intro ix h; simp [h]
          · intro h; simp [h]
          · intro l' h; rw [hl] at h; cases h; rfl
          · intro t' h; rw [ht] at h; cases h; rfl

/-! ## Looking up values -/

theorem symbolOf_inj (name s s' : Str) (as : List Str) (h : cartSymbol name [s] as = cartSymbol name [s'] as) : s = s' := by
  simpa [cartSymbol, joinStr] using h

theorem symbolOf_ne (name s : Str) : cartSymbol name [s] ≠ cartSymbol name [] := by
  intro h
  have := congrArg (fun k : SymKey => k.name.length) h
  simp [cartSymbol, joinStr] at this

theorem dget_symbolsOf {V : Type} (name : Str) (value : V) (sectors as : List Str) (k : SymKey) :
    dget (cartSymbols name value sectors as) k =
      if ∃ s ∈ sectors, k = cartSymbol name [s] as then some value else none := by
  unfold cartSymbols dofPairs
  have key : ∀ (l : List Str) (d : Dict SymKey V),
      dget (dupdate d (l.map fun s => (cartSymbol name [s] as, value))) k =
        if ∃ s ∈ l, k = cartSymbol name [s] as then some value else dget d k := by
    intro l
    induction l with
    | nil => intro d; simp [dupdate]
    | cons a l ih =>
      intro d
      show dget (dupdate (dset d (cartSymbol name [a] as) value) (l.map fun s => (cartSymbol name [s] as, value))) k = _
      rw [ih, dget_dset]
      by_cases h : ∃ s ∈ l, k = cartSymbol name [s] as
      · rw [if_pos h, if_pos]
        obtain ⟨s, hs, he⟩ := h
        exact ⟨s, by simp [hs], he⟩
      · rw [if_neg h]
        by_cases ha : cartSymbol name [a] as = k
        · rw [if_pos ha, if_pos ⟨a, by simp, ha.symm⟩]
        · rw [if_neg ha, if_neg]
          rintro ⟨s, hs, he⟩
          rcases List.mem_cons.1 hs with rfl | hs
          · exact ha he.symm
          · exact h ⟨s, hs, he⟩
  rw [key]
  simp

/-- **C100, values by sector.**  From a value for the name and, put in with `symbols`, another one for some sectors,
`get_info` finds for each of these sectors the latter, and for every other sector the value of the name. -/
theorem C100_get_info {V : Type} (name : Str) (v u : V) (sectors : List Str) (s : Str) :
    getInfo name (dset (cartSymbols name (some v) sectors) (cartSymbol name []) (some u)) [s] =
      some (if s ∈ sectors then v else u) := by
  have h1 : dget (dset (cartSymbols name (some v) sectors) (cartSymbol name []) (some u)) (cartSymbol name [s]) =
      if s ∈ sectors then some (some v) else none := by
    rw [dget_dset, if_neg (symbolOf_ne name s).symm, dget_symbolsOf]
    by_cases h : s ∈ sectors
    · rw [if_pos h, if_pos ⟨s, h, rfl⟩]
    · rw [if_neg h, if_neg]
      rintro ⟨s', hs', he⟩
      exact h (symbolOf_inj name s s' [] he ▸ hs')
  unfold getInfo
  rw [h1, dget_dset_self]
  by_cases h : s ∈ sectors
  · rw [if_pos h, if_pos h]; rfl
  · rw [if_neg h, if_neg h]; rfl

/-- With sectors `ag` and `ind`: the value of `ind`, and that of the name for another sector. -/
example : getInfo "X".toList (dset (cartSymbols "X".toList (some 3) ["ag".toList, "ind".toList])
    (cartSymbol "X".toList []) (some 7)) ["ind".toList] = some 3 ∧
    getInfo "X".toList (dset (cartSymbols "X".toList (some 3) ["ag".toList, "ind".toList])
      (cartSymbol "X".toList []) (some 7)) ["serv".toList] = some 7 :=
  ⟨C100_get_info _ _ _ _ _, C100_get_info _ _ _ _ _⟩

/-- **C100, look-ups that go wrong.**  Values stored under symbols with assumptions are not found; a name and two
sectors are the same symbol as a longer name and one sector; a stored `None` gives the value of the name. -/
theorem C100_get_info_counterexample :
    getInfo "X".toList (cartSymbols "X".toList (some (3 : Int)) ["ag".toList] ["positive".toList]) ["ag".toList] = none ∧
    getInfo "X".toList (cartSymbols "X_ag".toList (some (3 : Int)) ["N".toList]) ["ag".toList, "N".toList] = some 3 ∧
    getInfo "X".toList (dset (cartSymbols "X".toList none ["ag".toList]) (cartSymbol "X".toList []) (some (7 : Int)))
      ["ag".toList] = some 7 := by decide

/-! ## Examples and counterexamples -/

/-- `P_{i,j}` and `Price of good i in region j` with labels for both indices. -/
def exSub : List (Str × Str) := [("i".toList, "wheat".toList), ("j".toList, "North".toList)]

theorem exSub_latex : NoMistake exSub ["P".toList, [], "i".toList, "j".toList, []] where
  nodup := by decide
  keys := by decide
  labels := by decide
  words := by decide
  apart := by decide

example : subLatex exSub "P_{i,j}".toList = "P_{wheat,North}".toList :=
  C100_latex_partial exSub "P".toList [('_', []), ('{', "i".toList), (',', "j".toList), ('}', [])] (by decide)
    exSub_latex

theorem exSub_words : NoMistakeWords exSub "Price".toList
    ["of".toList, "good".toList, "i".toList, "in".toList, "region".toList, "j".toList] where
  nodup := by decide
  keys := by simp only [PlainWord]; decide
  labels := by
    intro v hv
    simp only [exSub, dvalues, List.map_cons, List.map_nil, List.mem_cons, List.not_mem_nil, or_false] at hv
    refine ⟨[v], by simp, rfl, ?_⟩
    simp only [List.mem_singleton, forall_eq, PlainWord]
    rcases hv with rfl | rfl <;> decide
  words := by simp only [PlainWord]; decide
  apart := by
    intro k hk
    simp only [exSub, dkeys, List.map_cons, List.map_nil, List.mem_cons, List.not_mem_nil, or_false] at hk
    rcases hk with rfl | rfl <;> simp only [NeverTwice] <;> decide

example : subDesc exSub "Price of good i in region j".toList = "Price of good wheat in region North".toList :=
  C100_description_partial exSub _ _ exSub_words

example : subDesc exSub ("Price of good i in region j".toList ++ ['\n']) =
    "Price of good wheat in region North".toList ++ ['\n'] :=
  (C100_line_break exSub "Price of good i in region j".toList (by decide) (by decide)).trans
    (congrArg (· ++ ['\n']) (C100_description_partial exSub _ _ exSub_words))

example : ∃ r, subInfoDicts (fun x : Str => labelFor exSub x) exSub
    [⟨some "P".toList, some ["i".toList, "j".toList], some "P_{i,j}".toList, some "Price of i".toList⟩] = .ok [r] ∧
    r.index = some ["wheat".toList, "North".toList] ∧ r.latexName = some "P_{wheat,North}".toList ∧
    r.description = some "Price of wheat".toList := ⟨_, rfl, by decide, by decide, by decide⟩

/-- **C100, mistaken indices.**  The label `taxi` of `i` ends with `i`, which is replaced again; the label `jam` of
`i` begins with the index `j`; the word `income` begins with `i`. -/
theorem C100_latex_counterexample :
    subLatex [("i".toList, "taxi".toList)] "P_{i}".toList = "P_{taxtaxi}".toList ∧
    subLatex [("i".toList, "jam".toList), ("j".toList, "N".toList)] "P_{i,j}".toList = "P_{Nam,N}".toList ∧
    subLatex [("i".toList, "wheat".toList)] "T_{income}".toList = "T_{wheatncome}".toList := by decide

/-- **C100, indices in descriptions that stay.**  An index at the beginning, before a comma, or for the second time in
succession is not replaced. -/
theorem C100_description_counterexample :
    subDesc exSub "i is produced".toList = "i is produced".toList ∧
    subDesc exSub "Price of i, in region j".toList = "Price of i, in region North".toList ∧
    subDesc exSub "Flow from i i to".toList = "Flow from wheat i to".toList := by decide

end Verif
