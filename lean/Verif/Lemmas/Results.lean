import Verif.Model.Results

namespace Verif

variable {γ : Type _}

/-! ## Numbers as text -/

theorem natStr_inj {m n : Nat} (h : natStr m = natStr n) : m = n := by
  have h1 := Nat.ofDigitChars_ten_toDigits (n := m)
  have h2 := Nat.ofDigitChars_ten_toDigits (n := n)
  unfold natStr at h
  rw [h] at h1
  omega

theorem natStr_isDigit {n : Nat} {c : Char} (h : c ∈ natStr n) : c.isDigit = true :=
  Nat.isDigit_of_mem_toDigits (by omega) (by omega) h

theorem natStr_ne_nil (n : Nat) : natStr n ≠ [] := Nat.toDigits_ne_nil

theorem paren_not_digit : ('(' : Char).isDigit = false := by decide
theorem cparen_not_digit : (')' : Char).isDigit = false := by decide

/-- Splitting at the last `(` is unique when the tails have none. -/
theorem split_last_paren (a b d e : Str) (hd : ∀ c ∈ d, c.isDigit = true)
    (he : ∀ c ∈ e, c.isDigit = true) (h : a ++ '(' :: d = b ++ '(' :: e) : a = b ∧ d = e := by
  rcases List.append_eq_append_iff.1 h with ⟨t, h1, h2⟩ | ⟨t, h1, h2⟩
  · cases t with
    | nil => simp at h1 h2; exact ⟨h1.symm, h2⟩
    | cons c t =>
      simp only [List.cons_append, List.cons.injEq] at h2
      have : ('(' : Char) ∈ d := by rw [h2.2]; simp
      exact absurd (hd _ this) (by decide)
  · cases t with
    | nil => simp at h1 h2; exact ⟨h1, h2.symm⟩
    | cons c t =>
      simp only [List.cons_append, List.cons.injEq] at h2
      have : ('(' : Char) ∈ e := by rw [h2.2]; simp
      exact absurd (he _ this) (by decide)

theorem numbered_inj {x y ext : Str} {k j : Nat} (h : numbered x k ext = numbered y j ext) :
    x = y ∧ k = j := by
  unfold numbered at h
  have h' : (x ++ '(' :: natStr k) ++ (')' :: ext) = (y ++ '(' :: natStr j) ++ (')' :: ext) := by
    simpa using h
  have h2 := List.append_cancel_right h'
  obtain ⟨h3, h4⟩ := split_last_paren _ _ _ _ (fun c => natStr_isDigit) (fun c => natStr_isDigit) h2
  exact ⟨h3, natStr_inj h4⟩

theorem numbered_length_lt (base ext : Str) (k : Nat) :
    (base ++ ext).length < (numbered base k ext).length := by
  unfold numbered; simp; omega

/-- The `k`-th candidate name tried by the saving loop. -/
def candName (base ext : Str) (k : Nat) : Str := if k = 0 then base ++ ext else numbered base k ext

theorem candName_inj {base ext : Str} {k j : Nat} (h : candName base ext k = candName base ext j) :
    k = j := by
  unfold candName at h
  split at h <;> split at h
  · omega
  · have := numbered_length_lt base ext j; rw [← h] at this; omega
  · have := numbered_length_lt base ext k; rw [h] at this; omega
  · exact (numbered_inj h).2

/-- The loop finds the first unused candidate. -/
theorem freshName_spec (files : List Str) (base ext : Str) (fuel k : Nat)
    (hused : ∀ j, j < k → candName base ext j ∈ files) (hfuel : files.length + 1 ≤ fuel + k) :
    ∃ m, k ≤ m ∧ freshName files base ext fuel (k + 1) (candName base ext k)
        = some (candName base ext m) ∧
      candName base ext m ∉ files ∧ ∀ j, j < m → candName base ext j ∈ files := by
  induction fuel generalizing k with
  | zero =>
    exfalso
    have hsub : ((List.range k).map (candName base ext)) ⊆ files := by
      intro a ha
      obtain ⟨j, hj, rfl⟩ := List.mem_map.1 ha
      exact hused j (List.mem_range.1 hj)
    have hnd : ((List.range k).map (candName base ext)).Nodup := by
      rw [List.nodup_iff_pairwise_ne, List.pairwise_map]
      have := List.nodup_range (n := k)
      rw [List.nodup_iff_pairwise_ne] at this
      exact this.imp (fun hne he => hne (candName_inj he))
    have := List.Nodup.length_le_of_subset hnd hsub
    simp at this
    omega
  | succ fuel ih =>
    unfold freshName
    by_cases hc : candName base ext k ∈ files
    · rw [if_pos hc]
      have hnext : numbered base (k + 1) ext = candName base ext (k + 1) := by simp [candName]
      rw [hnext]
      obtain ⟨m, h1, h2, h3, h4⟩ := ih (k + 1) (by
        intro j hj
        rcases Nat.lt_succ_iff_lt_or_eq.1 hj with h | rfl
        · exact hused j h
        · exact hc) (by omega)
      exact ⟨m, by omega, h2, h3, h4⟩
    · rw [if_neg hc]
      exact ⟨k, Nat.le_refl _, rfl, hc, hused⟩

/-! ## splitext and the extension -/

theorem takeWhile_append_stop {p : Char → Bool} (l : Str) (c : Char) (r : Str)
    (hl : ∀ a ∈ l, p a = true) (hc : p c = false) : (l ++ c :: r).takeWhile p = l := by
  induction l with
  | nil => simp [hc]
  | cons a l ih =>
    simp [hl a (by simp)]
    exact ih (fun b hb => hl b (by simp [hb]))

theorem dropWhile_append_stop {p : Char → Bool} (l : Str) (c : Char) (r : Str)
    (hl : ∀ a ∈ l, p a = true) (hc : p c = false) : (l ++ c :: r).dropWhile p = c :: r := by
  induction l with
  | nil => simp [hc]
  | cons a l ih =>
    simp [hl a (by simp)]
    exact ih (fun b hb => hl b (by simp [hb]))

/-- `splitext("name.pkl") = ("name", ".pkl")` as soon as `name` is not made of dots only. -/
theorem splitext_pkl (name : Str) (h : ¬ (name.all (· = '.') = true)) :
    splitext (name ++ ".pkl".toList) = (name, ".pkl".toList) := by
  have hrev : (name ++ ".pkl".toList).reverse = ['l', 'k', 'p'] ++ '.' :: name.reverse := by
    simp [List.reverse_append]
  unfold splitext
  simp only [hrev]
  rw [takeWhile_append_stop _ _ _ (by decide) (by decide),
    dropWhile_append_stop _ _ _ (by decide) (by decide)]
  simp only []
  rw [if_neg]
  · simp
  · simpa using h

theorem splitext_dots (name : Str) (h : name.all (· = '.') = true) :
    splitext (name ++ ".pkl".toList) = (name ++ ".pkl".toList, []) := by
  have hrev : (name ++ ".pkl".toList).reverse = ['l', 'k', 'p'] ++ '.' :: name.reverse := by
    simp [List.reverse_append]
  unfold splitext
  simp only [hrev]
  rw [dropWhile_append_stop _ _ _ (by decide) (by decide)]
  simp only []
  rw [if_pos]
  simpa using h

theorem endsWith_iff (s suf : Str) : endsWith s suf = true ↔ ∃ t, s = t ++ suf := by
  unfold endsWith
  rw [List.isSuffixOf_iff_suffix]
  constructor
  · rintro ⟨t, h⟩; exact ⟨t, h.symm⟩
  · rintro ⟨t, h⟩; exact ⟨t, h.symm⟩

theorem endsWith_append (t suf : Str) : endsWith (t ++ suf) suf = true :=
  (endsWith_iff _ _).2 ⟨t, rfl⟩

/-! ## Matching numbered files -/

theorem matchNumbered_numbered (base : Str) (k : Nat) :
    matchNumbered base (numbered base k ".pkl") = some k := by
  unfold matchNumbered numbered
  have hp : base.isPrefixOf (base ++ '(' :: (natStr k ++ ')' :: (".pkl" : String).toList)) = true := by
    rw [List.isPrefixOf_iff_prefix]; exact List.prefix_append _ _
  rw [if_pos hp, List.drop_left]
  simp only []
  rw [takeWhile_append_stop _ _ _ (fun c hc => natStr_isDigit hc) cparen_not_digit,
    dropWhile_append_stop _ _ _ (fun c hc => natStr_isDigit hc) cparen_not_digit]
  rw [if_pos ⟨natStr_ne_nil k, rfl⟩]
  exact congrArg some Nat.ofDigitChars_ten_toDigits

theorem matchNumbered_some {base f : Str} {n : Nat} (h : matchNumbered base f = some n) :
    ∃ d : Str, d ≠ [] ∧ (∀ c ∈ d, c.isDigit = true) ∧
      f = base ++ '(' :: (d ++ ')' :: ".pkl".toList) ∧ n = Nat.ofDigitChars 10 d 0 := by
  unfold matchNumbered at h
  split at h
  · next hp =>
    rw [List.isPrefixOf_iff_prefix] at hp
    obtain ⟨t, rfl⟩ := hp
    rw [List.drop_left] at h
    split at h
    · next rest hr =>
      simp only [] at h
      split at h
      · next hc =>
        refine ⟨_, hc.1, ?_, ?_, ?_⟩
        · intro c hcm
          exact (List.all_eq_true.1 List.all_takeWhile) c hcm
        · rw [← hc.2, List.takeWhile_append_dropWhile]
        · exact (Option.some.inj h).symm
      · cases h
    · cases h
  · cases h

/-- The running maximum is the largest matched number. -/
theorem maxSuffix_spec (base : Str) (files : List Str) :
    (∀ f ∈ files, ∀ n, matchNumbered base f = some n → n ≤ maxSuffix base files) ∧
    (0 < maxSuffix base files → ∃ f ∈ files, matchNumbered base f = some (maxSuffix base files)) := by
  have key : ∀ (files : List Str) (m : Nat),
      let r := files.foldl (fun m f =>
        match matchNumbered base f with
        | some n => if m < n then n else m
        | none => m) m
      m ≤ r ∧ (∀ f ∈ files, ∀ n, matchNumbered base f = some n → n ≤ r) ∧
      (r = m ∨ ∃ f ∈ files, matchNumbered base f = some r) := by
    intro files
    induction files with
    | nil => intro m; simp
    | cons f files ih =>
      intro m
      simp only [List.foldl_cons]
      cases hm : matchNumbered base f with
      | none =>
        obtain ⟨h1, h2, h3⟩ := ih m
        refine ⟨h1, ?_, ?_⟩
        · intro g hg n hn
          rcases List.mem_cons.1 hg with rfl | hg
          · rw [hm] at hn; cases hn
          · exact h2 g hg n hn
        · rcases h3 with h3 | ⟨g, hg, h3⟩
          · exact Or.inl h3
          · exact Or.inr ⟨g, by simp [hg], h3⟩
      | some n0 =>
        obtain ⟨h1, h2, h3⟩ := ih (if m < n0 then n0 else m)
        simp only [] at h1 h2 h3 ⊢
        have hm1 : m ≤ if m < n0 then n0 else m := by split <;> omega
        have hm2 : n0 ≤ if m < n0 then n0 else m := by split <;> omega
        refine ⟨Nat.le_trans hm1 h1, ?_, ?_⟩
        · intro g hg n hn
          rcases List.mem_cons.1 hg with rfl | hg
          · rw [hm] at hn; cases hn; exact Nat.le_trans hm2 h1
          · exact h2 g hg n hn
        · rcases h3 with h3 | ⟨g, hg, h3⟩
          · by_cases hlt : m < n0
            · rw [if_pos hlt] at h3 ⊢
              exact Or.inr ⟨f, by simp, by rw [hm, h3]⟩
            · rw [if_neg hlt] at h3 ⊢
              exact Or.inl h3
          · exact Or.inr ⟨g, by simp [hg], h3⟩
  obtain ⟨_, h2, h3⟩ := key files 0
  refine ⟨h2, ?_⟩
  intro hpos
  rcases h3 with h3 | h3
  · have h4 : maxSuffix base files = 0 := h3
    omega
  · exact h3

end Verif
