import Verif.Spec.Grammar

/-! Tokenizer lemmas, and the parser agrees with the grammar. -/

namespace Verif

/-! ## Tokenizer -/

theorem lexRun_append (p : Pending) (a b : Str) :
    lexRun p (a ++ b) = match lexRun p a with
      | none => none
      | some (ts, q) => match lexRun q b with
          | none => none
          | some (us, r) => some (ts ++ us, r) := by
  induction a generalizing p with
  | nil =>
    rw [List.nil_append, lexRun]
    dsimp only
    cases lexRun p b with
    | none => rfl
    | some x => simp
  | cons c a ih =>
    rw [List.cons_append, lexRun, lexRun]
    cases lexStep p c with
    | none => rfl
    | some x =>
      obtain ⟨ts, q⟩ := x
      dsimp only
      rw [ih]
      cases lexRun q a with
      | none => rfl
      | some y =>
        obtain ⟨us, q'⟩ := y
        dsimp only
        cases lexRun q' b with
        | none => rfl
        | some z => simp [List.append_assoc]

/-- Characters that end any pending token. -/
def sepChar (c : Char) : Bool := c == ' ' || (opToken c).isSome

/-- The text is empty or begins with a separator. -/
def sepHead (s : Str) : Bool := match s with
  | [] => true
  | c :: _ => sepChar c

theorem lexStep_sep (p : Pending) (c : Char) (h : sepChar c = true) :
    ∃ ts, lexStep .none c = some (ts, .none) ∧ lexStep p c = some (p.flush ++ ts, .none) := by
  unfold lexStep
  by_cases hc : (c == ' ') = true
  · rw [if_pos hc, if_pos hc]; exact ⟨[], rfl, by simp⟩
  · rw [if_neg hc, if_neg hc]
    unfold sepChar at h
    rw [Bool.not_eq_true] at hc
    rw [hc, Bool.false_or] at h
    obtain ⟨t, ht⟩ := Option.isSome_iff_exists.1 h
    rw [ht]
    exact ⟨[t], rfl, rfl⟩

theorem tokens_append (a b : Str) (ts us : List Token) (ha : tokens a = some ts)
    (hb : tokens b = some us) (h : sepHead b = true ∨ (lexRun .none a).map Prod.snd = some .none) :
    tokens (a ++ b) = some (ts ++ us) := by
  unfold tokens at ha hb ⊢
  rw [lexRun_append]
  cases hra : lexRun .none a with
  | none => rw [hra] at ha; cases ha
  | some x =>
    obtain ⟨t, p⟩ := x
    rw [hra] at ha
    simp only [Option.map_some, Option.some.injEq] at ha
    dsimp only
    cases hrb : lexRun .none b with
    | none => rw [hrb] at hb; cases hb
    | some y =>
      obtain ⟨u, q⟩ := y
      rw [hrb] at hb
      simp only [Option.map_some, Option.some.injEq] at hb
      have key : ∃ u' q', lexRun p b = some (u', q') ∧ u' ++ q'.flush = p.flush ++ us := by
        rcases h with h | h
        · cases b with
          | nil =>
            rw [lexRun] at hrb
            cases hrb
            refine ⟨[], p, rfl, ?_⟩
            rw [← hb]; simp [Pending.flush]
          | cons c b =>
            obtain ⟨ts', h1, h2⟩ := lexStep_sep p c h
            rw [lexRun, h1] at hrb
            dsimp only at hrb
            rw [lexRun, h2]
            dsimp only
            cases hr : lexRun .none b with
            | none => rw [hr] at hrb; cases hrb
            | some z =>
              obtain ⟨v, w⟩ := z
              rw [hr] at hrb
              simp only [Option.some.injEq, Prod.mk.injEq] at hrb
              obtain ⟨h3, h4⟩ := hrb
              refine ⟨_, _, rfl, ?_⟩
              rw [← hb, ← h3, ← h4]
              simp [List.append_assoc]
        · rw [hra] at h
          simp only [Option.map_some, Option.some.injEq] at h
          subst h
          exact ⟨u, q, hrb, by rw [hb]; rfl⟩
      obtain ⟨u', q', h1, h2⟩ := key
      rw [h1]
      simp only [Option.map_some, Option.some.injEq]
      rw [List.append_assoc, h2, ← ha, List.append_assoc]

/-- A Python identifier (ASCII). -/
def isIdent (s : Str) : Bool := match s with
  | [] => false
  | c :: s => identStart c && s.all fun c => identStart c || c.isDigit

theorem isAlpha_cases (c : Char) (h : identStart c = true ∨ c.isDigit = true) :
    (c == ' ') = false ∧ opToken c = none ∧ (c == '*') = false ∧ (c == '.') = false := by
  have key : ∀ d : Char, identStart d = false → d.isDigit = false → c ≠ d := by
    rintro d h1 h2 rfl
    rcases h with h | h
    · rw [h1] at h; cases h
    · rw [h2] at h; cases h
  refine ⟨?_, ?_, ?_, ?_⟩
  · simpa using key ' ' rfl rfl
  · have h1 := key '+' rfl rfl
    have h2 := key '-' rfl rfl
    have h3 := key '/' rfl rfl
    have h4 := key '(' rfl rfl
    have h5 := key ')' rfl rfl
    have h6 := key ',' rfl rfl
    have h7 := key '=' rfl rfl
    have h8 := key '[' rfl rfl
    have h9 := key ']' rfl rfl
    have h10 := key '{' rfl rfl
    have h11 := key '}' rfl rfl
    have h12 := key ':' rfl rfl
    unfold opToken
    split <;> first | rfl | contradiction
  · simpa using key '*' rfl rfl
  · simpa using key '.' rfl rfl

theorem lexRun_ident_rest (s t : Str) (h : (s.all fun c => identStart c || c.isDigit) = true) :
    lexRun (.name t) s = some ([], .name (t ++ s)) := by
  induction s generalizing t with
  | nil => simp [lexRun]
  | cons c s ih =>
    rw [List.all_cons, Bool.and_eq_true] at h
    have hc : identStart c = true ∨ c.isDigit = true := by simpa using h.1
    obtain ⟨h1, h2, h3, h4⟩ := isAlpha_cases c hc
    have hstep : lexStep (.name t) c = some ([], .name (t ++ [c])) := by
      unfold lexStep
      simp only [h1, h2, h3, h4, Bool.false_eq_true, if_false]
      cases hi : identStart c with
      | true => rfl
      | false =>
        rw [hi] at hc
        simp only [Bool.false_eq_true, false_or] at hc
        simp [hc]
    rw [lexRun, hstep]
    dsimp only
    rw [ih _ h.2]
    simp

theorem tokens_ident (s : Str) (h : isIdent s = true) : tokens s = some [.name s] := by
  cases s with
  | nil => cases h
  | cons c s =>
    unfold isIdent at h
    rw [Bool.and_eq_true] at h
    obtain ⟨h1, h2, h3, h4⟩ := isAlpha_cases c (Or.inl h.1)
    have hstep : lexStep .none c = some ([], .name [c]) := by
      unfold lexStep
      simp only [h1, h2, h3, h4, Bool.false_eq_true, if_false, h.1, if_true]
      rfl
    unfold tokens
    rw [lexRun, hstep]
    dsimp only
    rw [lexRun_ident_rest _ _ h.2]
    rfl

/-! ## Parser: more depth does not change the answer -/

theorem parseGoal_succ (n : Nat) (g : Goal) (ts : List Token) (x : PExpr × List Token)
    (h : parseGoal n g ts = some x) : parseGoal (n + 1) g ts = some x := by
  induction n generalizing g ts x with
  | zero => rw [parseGoal] at h; cases h
  | succ n ih =>
    cases g with
    | sum =>
      rw [parseGoal] at h ⊢
      cases h1 : parseGoal n .term ts with
      | none => rw [h1] at h; cases h
      | some y => rw [h1] at h; rw [ih _ _ _ h1]; exact ih _ _ _ h
    | sumRest e =>
      match ts, h with
      | .plus :: ts, h =>
        rw [parseGoal] at h ⊢
        cases h1 : parseGoal n .term ts with
        | none => rw [h1] at h; cases h
        | some y => rw [h1] at h; rw [ih _ _ _ h1]; exact ih _ _ _ h
      | .minus :: ts, h =>
        rw [parseGoal] at h ⊢
        cases h1 : parseGoal n .term ts with
        | none => rw [h1] at h; cases h
        | some y => rw [h1] at h; rw [ih _ _ _ h1]; exact ih _ _ _ h
      | [], h => exact h
      | .name _ :: ts, h => exact h
      | .num _ :: ts, h => exact h
      | .star :: ts, h => exact h
      | .slash :: ts, h => exact h
      | .pow :: ts, h => exact h
      | .lpar :: ts, h => exact h
      | .rpar :: ts, h => exact h
      | .comma :: ts, h => exact h
      | .eq :: ts, h => exact h
      | .dot :: ts, h => exact h
      | .lbrack :: ts, h => exact h
      | .rbrack :: ts, h => exact h
      | .lbrace :: ts, h => exact h
      | .rbrace :: ts, h => exact h
      | .colon :: ts, h => exact h
    | term =>
      rw [parseGoal] at h ⊢
      cases h1 : parseGoal n .factor ts with
      | none => rw [h1] at h; cases h
      | some y => rw [h1] at h; rw [ih _ _ _ h1]; exact ih _ _ _ h
    | termRest e =>
      match ts, h with
      | .star :: ts, h =>
        rw [parseGoal] at h ⊢
        cases h1 : parseGoal n .factor ts with
        | none => rw [h1] at h; cases h
        | some y => rw [h1] at h; rw [ih _ _ _ h1]; exact ih _ _ _ h
      | .slash :: ts, h =>
        rw [parseGoal] at h ⊢
        cases h1 : parseGoal n .factor ts with
        | none => rw [h1] at h; cases h
        | some y => rw [h1] at h; rw [ih _ _ _ h1]; exact ih _ _ _ h
      | [], h => exact h
      | .name _ :: ts, h => exact h
      | .num _ :: ts, h => exact h
      | .plus :: ts, h => exact h
      | .minus :: ts, h => exact h
      | .pow :: ts, h => exact h
      | .lpar :: ts, h => exact h
      | .rpar :: ts, h => exact h
      | .comma :: ts, h => exact h
      | .eq :: ts, h => exact h
      | .dot :: ts, h => exact h
      | .lbrack :: ts, h => exact h
      | .rbrack :: ts, h => exact h
      | .lbrace :: ts, h => exact h
      | .rbrace :: ts, h => exact h
      | .colon :: ts, h => exact h
    | factor =>
      match ts, h with
      | .minus :: ts, h =>
        rw [parseGoal] at h ⊢
        cases h1 : parseGoal n .factor ts with
        | none => rw [h1] at h; cases h
        | some y => rw [h1] at h; rw [ih _ _ _ h1]; exact h
      | .plus :: ts, h =>
        rw [parseGoal] at h ⊢
        cases h1 : parseGoal n .factor ts with
        | none => rw [h1] at h; cases h
        | some y => rw [h1] at h; rw [ih _ _ _ h1]; exact h
      | [], h => exact ih _ _ _ h
      | .name _ :: ts, h => exact ih _ _ _ h
      | .num _ :: ts, h => exact ih _ _ _ h
      | .star :: ts, h => exact ih _ _ _ h
      | .slash :: ts, h => exact ih _ _ _ h
      | .pow :: ts, h => exact ih _ _ _ h
      | .lpar :: ts, h => exact ih _ _ _ h
      | .rpar :: ts, h => exact ih _ _ _ h
      | .comma :: ts, h => exact ih _ _ _ h
      | .eq :: ts, h => exact ih _ _ _ h
      | .dot :: ts, h => exact ih _ _ _ h
      | .lbrack :: ts, h => exact ih _ _ _ h
      | .rbrack :: ts, h => exact ih _ _ _ h
      | .lbrace :: ts, h => exact ih _ _ _ h
      | .rbrace :: ts, h => exact ih _ _ _ h
      | .colon :: ts, h => exact ih _ _ _ h
    | power =>
      rw [parseGoal] at h ⊢
      cases h1 : parseGoal n .primary ts with
      | none => rw [h1] at h; cases h
      | some y =>
        rw [h1] at h
        rw [ih _ _ _ h1]
        obtain ⟨b, r⟩ := y
        match r, h with
        | .pow :: r, h =>
          dsimp only at h ⊢
          cases h2 : parseGoal n .factor r with
          | none => rw [h2] at h; cases h
          | some z => rw [h2] at h; rw [ih _ _ _ h2]; exact h
        | [], h => exact h
        | .name _ :: ts, h => exact h
        | .num _ :: ts, h => exact h
        | .plus :: ts, h => exact h
        | .minus :: ts, h => exact h
        | .star :: ts, h => exact h
        | .slash :: ts, h => exact h
        | .lpar :: ts, h => exact h
        | .rpar :: ts, h => exact h
        | .comma :: ts, h => exact h
        | .eq :: ts, h => exact h
        | .dot :: ts, h => exact h
        | .lbrack :: ts, h => exact h
        | .rbrack :: ts, h => exact h
        | .lbrace :: ts, h => exact h
        | .rbrace :: ts, h => exact h
        | .colon :: ts, h => exact h
    | primary =>
      rw [parseGoal] at h ⊢
      cases h1 : parseGoal n .atom ts with
      | none => rw [h1] at h; cases h
      | some y => rw [h1] at h; rw [ih _ _ _ h1]; exact ih _ _ _ h
    | primaryRest e =>
      rw [parseGoal] at h ⊢
      cases h1 : postfixOf ts with
      | none => rw [h1] at h; exact h
      | some y => rw [h1] at h; exact ih _ _ _ h
    | atom =>
      match ts, h with
      | .name x :: ts, h =>
        rw [parseGoal] at h ⊢
        cases h1 : openCall ts with
        | none => rw [h1] at h; exact h
        | some r =>
          rw [h1] at h
          dsimp only at h ⊢
          by_cases hx : x = "Sum".toList ∨ x = "Product".toList
          · rw [if_pos hx] at h ⊢
            cases h2 : parseGoal n .sum r with
            | none => rw [h2] at h; cases h
            | some y => rw [h2] at h; rw [ih _ _ _ h2]; exact h
          · rw [if_neg hx] at h; cases h
      | .lpar :: ts, h =>
        rw [parseGoal] at h ⊢
        cases h2 : parseGoal n .sum ts with
        | none => rw [h2] at h; cases h
        | some y => rw [h2] at h; rw [ih _ _ _ h2]; exact h
      | [], h => exact h
      | .num _ :: ts, h => exact h
      | .plus :: ts, h => exact h
      | .minus :: ts, h => exact h
      | .star :: ts, h => exact h
      | .slash :: ts, h => exact h
      | .pow :: ts, h => exact h
      | .rpar :: ts, h => exact h
      | .comma :: ts, h => exact h
      | .eq :: ts, h => exact h
      | .dot :: ts, h => exact h
      | .lbrack :: ts, h => exact h
      | .rbrack :: ts, h => exact h
      | .lbrace :: ts, h => exact h
      | .rbrace :: ts, h => exact h
      | .colon :: ts, h => exact h

theorem parseGoal_mono (n m : Nat) (hnm : n ≤ m) (g : Goal) (ts : List Token)
    (x : PExpr × List Token) (h : parseGoal n g ts = some x) : parseGoal m g ts = some x := by
  induction m with
  | zero =>
    have : n = 0 := Nat.le_zero.1 hnm
    rw [← this]; exact h
  | succ m ih =>
    rcases Nat.lt_or_ge m n with h1 | h1
    · have : n = m + 1 := by omega
      rw [← this]; exact h
    · exact parseGoal_succ _ _ _ _ (ih h1)

theorem Parses.unique {ts : List Token} {e e' : PExpr} (h : Parses ts e) (h' : Parses ts e') :
    e = e' := by
  obtain ⟨n, hn⟩ := h
  obtain ⟨m, hm⟩ := h'
  have h1 := parseGoal_mono n (max n m) (Nat.le_max_left _ _) _ _ _ hn
  have h2 := parseGoal_mono m (max n m) (Nat.le_max_right _ _) _ _ _ hm
  rw [h1] at h2
  cases h2
  rfl

theorem Reads.unique {s : Str} {e e' : PExpr} (h : Reads s e) (h' : Reads s e') : e = e' := by
  obtain ⟨ts, h1, h2⟩ := h
  obtain ⟨us, h3, h4⟩ := h'
  rw [h1] at h3
  cases h3
  exact h2.unique h4

/-! ## Every phrase of the grammar is parsed as such -/

/-- The next token is not one of those listed. -/
def NotNext (bad : List Token) (rest : List Token) : Prop := ∀ t, rest.head? = some t → t ∉ bad

/-- What the parser does on a phrase followed by `rest`. -/
def Parsed : Kind → List Token → PExpr → Prop
  | .atom, ts, e => ∀ rest, NotNext [.lpar] rest → ∃ n, parseGoal n .atom (ts ++ rest) = some (e, rest)
  | .primary, ts, e => ∀ rest, NotNext [.lpar] rest → ∀ m x, parseGoal m (.primaryRest e) rest = some x →
      ∃ n, parseGoal n .primary (ts ++ rest) = some x
  | .power, ts, e => ∀ rest, NotNext [.lpar, .dot, .lbrack, .pow] rest →
      ∃ n, parseGoal n .power (ts ++ rest) = some (e, rest)
  | .factor, ts, e => ∀ rest, NotNext [.lpar, .dot, .lbrack, .pow] rest →
      ∃ n, parseGoal n .factor (ts ++ rest) = some (e, rest)
  | .term, ts, e => ∀ rest, NotNext [.lpar, .dot, .lbrack, .pow] rest → ∀ m x,
      parseGoal m (.termRest e) rest = some x → ∃ n, parseGoal n .term (ts ++ rest) = some x
  | .sum, ts, e => ∀ rest, NotNext [.lpar, .dot, .lbrack, .pow, .star, .slash] rest → ∀ m x,
      parseGoal m (.sumRest e) rest = some x → ∃ n, parseGoal n .sum (ts ++ rest) = some x

theorem NotNext.mono {b b' rest : List Token} (h : NotNext b rest) (hs : b' ⊆ b) : NotNext b' rest :=
  fun t ht hm => h t ht (hs hm)

theorem notNext_cons {b rest : List Token} {t : Token} (h : t ∉ b) : NotNext b (t :: rest) := by
  intro t' ht
  cases ht
  exact h

theorem openCall_none {rest : List Token} (h : NotNext [.lpar] rest) : openCall rest = none := by
  unfold openCall
  split
  · exact absurd (List.mem_singleton.2 rfl) (h .lpar rfl)
  · rfl

theorem postfixOf_none {rest : List Token} (h : NotNext [.dot, .lbrack] rest) : postfixOf rest = none := by
  cases rest with
  | nil => rfl
  | cons t rest =>
    have := h t rfl
    cases t <;> first | rfl | (exfalso; exact this (by simp))

theorem primaryRest_stop {e : PExpr} {rest : List Token} (h : NotNext [.dot, .lbrack] rest) :
    parseGoal 1 (.primaryRest e) rest = some (e, rest) := by
  rw [parseGoal, postfixOf_none h]

theorem subsPairs_tokens (ps : List (Str × Str)) (hps : ps ≠ []) (rest : List Token) :
    subsPairs (pairTokens ps ++ ([.rbrack, .rpar] ++ rest)) = some (ps, rest) := by
  induction ps with
  | nil => exact absurd rfl hps
  | cons p ps ih =>
    cases ps with
    | nil => rfl
    | cons p' ps =>
      have : pairTokens (p :: p' :: ps) = [.lpar, .name p.1, .comma, .name p.2, .rpar, .comma] ++
        pairTokens (p' :: ps) := rfl
      rw [this, List.append_assoc]
      simp only [List.cons_append, List.nil_append] at ih ⊢
      rw [subsPairs, ih (by simp)]

theorem postfixOf_tokens (q : Post) (hq : q.Written) (rest : List Token) :
    postfixOf (q.tokens ++ rest) = some (q, rest) := by
  cases q with
  | subsList ps =>
    have h := subsPairs_tokens ps hq rest
    simp only [Post.tokens, List.append_assoc, List.cons_append, List.nil_append] at h ⊢
    have hne : ∀ r : List Token, postfixOf (.dot :: .name "subs".toList :: .lpar :: .lbrack :: r) =
        (subsPairs r).map fun x => (.subsList x.1, x.2) := fun r => rfl
    rw [hne, h]
    rfl
  | _ => rfl

theorem Post.tokens_head (q : Post) : ∃ t ts, q.tokens = t :: ts ∧ (t = .dot ∨ t = .lbrack) := by
  cases q
  all_goals first | exact ⟨_, _, rfl, Or.inl rfl⟩ | exact ⟨_, _, rfl, Or.inr rfl⟩

theorem termRest_stop {e : PExpr} {rest : List Token} (h : NotNext [.star, .slash] rest) :
    parseGoal 1 (.termRest e) rest = some (e, rest) := by
  cases rest with
  | nil => rfl
  | cons t rest =>
    have := h t rfl
    cases t <;> first | rfl | (exfalso; exact this (by simp))

theorem sumRest_stop {e : PExpr} {rest : List Token} (h : NotNext [.plus, .minus] rest) :
    parseGoal 1 (.sumRest e) rest = some (e, rest) := by
  cases rest with
  | nil => rfl
  | cons t rest =>
    have := h t rfl
    cases t <;> first | rfl | (exfalso; exact this (by simp))

theorem head?_append_ne {α : Type} {a b : List α} (h : a ≠ []) : (a ++ b).head? = a.head? := by
  cases a with
  | nil => exact absurd rfl h
  | cons x a => rfl

/-- A phrase of kind `power` begins neither with `+` nor with `-`. -/
theorem Derives.head {k : Kind} {ts : List Token} {e : PExpr} (h : Derives k ts e) :
    ts ≠ [] ∧ (k = .power ∨ k = .primary ∨ k = .atom → ts.head? ≠ some .plus ∧ ts.head? ≠ some .minus) := by
  induction h with
  | add h1 h2 ih1 ih2 => exact ⟨by simp, by rintro (h | h | h) <;> cases h⟩
  | sub h1 h2 ih1 ih2 => exact ⟨by simp, by rintro (h | h | h) <;> cases h⟩
  | sumTerm h1 ih => exact ⟨ih.1, by rintro (h | h | h) <;> cases h⟩
  | mul h1 h2 ih1 ih2 => exact ⟨by simp, by rintro (h | h | h) <;> cases h⟩
  | div h1 h2 ih1 ih2 => exact ⟨by simp, by rintro (h | h | h) <;> cases h⟩
  | termFactor h1 ih => exact ⟨ih.1, by rintro (h | h | h) <;> cases h⟩
  | neg h1 ih => exact ⟨by simp, by rintro (h | h | h) <;> cases h⟩
  | pos h1 ih => exact ⟨by simp, by rintro (h | h | h) <;> cases h⟩
  | factorPower h1 ih => exact ⟨ih.1, by rintro (h | h | h) <;> cases h⟩
  | pow h1 h2 ih1 ih2 =>
    refine ⟨by simp, fun _ => ?_⟩
    rw [head?_append_ne ih1.1]
    exact ih1.2 (Or.inr (Or.inl rfl))
  | powerPrimary h1 ih => exact ⟨ih.1, fun _ => ih.2 (Or.inr (Or.inl rfl))⟩
  | post h1 _ ih =>
    refine ⟨by simp [ih.1], fun _ => ?_⟩
    rw [head?_append_ne ih.1]
    exact ih.2 (Or.inr (Or.inl rfl))
  | primaryAtom h1 ih => exact ⟨ih.1, fun _ => ih.2 (Or.inr (Or.inr rfl))⟩
  | name => exact ⟨by simp, fun _ => ⟨by simp, by simp⟩⟩
  | num => exact ⟨by simp, fun _ => ⟨by simp, by simp⟩⟩
  | paren h1 ih => exact ⟨by simp, fun _ => ⟨by simp, by simp⟩⟩
  | sumOver h1 ih => exact ⟨by simp, fun _ => ⟨by simp, by simp⟩⟩
  | prodOver h1 ih => exact ⟨by simp, fun _ => ⟨by simp, by simp⟩⟩

theorem Derives.parsed {k : Kind} {ts : List Token} {e : PExpr} (h : Derives k ts e) :
    Parsed k ts e := by
  induction h with
  | @add ts us a b h1 h2 ih1 ih2 =>
    intro rest hr m x hx
    obtain ⟨n, hn⟩ := ih2 rest (hr.mono (by simp)) 1 (b, rest)
      (termRest_stop (hr.mono (by simp)))
    rw [List.append_assoc]
    refine ih1 (.plus :: us ++ rest) (notNext_cons (by simp)) (max n m + 1) x ?_
    rw [List.cons_append, parseGoal, parseGoal_mono n _ (Nat.le_max_left _ _) _ _ _ hn]
    exact parseGoal_mono m _ (Nat.le_max_right _ _) _ _ _ hx
  | @sub ts us a b h1 h2 ih1 ih2 =>
    intro rest hr m x hx
    obtain ⟨n, hn⟩ := ih2 rest (hr.mono (by simp)) 1 (b, rest)
      (termRest_stop (hr.mono (by simp)))
    rw [List.append_assoc]
    refine ih1 (.minus :: us ++ rest) (notNext_cons (by simp)) (max n m + 1) x ?_
    rw [List.cons_append, parseGoal, parseGoal_mono n _ (Nat.le_max_left _ _) _ _ _ hn]
    exact parseGoal_mono m _ (Nat.le_max_right _ _) _ _ _ hx
  | @sumTerm ts a h1 ih =>
    intro rest hr m x hx
    obtain ⟨n, hn⟩ := ih rest (hr.mono (by simp)) 1 (a, rest) (termRest_stop (hr.mono (by simp)))
    refine ⟨max n m + 1, ?_⟩
    rw [parseGoal, parseGoal_mono n _ (Nat.le_max_left _ _) _ _ _ hn]
    exact parseGoal_mono m _ (Nat.le_max_right _ _) _ _ _ hx
  | @mul ts us a b h1 h2 ih1 ih2 =>
    intro rest hr m x hx
    obtain ⟨n, hn⟩ := ih2 rest hr
    rw [List.append_assoc]
    refine ih1 (.star :: us ++ rest) (notNext_cons (by simp)) (max n m + 1) x ?_
    rw [List.cons_append, parseGoal, parseGoal_mono n _ (Nat.le_max_left _ _) _ _ _ hn]
    exact parseGoal_mono m _ (Nat.le_max_right _ _) _ _ _ hx
  | @div ts us a b h1 h2 ih1 ih2 =>
    intro rest hr m x hx
    obtain ⟨n, hn⟩ := ih2 rest hr
    rw [List.append_assoc]
    refine ih1 (.slash :: us ++ rest) (notNext_cons (by simp)) (max n m + 1) x ?_
    rw [List.cons_append, parseGoal, parseGoal_mono n _ (Nat.le_max_left _ _) _ _ _ hn]
    exact parseGoal_mono m _ (Nat.le_max_right _ _) _ _ _ hx
  | @termFactor ts a h1 ih =>
    intro rest hr m x hx
    obtain ⟨n, hn⟩ := ih rest hr
    refine ⟨max n m + 1, ?_⟩
    rw [parseGoal, parseGoal_mono n _ (Nat.le_max_left _ _) _ _ _ hn]
    exact parseGoal_mono m _ (Nat.le_max_right _ _) _ _ _ hx
  | @neg ts a h1 ih =>
    intro rest hr
    obtain ⟨n, hn⟩ := ih rest hr
    exact ⟨n + 1, by rw [List.cons_append, parseGoal, hn]⟩
  | @pos ts a h1 ih =>
    intro rest hr
    obtain ⟨n, hn⟩ := ih rest hr
    exact ⟨n + 1, by rw [List.cons_append, parseGoal, hn]⟩
  | @factorPower ts a h1 ih =>
    intro rest hr
    obtain ⟨n, hn⟩ := ih rest hr
    refine ⟨n + 1, ?_⟩
    obtain ⟨hne, hh⟩ := h1.head
    obtain ⟨hp, hm⟩ := hh (Or.inl rfl)
    cases ts with
    | nil => exact absurd rfl hne
    | cons t ts => cases t <;> first | exact hn | exact absurd rfl hp | exact absurd rfl hm
  | @pow ts us a b h1 h2 ih1 ih2 =>
    intro rest hr
    obtain ⟨n, hn⟩ := ih1 (.pow :: us ++ rest) (notNext_cons (by simp)) 1 (a, .pow :: us ++ rest)
      (primaryRest_stop (notNext_cons (by simp)))
    obtain ⟨m, hm⟩ := ih2 rest hr
    refine ⟨max n m + 1, ?_⟩
    rw [List.append_assoc, parseGoal, parseGoal_mono n _ (Nat.le_max_left _ _) _ _ _ hn,
      List.cons_append]
    dsimp only
    rw [parseGoal_mono m _ (Nat.le_max_right _ _) _ _ _ hm]
  | @powerPrimary ts a h1 ih =>
    intro rest hr
    obtain ⟨n, hn⟩ := ih rest (hr.mono (by simp)) 1 (a, rest) (primaryRest_stop (hr.mono (by simp)))
    refine ⟨n + 1, ?_⟩
    rw [parseGoal, hn]
    cases rest with
    | nil => rfl
    | cons t rest =>
      have := hr t rfl
      cases t <;> first | rfl | (exfalso; exact this (by simp))
  | @post ts a q h1 hq ih =>
    intro rest hr m x hx
    rw [List.append_assoc]
    refine ih _ ?_ (m + 1) x ?_
    · obtain ⟨t, us, hq', ht⟩ := q.tokens_head
      rw [hq', List.cons_append]
      apply notNext_cons
      rcases ht with rfl | rfl <;> simp
    · rw [parseGoal, postfixOf_tokens q hq]
      exact hx
  | @primaryAtom ts a h1 ih =>
    intro rest hr m x hx
    obtain ⟨n, hn⟩ := ih rest hr
    refine ⟨max n m + 1, ?_⟩
    rw [parseGoal, parseGoal_mono n _ (Nat.le_max_left _ _) _ _ _ hn]
    exact parseGoal_mono m _ (Nat.le_max_right _ _) _ _ _ hx
  | @name x =>
    intro rest hr
    refine ⟨1, ?_⟩
    rw [List.cons_append, List.nil_append, parseGoal, openCall_none hr]
  | num =>
    intro rest hr
    exact ⟨1, rfl⟩
  | @paren ts a h1 ih =>
    intro rest hr
    obtain ⟨n, hn⟩ := ih (.rpar :: rest) (notNext_cons (by simp)) 1 (a, .rpar :: rest)
      (sumRest_stop (notNext_cons (by simp)))
    refine ⟨n + 1, ?_⟩
    rw [List.cons_append, List.cons_append, List.append_assoc, parseGoal, List.singleton_append, hn]
    rfl
  | @sumOver ts a d lo hi h1 ih =>
    intro rest hr
    obtain ⟨n, hn⟩ := ih
      ([.comma, .lpar, .name d, .comma, .num lo, .comma, .num hi, .rpar, .rpar] ++ rest)
      (notNext_cons (by simp)) 1 _ (sumRest_stop (notNext_cons (by simp)))
    refine ⟨n + 1, ?_⟩
    rw [List.cons_append, List.cons_append, List.cons_append, List.cons_append, List.append_assoc,
      parseGoal]
    dsimp only [openCall]
    rw [if_pos (Or.inl rfl), hn]
    rfl
  | @prodOver ts a d lo hi h1 ih =>
    intro rest hr
    obtain ⟨n, hn⟩ := ih
      ([.comma, .lpar, .name d, .comma, .num lo, .comma, .num hi, .rpar, .rpar] ++ rest)
      (notNext_cons (by simp)) 1 _ (sumRest_stop (notNext_cons (by simp)))
    refine ⟨n + 1, ?_⟩
    rw [List.cons_append, List.cons_append, List.cons_append, List.cons_append, List.append_assoc,
      parseGoal]
    dsimp only [openCall]
    rw [if_pos (Or.inr rfl), hn]
    rfl

/-- A phrase of kind `sum` is parsed, and by `Parses.unique` as nothing else: the grammar is
unambiguous. -/
theorem Derives.parses {ts : List Token} {e : PExpr} (h : Derives .sum ts e) : Parses ts e := by
  obtain ⟨n, hn⟩ := h.parsed [] (by intro t ht; cases ht) 1 (e, []) rfl
  rw [List.append_nil] at hn
  exact ⟨n, hn⟩

/-! ## The parser accepts nothing else -/

/-- What a successful run of the parser means in terms of the grammar. -/
def Sound : Goal → List Token → PExpr → List Token → Prop
  | .sum, ts, e, r => ∃ p, ts = p ++ r ∧ Derives .sum p e
  | .sumRest a, ts, e, r => ∀ q, Derives .sum q a → ∃ p, ts = p ++ r ∧ Derives .sum (q ++ p) e
  | .term, ts, e, r => ∃ p, ts = p ++ r ∧ Derives .term p e
  | .termRest a, ts, e, r => ∀ q, Derives .term q a → ∃ p, ts = p ++ r ∧ Derives .term (q ++ p) e
  | .factor, ts, e, r => ∃ p, ts = p ++ r ∧ Derives .factor p e
  | .power, ts, e, r => ∃ p, ts = p ++ r ∧ Derives .power p e
  | .primary, ts, e, r => ∃ p, ts = p ++ r ∧ Derives .primary p e
  | .primaryRest a, ts, e, r => ∀ q, Derives .primary q a → ∃ p, ts = p ++ r ∧ Derives .primary (q ++ p) e
  | .atom, ts, e, r => ∃ p, ts = p ++ r ∧ Derives .atom p e

theorem subsPairs_some {ts r : List Token} {ps : List (Str × Str)} (h : subsPairs ts = some (ps, r)) :
    ps ≠ [] ∧ ts = pairTokens ps ++ ([.rbrack, .rpar] ++ r) := by
  fun_induction subsPairs ts generalizing ps with
  | case1 => cases h; exact ⟨by simp, rfl⟩
  | case2 => cases h
  | case3 i j us ps' r' h1 ih =>
    cases h
    obtain ⟨hne, hus⟩ := ih h1
    refine ⟨by simp, ?_⟩
    rw [hus]
    cases ps' with
    | nil => exact absurd rfl hne
    | cons p ps' => rfl
  | case4 => cases h

theorem postfixOf_some {ts r : List Token} {q : Post} (h : postfixOf ts = some (q, r)) :
    q.Written ∧ ts = q.tokens ++ r := by
  unfold postfixOf at h
  split at h
  · cases h; exact ⟨trivial, rfl⟩
  · split at h
    · rename_i hc
      obtain ⟨rfl, rfl⟩ := hc
      cases h; exact ⟨trivial, rfl⟩
    · cases h
  · split at h
    · rename_i hc
      subst hc
      cases h; exact ⟨trivial, rfl⟩
    · cases h
  · split at h
    · rename_i hc
      subst hc
      cases h; exact ⟨trivial, rfl⟩
    · cases h
  · split at h
    · rename_i hc
      subst hc
      rename_i us
      cases h2 : subsPairs us with
      | none => rw [h2] at h; cases h
      | some y =>
        obtain ⟨ps, r'⟩ := y
        rw [h2] at h
        cases h
        obtain ⟨hne, hus⟩ := subsPairs_some h2
        exact ⟨hne, by rw [hus]; simp [Post.tokens]⟩
    · cases h
  · split at h
    · rename_i hc
      subst hc
      cases h; exact ⟨trivial, rfl⟩
    · cases h
  · split at h
    · rename_i hc
      subst hc
      cases h; exact ⟨trivial, rfl⟩
    · cases h
  · cases h; exact ⟨trivial, rfl⟩
  · cases h

theorem openCall_some {ts r : List Token} (h : openCall ts = some r) : ts = .lpar :: r := by
  unfold openCall at h
  split at h
  · cases h; rfl
  · cases h

theorem closeParen_some {ts r : List Token} (h : closeParen ts = some r) : ts = .rpar :: r := by
  unfold closeParen at h
  split at h
  · cases h; rfl
  · cases h

theorem sumBounds_some {ts r : List Token} {d lo hi : Str} (h : sumBounds ts = some (d, lo, hi, r)) :
    ts = [.comma, .lpar, .name d, .comma, .num lo, .comma, .num hi, .rpar, .rpar] ++ r := by
  unfold sumBounds at h
  split at h
  · cases h; rfl
  · cases h

theorem parseGoal_sound (n : Nat) (g : Goal) (ts r : List Token) (e : PExpr)
    (h : parseGoal n g ts = some (e, r)) : Sound g ts e r := by
  induction n generalizing g ts r e with
  | zero => rw [parseGoal] at h; cases h
  | succ n ih =>
    have stopSum : ∀ a, some (a, ts) = some (e, r) → Sound (.sumRest a) ts e r := by
      intro a h q hq
      cases h
      exact ⟨[], rfl, by rw [List.append_nil]; exact hq⟩
    have stopTerm : ∀ a, some (a, ts) = some (e, r) → Sound (.termRest a) ts e r := by
      intro a h q hq
      cases h
      exact ⟨[], rfl, by rw [List.append_nil]; exact hq⟩
    cases g with
    | sum =>
      rw [parseGoal] at h
      cases h1 : parseGoal n .term ts with
      | none => rw [h1] at h; cases h
      | some y =>
        obtain ⟨a, r1⟩ := y
        rw [h1] at h
        obtain ⟨p, hp, hd⟩ := ih _ _ _ _ h1
        obtain ⟨p', hp', hd'⟩ := ih _ _ _ _ h p (.sumTerm hd)
        exact ⟨p ++ p', by rw [hp, hp', List.append_assoc], hd'⟩
    | sumRest a =>
      match ts, h, stopSum with
      | .plus :: ts, h, _ =>
        rw [parseGoal] at h
        cases h1 : parseGoal n .term ts with
        | none => rw [h1] at h; cases h
        | some y =>
          obtain ⟨b, r1⟩ := y
          rw [h1] at h
          intro q hq
          obtain ⟨p, hp, hd⟩ := ih _ _ _ _ h1
          obtain ⟨p', hp', hd'⟩ := ih _ _ _ _ h _ (.add hq hd)
          exact ⟨.plus :: p ++ p', by rw [hp, hp']; simp, by simpa using hd'⟩
      | .minus :: ts, h, _ =>
        rw [parseGoal] at h
        cases h1 : parseGoal n .term ts with
        | none => rw [h1] at h; cases h
        | some y =>
          obtain ⟨b, r1⟩ := y
          rw [h1] at h
          intro q hq
          obtain ⟨p, hp, hd⟩ := ih _ _ _ _ h1
          obtain ⟨p', hp', hd'⟩ := ih _ _ _ _ h _ (.sub hq hd)
          exact ⟨.minus :: p ++ p', by rw [hp, hp']; simp, by simpa using hd'⟩
      | [], h, st => exact st _ h
      | .name _ :: ts, h, st => exact st _ h
      | .num _ :: ts, h, st => exact st _ h
      | .star :: ts, h, st => exact st _ h
      | .slash :: ts, h, st => exact st _ h
      | .pow :: ts, h, st => exact st _ h
      | .lpar :: ts, h, st => exact st _ h
      | .rpar :: ts, h, st => exact st _ h
      | .comma :: ts, h, st => exact st _ h
      | .eq :: ts, h, st => exact st _ h
      | .dot :: ts, h, st => exact st _ h
      | .lbrack :: ts, h, st => exact st _ h
      | .rbrack :: ts, h, st => exact st _ h
      | .lbrace :: ts, h, st => exact st _ h
      | .rbrace :: ts, h, st => exact st _ h
      | .colon :: ts, h, st => exact st _ h
    | term =>
      rw [parseGoal] at h
      cases h1 : parseGoal n .factor ts with
      | none => rw [h1] at h; cases h
      | some y =>
        obtain ⟨a, r1⟩ := y
        rw [h1] at h
        obtain ⟨p, hp, hd⟩ := ih _ _ _ _ h1
        obtain ⟨p', hp', hd'⟩ := ih _ _ _ _ h p (.termFactor hd)
        exact ⟨p ++ p', by rw [hp, hp', List.append_assoc], hd'⟩
    | termRest a =>
      match ts, h, stopTerm with
      | .star :: ts, h, _ =>
        rw [parseGoal] at h
        cases h1 : parseGoal n .factor ts with
        | none => rw [h1] at h; cases h
        | some y =>
          obtain ⟨b, r1⟩ := y
          rw [h1] at h
          intro q hq
          obtain ⟨p, hp, hd⟩ := ih _ _ _ _ h1
          obtain ⟨p', hp', hd'⟩ := ih _ _ _ _ h _ (.mul hq hd)
          exact ⟨.star :: p ++ p', by rw [hp, hp']; simp, by simpa using hd'⟩
      | .slash :: ts, h, _ =>
        rw [parseGoal] at h
        cases h1 : parseGoal n .factor ts with
        | none => rw [h1] at h; cases h
        | some y =>
          obtain ⟨b, r1⟩ := y
          rw [h1] at h
          intro q hq
          obtain ⟨p, hp, hd⟩ := ih _ _ _ _ h1
          obtain ⟨p', hp', hd'⟩ := ih _ _ _ _ h _ (.div hq hd)
          exact ⟨.slash :: p ++ p', by rw [hp, hp']; simp, by simpa using hd'⟩
      | [], h, st => exact st _ h
      | .name _ :: ts, h, st => exact st _ h
      | .num _ :: ts, h, st => exact st _ h
      | .plus :: ts, h, st => exact st _ h
      | .minus :: ts, h, st => exact st _ h
      | .pow :: ts, h, st => exact st _ h
      | .lpar :: ts, h, st => exact st _ h
      | .rpar :: ts, h, st => exact st _ h
      | .comma :: ts, h, st => exact st _ h
      | .eq :: ts, h, st => exact st _ h
      | .dot :: ts, h, st => exact st _ h
      | .lbrack :: ts, h, st => exact st _ h
      | .rbrack :: ts, h, st => exact st _ h
      | .lbrace :: ts, h, st => exact st _ h
      | .rbrace :: ts, h, st => exact st _ h
      | .colon :: ts, h, st => exact st _ h
    | factor =>
      have other : parseGoal n .power ts = some (e, r) → Sound .factor ts e r := by
        intro h
        obtain ⟨p, hp, hd⟩ := ih _ _ _ _ h
        exact ⟨p, hp, .factorPower hd⟩
      match ts, h, other with
      | .minus :: ts, h, _ =>
        rw [parseGoal] at h
        cases h1 : parseGoal n .factor ts with
        | none => rw [h1] at h; cases h
        | some y =>
          obtain ⟨b, r1⟩ := y
          rw [h1] at h
          cases h
          obtain ⟨p, hp, hd⟩ := ih _ _ _ _ h1
          exact ⟨.minus :: p, by rw [hp]; rfl, .neg hd⟩
      | .plus :: ts, h, _ =>
        rw [parseGoal] at h
        cases h1 : parseGoal n .factor ts with
        | none => rw [h1] at h; cases h
        | some y =>
          obtain ⟨b, r1⟩ := y
          rw [h1] at h
          cases h
          obtain ⟨p, hp, hd⟩ := ih _ _ _ _ h1
          exact ⟨.plus :: p, by rw [hp]; rfl, .pos hd⟩
      | [], h, st => exact st h
      | .name _ :: ts, h, st => exact st h
      | .num _ :: ts, h, st => exact st h
      | .star :: ts, h, st => exact st h
      | .slash :: ts, h, st => exact st h
      | .pow :: ts, h, st => exact st h
      | .lpar :: ts, h, st => exact st h
      | .rpar :: ts, h, st => exact st h
      | .comma :: ts, h, st => exact st h
      | .eq :: ts, h, st => exact st h
      | .dot :: ts, h, st => exact st h
      | .lbrack :: ts, h, st => exact st h
      | .rbrack :: ts, h, st => exact st h
      | .lbrace :: ts, h, st => exact st h
      | .rbrace :: ts, h, st => exact st h
      | .colon :: ts, h, st => exact st h
    | power =>
      rw [parseGoal] at h
      cases h1 : parseGoal n .primary ts with
      | none => rw [h1] at h; cases h
      | some y =>
        rw [h1] at h
        obtain ⟨b, r1⟩ := y
        obtain ⟨p, hp, hd⟩ := ih _ _ _ _ h1
        have stop : some (b, r1) = some (e, r) → Sound .power ts e r := by
          intro h
          cases h
          exact ⟨p, hp, .powerPrimary hd⟩
        match r1, h, hp, stop with
        | .pow :: r1, h, hp, _ =>
          dsimp only at h
          cases h2 : parseGoal n .factor r1 with
          | none => rw [h2] at h; cases h
          | some z =>
            obtain ⟨c, r2⟩ := z
            rw [h2] at h
            cases h
            obtain ⟨p', hp', hd'⟩ := ih _ _ _ _ h2
            exact ⟨p ++ .pow :: p', by rw [hp, hp']; simp, .pow hd hd'⟩
        | [], h, _, st => exact st h
        | .name _ :: ts, h, _, st => exact st h
        | .num _ :: ts, h, _, st => exact st h
        | .plus :: ts, h, _, st => exact st h
        | .minus :: ts, h, _, st => exact st h
        | .star :: ts, h, _, st => exact st h
        | .slash :: ts, h, _, st => exact st h
        | .lpar :: ts, h, _, st => exact st h
        | .rpar :: ts, h, _, st => exact st h
        | .comma :: ts, h, _, st => exact st h
        | .eq :: ts, h, _, st => exact st h
        | .dot :: ts, h, _, st => exact st h
        | .lbrack :: ts, h, _, st => exact st h
        | .rbrack :: ts, h, _, st => exact st h
        | .lbrace :: ts, h, _, st => exact st h
        | .rbrace :: ts, h, _, st => exact st h
        | .colon :: ts, h, _, st => exact st h
    | primary =>
      rw [parseGoal] at h
      cases h1 : parseGoal n .atom ts with
      | none => rw [h1] at h; cases h
      | some y =>
        obtain ⟨a, r1⟩ := y
        rw [h1] at h
        obtain ⟨p, hp, hd⟩ := ih _ _ _ _ h1
        obtain ⟨p', hp', hd'⟩ := ih _ _ _ _ h p (.primaryAtom hd)
        exact ⟨p ++ p', by rw [hp, hp', List.append_assoc], hd'⟩
    | primaryRest a =>
      rw [parseGoal] at h
      intro q hq
      cases h1 : postfixOf ts with
      | none =>
        rw [h1] at h
        cases h
        exact ⟨[], rfl, by rw [List.append_nil]; exact hq⟩
      | some y =>
        obtain ⟨m, r1⟩ := y
        rw [h1] at h
        obtain ⟨hm, hts⟩ := postfixOf_some h1
        obtain ⟨p', hp', hd'⟩ := ih _ _ _ _ h _ (.post (q := m) hq hm)
        refine ⟨m.tokens ++ p', ?_, by simpa using hd'⟩
        rw [hts, hp', List.append_assoc]
    | atom =>
      match ts, h with
      | .name x :: ts, h =>
        rw [parseGoal] at h
        cases h1 : openCall ts with
        | none => rw [h1] at h; cases h; exact ⟨[.name x], rfl, .name⟩
        | some r1 =>
          rw [h1] at h
          dsimp only at h
          by_cases hx : x = "Sum".toList ∨ x = "Product".toList
          · rw [if_pos hx] at h
            cases h2 : parseGoal n .sum r1 with
            | none => rw [h2] at h; cases h
            | some y =>
              obtain ⟨b, r2⟩ := y
              rw [h2] at h
              dsimp only at h
              cases h3 : sumBounds r2 with
              | none => rw [h3] at h; cases h
              | some z =>
                obtain ⟨d, lo, hi, r3⟩ := z
                rw [h3] at h
                cases h
                obtain ⟨p, hp, hd⟩ := ih _ _ _ _ h2
                rcases hx with rfl | rfl
                · rw [if_pos rfl]
                  refine ⟨_, ?_, .sumOver (d := d) (lo := lo) (hi := hi) hd⟩
                  rw [openCall_some h1, hp, sumBounds_some h3]
                  simp
                · rw [if_neg (by decide)]
                  refine ⟨_, ?_, .prodOver (d := d) (lo := lo) (hi := hi) hd⟩
                  rw [openCall_some h1, hp, sumBounds_some h3]
                  simp
          · rw [if_neg hx] at h; cases h
      | .lpar :: ts, h =>
        rw [parseGoal] at h
        cases h2 : parseGoal n .sum ts with
        | none => rw [h2] at h; cases h
        | some y =>
          obtain ⟨b, r2⟩ := y
          rw [h2] at h
          dsimp only at h
          cases h3 : closeParen r2 with
          | none => rw [h3] at h; cases h
          | some r3 =>
            rw [h3] at h
            cases h
            obtain ⟨p, hp, hd⟩ := ih _ _ _ _ h2
            refine ⟨_, ?_, .paren hd⟩
            rw [hp, closeParen_some h3]
            simp
      | .num x :: ts, h => cases h; exact ⟨[.num x], rfl, .num⟩
      | [], h => cases h
      | .plus :: ts, h => cases h
      | .minus :: ts, h => cases h
      | .star :: ts, h => cases h
      | .slash :: ts, h => cases h
      | .pow :: ts, h => cases h
      | .rpar :: ts, h => cases h
      | .comma :: ts, h => cases h
      | .eq :: ts, h => cases h
      | .dot :: ts, h => cases h
      | .lbrack :: ts, h => cases h
      | .rbrack :: ts, h => cases h
      | .lbrace :: ts, h => cases h
      | .rbrace :: ts, h => cases h
      | .colon :: ts, h => cases h

/-- The parser and the grammar agree. -/
theorem parses_iff_derives {ts : List Token} {e : PExpr} : Parses ts e ↔ Derives .sum ts e := by
  constructor
  · rintro ⟨n, hn⟩
    obtain ⟨p, hp, hd⟩ := parseGoal_sound _ _ _ _ _ hn
    rw [List.append_nil] at hp
    rw [hp]; exact hd
  · exact Derives.parses

/-! ## Equations -/

/-- The parentheses of a phrase are balanced, and an equals sign stands inside a pair. -/
def Balanced (ts : List Token) : Prop :=
  ts.count .lpar = ts.count .rpar ∧ ∀ p r, ts = p ++ .eq :: r → p.count .rpar < p.count .lpar

theorem balanced_append {a b : List Token} (ha : Balanced a) (hb : Balanced b) : Balanced (a ++ b) := by
  refine ⟨by rw [List.count_append, List.count_append, ha.1, hb.1], ?_⟩
  intro p r h
  rcases List.append_eq_append_iff.1 h with ⟨w, hw, hr⟩ | ⟨w, hw, hr⟩
  · rw [hw, List.count_append, List.count_append, ha.1]
    have := hb.2 w r hr
    omega
  · cases w with
    | nil =>
      rw [List.append_nil] at hw
      have := hb.2 [] r (by simpa using hr.symm)
      simp at this
    | cons t w =>
      rw [List.cons_append, List.cons.injEq] at hr
      obtain ⟨rfl, hr⟩ := hr
      exact ha.2 p w hw

theorem balanced_other {t : Token} (h1 : t ≠ .lpar) (h2 : t ≠ .rpar) (h3 : t ≠ .eq) : Balanced [t] := by
  refine ⟨by simp [h1, h2], ?_⟩
  intro p r h
  cases p with
  | nil => simp [h3] at h
  | cons u p => simp at h

theorem balanced_cons {t : Token} {ts : List Token} (h1 : t ≠ .lpar) (h2 : t ≠ .rpar) (h3 : t ≠ .eq)
    (h : Balanced ts) : Balanced (t :: ts) := balanced_append (balanced_other h1 h2 h3) h

theorem balanced_nil : Balanced [] := ⟨rfl, fun p r h => by simp at h⟩

/-- Between parentheses more is allowed: every beginning closes at most what it opens. -/
theorem balanced_paren {ts : List Token} (h : ts.count .lpar = ts.count .rpar)
    (h' : ∀ p r, ts = p ++ .eq :: r → p.count .rpar ≤ p.count .lpar) : Balanced (.lpar :: ts ++ [.rpar]) := by
  refine ⟨by simp [h], ?_⟩
  intro p r hp
  cases p with
  | nil => simp at hp
  | cons t p =>
    rw [List.cons_append, List.cons_append, List.cons.injEq] at hp
    obtain ⟨rfl, hp⟩ := hp
    rcases List.append_eq_append_iff.1 hp with ⟨w, hw, hr⟩ | ⟨w, hw, hr⟩
    · cases w with
      | nil => simp at hr
      | cons u w => simp at hr
    · cases w with
      | nil => simp at hr
      | cons t w =>
        rw [List.cons_append, List.cons.injEq] at hr
        obtain ⟨rfl, hr⟩ := hr
        have := h' p w hw
        simp only [List.count_cons]
        simp
        omega

theorem balanced_paren' {ts : List Token} (h : Balanced ts) : Balanced (.lpar :: ts ++ [.rpar]) :=
  balanced_paren h.1 fun p r hp => Nat.le_of_lt (h.2 p r hp)

theorem balanced_pairs (ps : List (Str × Str)) : Balanced (pairTokens ps) := by
  have one : ∀ p : Str × Str, Balanced [.lpar, .name p.1, .comma, .name p.2, .rpar] := fun p =>
    balanced_paren' (ts := [.name p.1, .comma, .name p.2])
      (balanced_cons (by simp) (by simp) (by simp) (balanced_cons (by simp) (by simp) (by simp)
        (balanced_cons (by simp) (by simp) (by simp) balanced_nil)))
  induction ps with
  | nil => exact balanced_nil
  | cons p ps ih =>
    cases ps with
    | nil => exact one p
    | cons p' ps =>
      have := balanced_append (one p) (balanced_cons (t := .comma) (by simp) (by simp) (by simp) ih)
      simpa [pairTokens] using this

theorem balanced_post (q : Post) : Balanced q.tokens := by
  have dotName : ∀ (m : Str) {ts : List Token}, Balanced (.lpar :: ts ++ [.rpar]) →
      Balanced (.dot :: .name m :: (.lpar :: ts ++ [.rpar])) := fun m ts h =>
    balanced_cons (by simp) (by simp) (by simp) (balanced_cons (by simp) (by simp) (by simp) h)
  cases q with
  | call m => exact dotName m (balanced_paren' (ts := []) balanced_nil)
  | sumAxis k =>
    refine dotName _ (balanced_paren (ts := [.name "axis".toList, .eq, .num k]) (by simp) ?_)
    intro p r hp
    match p, hp with
    | [], _ => simp
    | [t], hp =>
      simp at hp
      rw [← hp.1]; simp
    | t :: u :: [], hp => simp at hp
    | t :: u :: v :: p, hp => simp at hp
  | subs i j =>
    refine dotName _ (balanced_paren' (ts := [.lbrace, .name i, .colon, .name j, .rbrace]) ?_)
    repeat (first | exact balanced_nil | refine balanced_cons (by simp) (by simp) (by simp) ?_)
  | subsNum i k =>
    refine dotName _ (balanced_paren' (ts := [.lbrace, .name i, .colon, .num k, .rbrace]) ?_)
    repeat (first | exact balanced_nil | refine balanced_cons (by simp) (by simp) (by simp) ?_)
  | subsList ps =>
    have h : Balanced (.lbrack :: (pairTokens ps ++ [.rbrack])) :=
      balanced_cons (by simp) (by simp) (by simp) (balanced_append (balanced_pairs ps)
        (balanced_other (by simp) (by simp) (by simp)))
    have := dotName "subs".toList (balanced_paren' h)
    simpa [Post.tokens] using this
  | newAxis0 =>
    unfold Post.tokens
    repeat (first | exact balanced_nil | refine balanced_cons (by simp) (by simp) (by simp) ?_)
  | newAxis1 | item =>
    unfold Post.tokens
    repeat (first | exact balanced_nil | refine balanced_cons (by simp) (by simp) (by simp) ?_)

theorem balanced_over {x d lo hi : Str} {ts : List Token} (h : Balanced ts) :
    Balanced (.name x :: .lpar :: ts ++
      [.comma, .lpar, .name d, .comma, .num lo, .comma, .num hi, .rpar, .rpar]) := by
  have h1 : Balanced (.lpar :: [.name d, .comma, .num lo, .comma, .num hi] ++ [.rpar]) := by
    apply balanced_paren'
    repeat (first | exact balanced_nil | refine balanced_cons (by simp) (by simp) (by simp) ?_)
  have h2 := balanced_paren' (balanced_append h (balanced_cons (t := .comma) (by simp) (by simp) (by simp) h1))
  have h3 := balanced_cons (t := .name x) (by simp) (by simp) (by simp) h2
  simpa using h3

theorem Derives.balanced {k : Kind} {ts : List Token} {e : PExpr} (h : Derives k ts e) : Balanced ts := by
  induction h with
  | add _ _ ih1 ih2 | sub _ _ ih1 ih2 | mul _ _ ih1 ih2 | div _ _ ih1 ih2 | pow _ _ ih1 ih2 =>
    exact balanced_append ih1 (balanced_cons (by simp) (by simp) (by simp) ih2)
  | sumTerm _ ih | termFactor _ ih | factorPower _ ih | powerPrimary _ ih | primaryAtom _ ih => exact ih
  | neg _ ih | pos _ ih => exact balanced_cons (by simp) (by simp) (by simp) ih
  | post _ _ ih => exact balanced_append ih (balanced_post _)
  | name | num => exact balanced_other (by simp) (by simp) (by simp)
  | paren _ ih => exact balanced_paren' ih
  | sumOver _ ih | prodOver _ ih => exact balanced_over ih

theorem split_unique {a b c d : List Token} (h : a ++ .eq :: b = c ++ .eq :: d) (ha : Balanced a)
    (hc : Balanced c) : a = c ∧ b = d := by
  rcases List.append_eq_append_iff.1 h with ⟨w, hw, hr⟩ | ⟨w, hw, hr⟩
  · cases w with
    | nil => simp_all
    | cons t w =>
      rw [List.cons_append, List.cons.injEq] at hr
      obtain ⟨rfl, -⟩ := hr
      have := hc.2 a w hw
      rw [ha.1] at this
      omega
  · cases w with
    | nil => simp_all
    | cons t w =>
      rw [List.cons_append, List.cons.injEq] at hr
      obtain ⟨rfl, -⟩ := hr
      have := ha.2 c w hw
      rw [hc.1] at this
      omega

theorem ReadsEq.unique {s : Str} {l r l' r' : PExpr} (h : ReadsEq s l r) (h' : ReadsEq s l' r') :
    l = l' ∧ r = r' := by
  obtain ⟨ts, us, h1, h4, h5⟩ := h
  obtain ⟨ts', us', g1, g4, g5⟩ := h'
  rw [h1] at g1
  obtain ⟨rfl, rfl⟩ := split_unique (Option.some.inj g1) (parses_iff_derives.1 h4).balanced
    (parses_iff_derives.1 g4).balanced
  exact ⟨h4.unique g4, h5.unique g5⟩

end Verif
