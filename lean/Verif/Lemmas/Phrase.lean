import Verif.Lemmas.Parser
import Verif.Spec.ExprValue

/-! Building up phrases from text. -/

namespace Verif

theorem Phrase.reads {s : Str} {e : PExpr} (h : Phrase .sum s e) : Reads s e := by
  obtain ⟨ts, h1, h2⟩ := h
  exact ⟨ts, h1, h2.parses⟩

theorem reads_iff_phrase {s : Str} {e : PExpr} : Reads s e ↔ Phrase .sum s e := by
  unfold Reads Phrase
  constructor <;> rintro ⟨ts, h1, h2⟩
  · exact ⟨ts, h1, parses_iff_derives.1 h2⟩
  · exact ⟨ts, h1, parses_iff_derives.2 h2⟩

theorem Phrase.name {x : Str} (h : isIdent x = true) : Phrase .atom x (.var x) :=
  ⟨_, tokens_ident x h, .name⟩

theorem Phrase.primary {s : Str} {e : PExpr} (h : Phrase .atom s e) : Phrase .primary s e := by
  obtain ⟨ts, h1, h2⟩ := h; exact ⟨ts, h1, .primaryAtom h2⟩

theorem Phrase.power {s : Str} {e : PExpr} (h : Phrase .primary s e) : Phrase .power s e := by
  obtain ⟨ts, h1, h2⟩ := h; exact ⟨ts, h1, .powerPrimary h2⟩

theorem Phrase.factor {s : Str} {e : PExpr} (h : Phrase .power s e) : Phrase .factor s e := by
  obtain ⟨ts, h1, h2⟩ := h; exact ⟨ts, h1, .factorPower h2⟩

theorem Phrase.term {s : Str} {e : PExpr} (h : Phrase .factor s e) : Phrase .term s e := by
  obtain ⟨ts, h1, h2⟩ := h; exact ⟨ts, h1, .termFactor h2⟩

theorem Phrase.sum {s : Str} {e : PExpr} (h : Phrase .term s e) : Phrase .sum s e := by
  obtain ⟨ts, h1, h2⟩ := h; exact ⟨ts, h1, .sumTerm h2⟩

/-- Text, an operator surrounded by spaces, text. -/
theorem tokens_op {s t op : Str} {ts us : List Token} {o : Token} (hs : tokens s = some ts)
    (ht : tokens t = some us) (hop : lexRun .none op = some ([o], .none)) (hsep : sepHead op = true) :
    tokens (s ++ op ++ t) = some (ts ++ o :: us) := by
  have hop' : tokens op = some [o] := by unfold tokens; rw [hop]; rfl
  rw [List.append_assoc]
  have h1 := tokens_append op t [o] us hop' ht (Or.inr (by rw [hop]; rfl))
  refine tokens_append s (op ++ t) ts (o :: us) hs h1 (Or.inl ?_)
  cases op with
  | nil => simp [lexRun] at hop
  | cons c op => exact hsep

theorem Phrase.mul {s t : Str} {a b : PExpr} (h : Phrase .term s a) (h' : Phrase .factor t b) :
    Phrase .term (s ++ " * ".toList ++ t) (.mul a b) := by
  obtain ⟨ts, h1, h2⟩ := h
  obtain ⟨us, h3, h4⟩ := h'
  exact ⟨_, tokens_op h1 h3 (o := .star) rfl rfl, .mul h2 h4⟩

theorem Phrase.div {s t : Str} {a b : PExpr} (h : Phrase .term s a) (h' : Phrase .factor t b) :
    Phrase .term (s ++ " / ".toList ++ t) (.div a b) := by
  obtain ⟨ts, h1, h2⟩ := h
  obtain ⟨us, h3, h4⟩ := h'
  exact ⟨_, tokens_op h1 h3 (o := .slash) rfl rfl, .div h2 h4⟩

theorem Phrase.add {s t : Str} {a b : PExpr} (h : Phrase .sum s a) (h' : Phrase .term t b) :
    Phrase .sum (s ++ " + ".toList ++ t) (.add a b) := by
  obtain ⟨ts, h1, h2⟩ := h
  obtain ⟨us, h3, h4⟩ := h'
  exact ⟨_, tokens_op h1 h3 (o := .plus) rfl rfl, .add h2 h4⟩

theorem Phrase.sub {s t : Str} {a b : PExpr} (h : Phrase .sum s a) (h' : Phrase .term t b) :
    Phrase .sum (s ++ " - ".toList ++ t) (.sub a b) := by
  obtain ⟨ts, h1, h2⟩ := h
  obtain ⟨us, h3, h4⟩ := h'
  exact ⟨_, tokens_op h1 h3 (o := .minus) rfl rfl, .sub h2 h4⟩

theorem Phrase.pow {s t : Str} {a b : PExpr} (h : Phrase .primary s a) (h' : Phrase .factor t b) :
    Phrase .power (s ++ " ** ".toList ++ t) (.pow a b) := by
  obtain ⟨ts, h1, h2⟩ := h
  obtain ⟨us, h3, h4⟩ := h'
  exact ⟨_, tokens_op h1 h3 (o := .pow) rfl rfl, .pow h2 h4⟩

theorem tokens_paren {s : Str} {ts : List Token} (h : tokens s = some ts) :
    tokens ("(".toList ++ s ++ ")".toList) = some (.lpar :: ts ++ [.rpar]) := by
  have h1 := tokens_append s ")".toList ts [.rpar] h rfl (Or.inl rfl)
  have h2 := tokens_append "(".toList (s ++ ")".toList) [.lpar] _ rfl h1 (Or.inr rfl)
  rw [List.append_assoc]
  exact h2

theorem Phrase.paren {s : Str} {e : PExpr} (h : Phrase .sum s e) :
    Phrase .atom ("(".toList ++ s ++ ")".toList) e := by
  obtain ⟨ts, h1, h2⟩ := h
  exact ⟨_, tokens_paren h1, .paren h2⟩

theorem lexRun_close (s : Str) (r : List Token × Pending)
    (h : lexRun .none (s ++ ")".toList) = some r) : r.2 = .none := by
  rw [lexRun_append] at h
  cases h1 : lexRun .none s with
  | none => rw [h1] at h; cases h
  | some x =>
    obtain ⟨ts, q⟩ := x
    rw [h1] at h
    obtain ⟨ts', -, h3⟩ := lexStep_sep q ')' rfl
    have h4 : lexRun q ")".toList = some (q.flush ++ ts' ++ [], .none) := by
      show lexRun q [')'] = _
      rw [lexRun, h3]
      rfl
    dsimp only at h
    rw [h4] at h
    cases h
    rfl

theorem Phrase.parenSum {s : Str} {e : PExpr} (h : Phrase .sum s e) :
    Phrase .primary ("(".toList ++ s ++ ").sum()".toList) (.post e (.call "sum".toList)) := by
  obtain ⟨ts, h1, h2⟩ := h
  have h3 := tokens_paren h1
  have hrun : (lexRun .none ("(".toList ++ s ++ ")".toList)).map Prod.snd = some .none := by
    unfold tokens at h3
    cases h4 : lexRun .none ("(".toList ++ s ++ ")".toList) with
    | none => rw [h4] at h3; cases h3
    | some r => rw [Option.map_some, lexRun_close _ r h4]
  have h5 := tokens_append ("(".toList ++ s ++ ")".toList) ".sum()".toList _
    [.dot, .name "sum".toList, .lpar, .rpar] h3 rfl (Or.inr hrun)
  refine ⟨_, ?_, .post (.primaryAtom (.paren h2)) trivial⟩
  refine Eq.trans ?_ h5
  congr 1
  have : ").sum()".toList = ")".toList ++ ".sum()".toList := rfl
  rw [this]
  simp only [List.append_assoc]

theorem Phrase.parenMethod {s m : Str} {e : PExpr} (h : Phrase .sum s e) (hm : isIdent m = true) :
    Phrase .primary ("(".toList ++ s ++ (").".toList ++ m ++ "()".toList)) (.post e (.call m)) := by
  obtain ⟨ts, h1, h2⟩ := h
  have h3 := tokens_paren h1
  have hrun : (lexRun .none ("(".toList ++ s ++ ")".toList)).map Prod.snd = some .none := by
    unfold tokens at h3
    cases h4 : lexRun .none ("(".toList ++ s ++ ")".toList) with
    | none => rw [h4] at h3; cases h3
    | some r => rw [Option.map_some, lexRun_close _ r h4]
  have h6 : tokens (".".toList ++ m ++ "()".toList) = some ([.dot] ++ [.name m] ++ [.lpar, .rpar]) := by
    apply tokens_append
    · exact tokens_append _ _ [.dot] _ rfl (tokens_ident _ hm) (Or.inr rfl)
    · rfl
    · exact Or.inl rfl
  have h5 := tokens_append ("(".toList ++ s ++ ")".toList) (".".toList ++ m ++ "()".toList) _
    _ h3 h6 (Or.inr hrun)
  rw [show ([.dot] ++ [.name m] ++ [.lpar, .rpar] : List Token) = [.dot, .name m, .lpar, .rpar] from rfl]
    at h5
  refine ⟨_, ?_, .post (.primaryAtom (.paren h2)) trivial⟩
  refine Eq.trans ?_ h5
  congr 1
  have : ").".toList = ")".toList ++ ".".toList := rfl
  rw [this]
  simp only [List.append_assoc]

theorem Phrase.sumOver {s d lo hi : Str} {e : PExpr} (h : Phrase .sum s e) (hd : isIdent d = true)
    (hlo : tokens lo = some [.num lo]) (hhi : tokens hi = some [.num hi]) :
    Phrase .atom ("Sum(".toList ++ s ++ ", (".toList ++ d ++ ", ".toList ++ lo ++ ", ".toList ++ hi ++
      "))".toList) (.sumOver e d lo hi) := by
  obtain ⟨ts, h1, h2⟩ := h
  have hd' := tokens_ident d hd
  have t1 := tokens_append hi "))".toList _ [.rpar, .rpar] hhi rfl (Or.inl rfl)
  have t2 := tokens_append ", ".toList _ [.comma] _ rfl t1 (Or.inr rfl)
  have t3 := tokens_append lo _ _ _ hlo t2 (Or.inl rfl)
  have t4 := tokens_append ", ".toList _ [.comma] _ rfl t3 (Or.inr rfl)
  have t5 := tokens_append d _ _ _ hd' t4 (Or.inl rfl)
  have t6 := tokens_append ", (".toList _ [.comma, .lpar] _ rfl t5 (Or.inr rfl)
  have t7 := tokens_append s _ _ _ h1 t6 (Or.inl rfl)
  have t8 := tokens_append "Sum(".toList _ [.name "Sum".toList, .lpar] _ rfl t7 (Or.inr rfl)
  refine ⟨_, ?_, .sumOver h2⟩
  simp only [List.append_assoc] at t8 ⊢
  rw [t8]
  rfl

theorem Phrase.eq {s t : Str} {l r : PExpr} (h : Phrase .sum s l) (h' : Phrase .sum t r) :
    ReadsEq (s ++ " = ".toList ++ t) l r := by
  obtain ⟨ts, h1, h2⟩ := h
  obtain ⟨us, h3, h4⟩ := h'
  exact ⟨ts, us, tokens_op h1 h3 (o := .eq) rfl rfl, h2.parses, h4.parses⟩

theorem Phrase.one : Phrase .atom "1".toList (.num "1".toList) := ⟨_, rfl, .num⟩

theorem numVal_one : numVal "1".toList = 1 := by
  have : numVal ['1'] = 1 := by
    simp [numVal, digitsVal, List.takeWhile, List.dropWhile]
  exact this

/-! ## Digits -/

theorem lexRun_digits (s t : Str) (h : (s.all Char.isDigit) = true) :
    lexRun (.num t) s = some ([], .num (t ++ s)) := by
  induction s generalizing t with
  | nil => simp [lexRun]
  | cons c s ih =>
    rw [List.all_cons, Bool.and_eq_true] at h
    obtain ⟨h1, h2, h3, h4⟩ := isAlpha_cases c (Or.inr h.1)
    have hi : identStart c = false := by
      have := h.1
      unfold Char.isDigit at this
      unfold identStart Char.isAlpha Char.isUpper Char.isLower
      simp only [Bool.and_eq_true, decide_eq_true_eq] at this
      obtain ⟨g1, g2⟩ := this
      have e1 : ¬ (c.val ≥ 'A'.val) := by
        intro hc
        have a1 : c.val.toNat ≤ 57 := g2
        have a2 : 65 ≤ c.val.toNat := hc
        omega
      have e2 : ¬ (c.val ≥ 'a'.val) := by
        intro hc
        have a1 : c.val.toNat ≤ 57 := g2
        have a2 : 97 ≤ c.val.toNat := hc
        omega
      have e3 : c ≠ '_' := by
        rintro rfl
        have a1 : ('_' : Char).val.toNat ≤ 57 := g2
        exact absurd a1 (by decide)
      exact by
        simp only [e1, e2, decide_false, Bool.false_and, Bool.or_false, Bool.false_or]
        simpa using e3
    have hstep : lexStep (.num t) c = some ([], .num (t ++ [c])) := by
      unfold lexStep
      simp only [h1, h2, h3, h4, hi, h.1, Bool.false_eq_true, if_false, if_true]
    rw [lexRun, hstep]
    dsimp only
    rw [ih _ h.2]
    simp

theorem tokens_digits (s : Str) (hne : s ≠ []) (h : (s.all Char.isDigit) = true) :
    tokens s = some [.num s] := by
  cases s with
  | nil => exact absurd rfl hne
  | cons c s =>
    have hrun := lexRun_digits (c :: s) [] h
    have hall := h
    rw [List.all_cons, Bool.and_eq_true] at h
    obtain ⟨h1, h2, h3, h4⟩ := isAlpha_cases c (Or.inr h.1)
    rw [lexRun] at hrun
    cases hs : lexStep (.num []) c with
    | none => rw [hs] at hrun; cases hrun
    | some x =>
      have hi : identStart c = false := by
        cases hi : identStart c with
        | false => rfl
        | true =>
          exfalso
          unfold lexStep at hs
          simp [h1, h2, h3, h4, hi] at hs
      have hstep : lexStep .none c = some ([], .num [c]) := by
        unfold lexStep
        simp only [h1, h2, h3, h4, hi, h.1, Bool.false_eq_true, if_false, if_true]
        rfl
      unfold tokens
      rw [lexRun, hstep]
      dsimp only
      rw [lexRun_digits _ _ h.2]
      rfl

end Verif
