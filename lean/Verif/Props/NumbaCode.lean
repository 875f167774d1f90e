import Verif.Model.NumbaCode
import Verif.Lemmas.Results
import Mathlib.Tactic.ByContra

/-!
# C55: the generated numba source binds every input to its own slot

Specification vocabulary: a piece of code is read as a list of tokens, `word`s (maximal runs of
letters, digits, underscores and dots: names and numbers) and single other characters.
-/

namespace Verif

/-! ## Unpacking -/

theorem takeWhile_stop {p : Char → Bool} {a : Str} {c : Char} {r : Str}
    (ha : ∀ x ∈ a, p x = true) (hc : p c = false) : (a ++ c :: r).takeWhile p = a := by
  induction a with
  | nil => simp [hc]
  | cons x a ih =>
    rw [List.cons_append, List.takeWhile_cons_of_pos (ha x (by simp)),
      ih (fun y hy => ha y (by simp [hy]))]

theorem dropWhile_stop {p : Char → Bool} {a : Str} {c : Char} {r : Str}
    (ha : ∀ x ∈ a, p x = true) (hc : p c = false) : (a ++ c :: r).dropWhile p = c :: r := by
  induction a with
  | nil => simp [hc]
  | cons x a ih =>
    rw [List.cons_append, List.dropWhile_cons_of_pos (ha x (by simp)),
      ih (fun y hy => ha y (by simp [hy]))]

theorem takeWhile_all {p : Char → Bool} {a : Str} (ha : ∀ x ∈ a, p x = true) :
    a.takeWhile p = a := by
  induction a with
  | nil => rfl
  | cons x a ih =>
    rw [List.takeWhile_cons_of_pos (ha x (by simp)), ih (fun y hy => ha y (by simp [hy]))]

theorem dropWhile_all {p : Char → Bool} {a : Str} (ha : ∀ x ∈ a, p x = true) :
    a.dropWhile p = [] := by
  induction a with
  | nil => rfl
  | cons x a ih =>
    rw [List.dropWhile_cons_of_pos (ha x (by simp)), ih (fun y hy => ha y (by simp [hy]))]

theorem execLine_unpack {α : Type} (env : Dict Str (LocalVal α)) (vec name : Str) (i : Nat)
    (hn : ∀ c ∈ name, isWordChar c = true) (hv : ∀ c ∈ vec, isWordChar c = true) :
    execLine env (unpackLine vec name i) =
      match dget env vec with
      | none => .error .keyError
      | some (.num _) => .error .typeError
      | some (.vec l) =>
        match l[i]? with
        | none => .error .indexError
        | some a => .ok (dset env name (.num a)) := by
  have hnb : ∀ c ∈ name, (c != ' ') = true := by
    intro c hc
    have := hn c hc
    simp only [bne_iff_ne, ne_eq]
    rintro rfl
    exact absurd this (by decide)
  have hvb : ∀ c ∈ vec, (c != '[') = true := by
    intro c hc
    have := hv c hc
    simp only [bne_iff_ne, ne_eq]
    rintro rfl
    exact absurd this (by decide)
  have e1 : (unpackLine vec name i).drop 4 =
      name ++ ' ' :: ('=' :: ' ' :: (vec ++ '[' :: (natStr i ++ ']' :: []))) := rfl
  have e2 : (name ++ ' ' :: ('=' :: ' ' :: (vec ++ '[' :: (natStr i ++ ']' :: [])))).takeWhile
      (fun c => c != ' ') = name := takeWhile_stop hnb (by decide)
  have e3 : ((name ++ ' ' :: ('=' :: ' ' :: (vec ++ '[' :: (natStr i ++ ']' :: [])))).dropWhile
      (fun c => c != ' ')) = ' ' :: ('=' :: ' ' :: (vec ++ '[' :: (natStr i ++ ']' :: []))) :=
    dropWhile_stop hnb (by decide)
  have e4 : (vec ++ '[' :: (natStr i ++ ']' :: [])).takeWhile (fun c => c != '[') = vec :=
    takeWhile_stop hvb (by decide)
  have e5 : (vec ++ '[' :: (natStr i ++ ']' :: [])).dropWhile (fun c => c != '[') =
      '[' :: (natStr i ++ ']' :: []) := dropWhile_stop hvb (by decide)
  have e6 : (natStr i ++ ']' :: []).takeWhile Char.isDigit = natStr i :=
    takeWhile_stop (fun c hc => natStr_isDigit hc) (by decide)
  have e7 : Nat.ofDigitChars 10 (natStr i) 0 = i := Nat.ofDigitChars_ten_toDigits
  unfold execLine
  dsimp only
  rw [e1, e2, e3]
  simp only [List.drop_succ_cons, List.drop_zero]
  rw [e4, e5]
  simp only [List.drop_succ_cons, List.drop_zero]
  rw [e6, e7]
  cases dget env vec with
  | none => rfl
  | some v =>
    cases v with
    | num a => rfl
    | vec l => rfl

/-- Running the lines of one vector: the names are bound in order, the vector stays bound as long
as no name is the name of a vector. -/
theorem execLines_unpack {α : Type} (vec : Str) (l : List α)
    (hv : ∀ c ∈ vec, isWordChar c = true) (rest : List Str) :
    ∀ (names : List Str) (i : Nat) (env : Dict Str (LocalVal α)),
      (∀ n ∈ names, ∀ c ∈ n, isWordChar c = true) → vec ∉ names →
      dget env vec = some (.vec l) → i + names.length ≤ l.length →
      ∃ env', execLines env (unpackLines vec i names ++ rest) = execLines env' rest ∧
        (∀ n, n ∉ names → dget env' n = dget env n) ∧
        (∀ (k : Nat) n a, names[k]? = some n → l[i + k]? = some a →
          (∀ k' : Nat, k < k' → names[k']? ≠ some n) → dget env' n = some (.num a)) := by
  intro names
  induction names with
  | nil =>
    intro i env _ _ _ _
    exact ⟨env, rfl, fun _ _ => rfl, by simp⟩
  | cons m ms ih =>
    intro i env hw hvn hd hl
    rw [List.length_cons] at hl
    have hi : i < l.length := by omega
    have hne : vec ≠ m := fun h => hvn (by simp [h])
    have hstep : execLine env (unpackLine vec m i) = .ok (dset env m (.num l[i])) := by
      rw [execLine_unpack env vec m i (hw m (by simp)) hv, hd]
      simp only [List.getElem?_eq_getElem hi]
    obtain ⟨env', h1, h2, h3⟩ := ih (i + 1) (dset env m (.num l[i]))
      (fun n hn => hw n (by simp [hn])) (fun h => hvn (by simp [h]))
      (by rw [dget_dset_ne _ _ (Ne.symm hne)]; exact hd) (by omega)
    refine ⟨env', ?_, ?_, ?_⟩
    · simp only [unpackLines, List.cons_append, execLines, hstep]
      exact h1
    · intro n hn
      rw [h2 n (fun h => hn (by simp [h])), dget_dset_ne _ _ (fun h => hn (by simp [h]))]
    · intro k n a hk ha hlast
      cases k with
      | zero =>
        simp only [List.getElem?_cons_zero, Option.some.injEq] at hk
        subst hk
        have hnot : m ∉ ms := by
          intro hm
          obtain ⟨j, hj⟩ := List.mem_iff_getElem?.1 hm
          exact hlast (j + 1) (by omega) (by simpa using hj)
        rw [h2 m hnot, dget_dset_self]
        rw [Nat.add_zero, List.getElem?_eq_getElem hi] at ha
        simpa using ha
      | succ k =>
        refine h3 k n a (by simpa using hk) (by rw [← ha]; congr 1; omega) ?_
        intro k' hk' hc
        exact hlast (k' + 1) (by omega) (by simpa using hc)

/-- C55.  The generated function first unpacks its inputs.  When the vectors have the asserted
lengths and no input is itself called `exog_inputs` or `endog_inputs`, unpacking succeeds, a name
is bound to the value at the position of its last occurrence in the two lists of symbols – its own
position when it occurs once – and no other name is touched. -/
theorem C55_binding {α : Type} (exogNames endogNames : List Str) (exog endog : List α)
    (hw : ∀ n ∈ exogNames ++ endogNames, ∀ c ∈ n, isWordChar c = true)
    (h1 : "exog_inputs".toList ∉ exogNames ++ endogNames)
    (h2 : "endog_inputs".toList ∉ exogNames ++ endogNames)
    (hl : exog.length = exogNames.length) (hl' : endog.length = endogNames.length) :
    ∃ env, runPrelude exogNames (some endogNames) exog endog = .ok env ∧
      (∀ (k : Nat) n a, exogNames[k]? = some n → exog[k]? = some a →
        (∀ k' : Nat, k < k' → exogNames[k']? ≠ some n) → n ∉ endogNames →
        dget env n = some (.num a)) ∧
      (∀ (k : Nat) n a, endogNames[k]? = some n → endog[k]? = some a →
        (∀ k' : Nat, k < k' → endogNames[k']? ≠ some n) → dget env n = some (.num a)) ∧
      (∀ n, n ∉ exogNames ++ endogNames → n ≠ "exog_inputs".toList → n ≠ "endog_inputs".toList →
        dget env n = none) := by
  have hx : ∀ c ∈ "exog_inputs".toList, isWordChar c = true := by decide +kernel
  have hy : ∀ c ∈ "endog_inputs".toList, isWordChar c = true := by decide +kernel
  have hxy : "exog_inputs".toList ≠ "endog_inputs".toList := by decide +kernel
  unfold runPrelude
  rw [if_neg (show ¬ exog.length ≠ exogNames.length from fun h => h hl)]
  dsimp only
  rw [if_neg (show ¬ endog.length ≠ endogNames.length from fun h => h hl')]
  generalize "exog_inputs".toList = x at *
  generalize "endog_inputs".toList = y at *
  have d1 : dget [(x, LocalVal.vec exog), (y, LocalVal.vec endog)] x = some (.vec exog) := by
    simp [dget]
  have d2 : dget [(x, LocalVal.vec exog), (y, LocalVal.vec endog)] y = some (.vec endog) := by
    simp [dget, hxy, Ne.symm hxy]
  obtain ⟨env1, e1, e2, e3⟩ := execLines_unpack x exog hx (unpackLines y 0 endogNames) exogNames 0
    _ (fun n hn => hw n (by simp [hn])) (fun h => h1 (by simp [h])) d1 (by omega)
  obtain ⟨env2, f1, f2, f3⟩ := execLines_unpack y endog hy [] endogNames 0 env1
    (fun n hn => hw n (by simp [hn])) (fun h => h2 (by simp [h]))
    (by rw [e2 y (fun h => h2 (by simp [h]))]; exact d2) (by omega)
  rw [List.append_nil] at f1
  refine ⟨env2, ?_, ?_, ?_, ?_⟩
  · rw [e1, f1]; rfl
  · intro k n a hk ha hlast hn
    rw [f2 n hn]
    exact e3 k n a hk (by simpa using ha) hlast
  · intro k n a hk ha hlast
    exact f3 k n a hk (by simpa using ha) hlast
  · intro n hn hnx hny
    rw [f2 n (fun h => hn (by simp [h])), e2 n (fun h => hn (by simp [h]))]
    simp [dget, Ne.symm hnx, Ne.symm hny]

example : ∃ env, runPrelude ["K_d".toList, "L_d".toList] (some ["alpha".toList])
    [(1 : Int), 2] [3] = .ok env ∧ dget env "L_d".toList = some (.num 2) ∧
      dget env "alpha".toList = some (.num 3) := by
  refine ⟨_, rfl, ?_, ?_⟩ <;> decide +kernel

/-- The same with one input vector (`endog_vars=None`). -/
theorem C55_binding_one {α : Type} (exogNames : List Str) (exog endog : List α)
    (hw : ∀ n ∈ exogNames, ∀ c ∈ n, isWordChar c = true)
    (h1 : "exog_inputs".toList ∉ exogNames) (hl : exog.length = exogNames.length) :
    ∃ env, runPrelude exogNames none exog endog = .ok env ∧
      (∀ (k : Nat) n a, exogNames[k]? = some n → exog[k]? = some a →
        (∀ k' : Nat, k < k' → exogNames[k']? ≠ some n) → dget env n = some (.num a)) ∧
      (∀ n, n ∉ exogNames → n ≠ "exog_inputs".toList → dget env n = none) := by
  have hx : ∀ c ∈ "exog_inputs".toList, isWordChar c = true := by decide +kernel
  unfold runPrelude
  rw [if_neg (show ¬ exog.length ≠ exogNames.length from fun h => h hl)]
  dsimp only
  generalize "exog_inputs".toList = x at *
  have d1 : dget [(x, LocalVal.vec exog)] x = some (.vec exog) := by simp [dget]
  obtain ⟨env1, e1, e2, e3⟩ := execLines_unpack x exog hx [] exogNames 0 _ hw h1 d1 (by omega)
  rw [List.append_nil] at e1
  refine ⟨env1, by rw [e1]; rfl, ?_, ?_⟩
  · intro k n a hk ha hlast
    exact e3 k n a hk (by simpa using ha) hlast
  · intro n hn hnx
    rw [e2 n hn]
    simp [dget, Ne.symm hnx]

example : ∃ env, runPrelude ["K_d".toList, "L_d".toList] none [(1 : Int), 2] [] = .ok env ∧
    dget env "K_d".toList = some (.num 1) := by
  refine ⟨_, rfl, ?_⟩; decide +kernel

/-- A wrong number of values is refused. -/
theorem C55_length_checked {α : Type} (exogNames endogNames : List Str) (exog endog : List α)
    (h : exog.length ≠ exogNames.length ∨ endog.length ≠ endogNames.length) :
    runPrelude exogNames (some endogNames) exog endog = .error .assertion := by
  unfold runPrelude
  by_cases hl : exog.length ≠ exogNames.length
  · rw [if_pos hl]
  · rw [if_neg hl]
    dsimp only
    rw [if_pos (h.resolve_left hl)]

example : runPrelude ["x".toList] (some []) ([] : List Int) [] = .error .assertion := by rfl

/-- A model whose first input is called `exog_inputs` cannot be evaluated: the line that unpacks it
rebinds the vector and the next line indexes a number. -/
theorem C55_input_name_counterexample {α : Type} (a b : α) :
    runPrelude ["exog_inputs".toList, "y".toList] none [a, b] [] = .error .typeError := by
  rfl

/-- The same for an input of the first vector called `endog_inputs`. -/
theorem C55_endog_name_counterexample {α : Type} (a b : α) :
    runPrelude ["endog_inputs".toList] (some ["y".toList]) [a] [b] = .error .typeError := by
  rfl

/-! ## The clean-up of numbers -/

/-- A token of the code. -/
inductive CodeTok where
  | word (w : Str)
  | ch (c : Char)
  deriving DecidableEq, Repr

/-- The text of a list of tokens. -/
def codeText : List CodeTok → Str
  | [] => []
  | .word w :: ts => w ++ codeText ts
  | .ch c :: ts => c :: codeText ts

/-- Words are maximal runs of letters, digits, `_` and `.`; all other characters stand alone. -/
def IsCode : List CodeTok → Prop
  | [] => True
  | .word w :: ts => w ≠ [] ∧ (∀ c ∈ w, isDotWord c = true) ∧ (∀ v r, ts ≠ .word v :: r) ∧ IsCode ts
  | .ch c :: ts => isDotWord c = false ∧ IsCode ts

/-- Every text has such a reading. -/
theorem C55_tokens_exist (s : Str) : ∃ ts, IsCode ts ∧ codeText ts = s := by
  induction s with
  | nil => exact ⟨[], trivial, rfl⟩
  | cons c s ih =>
    obtain ⟨ts, h1, h2⟩ := ih
    cases hc : isDotWord c with
    | false => exact ⟨.ch c :: ts, ⟨hc, h1⟩, by simp [codeText, h2]⟩
    | true =>
      cases ts with
      | nil => exact ⟨[.word [c]], ⟨by simp, by simpa using hc, by simp, trivial⟩,
          by simpa [codeText] using h2⟩
      | cons t ts =>
        cases t with
        | ch d =>
          exact ⟨.word [c] :: .ch d :: ts, ⟨by simp, by simpa using hc, by simp, h1⟩,
            by simp [codeText, ← h2]⟩
        | word w =>
          obtain ⟨_, g2, g3, g4⟩ := h1
          refine ⟨.word (c :: w) :: ts, ⟨by simp, ?_, g3, g4⟩, by simp [codeText, ← h2]⟩
          intro x hx
          rcases List.mem_cons.1 hx with rfl | hx
          · exact hc
          · exact g2 x hx

/-- The word ends in a letter, a digit or `_`: it can be a name that is indexed. -/
def EndsInWordChar (w : Str) : Prop := ∃ c, w.getLast? = some c ∧ isWordChar c = true

/-- The token at position `k` is the only thing between the brackets of `name[…]`. -/
def IsIndex (ts : List CodeTok) (k : Nat) : Prop :=
  ∃ j name, k = j + 2 ∧ ts[j]? = some (.word name) ∧ EndsInWordChar name ∧
    ts[j + 1]? = some (.ch '[') ∧ ts[j + 3]? = some (.ch ']')

/-- A whole number written as a float: `d.0`. -/
def IsWholeFloat (w d : Str) : Prop :=
  d ≠ [] ∧ (∀ c ∈ d, c.isDigit = true) ∧ w = d ++ ['.', '0']

/-! ### Proof -/

/-- The zero clean-up on tokens. -/
def zeroToks : List CodeTok → List CodeTok
  | [] => []
  | .ch c :: ts => .ch c :: zeroToks ts
  | .word w :: ts =>
    (match ts with
     | .ch c :: _ => if w = ['0'] ∧ isZeroStop c = true then .word ['0', '.', '0'] else .word w
     | _ => .word w) :: zeroToks ts

theorem isZeroStop_not_dotWord {c : Char} (h : isZeroStop c = true) : isDotWord c = false := by
  simp only [isZeroStop, Bool.or_eq_true, beq_iff_eq] at h
  rcases h with (rfl | rfl) | rfl <;> decide

theorem zeroGo_ch {c : Char} (h : isDotWord c = false) (p : Bool) (r : Str) :
    zeroGo p (c :: r) = c :: zeroGo false r := by
  have h0 : (c == '0') = false := by
    cases hc : (c == '0') with
    | false => rfl
    | true =>
      simp only [beq_iff_eq] at hc
      subst hc
      exact absurd h (by decide)
  cases r with
  | nil => simp [zeroGo]
  | cons n r => simp [zeroGo, h0, h]

theorem zeroGo_true {w : Str} (hw : ∀ c ∈ w, isDotWord c = true) (r : Str) :
    zeroGo true (w ++ r) = w ++ zeroGo true r := by
  induction w with
  | nil => rfl
  | cons c w ih =>
    have hc := hw c (by simp)
    have hrec := ih (fun x hx => hw x (by simp [hx]))
    rw [List.cons_append, List.cons_append]
    cases hs : w ++ r with
    | nil =>
      rw [hs] at hrec
      have : w = [] ∧ r = [] := List.append_eq_nil_iff.1 hs
      simp [this.1, this.2, zeroGo]
    | cons n s =>
      rw [hs] at hrec
      simp [zeroGo, hc, hrec]

theorem zeroGo_word {c : Char} {w : Str} (hc : isDotWord c = true)
    (hw : ∀ x ∈ w, isDotWord x = true) (hne : w ≠ []) (r : Str) (p : Bool) :
    zeroGo p (c :: (w ++ r)) = c :: (w ++ zeroGo true r) := by
  cases w with
  | nil => exact absurd rfl hne
  | cons n w =>
    have hn := hw n (by simp)
    have hns : isZeroStop n = false := by
      cases h : isZeroStop n with
      | false => rfl
      | true => rw [isZeroStop_not_dotWord h] at hn; cases hn
    have := zeroGo_true hw r
    rw [List.cons_append] at this
    simp only [List.cons_append, zeroGo, hns, Bool.and_false, Bool.false_eq_true, if_false, hc, this]

theorem zeroClean_toks (ts : List CodeTok) (h : IsCode ts) :
    zeroGo false (codeText ts) = codeText (zeroToks ts) ∧
      ((∀ v r, ts ≠ .word v :: r) → zeroGo true (codeText ts) = codeText (zeroToks ts)) := by
  induction ts with
  | nil => exact ⟨rfl, fun _ => rfl⟩
  | cons t ts ih =>
    cases t with
    | ch c =>
      obtain ⟨h1, h2⟩ := h
      obtain ⟨i1, _⟩ := ih h2
      simp only [codeText, zeroToks]
      exact ⟨by rw [zeroGo_ch h1, i1], fun _ => by rw [zeroGo_ch h1, i1]⟩
    | word w =>
      obtain ⟨h1, h2, h3, h4⟩ := h
      obtain ⟨_, i2⟩ := ih h4
      have i2 := i2 h3
      refine ⟨?_, fun hne => absurd rfl (hne w ts)⟩
      cases w with
      | nil => exact absurd rfl h1
      | cons c w =>
        by_cases hw : w = []
        · subst hw
          cases ts with
          | nil => simp [codeText, zeroToks, zeroGo]
          | cons t ts =>
            cases t with
            | word v => exact absurd rfl (h3 v ts)
            | ch n =>
              simp only [codeText, zeroToks, List.cons_append, List.nil_append] at i2 ⊢
              have hn := h4.1
              rw [zeroGo_ch hn] at i2
              by_cases hcond : c = '0' ∧ isZeroStop n = true
              · obtain ⟨rfl, hs⟩ := hcond
                simp only [zeroGo, hs, Bool.not_false, beq_self_eq_true, Bool.and_self, if_true,
                  true_and, and_self, codeText, List.cons_append, List.nil_append]
                rw [i2]
              · have : (!false && c == '0' && isZeroStop n) = false := by
                  cases hs : isZeroStop n with
                  | false => simp
                  | true =>
                    have : c ≠ '0' := fun hc => hcond ⟨hc, hs⟩
                    simp [this]
                rw [if_neg (show ¬ ([c] = ['0'] ∧ isZeroStop n = true) from
                  fun hc => hcond ⟨by simpa using hc.1, hc.2⟩)]
                simp only [zeroGo, this, Bool.false_eq_true, if_false, codeText, List.cons_append,
                  List.nil_append]
                rw [zeroGo_ch hn, i2]
        · have hcond : ¬ (c :: w) = ['0'] := by
            intro hc
            exact hw (List.cons.inj hc).2
          have hkeep : codeText (zeroToks (.word (c :: w) :: ts)) =
              (c :: w) ++ codeText (zeroToks ts) := by
            cases ts with
            | nil => simp [zeroToks, codeText]
            | cons t ts =>
              cases t with
              | word v => exact absurd rfl (h3 v ts)
              | ch n => simp [zeroToks, codeText, hcond]
          rw [hkeep, ← i2]
          simp only [codeText, List.cons_append]
          exact zeroGo_word (h2 c (by simp)) (fun x hx => h2 x (by simp [hx])) hw _ _

/-- The index clean-up on tokens, with the two tokens before the current one. -/
def wholePart (w : Str) : Option Str :=
  match w.reverse with
  | '0' :: '.' :: d => if d ≠ [] ∧ d.all Char.isDigit then some d.reverse else none
  | _ => none

theorem wholePart_iff (w d : Str) : wholePart w = some d ↔ IsWholeFloat w d := by
  unfold wholePart IsWholeFloat
  constructor
  · intro h
    split at h
    · rename_i d' hw
      split at h
      · rename_i hd
        have hd' : d'.reverse = d := by simpa using h
        subst hd'
        refine ⟨by simpa using hd.1, ?_, ?_⟩
        · intro c hc
          exact List.all_eq_true.1 hd.2 c (by simpa using hc)
        · have := congrArg List.reverse hw
          simpa using this
      · cases h
    · cases h
  · rintro ⟨h1, h2, rfl⟩
    have : (d ++ ['.', '0']).reverse = '0' :: '.' :: d.reverse := by simp
    rw [this]
    show (if d.reverse ≠ [] ∧ d.reverse.all Char.isDigit = true then some d.reverse.reverse
      else none) = some d
    rw [if_pos ⟨by simpa using h1, by
      rw [List.all_eq_true]; intro c hc; exact h2 c (by simpa using hc)⟩]
    simp

def lastIsWordChar (w : Str) : Bool :=
  match w.getLast? with
  | some c => isWordChar c
  | none => false

theorem lastIsWordChar_iff (w : Str) : lastIsWordChar w = true ↔ EndsInWordChar w := by
  unfold lastIsWordChar EndsInWordChar
  cases w.getLast? with
  | none => simp
  | some c => simp

/-- The condition under which the head word is rewritten. -/
def idxHead (p2 p1 : Option CodeTok) (ts : List CodeTok) : Bool :=
  (match p2 with
   | some (.word n) => lastIsWordChar n
   | _ => false) && (p1 == some (.ch '[')) && (ts.head? == some (.ch ']'))

def floatToks : Option CodeTok → Option CodeTok → List CodeTok → List CodeTok
  | _, _, [] => []
  | _, p1, .ch c :: ts => .ch c :: floatToks p1 (some (.ch c)) ts
  | p2, p1, .word v :: ts =>
    (if idxHead p2 p1 ts = true then .word ((wholePart v).getD v) else .word v) ::
      floatToks p1 (some (.word v)) ts

/-- The text after a word is the bracket of an index `[d.0]`. -/
def Bracket (r d r3 : Str) : Prop :=
  d ≠ [] ∧ (∀ c ∈ d, c.isDigit = true) ∧ r = '[' :: (d ++ '.' :: '0' :: ']' :: r3)

theorem match_all {w r d r3 : Str} (hw : ∀ c ∈ w, isWordChar c = true) (hne : w ≠ [])
    (hb : Bracket r d r3) : matchFloatIndex (w ++ r) = some (w, d) := by
  obtain ⟨h1, h2, rfl⟩ := hb
  have e1 : (w ++ '[' :: (d ++ '.' :: '0' :: ']' :: r3)).takeWhile isWordChar = w :=
    takeWhile_stop hw (by decide)
  have e2 : (w ++ '[' :: (d ++ '.' :: '0' :: ']' :: r3)).dropWhile isWordChar =
      '[' :: (d ++ '.' :: '0' :: ']' :: r3) := dropWhile_stop hw (by decide)
  have e3 : (d ++ '.' :: '0' :: ']' :: r3).takeWhile Char.isDigit = d :=
    takeWhile_stop h2 (by decide)
  have e4 : (d ++ '.' :: '0' :: ']' :: r3).dropWhile Char.isDigit = '.' :: '0' :: ']' :: r3 :=
    dropWhile_stop h2 (by decide)
  unfold matchFloatIndex
  dsimp only
  rw [e1, e2]
  rw [if_neg hne]
  show (if (d ++ '.' :: '0' :: ']' :: r3).takeWhile Char.isDigit = [] then none else
    match (d ++ '.' :: '0' :: ']' :: r3).dropWhile Char.isDigit with
    | '.' :: '0' :: ']' :: _ => some (w, (d ++ '.' :: '0' :: ']' :: r3).takeWhile Char.isDigit)
    | _ => none) = some (w, d)
  rw [e3, e4, if_neg h1]
  rfl

theorem match_some {s w d : Str} (h : matchFloatIndex s = some (w, d)) :
    w = s.takeWhile isWordChar ∧ ∃ r3, Bracket (s.dropWhile isWordChar) d r3 := by
  unfold matchFloatIndex at h
  dsimp only at h
  split at h
  · cases h
  · split at h
    · rename_i r' hr
      split at h
      · cases h
      · rename_i hd
        split at h
        · rename_i r3 hr3
          simp only [Option.some.injEq, Prod.mk.injEq] at h
          obtain ⟨h1, h2⟩ := h
          refine ⟨h1.symm, r3, ?_⟩
          rw [hr, ← h2]
          refine ⟨hd, ?_, ?_⟩
          · intro c hc
            exact List.all_eq_true.1 (List.all_takeWhile (l := r')) c hc
          · rw [← hr3, List.takeWhile_append_dropWhile]
        · cases h
    · cases h

theorem floatGo_skip (l s : Str) : floatGo l.length (l ++ s) = floatGo 0 s := by
  induction l with
  | nil => rfl
  | cons c l ih => simpa [floatGo] using ih

theorem floatGo_match {w d r r3 : Str} (hne : w ≠ []) (hb : Bracket r d r3)
    (hm : matchFloatIndex (w ++ r) = some (w, d)) :
    floatGo 0 (w ++ r) = w ++ '[' :: (d ++ ']' :: floatGo 0 r3) := by
  obtain ⟨h1, h2, rfl⟩ := hb
  cases w with
  | nil => exact absurd rfl hne
  | cons c w =>
    rw [List.cons_append] at hm ⊢
    conv_lhs => unfold floatGo
    rw [hm]
    dsimp only
    have := floatGo_skip (w ++ '[' :: (d ++ ['.', '0', ']'])) r3
    have e : (w ++ '[' :: (d ++ ['.', '0', ']'])).length = (c :: w).length + d.length + 3 := by
      simp only [List.length_append, List.length_cons, List.length_nil]; omega
    rw [e] at this
    rw [← this]
    simp

theorem floatGo_none {c : Char} {s : Str} (hm : matchFloatIndex (c :: s) = none) :
    floatGo 0 (c :: s) = c :: floatGo 0 s := by
  conv_lhs => unfold floatGo
  rw [hm]

theorem lastIsWordChar_cons {c : Char} {w : Str} (hne : w ≠ []) :
    lastIsWordChar (c :: w) = lastIsWordChar w := by
  unfold lastIsWordChar
  cases w with
  | nil => exact absurd rfl hne
  | cons a w => rw [List.getLast?_cons_cons]

theorem lastIsWordChar_all {w : Str} (hw : ∀ c ∈ w, isWordChar c = true) (hne : w ≠ []) :
    lastIsWordChar w = true := by
  rw [lastIsWordChar_iff]
  exact ⟨w.getLast hne, List.getLast?_eq_some_getLast hne, hw _ (List.getLast_mem hne)⟩

/-- In a word with a dot no match starts before the dot. -/
theorem match_dot {w r : Str} (hw : ∀ c ∈ w, isDotWord c = true)
    (hd : ¬ ∀ c ∈ w, isWordChar c = true) : matchFloatIndex (w ++ r) = none := by
  have key : ∃ b, (w ++ r).dropWhile isWordChar = '.' :: b := by
    induction w with
    | nil => simp at hd
    | cons c w ih =>
      cases hc : isWordChar c with
      | true =>
        rw [List.cons_append, List.dropWhile_cons_of_pos hc]
        refine ih (fun x hx => hw x (by simp [hx])) ?_
        intro h
        apply hd
        intro x hx
        rcases List.mem_cons.1 hx with rfl | hx
        · exact hc
        · exact h x hx
      | false =>
        have := hw c (by simp)
        simp only [isDotWord, hc, Bool.false_or, beq_iff_eq] at this
        subst this
        exact ⟨w ++ r, by rw [List.cons_append, List.dropWhile_cons_of_neg (by simp [hc])]⟩
  obtain ⟨b, hb⟩ := key
  cases hm : matchFloatIndex (w ++ r) with
  | none => rfl
  | some x =>
    obtain ⟨a, d⟩ := x
    obtain ⟨_, r3, _, _, h⟩ := match_some hm
    rw [hb] at h
    simp at h

theorem floatGo_word_match {w r d r3 : Str} (hw : ∀ c ∈ w, isDotWord c = true)
    (hl : lastIsWordChar w = true) (hb : Bracket r d r3) :
    floatGo 0 (w ++ r) = w ++ '[' :: (d ++ ']' :: floatGo 0 r3) := by
  induction w with
  | nil => simp [lastIsWordChar] at hl
  | cons c w ih =>
    by_cases hall : ∀ x ∈ c :: w, isWordChar x = true
    · exact floatGo_match (by simp) hb (match_all hall (by simp) hb)
    · have hm := match_dot (r := r) hw hall
      have hne : w ≠ [] := by
        rintro rfl
        apply hall
        intro x hx
        have : x = c := by simpa using hx
        subst this
        simpa [lastIsWordChar] using hl
      rw [List.cons_append] at hm ⊢
      rw [floatGo_none hm, ih (fun x hx => hw x (by simp [hx])) (by
        rw [← lastIsWordChar_cons (c := c) hne]; exact hl)]
      simp

theorem floatGo_word_none {w r : Str} (hw : ∀ c ∈ w, isDotWord c = true)
    (hr : ∀ c s, r = c :: s → isDotWord c = false)
    (hb : ¬ (lastIsWordChar w = true ∧ ∃ d r3, Bracket r d r3)) :
    floatGo 0 (w ++ r) = w ++ floatGo 0 r := by
  induction w with
  | nil => rfl
  | cons c w ih =>
    have hm : matchFloatIndex (c :: w ++ r) = none := by
      by_cases hall : ∀ x ∈ c :: w, isWordChar x = true
      · cases hm : matchFloatIndex (c :: w ++ r) with
        | none => rfl
        | some x =>
          obtain ⟨a, d⟩ := x
          obtain ⟨_, r3, hbr⟩ := match_some hm
          exfalso
          apply hb
          refine ⟨lastIsWordChar_all hall (by simp), d, r3, ?_⟩
          have : (c :: w ++ r).dropWhile isWordChar = r := by
            cases r with
            | nil =>
              rw [List.append_nil]
              exact dropWhile_all hall
            | cons x r =>
              have hx := hr x r rfl
              exact dropWhile_stop hall (by
                simp only [isDotWord, Bool.or_eq_false_iff] at hx; exact hx.1)
          rwa [this] at hbr
      · exact match_dot hw hall
    rw [List.cons_append] at hm
    rw [List.cons_append, floatGo_none hm, ih (fun x hx => hw x (by simp [hx])) ?_]
    · rfl
    · rintro ⟨h1, h2⟩
      apply hb
      have hne : w ≠ [] := by
        rintro rfl
        simp [lastIsWordChar] at h1
      exact ⟨by rw [lastIsWordChar_cons hne]; exact h1, h2⟩

theorem floatGo_ch {c : Char} (h : isDotWord c = false) (s : Str) :
    floatGo 0 (c :: s) = c :: floatGo 0 s := by
  apply floatGo_none
  cases hm : matchFloatIndex (c :: s) with
  | none => rfl
  | some x =>
    exfalso
    have hc : isWordChar c = false := by
      simp only [isDotWord, Bool.or_eq_false_iff] at h; exact h.1
    unfold matchFloatIndex at hm
    simp [hc] at hm

theorem codeText_head {ts : List CodeTok} (h : IsCode ts) (hne : ∀ v r, ts ≠ .word v :: r) :
    ∀ c s, codeText ts = c :: s → isDotWord c = false ∧ ∃ ts', ts = .ch c :: ts' ∧
      codeText ts' = s := by
  intro c s hs
  cases ts with
  | nil => simp [codeText] at hs
  | cons t ts =>
    cases t with
    | word v => exact absurd rfl (hne v ts)
    | ch a =>
      simp only [codeText, List.cons.injEq] at hs
      obtain ⟨rfl, rfl⟩ := hs
      exact ⟨h.1, ts, rfl, rfl⟩

theorem digit_dotWord {c : Char} (h : c.isDigit = true) : isDotWord c = true := by
  simp [isDotWord, isWordChar, Char.isAlphanum, h]

/-- A bracket in the text of tokens is made of the tokens `[`, `d.0`, `]`. -/
theorem bracket_toks {ts : List CodeTok} {d r3 : Str} (h : IsCode ts)
    (hne : ∀ v r, ts ≠ .word v :: r) (hb : Bracket (codeText ts) d r3) :
    ∃ ts3, ts = .ch '[' :: .word (d ++ ['.', '0']) :: .ch ']' :: ts3 ∧ codeText ts3 = r3 := by
  obtain ⟨h1, h2, h3⟩ := hb
  obtain ⟨_, ts1, rfl, h4⟩ := codeText_head h hne _ _ h3
  have hts1 := h.2
  cases d with
  | nil => exact absurd rfl h1
  | cons x d =>
    cases ts1 with
    | nil => simp [codeText] at h4
    | cons t ts2 =>
      cases t with
      | ch c =>
        simp only [codeText, List.cons_append, List.cons.injEq] at h4
        have := hts1.1
        rw [h4.1, digit_dotWord (h2 x (by simp))] at this
        cases this
      | word v =>
        obtain ⟨_, hv, hn2, h5⟩ := hts1
        simp only [codeText] at h4
        have e1 : v = (x :: d) ++ ['.', '0'] := by
          have l1 : (v ++ codeText ts2).takeWhile isDotWord = v := by
            cases hs : codeText ts2 with
            | nil => rw [List.append_nil]; exact takeWhile_all hv
            | cons c s => exact takeWhile_stop hv (codeText_head h5 hn2 c s hs).1
          have l2 : ((x :: d) ++ '.' :: '0' :: ']' :: r3).takeWhile isDotWord =
              (x :: d) ++ ['.', '0'] := by
            have : (x :: d) ++ '.' :: '0' :: ']' :: r3 = ((x :: d) ++ ['.', '0']) ++ ']' :: r3 := by
              simp
            rw [this]
            refine takeWhile_stop ?_ (by decide)
            intro c hc
            rcases List.mem_append.1 hc with hc | hc
            · exact digit_dotWord (h2 c hc)
            · rcases List.mem_cons.1 hc with rfl | hc
              · decide
              · have : c = '0' := by simpa using hc
                subst this
                decide
          rw [← l1, h4, l2]
        subst e1
        have h6 : codeText ts2 = ']' :: r3 := by
          have : (x :: d) ++ '.' :: '0' :: ']' :: r3 = ((x :: d) ++ ['.', '0']) ++ ']' :: r3 := by
            simp
          rw [this] at h4
          exact List.append_cancel_left h4
        obtain ⟨_, ts3, rfl, h7⟩ := codeText_head h5 hn2 _ _ h6
        exact ⟨ts3, rfl, h7⟩

theorem floatIndex_toks (n : Nat) : ∀ (ts : List CodeTok) (p2 p1 : Option CodeTok),
    ts.length ≤ n → IsCode ts →
    (∀ v r, ts = .word v :: r → idxHead p2 p1 r = true → wholePart v = none) →
    (∀ c v r, ts = .ch c :: .word v :: r → idxHead p1 (some (.ch c)) r = true →
      wholePart v = none) →
    floatGo 0 (codeText ts) = codeText (floatToks p2 p1 ts) := by
  induction n with
  | zero =>
    intro ts p2 p1 hl
    have : ts = [] := List.length_eq_zero_iff.1 (by omega)
    subst this
    intros; rfl
  | succ n ih =>
    intro ts p2 p1 hl hc hh1 hh2
    cases ts with
    | nil => rfl
    | cons t ts =>
      rw [List.length_cons] at hl
      cases t with
      | ch c =>
        simp only [codeText, floatToks]
        rw [floatGo_ch hc.1, ih ts p1 (some (.ch c)) (by omega) hc.2]
        · intro v r hv hi
          subst hv
          exact hh2 c v r rfl hi
        · intro c' v r _ hi
          simp [idxHead] at hi
      | word w =>
        obtain ⟨c1, c2, c3, c4⟩ := hc
        have hkeep : (if idxHead p2 p1 ts = true then CodeTok.word ((wholePart w).getD w)
            else .word w) = .word w := by
          by_cases hi : idxHead p2 p1 ts = true
          · rw [if_pos hi, hh1 w ts rfl hi]; rfl
          · rw [if_neg hi]
        simp only [codeText, floatToks]
        rw [hkeep]
        simp only [codeText]
        by_cases hb : lastIsWordChar w = true ∧ ∃ d r3, Bracket (codeText ts) d r3
        · obtain ⟨hlw, d, r3, hb⟩ := hb
          rw [floatGo_word_match c2 hlw hb]
          obtain ⟨ts3, rfl, rfl⟩ := bracket_toks c4 c3 hb
          have hwp : wholePart (d ++ ['.', '0']) = some d :=
            (wholePart_iff _ _).2 ⟨hb.1, hb.2.1, rfl⟩
          have hi : idxHead (some (.word w)) (some (.ch '[')) (.ch ']' :: ts3) = true := by
            simp [idxHead, hlw]
          have h5 : IsCode ts3 := c4.2.2.2.2.2
          simp only [floatToks, hi, if_true, hwp, Option.getD_some, codeText]
          rw [ih ts3 (some (.word (d ++ ['.', '0']))) (some (.ch ']'))
            (by simp only [List.length_cons] at hl; omega) h5]
          · intro v r _ hi
            simp [idxHead] at hi
          · intro c v r _ hi
            simp [idxHead] at hi
        · have hr : ∀ c s, codeText ts = c :: s → isDotWord c = false :=
            fun c s hs => (codeText_head c4 c3 c s hs).1
          rw [floatGo_word_none c2 hr hb, ih ts p1 (some (.word w)) (by omega) c4]
          · intro v r hv
            exact absurd hv (c3 v r)
          · intro c v r hts hi
            subst hts
            cases hwp : wholePart v with
            | none => rfl
            | some d =>
              exfalso
              apply hb
              obtain ⟨g1, g2, g3⟩ := (wholePart_iff _ _).1 hwp
              simp only [idxHead, Bool.and_eq_true, beq_iff_eq, Option.some.injEq,
                CodeTok.ch.injEq] at hi
              obtain ⟨⟨i1, rfl⟩, i3⟩ := hi
              cases r with
              | nil => simp at i3
              | cons t r =>
                simp only [List.head?_cons, Option.some.injEq] at i3
                subst i3
                refine ⟨i1, d, codeText r, g1, g2, ?_⟩
                simp [codeText, g3]

theorem zeroToks_length (ts : List CodeTok) : (zeroToks ts).length = ts.length := by
  induction ts with
  | nil => rfl
  | cons t ts ih => cases t <;> simp [zeroToks, ih]

theorem zeroToks_ch (ts : List CodeTok) (k : Nat) (c : Char) :
    (zeroToks ts)[k]? = some (.ch c) ↔ ts[k]? = some (.ch c) := by
  induction ts generalizing k with
  | nil => simp [zeroToks]
  | cons t ts ih =>
    cases k with
    | zero =>
      cases t with
      | ch a => simp [zeroToks]
      | word w =>
        simp only [zeroToks, List.getElem?_cons_zero]
        constructor
        · intro h
          split at h
          · split at h <;> simp at h
          · simp at h
        · intro h; simp at h
    | succ k => cases t <;> simpa [zeroToks] using ih k

theorem zeroToks_zero (ts : List CodeTok) (k : Nat) (c : Char)
    (h1 : ts[k]? = some (.word ['0'])) (h2 : ts[k + 1]? = some (.ch c))
    (h3 : isZeroStop c = true) : (zeroToks ts)[k]? = some (.word ['0', '.', '0']) := by
  induction ts generalizing k with
  | nil => simp at h1
  | cons t ts ih =>
    cases k with
    | zero =>
      simp only [List.getElem?_cons_zero, Option.some.injEq] at h1
      subst h1
      cases ts with
      | nil => simp at h2
      | cons t ts =>
        simp only [List.getElem?_cons_succ, List.getElem?_cons_zero, Option.some.injEq] at h2
        subst h2
        simp [zeroToks, h3]
    | succ k =>
      have := ih k (by simpa using h1) (by simpa using h2)
      cases t <;> simpa [zeroToks] using this

theorem zeroToks_keep (ts : List CodeTok) (k : Nat) (w : Str) (h1 : ts[k]? = some (.word w))
    (h2 : ¬ (w = ['0'] ∧ ∃ c, ts[k + 1]? = some (.ch c) ∧ isZeroStop c = true)) :
    (zeroToks ts)[k]? = some (.word w) := by
  induction ts generalizing k with
  | nil => simp at h1
  | cons t ts ih =>
    cases k with
    | zero =>
      simp only [List.getElem?_cons_zero, Option.some.injEq] at h1
      subst h1
      cases ts with
      | nil => simp [zeroToks]
      | cons t ts =>
        cases t with
        | word v => simp [zeroToks]
        | ch c =>
          have : ¬ (w = ['0'] ∧ isZeroStop c = true) := by
            rintro ⟨a, b⟩
            exact h2 ⟨a, c, by simp, b⟩
          simp only [zeroToks, List.getElem?_cons_zero]
          rw [if_neg this]
    | succ k =>
      have := ih k (by simpa using h1) (by simpa using h2)
      cases t <;> simpa [zeroToks] using this

theorem floatToks_length (ts : List CodeTok) :
    ∀ p2 p1, (floatToks p2 p1 ts).length = ts.length := by
  induction ts with
  | nil => intros; rfl
  | cons t ts ih => intro p2 p1; cases t <;> simp [floatToks, ih]

theorem floatToks_ch (ts : List CodeTok) : ∀ p2 p1 (k : Nat) c, ts[k]? = some (.ch c) →
    (floatToks p2 p1 ts)[k]? = some (.ch c) := by
  induction ts with
  | nil => intro _ _ k c h; simp at h
  | cons t ts ih =>
    intro p2 p1 k c h
    cases k with
    | zero =>
      simp only [List.getElem?_cons_zero, Option.some.injEq] at h
      subst h
      simp [floatToks]
    | succ k =>
      have h' : ts[k]? = some (.ch c) := by simpa using h
      cases t with
      | ch a => simpa [floatToks] using ih _ _ k c h'
      | word a => simpa [floatToks] using ih _ _ k c h'

theorem floatToks_word (ts : List CodeTok) : ∀ p2 p1 (k : Nat) v, ts[k]? = some (.word v) →
    (floatToks p2 p1 ts)[k]? = some (if idxHead ((p2 :: p1 :: ts.map some)[k]?.getD none)
        ((p1 :: ts.map some)[k]?.getD none) (ts.drop (k + 1)) = true
      then .word ((wholePart v).getD v) else .word v) := by
  induction ts with
  | nil => intro _ _ k c h; simp at h
  | cons t ts ih =>
    intro p2 p1 k v h
    cases k with
    | zero =>
      simp only [List.getElem?_cons_zero, Option.some.injEq] at h
      subst h
      simp [floatToks]
    | succ k =>
      have h' : ts[k]? = some (.word v) := by simpa using h
      cases t with
      | ch a => simpa [floatToks] using ih p1 (some (.ch a)) k v h'
      | word a => simpa [floatToks] using ih p1 (some (.word a)) k v h'

theorem idxHead_iff (ts : List CodeTok) (k : Nat) :
    idxHead ((none :: none :: ts.map some)[k]?.getD none) ((none :: ts.map some)[k]?.getD none)
      (ts.drop (k + 1)) = true ↔ IsIndex ts k := by
  unfold IsIndex
  cases k with
  | zero => simp [idxHead]
  | succ k =>
    cases k with
    | zero => simp [idxHead]
    | succ j =>
      have e1 : ((none :: none :: ts.map some)[j + 1 + 1]?.getD none) = ts[j]? := by
        simp only [List.getElem?_cons_succ, List.getElem?_map]
        cases ts[j]? <;> rfl
      have e2 : ((none :: ts.map some)[j + 1 + 1]?.getD none) = ts[j + 1]? := by
        simp only [List.getElem?_cons_succ, List.getElem?_map]
        cases ts[j + 1]? <;> rfl
      have e3 : (ts.drop (j + 1 + 1 + 1)).head? = ts[j + 3]? := by
        rw [List.head?_drop]
      rw [e1, e2]
      unfold idxHead
      rw [e3]
      constructor
      · intro h
        simp only [Bool.and_eq_true, beq_iff_eq] at h
        obtain ⟨⟨h1, h2⟩, h3⟩ := h
        cases hj : ts[j]? with
        | none => rw [hj] at h1; simp at h1
        | some t =>
          cases t with
          | ch c => rw [hj] at h1; simp at h1
          | word n =>
            rw [hj] at h1
            exact ⟨j, n, rfl, hj, (lastIsWordChar_iff n).1 h1, h2, h3⟩
      · rintro ⟨j', n, hj, h1, h2, h3, h4⟩
        have : j' = j := by omega
        subst this
        rw [h1, h3, h4]
        simp [(lastIsWordChar_iff n).2 h2]

theorem zeroToks_index (ts : List CodeTok) (k : Nat) : IsIndex (zeroToks ts) k ↔ IsIndex ts k := by
  unfold IsIndex
  constructor
  · rintro ⟨j, n, rfl, h1, h2, h3, h4⟩
    rw [zeroToks_ch] at h3 h4
    have : j < ts.length := by
      have := (List.getElem?_eq_some_iff.1 h1).1
      rwa [zeroToks_length] at this
    cases hj : ts[j] with
    | ch c =>
      have : ts[j]? = some (.ch c) := by rw [List.getElem?_eq_getElem this, hj]
      rw [← zeroToks_ch, h1] at this
      cases this
    | word w =>
      have hj' : ts[j]? = some (.word w) := by rw [List.getElem?_eq_getElem this, hj]
      refine ⟨j, w, rfl, hj', ?_, h3, h4⟩
      have := zeroToks_keep ts j w hj' (by
        rintro ⟨_, c, hc, hs⟩
        rw [h3] at hc
        simp only [Option.some.injEq, CodeTok.ch.injEq] at hc
        subst hc
        exact absurd hs (by decide))
      rw [h1] at this
      simp only [Option.some.injEq, CodeTok.word.injEq] at this
      exact this ▸ h2
  · rintro ⟨j, n, rfl, h1, h2, h3, h4⟩
    refine ⟨j, n, rfl, zeroToks_keep ts j n h1 ?_, h2, (zeroToks_ch _ _ _).2 h3,
      (zeroToks_ch _ _ _).2 h4⟩
    rintro ⟨_, c, hc, hs⟩
    rw [h3] at hc
    simp only [Option.some.injEq, CodeTok.ch.injEq] at hc
    subst hc
    exact absurd hs (by decide)

theorem zeroToks_isCode (ts : List CodeTok) (h : IsCode ts) : IsCode (zeroToks ts) := by
  induction ts with
  | nil => trivial
  | cons t ts ih =>
    cases t with
    | ch c => exact ⟨h.1, ih h.2⟩
    | word w =>
      obtain ⟨h1, h2, h3, h4⟩ := h
      have hne : ∀ v r, zeroToks ts ≠ .word v :: r := by
        intro v r hz
        cases ts with
        | nil => simp [zeroToks] at hz
        | cons t ts =>
          cases t with
          | ch c => simp [zeroToks] at hz
          | word a => exact h3 a ts rfl
      simp only [zeroToks]
      split
      · split
        · exact ⟨by simp, by decide, hne, ih h4⟩
        · exact ⟨h1, h2, hne, ih h4⟩
      · exact ⟨h1, h2, hne, ih h4⟩

/-- C55, clean-up.  The two substitutions rewrite the code token by token.  A word that is the whole
index of `name[…]` keeps its meaning: `name[d.0]` becomes `name[d]` and any other index – in
particular a whole number, `0` included – is left alone.  Elsewhere the number `0` becomes `0.0`
when a blank, a comma or a closing bracket follows, and every other word is left alone, as is every
character that does not belong to a word. -/
theorem C55_cleanup (ts : List CodeTok) (h : IsCode ts) :
    ∃ ts', cleanCode (codeText ts) = codeText ts' ∧ ts'.length = ts.length ∧
      (∀ (k : Nat) c, ts[k]? = some (.ch c) → ts'[k]? = some (.ch c)) ∧
      (∀ (k : Nat) w, ts[k]? = some (.word w) →
        (∀ d, IsIndex ts k → IsWholeFloat w d → ts'[k]? = some (.word d)) ∧
        (IsIndex ts k → (∀ d, ¬ IsWholeFloat w d) → ts'[k]? = some (.word w)) ∧
        (∀ c, ¬ IsIndex ts k → w = ['0'] → ts[k + 1]? = some (.ch c) → isZeroStop c = true →
          ts'[k]? = some (.word ['0', '.', '0'])) ∧
        (¬ IsIndex ts k →
          ¬ (w = ['0'] ∧ ∃ c, ts[k + 1]? = some (.ch c) ∧ isZeroStop c = true) →
          ts'[k]? = some (.word w))) := by
  refine ⟨floatToks none none (zeroToks ts), ?_, ?_, ?_, ?_⟩
  · unfold cleanCode zeroClean floatIndex
    rw [(zeroClean_toks ts h).1]
    refine floatIndex_toks _ (zeroToks ts) none none (Nat.le_refl _) (zeroToks_isCode ts h) ?_ ?_
    · intro v r _ hi; simp [idxHead] at hi
    · intro c v r _ hi; simp [idxHead] at hi
  · rw [floatToks_length, zeroToks_length]
  · intro k c hk
    exact floatToks_ch _ _ _ k c ((zeroToks_ch ts k c).2 hk)
  · intro k w hk
    have key : ∀ v, (zeroToks ts)[k]? = some (.word v) →
        (IsIndex ts k → (floatToks none none (zeroToks ts))[k]? =
          some (.word ((wholePart v).getD v))) ∧
        (¬ IsIndex ts k → (floatToks none none (zeroToks ts))[k]? = some (.word v)) := by
      intro v hv
      have := floatToks_word (zeroToks ts) none none k v hv
      constructor
      · intro hi
        rw [this, if_pos ((idxHead_iff _ _).2 ((zeroToks_index ts k).2 hi))]
      · intro hi
        rw [this, if_neg (fun hc => hi ((zeroToks_index ts k).1 ((idxHead_iff _ _).1 hc)))]
    refine ⟨?_, ?_, ?_, ?_⟩
    · intro d hi hd
      have hz : ¬ (w = ['0'] ∧ ∃ c, ts[k + 1]? = some (.ch c) ∧ isZeroStop c = true) := by
        rintro ⟨rfl, _⟩
        have := congrArg List.length hd.2.2
        have hl : d.length ≠ 0 := fun h0 => hd.1 (List.length_eq_zero_iff.1 h0)
        simp at this
      rw [(key w (zeroToks_keep ts k w hk hz)).1 hi, (wholePart_iff w d).2 hd]
      rfl
    · intro hi hd
      by_cases hz : w = ['0'] ∧ ∃ c, ts[k + 1]? = some (.ch c) ∧ isZeroStop c = true
      · obtain ⟨rfl, c, hc, hs⟩ := hz
        rw [(key _ (zeroToks_zero ts k c hk hc hs)).1 hi]
        rfl
      · rw [(key w (zeroToks_keep ts k w hk hz)).1 hi]
        cases hp : wholePart w with
        | none => rfl
        | some d => exact absurd ((wholePart_iff w d).1 hp) (hd d)
    · intro c hi hw hc hs
      subst hw
      exact (key _ (zeroToks_zero ts k c hk hc hs)).2 hi
    · intro hi hz
      exact (key w (zeroToks_keep ts k w hk hz)).2 hi

/-- The code `[0, x[0], 10]`. -/
def exCode : List CodeTok :=
  [.ch '[', .word ['0'], .ch ',', .ch ' ', .word ['x'], .ch '[', .word ['0'], .ch ']', .ch ',',
    .ch ' ', .word ['1', '0'], .ch ']']

example : IsCode exCode := by
  simp [exCode, IsCode]; decide

example : cleanCode (codeText exCode) = "[0.0, x[0], 10]".toList := by decide +kernel

/-- An index into an array of two dimensions is damaged: the first of two positions is rewritten to
a float and not put back. -/
theorem C55_two_index_counterexample :
    cleanCode "x[0, 1]".toList = "x[0.0, 1]".toList := by decide +kernel

/-- So is the second of two successive indices. -/
theorem C55_nested_index_counterexample :
    cleanCode "x[1][0]".toList = "x[1][0.0]".toList := by decide +kernel

end Verif
