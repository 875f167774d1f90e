import Verif.Lemmas.DixitStiglitz
import Verif.Spec.ArrayText

/-! Tokens of the texts with several dimensions, and the array operations on vectors and matrices. -/

namespace Verif

open scoped BigOperators

/-! ## Tokens -/

theorem lexRun_ident (s : Str) (h : isIdent s = true) : lexRun .none s = some ([], .name s) := by
  cases s with
  | nil => cases h
  | cons c s =>
    unfold isIdent at h
    rw [Bool.and_eq_true] at h
    obtain ⟨h1, h2, h3, h4⟩ := isAlpha_cases c (Or.inl h.1)
    have hstep : lexStep .none c = some ([], .name [c]) := by
      unfold lexStep
      simp only [h1, h2, h3, h4, Bool.false_eq_true, if_false, h.1, if_true]
      rfl
    rw [lexRun, hstep]
    dsimp only
    rw [lexRun_ident_rest _ _ h.2]
    rfl

/-- An identifier followed by a separator. -/
theorem tk_name {x b : Str} {us : List Token} (hx : isIdent x = true) (hb : tokens b = some us)
    (hs : sepHead b = true) : tokens (x ++ b) = some (.name x :: us) :=
  tokens_append x b [.name x] us (tokens_ident x hx) hb (Or.inl hs)

/-- Fixed text that leaves nothing pending. -/
theorem tk_lit {l b : Str} {ts us : List Token} (hl : lexRun .none l = some (ts, .none))
    (hb : tokens b = some us) : tokens (l ++ b) = some (ts ++ us) := by
  have h : tokens l = some ts := by unfold tokens; rw [hl]; simp [Pending.flush]
  exact tokens_append l b ts us h hb (Or.inr (by rw [hl]; rfl))

/-- An identifier followed by `.`. -/
theorem tk_dot {x b : Str} {us : List Token} (hx : isIdent x = true)
    (hb : tokens ('.' :: b) = some us) : tokens (x ++ '.' :: b) = some (.name x :: us) := by
  unfold tokens at hb ⊢
  rw [lexRun_append, lexRun_ident x hx]
  dsimp only
  have e1 : lexStep .none '.' = some ([.dot], .none) := rfl
  have e2 : lexStep (.name x) '.' = some ([.name x, .dot], .none) := rfl
  rw [lexRun, e1] at hb
  rw [lexRun, e2]
  dsimp only at hb ⊢
  cases h : lexRun .none b with
  | none => rw [h] at hb; cases hb
  | some y =>
    rw [h] at hb
    dsimp only at hb ⊢
    simp only [Option.map_some, Option.some.injEq] at hb ⊢
    rw [← hb]
    rfl

/-- A number followed by a separator. -/
theorem tk_num {b : Str} {us : List Token} (n : Nat) (hb : tokens b = some us) (hs : sepHead b = true) :
    tokens (decStr n ++ b) = some (.num (decStr n) :: us) :=
  tokens_append _ b [.num (decStr n)] us (decStr_tokens n) hb (Or.inl hs)

theorem tk_nil : tokens [] = some [] := rfl

theorem swapaxesStr_text (x i j : Str) :
    swapaxesStr x i j = x ++ (".subs({".toList ++ (i ++ (":".toList ++ (j ++ "})".toList)))) :=
  safeSubst_render _ [.ph "x".toList, .lit ".subs({".toList, .ph "i".toList, .lit ":".toList,
    .ph "j".toList, .lit "})".toList] rfl

theorem tk_subs {x i j b : Str} {us : List Token} (hx : isIdent x = true) (hi : isIdent i = true)
    (hj : isIdent j = true) (hb : tokens b = some us) :
    tokens (swapaxesStr x i j ++ b) = some (.name x :: .dot :: .name "subs".toList :: .lpar :: .lbrace ::
      .name i :: .colon :: .name j :: .rbrace :: .rpar :: us) := by
  rw [swapaxesStr_text]
  simp only [List.append_assoc]
  have h1 : tokens ("})".toList ++ b) = some ([.rbrace, .rpar] ++ us) := tk_lit rfl hb
  have h2 := tk_name hj h1 rfl
  have h3 : tokens (":".toList ++ _) = some ([.colon] ++ _) := tk_lit rfl h2
  have h4 := tk_name hi h3 rfl
  have h5 : tokens (".subs({".toList ++ _) = some ([.dot, .name "subs".toList, .lpar, .lbrace] ++ _) :=
    tk_lit rfl h4
  exact tk_dot hx h5

theorem digitsVal_decStr (n : Nat) : digitsVal (decStr n) = n := by
  have h : decStr n = Nat.toDigits 10 n := by
    unfold decStr
    rw [Nat.toString_eq_ofList_toDigits]
    simp
  rw [h]
  unfold digitsVal
  rw [← Nat.ofDigitChars_eq_foldl (b := 10)]
  exact Nat.ofDigitChars_toDigits (by decide) (by decide)

/-! ## Sums -/

theorem mapM_some_eq {α β : Type} (f : α → β) (l : List α) :
    (l.mapM fun a => some (f a)) = some (l.map f) := by
  induction l with
  | nil => rfl
  | cons a l ih => simp [List.mapM_cons, ih]

theorem sum_list_range (f : Nat → ℝ) (n : Nat) :
    ((List.range n).map f).sum = ∑ k ∈ Finset.range n, f k := by
  induction n with
  | zero => rfl
  | succ n ih => rw [List.range_succ, List.map_append, List.sum_append, ih, Finset.sum_range_succ]; simp

/-! ## Arrays -/

namespace Arr

theorem op_vec (f : ℝ → ℝ → ℝ) (n : Nat) (g h : List Nat → ℝ) :
    ∃ k, op f ⟨[n], g⟩ ⟨[n], h⟩ = some ⟨[n], k⟩ ∧ ∀ t < n, k [t] = f (g [t]) (h [t]) := by
  refine ⟨_, by simp [op, broadcastRev]; rfl, ?_⟩
  intro t ht
  have e : (if n = 1 then 0 else t) = t := by split <;> omega
  simp [bget, e]

theorem op_mat (f : ℝ → ℝ → ℝ) (n m : Nat) (g h : List Nat → ℝ) :
    ∃ k, op f ⟨[n, m], g⟩ ⟨[n, m], h⟩ = some ⟨[n, m], k⟩ ∧
      ∀ s < n, ∀ t < m, k [s, t] = f (g [s, t]) (h [s, t]) := by
  refine ⟨_, by simp [op, broadcastRev]; rfl, ?_⟩
  intro s hs t ht
  have e1 : (if n = 1 then 0 else s) = s := by split <;> omega
  have e2 : (if m = 1 then 0 else t) = t := by split <;> omega
  simp [bget, e1, e2]

/-- A column times a matrix. -/
theorem op_col (f : ℝ → ℝ → ℝ) (n m : Nat) (g h : List Nat → ℝ) :
    ∃ k, op f ⟨[n, 1], g⟩ ⟨[n, m], h⟩ = some ⟨[n, m], k⟩ ∧
      ∀ s < n, ∀ t < m, k [s, t] = f (g [s, 0]) (h [s, t]) := by
  have hb : broadcastRev [1, n] [m, n] = some [m, n] := by
    unfold broadcastRev
    by_cases hm : 1 = m ∨ m = 1
    · have : m = 1 := by omega
      subst this
      simp [broadcastRev]
    · rw [if_neg hm]; simp [broadcastRev]
  refine ⟨_, by unfold op; rw [show ([n, 1] : List Nat).reverse = [1, n] from rfl,
    show ([n, m] : List Nat).reverse = [m, n] from rfl, hb]; rfl, ?_⟩
  intro s hs t ht
  have e1 : (if n = 1 then 0 else s) = s := by split <;> omega
  have e2 : (if m = 1 then 0 else t) = t := by split <;> omega
  simp [bget, e1, e2]

/-- A matrix times a row. -/
theorem op_row (f : ℝ → ℝ → ℝ) (n m : Nat) (g h : List Nat → ℝ) :
    ∃ k, op f ⟨[n, m], g⟩ ⟨[1, m], h⟩ = some ⟨[n, m], k⟩ ∧
      ∀ s < n, ∀ t < m, k [s, t] = f (g [s, t]) (h [0, t]) := by
  refine ⟨_, by simp [op, broadcastRev]; rfl, ?_⟩
  intro s hs t ht
  have e1 : (if n = 1 then 0 else s) = s := by split <;> omega
  have e2 : (if m = 1 then 0 else t) = t := by split <;> omega
  simp [bget, e1, e2]

theorem sumAxis_zero (n m : Nat) (g : List Nat → ℝ) :
    sumAxis 0 ⟨[n, m], g⟩ = some ⟨[m], fun idx => ∑ s ∈ Finset.range n, g (s :: idx)⟩ := rfl

theorem ravel_vec (m : Nat) (g : List Nat → ℝ) :
    ravel ⟨[m], g⟩ = ⟨[m], fun idx => g [idx.headD 0]⟩ := by
  simp [ravel, unravel]

end Arr

theorem forall₂_one (m : Nat) (Q : List Nat → Prop) :
    (∀ idx, List.Forall₂ (· < ·) idx [m] → Q idx) ↔ ∀ t < m, Q [t] := by
  constructor
  · intro h t ht; exact h _ (.cons ht .nil)
  · rintro h idx (_ | ⟨ht, _ | _⟩); exact h _ ht

theorem forall₂_two (n m : Nat) (Q : List Nat → Prop) :
    (∀ idx, List.Forall₂ (· < ·) idx [n, m] → Q idx) ↔ ∀ s < n, ∀ t < m, Q [s, t] := by
  constructor
  · intro h s hs t ht; exact h _ (.cons hs (.cons ht .nil))
  · rintro h idx (_ | ⟨hs, _ | ⟨ht, _ | _⟩⟩); exact h _ hs _ ht

end Verif
