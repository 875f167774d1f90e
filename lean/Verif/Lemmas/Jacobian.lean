import Verif.Lemmas.SymExpr

/-!
# Lemmas about the sparse Jacobian and the squared loss
-/

namespace Verif

namespace SymExpr

variable {α : Type} [DecidableEq α]

omit [DecidableEq α] in
theorem mem_atoms_iff (x : α) (e : SymExpr α) : x ∈ e.atoms ↔ Mentions x e := by
  constructor
  · intro h
    induction e with
    | num => simp [atoms] at h
    | sym a => simp [atoms] at h; subst h; exact .sym
    | add a b iha ihb =>
      simp only [atoms, List.mem_append] at h
      exact h.elim (fun h => .addL (iha h)) (fun h => .addR (ihb h))
    | mul a b iha ihb =>
      simp only [atoms, List.mem_append] at h
      exact h.elim (fun h => .mulL (iha h)) (fun h => .mulR (ihb h))
    | pow a b iha ihb =>
      simp only [atoms, List.mem_append] at h
      exact h.elim (fun h => .powL (iha h)) (fun h => .powR (ihb h))
    | log a ih => exact .log (ih h)
    | exp a ih => exact .exp (ih h)
  · intro h
    induction h <;> simp_all [atoms]

/-! ### The dictionary of keys -/

theorem dokRow_get (i : Nat) (e : SymExpr α) (vs : List α) :
    ∀ (n : Nat) (dok : Dict (Nat × Nat) (SymExpr α)) (key : Nat × Nat),
    dget ((vs.zipIdx n).foldl
      (fun dok p => if p.1 ∈ atoms e then dset dok (i, p.2) (diff p.1 e) else dok) dok) key =
    if key.1 = i ∧ n ≤ key.2 then
      (match vs[key.2 - n]? with
        | some x => if x ∈ atoms e then some (diff x e) else dget dok key
        | none => dget dok key)
    else dget dok key := by
  induction vs with
  | nil => intro n dok key; simp
  | cons v vs ih =>
    intro n dok key
    rw [List.zipIdx_cons, List.foldl_cons, ih (n + 1)]
    obtain ⟨k1, k2⟩ := key
    dsimp only
    by_cases hk : k1 = i
    · subst hk
      rcases Nat.lt_trichotomy k2 n with h | h | h
      · have h1 : ¬ (n + 1 ≤ k2) := by omega
        have h2 : ¬ (n ≤ k2) := by omega
        simp only [h1, h2, and_false, if_false]
        split
        · rw [dget_dset_ne]; intro hh; cases hh; omega
        · rfl
      · subst h
        have h1 : ¬ (k2 + 1 ≤ k2) := by omega
        simp only [h1, and_false, if_false, Nat.le_refl, and_self, if_true, Nat.sub_self,
          List.getElem?_cons_zero]
        split
        · rw [dget_dset_self]
        · rfl
      · have h1 : n + 1 ≤ k2 := by omega
        have h2 : n ≤ k2 := by omega
        obtain ⟨m, hm⟩ : ∃ m, k2 - n = m + 1 := ⟨k2 - n - 1, by omega⟩
        have hm' : k2 - (n + 1) = m := by omega
        simp only [h1, h2, and_self, if_true, hm, hm', List.getElem?_cons_succ]
        have h3 : dget (if v ∈ atoms e then dset dok (k1, n) (diff v e) else dok) (k1, k2) =
            dget dok (k1, k2) := by
          split
          · exact dget_dset_ne _ _ (by intro hh; cases hh; omega)
          · rfl
        rw [h3]
    · simp only [hk, false_and, if_false]
      split
      · rw [dget_dset_ne]; intro hh; cases hh; exact hk rfl
      · rfl

theorem dok_get_aux (vs : List α) (eqs : List (SymExpr α)) :
    ∀ (n : Nat) (dok : Dict (Nat × Nat) (SymExpr α)) (key : Nat × Nat),
    (∀ i j, n ≤ i → dget dok (i, j) = none) →
    dget ((eqs.zipIdx n).foldl (fun dok p => dokRow p.2 p.1 vs dok) dok) key =
    if n ≤ key.1 then
      (match eqs[key.1 - n]?, vs[key.2]? with
        | some e, some x => if x ∈ atoms e then some (diff x e) else none
        | _, _ => none)
    else dget dok key := by
  induction eqs with
  | nil =>
    intro n dok key h
    obtain ⟨k1, k2⟩ := key
    simp only [List.zipIdx_nil, List.foldl_nil, List.getElem?_nil]
    by_cases hn : n ≤ k1
    · simp [hn, h k1 k2 hn]
    · simp [hn]
  | cons e eqs ih =>
    intro n dok key h
    obtain ⟨k1, k2⟩ := key
    rw [List.zipIdx_cons, List.foldl_cons, ih (n + 1)]
    · dsimp only
      rcases Nat.lt_trichotomy k1 n with hk | hk | hk
      · have h1 : ¬ (n + 1 ≤ k1) := by omega
        have h2 : ¬ (n ≤ k1) := by omega
        have h3 : k1 ≠ n := by omega
        simp only [h1, h2, if_false]
        unfold dokRow
        rw [dokRow_get]
        simp [h3]
      · subst hk
        have h1 : ¬ (k1 + 1 ≤ k1) := by omega
        simp only [h1, if_false, Nat.le_refl, if_true, Nat.sub_self, List.getElem?_cons_zero]
        unfold dokRow
        rw [dokRow_get]
        simp only [Nat.zero_le, and_self, if_true, Nat.sub_zero, h k1 k2 (Nat.le_refl _)]
        cases vs[k2]? <;> rfl
      · have h1 : n + 1 ≤ k1 := by omega
        have h2 : n ≤ k1 := by omega
        obtain ⟨m, hm⟩ : ∃ m, k1 - n = m + 1 := ⟨k1 - n - 1, by omega⟩
        have hm' : k1 - (n + 1) = m := by omega
        simp only [h1, h2, if_true, hm, hm', List.getElem?_cons_succ]
    · intro i j hi
      unfold dokRow
      rw [dokRow_get]
      have : i ≠ n := by omega
      simp [this, h i j (by omega)]

theorem dok_get (eqs : List (SymExpr α)) (vs : List α) (i j : Nat) :
    dget (jacobianAsDok eqs vs).2 (i, j) =
      (match eqs[i]?, vs[j]? with
        | some e, some x => if x ∈ atoms e then some (diff x e) else none
        | _, _ => none) := by
  have := dok_get_aux vs eqs 0 [] (i, j) (by intros; rfl)
  simpa [jacobianAsDok] using this

theorem dokRow_nodup (i : Nat) (e : SymExpr α) (vs : List α) (dok : Dict (Nat × Nat) (SymExpr α))
    (h : (dkeys dok).Nodup) : (dkeys (dokRow i e vs dok)).Nodup := by
  unfold dokRow
  generalize vs.zipIdx = l
  induction l generalizing dok with
  | nil => exact h
  | cons p l ih =>
    rw [List.foldl_cons]
    apply ih
    split
    · exact nodup_dkeys_dset _ _ _ h
    · exact h

theorem dok_nodup (eqs : List (SymExpr α)) (vs : List α) :
    (dkeys (jacobianAsDok eqs vs).2).Nodup := by
  have key : ∀ (l : List (SymExpr α × Nat)) (dok : Dict (Nat × Nat) (SymExpr α)),
      (dkeys dok).Nodup → (dkeys (l.foldl (fun dok p => dokRow p.2 p.1 vs dok) dok)).Nodup := by
    intro l
    induction l with
    | nil => intro dok h; exact h
    | cons p l ih => intro dok h; exact ih _ (dokRow_nodup _ _ _ _ h)
  exact key _ _ (by simp [dkeys])

/-! ### The squared loss -/

omit [DecidableEq α] in
theorem eval_foldl_add (env : α → ℝ) (l : List (SymExpr α)) (e : SymExpr α) :
    (l.foldl add e).eval env = e.eval env + (l.map (eval env)).sum := by
  induction l generalizing e with
  | nil => simp
  | cons a l ih => simp only [List.foldl_cons, ih, eval, List.map_cons, List.sum_cons]; ring

omit [DecidableEq α] in
theorem eval_sum (env : α → ℝ) (l : List (SymExpr α)) :
    (sum l).eval env = (l.map (eval env)).sum := by
  unfold sum
  rw [eval_foldl_add]
  simp [eval]

theorem diff_foldl_add (x : α) (l : List (SymExpr α)) (e : SymExpr α) :
    (l.foldl add e).diff x = (l.map (diff x)).foldl add (e.diff x) := by
  induction l generalizing e with
  | nil => rfl
  | cons a l ih => simp only [List.foldl_cons, ih, List.map_cons, diff]

theorem diff_sum (x : α) (l : List (SymExpr α)) : (sum l).diff x = sum (l.map (diff x)) :=
  diff_foldl_add x l (num 0)

omit [DecidableEq α] in
theorem eval_squaredLoss (env : α → ℝ) (eqs : List (SymExpr α)) :
    (squaredLoss eqs).eval env = (1 / 2) * (eqs.map fun e => e.eval env ^ 2).sum := by
  simp only [squaredLoss, eval, eval_sum, List.map_map]
  congr 2
  · norm_num
  · apply List.map_congr_left
    intro e _
    simp [eval]

omit [DecidableEq α] in
theorem sum_map_mul_left' {β : Type} (c : ℝ) (f : β → ℝ) (l : List β) :
    (l.map fun b => c * f b).sum = c * (l.map f).sum := by
  induction l with
  | nil => simp
  | cons a l ih => simp [ih, mul_add]

theorem eval_grad (env : α → ℝ) (x : α) (eqs : List (SymExpr α)) :
    ((squaredLoss eqs).diff x).eval env =
      (eqs.map fun e => e.eval env * (e.diff x).eval env).sum := by
  simp only [squaredLoss, diff, eval, diff_sum, eval_sum, List.map_map]
  simp only [Rat.cast_zero, zero_mul, zero_add]
  rw [← sum_map_mul_left']
  congr 1
  apply List.map_congr_left
  intro e _
  simp only [Function.comp, diff, eval_powDiff_num]
  norm_num
  ring

omit [DecidableEq α] in
theorem regular_sum {env : α → ℝ} {l : List (SymExpr α)} (h : ∀ e ∈ l, Regular env e) :
    Regular env (sum l) := by
  have key : ∀ (l : List (SymExpr α)) (e : SymExpr α), Regular env e → (∀ e ∈ l, Regular env e) →
      Regular env (l.foldl add e) := by
    intro l
    induction l with
    | nil => intro e he _; exact he
    | cons a l ih =>
      intro e he hl
      exact ih _ ⟨he, hl a (by simp)⟩ fun e he => hl e (by simp [he])
  exact key l _ trivial h

omit [DecidableEq α] in
theorem regular_squaredLoss {env : α → ℝ} {eqs : List (SymExpr α)}
    (h : ∀ e ∈ eqs, Regular env e) : Regular env (squaredLoss eqs) := by
  refine ⟨trivial, regular_sum ?_⟩
  intro e he
  obtain ⟨e', he', rfl⟩ := List.mem_map.mp he
  exact ⟨h e' he', trivial, Or.inr ⟨2, rfl, Or.inl ⟨2, by norm_num⟩⟩⟩

/-- The Hessian entry of the squared loss. -/
theorem eval_hess (env : α → ℝ) (x y : α) (eqs : List (SymExpr α)) :
    (((squaredLoss eqs).diff x).diff y).eval env =
      (eqs.map fun e => (e.diff y).eval env * (e.diff x).eval env +
        e.eval env * ((e.diff x).diff y).eval env).sum := by
  simp only [squaredLoss, diff, eval, diff_sum, eval_sum, List.map_map]
  simp only [Rat.cast_zero, zero_mul, zero_add]
  rw [← sum_map_mul_left']
  congr 1
  apply List.map_congr_left
  intro e _
  have h2 : (2 : ℚ) ≠ 0 := by norm_num
  have h1 : (2 : ℚ) - 1 ≠ 0 := by norm_num
  simp only [Function.comp, diff, powDiff, if_neg h2, if_neg h1, eval]
  norm_num
  ring

/-! ### Renaming atoms -/

omit [DecidableEq α] in
theorem eval_mapAtoms {β : Type} (f : α → β) (env : β → ℝ) (e : SymExpr α) :
    (mapAtoms f e).eval env = e.eval (env ∘ f) := by
  induction e <;> simp_all [mapAtoms, eval]

theorem diff_mapAtoms {β : Type} [DecidableEq β] (f : α → β) (hf : Function.Injective f) (x : α)
    (e : SymExpr α) : (mapAtoms f e).diff (f x) = mapAtoms f (e.diff x) := by
  induction e with
  | num q => rfl
  | sym a => simp [mapAtoms, diff, hf.eq_iff]
  | add a b iha ihb => simp [mapAtoms, diff, iha, ihb]
  | mul a b iha ihb => simp [mapAtoms, diff, iha, ihb]
  | log a ih => simp [mapAtoms, diff, ih]
  | exp a ih => simp [mapAtoms, diff, ih]
  | pow a b iha ihb =>
    simp only [mapAtoms, diff, iha, ihb]
    cases b with
    | num q =>
      simp only [mapAtoms, powDiff]
      by_cases hq : q = 0 <;> simp [hq, mapAtoms]
    | _ => simp [mapAtoms, powDiff]

end SymExpr

end Verif
