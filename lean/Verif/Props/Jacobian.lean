import Verif.Lemmas.Jacobian

/-!
# C36: the sparse Jacobian is the matrix of partial derivatives
-/

namespace Verif

open SymExpr

variable {α : Type} [DecidableEq α]

/-- The two equations `x**2 * y - 3` and `log(x) + 2` in the symbols `"x"`, `"y"` (for examples). -/
def exampleEqs : List (SymExpr String) :=
  [.add (.mul (.pow (.sym "x") (.num 2)) (.sym "y")) (.num (-3)),
   .add (.log (.sym "x")) (.num 2)]

/-- A point with `x = 2`, everything else `5` (for examples). -/
noncomputable def exampleEnv : String → ℝ := fun s => if s = "x" then 2 else 5

theorem example_regular : ∀ e ∈ exampleEqs, Regular exampleEnv e := by
  intro e he
  simp only [exampleEqs, List.mem_cons, List.not_mem_nil, or_false] at he
  rcases he with rfl | rfl
  · exact ⟨⟨⟨trivial, trivial, Or.inr ⟨2, rfl, Or.inl ⟨2, by norm_num⟩⟩⟩, trivial⟩, trivial⟩
  · exact ⟨⟨trivial, by norm_num [SymExpr.eval, exampleEnv]⟩, trivial⟩

/-- C36.  Entry `(i, j)` of the sparse Jacobian, made dense, is the partial derivative of equation
`i` with respect to symbol `j`. -/
theorem C36_sparse_is_derivative (eqs : List (SymExpr α)) (wrt : List α) (i j : Nat)
    (e : SymExpr α) (x : α) (hi : eqs[i]? = some e) (hj : wrt[j]? = some x)
    (env : α → ℝ) (hreg : Regular env e) :
    HasPartial (fun env => e.eval env) x
      ((sparseEntry (jacobianAsDok eqs wrt).2 i j).eval env) env := by
  have h := hasPartial_diff env x e hreg
  unfold sparseEntry
  rw [dok_get, hi, hj]
  dsimp only
  split
  · exact h
  · rename_i hx
    rw [eval_diff_eq_zero env x e hx] at h
    simpa [eval] using h

example : HasPartial (fun env => (SymExpr.add (.log (.sym "x")) (.num 2)).eval env) "x"
    ((sparseEntry (jacobianAsDok exampleEqs ["y", "x"]).2 1 1).eval exampleEnv) exampleEnv :=
  C36_sparse_is_derivative exampleEqs ["y", "x"] 1 1 _ "x" rfl rfl exampleEnv
    (example_regular _ (by simp [exampleEqs]))

/-- C36.  The dense Jacobian has one row per equation, one column per symbol, and its entries are the
partial derivatives. -/
theorem C36_dense_is_derivative (eqs : List (SymExpr α)) (wrt : List α) :
    (makeJacobian eqs wrt).length = eqs.length ∧
    (∀ row ∈ makeJacobian eqs wrt, row.length = wrt.length) ∧
    ∀ (i j : Nat) (e : SymExpr α) (x : α), eqs[i]? = some e → wrt[j]? = some x →
      ∃ row d, (makeJacobian eqs wrt)[i]? = some row ∧ row[j]? = some d ∧
        ∀ env : α → ℝ, Regular env e → HasPartial (fun env => e.eval env) x (d.eval env) env := by
  refine ⟨by simp [makeJacobian], ?_, ?_⟩
  · intro row h
    obtain ⟨e, -, rfl⟩ := List.mem_map.mp h
    simp
  · intro i j e x hi hj
    refine ⟨wrt.map fun x => diff x e, diff x e, by simp [makeJacobian, hi], by simp [hj], ?_⟩
    intro env hreg
    exact hasPartial_diff env x e hreg

example : ∃ row d, (makeJacobian exampleEqs ["y", "x"])[0]? = some row ∧ row[1]? = some d ∧
    ∀ env : String → ℝ,
      Regular env (.add (.mul (.pow (.sym "x") (.num 2)) (.sym "y")) (.num (-3))) →
      HasPartial (fun env =>
        (SymExpr.add (.mul (.pow (.sym "x") (.num 2)) (.sym "y")) (.num (-3))).eval env)
        "x" (d.eval env) env :=
  (C36_dense_is_derivative exampleEqs ["y", "x"]).2.2 0 1 _ "x" rfl rfl

/-- C36.  The sparse Jacobian, made dense, is the dense Jacobian: same shape, and every entry has the
same value at every point (whether or not the equations are smooth there). -/
theorem C36_sparse_eq_dense (eqs : List (SymExpr α)) (wrt : List α) :
    (jacobianAsDok eqs wrt).1 = (eqs.length, wrt.length) ∧
    ∀ (i j : Nat) (row : List (SymExpr α)) (d : SymExpr α),
      (makeJacobian eqs wrt)[i]? = some row → row[j]? = some d →
      ∀ env : α → ℝ, (sparseEntry (jacobianAsDok eqs wrt).2 i j).eval env = d.eval env := by
  refine ⟨rfl, ?_⟩
  intro i j row d hrow hd env
  simp only [makeJacobian, List.getElem?_map, Option.map_eq_some_iff] at hrow
  obtain ⟨e, he, rfl⟩ := hrow
  simp only [List.getElem?_map, Option.map_eq_some_iff] at hd
  obtain ⟨x, hx, rfl⟩ := hd
  unfold sparseEntry
  rw [dok_get, he, hx]
  dsimp only
  split
  · rfl
  · rename_i hne
    rw [eval_diff_eq_zero env x e hne]
    simp [eval]

example : (sparseEntry (jacobianAsDok exampleEqs ["y", "x"]).2 1 0).eval exampleEnv =
    (SymExpr.add (.mul (.num (if "x" = "y" then 1 else 0)) (.pow (.sym "x") (.num (-1))))
      (.num 0)).eval exampleEnv :=
  (C36_sparse_eq_dense exampleEqs ["y", "x"]).2 1 0 _ _ rfl rfl exampleEnv

/-- C36.  Every position is stored at most once, and the stored positions are exactly the in-bounds
pairs of an equation and a symbol occurring in it. -/
theorem C36_positions (eqs : List (SymExpr α)) (wrt : List α) :
    (dkeys (jacobianAsDok eqs wrt).2).Nodup ∧
    ∀ i j, (i, j) ∈ dkeys (jacobianAsDok eqs wrt).2 ↔
      ∃ (hi : i < eqs.length) (hj : j < wrt.length), Mentions wrt[j] eqs[i] := by
  refine ⟨dok_nodup eqs wrt, ?_⟩
  intro i j
  rw [mem_dkeys_iff, dok_get]
  constructor
  · rintro ⟨v, hv⟩
    cases he : eqs[i]? with
    | none => rw [he] at hv; cases hv
    | some e =>
      cases hx : wrt[j]? with
      | none => rw [he, hx] at hv; cases hv
      | some x =>
        rw [he, hx] at hv
        dsimp only at hv
        split at hv
        · rename_i hmem
          obtain ⟨hi, rfl⟩ := List.getElem?_eq_some_iff.mp he
          obtain ⟨hj, rfl⟩ := List.getElem?_eq_some_iff.mp hx
          exact ⟨hi, hj, (mem_atoms_iff _ _).mp hmem⟩
        · cases hv
  · rintro ⟨hi, hj, hm⟩
    rw [List.getElem?_eq_getElem hi, List.getElem?_eq_getElem hj]
    dsimp only
    rw [if_pos ((mem_atoms_iff _ _).mpr hm)]
    exact ⟨_, rfl⟩

example : (1, 0) ∉ dkeys (jacobianAsDok exampleEqs ["y", "x"]).2 ∧
    (0, 1) ∈ dkeys (jacobianAsDok exampleEqs ["y", "x"]).2 := by
  constructor
  · rw [(C36_positions exampleEqs ["y", "x"]).2]
    rintro ⟨_, _, h⟩
    rw [← mem_atoms_iff] at h
    simp [exampleEqs, atoms] at h
  · rw [(C36_positions exampleEqs ["y", "x"]).2]
    exact ⟨by decide, by decide, .addL (.mulL (.powL .sym))⟩

/-- C36.  `sparse_jacobian` accepts a list or a column, with the same result, and rejects every other
matrix. -/
theorem C36_matrix_argument (eqs : List (SymExpr α)) (wrt : List α) (ncols : Nat)
    (rows : List (List (SymExpr α))) :
    sparseJacobian (.matrix 1 (eqs.map fun e => [e])) wrt = sparseJacobian (.list eqs) wrt ∧
    (sparseJacobian (.matrix ncols rows) wrt = .error .valueError ↔ ncols ≠ 1) := by
  constructor
  · have : (eqs.map fun e => [e]).flatten = eqs := by
      induction eqs with
      | nil => rfl
      | cons a l ih => simp_all
    simp [sparseJacobian, this]
  · unfold sparseJacobian
    by_cases h : ncols = 1
    · simp [h]
    · simp [h]

example : sparseJacobian (.matrix 2 [exampleEqs]) ["x"] = .error .valueError :=
  (C36_matrix_argument exampleEqs ["x"] 2 [exampleEqs]).2.mpr (by decide)

end Verif
