import Verif.Lemmas.RecursiveSolve

/-!
# C38, C39: recursive calibration
-/

namespace Verif

open SymExpr

variable {α : Type} [DecidableEq α]

/-! ### A solver for equations that are linear in the unknown, used in the examples -/

/-- The value of an expression without powers, logarithms and exponentials. -/
def evalLin (env : α → ℚ) : SymExpr α → ℚ
  | .num q => q
  | .sym a => env a
  | .add a b => evalLin env a + evalLin env b
  | .mul a b => evalLin env a * evalLin env b
  | .pow _ _ => 0
  | .log _ => 0
  | .exp _ => 0

/-- Solve `c + d x = 0`. -/
def linSolver : SymSolver Nat where
  simplify := id
  solve e x :=
    let c := evalLin (fun _ => 0) e
    let d := evalLin (fun y => if y = x then 1 else 0) e - c
    if d = 0 then [] else [-c / d]

/-- `a - b`. -/
def minus (a b : SymExpr Nat) : SymExpr Nat := .add a (.mul (.num (-1)) b)

/-! ### C38 -/

/-- **C38** (partial).  Suppose the system has a solution `s` that has the caller's values, `simplify`
keeps the value of every expression, and whenever one unknown is left in an equation the first root that
`solve` returns is the value of that unknown in `s`.  If `recursive_solve_symbolic` returns, its values
are the ones in `s`, every symbol of the equations has a value, and every equation holds at these
values.
(What is missing: without a common solution the statement is false, see the counterexamples below.) -/
theorem C38_values_partial [Nonempty α] (S : SymSolver α) (eqs : List (SymExpr α))
    (known : Option (Dict α ℚ)) (maxIter : Nat) (r : Dict α ℚ) (s : α → ℝ)
    (hkeep : KeepsSymbols S eqs)
    (hsimp : ∀ e env, (S.simplify e).eval env = e.eval env)
    (hs : ∀ e ∈ eqs, e.eval s = 0) (hagree : AgreesWith s (known.getD []))
    (hsolve : ∀ e x, Arises S (AgreesWith s) eqs e → (∀ y, Mentions y e ↔ y = x) →
      ∃ q rest, S.solve e x = q :: rest ∧ s x = (q : ℝ))
    (hr : recursiveSolve S eqs known maxIter = .ok r) :
    (∀ e ∈ eqs, ∀ x, Mentions x e → ∃ v, dget r x = some v) ∧
    (∀ x v, dget r x = some v → s x = (v : ℝ)) ∧
    ∀ env : α → ℝ, (∀ x v, dget r x = some v → env x = (v : ℝ)) → ∀ e ∈ eqs, e.eval env = 0 := by
  have hv := valueInv_loop S s eqs eqs.length hsimp hs hsolve maxIter (known.getD []) eqs
    ⟨hagree, fun e he => .base he, fun e he => Or.inl ⟨e, he, fun _ _ => rfl⟩⟩
  have hi := solveInv_loop S eqs (known.getD []) eqs.length hkeep maxIter _ _
    (solveInv_init S eqs (known.getD []))
  unfold recursiveSolve at hr
  dsimp only at hr
  split at hr
  · rename_i hnil
    cases hr
    rw [hnil] at hv hi
    obtain ⟨pairs, o, hU, hperm, -, -, hk2, -, -⟩ := hi
    have hpn : pairs = [] := List.map_eq_nil_iff.mp hU
    subst hpn
    rw [List.map_nil, List.append_nil] at hperm
    refine ⟨fun e he x hx => (mem_dkeys_iff _ _).mp (hk2 e (hperm.symm.subset he) x hx), hv.1, ?_⟩
    intro env henv e he
    rcases hv.2.2 e he with ⟨e', he', -⟩ | h
    · simp at he'
    · exact h env henv
  · cases hr

/-- The system `x + y - 5 = 0`, `x - 2 = 0` is solved, and meets the hypotheses with `x = 2`, `y = 3`. -/
example : recursiveSolve linSolver
    [.add (.add (.sym 0) (.sym 1)) (.num (-5)), .add (.sym 0) (.num (-2))] none 100 =
    .ok [(0, 2), (1, 3)] := by decide +kernel

example : ∀ e x, Arises linSolver (AgreesWith fun y => if y = 0 then 2 else 3)
    [.add (.add (.sym 0) (.sym 1)) (.num (-5)), .add (.sym 0) (.num (-2))] e →
    (∀ y, Mentions y e ↔ y = x) →
    ∃ q rest, linSolver.solve e x = q :: rest ∧
      (fun y => if y = 0 then (2 : ℝ) else 3) x = (q : ℝ) := by
  intro e x he hx
  have hform : (∃ a b : SymExpr Nat, e = .add (.add a b) (.num (-5)) ∧ (a = .sym 0 ∨ a = .num 2) ∧
      (b = .sym 1 ∨ b = .num 3)) ∨ ∃ a : SymExpr Nat, e = .add a (.num (-2)) ∧
      (a = .sym 0 ∨ a = .num 2) := by
    clear hx
    have h0 : ∀ K : Dict Nat ℚ, (AgreesWith (fun y => if y = 0 then 2 else 3) K) →
        substSym K 0 = .sym 0 ∨ substSym K 0 = .num 2 := by
      intro K hK
      unfold substSym
      cases hg : dget K 0 with
      | none => exact Or.inl rfl
      | some v =>
        right
        have := hK 0 v hg
        simp only [if_pos] at this
        have hv : v = 2 := by exact_mod_cast this.symm
        rw [hv]
    have h1 : ∀ K : Dict Nat ℚ, (AgreesWith (fun y => if y = 0 then 2 else 3) K) →
        substSym K 1 = .sym 1 ∨ substSym K 1 = .num 3 := by
      intro K hK
      unfold substSym
      cases hg : dget K 1 with
      | none => exact Or.inl rfl
      | some v =>
        right
        have := hK 1 v hg
        simp only [one_ne_zero, if_false] at this
        have hv : v = 3 := by exact_mod_cast this.symm
        rw [hv]
    induction he with
    | base h =>
      rcases List.mem_cons.mp h with rfl | h
      · exact Or.inl ⟨_, _, rfl, Or.inl rfl, Or.inl rfl⟩
      · rw [List.mem_singleton] at h
        subst h
        exact Or.inr ⟨_, rfl, Or.inl rfl⟩
    | step K hK _ ih =>
      rcases ih with ⟨a, b, rfl, ha, hb⟩ | ⟨a, rfl, ha⟩
      · refine Or.inl ⟨substKnown K a, substKnown K b, rfl, ?_, ?_⟩
        · rcases ha with rfl | rfl
          · exact h0 K hK
          · exact Or.inr rfl
        · rcases hb with rfl | rfl
          · exact h1 K hK
          · exact Or.inr rfl
      · refine Or.inr ⟨substKnown K a, rfl, ?_⟩
        rcases ha with rfl | rfl
        · exact h0 K hK
        · exact Or.inr rfl
  simp only [mentions_iff] at hx
  rcases hform with ⟨a, b, rfl, rfl | rfl, rfl | rfl⟩ | ⟨a, rfl, rfl | rfl⟩
  · have h1 := (hx 0).mp (by simp [atoms])
    have h2 := (hx 1).mp (by simp [atoms])
    omega
  · obtain rfl := (hx 0).mp (by simp [atoms])
    exact ⟨2, [], by decide +kernel, by norm_num⟩
  · obtain rfl := (hx 1).mp (by simp [atoms])
    exact ⟨3, [], by decide +kernel, by norm_num⟩
  · have := (hx x).mpr rfl
    simp [atoms] at this
  · obtain rfl := (hx 0).mp (by simp [atoms])
    exact ⟨2, [], by decide +kernel, by norm_num⟩
  · have := (hx x).mpr rfl
    simp [atoms] at this

/-- **C38 is false**: an equation without unknowns is dropped without a look at its value, for every
solver that leaves the number alone. -/
theorem C38_constant_counterexample (S : SymSolver Nat) (c : ℚ)
    (hsimp : S.simplify (.num c) = .num c) (known : Option (Dict Nat ℚ)) (maxIter : Nat) :
    ∃ r, recursiveSolve S [.num c] known (maxIter + 1) = .ok r ∧
      ∀ env : Nat → ℝ, (SymExpr.num c : SymExpr Nat).eval env = c := by
  refine ⟨known.getD [], ?_, fun env => rfl⟩
  have hp : solvePass S (known.getD []) [.num c] = (known.getD [], false, []) := by
    simp [solvePass, substKnown, hsimp, passStep, freeSymbols, atoms]
  unfold recursiveSolve
  simp only [solveLoop, List.length_singleton, hp]
  split <;> simp

/-- **C38 is false**: an equation without a root gets the value zero.  For every solver that finds no
root of `x² + 1`, the value returned for `x` is zero and the equation does not hold there. -/
theorem C38_no_root_counterexample (S : SymSolver Nat) (maxIter : Nat)
    (hsimp : S.simplify (.add (.pow (.sym 0) (.num 2)) (.num 1)) =
      .add (.pow (.sym 0) (.num 2)) (.num 1))
    (hsolve : S.solve (.add (.pow (.sym 0) (.num 2)) (.num 1)) 0 = []) :
    recursiveSolve S [.add (.pow (.sym 0) (.num 2)) (.num 1)] none (maxIter + 1) = .ok [(0, 0)] ∧
    ∀ env : Nat → ℝ,
      (SymExpr.add (.pow (.sym 0) (.num 2)) (.num 1) : SymExpr Nat).eval env ≠ 0 := by
  constructor
  · have hp : solvePass S [] [.add (.pow (.sym 0) (.num 2)) (.num 1)] = ([(0, 0)], true, []) := by
      simp [solvePass, substKnown, substSym, dget, hsimp, passStep, freeSymbols, atoms, hsolve,
        firstSolution, dset]
    unfold recursiveSolve
    simp only [solveLoop, Option.getD_none, List.length_singleton, hp]
    simp
  · intro env
    simp only [eval]
    have h2 : ((2 : ℚ) : ℝ) = ((2 : ℕ) : ℝ) := by norm_num
    rw [h2, Real.rpow_natCast]
    have := sq_nonneg (env 0)
    push_cast
    intro h
    linarith

/-- **C38 is false**: two equations for the same unknown are both solved in one pass and the value of
the later one is returned: for `x - 1 = 0`, `x - 2 = 0` the result is `x = 2`. -/
theorem C38_overdetermined_counterexample :
    recursiveSolve linSolver [.add (.sym 0) (.num (-1)), .add (.sym 0) (.num (-2))] none 100 =
      .ok [(0, 2)] ∧
    ∀ env : Nat → ℝ, env 0 = (2 : ℚ) →
      (SymExpr.add (.sym 0) (.num (-1)) : SymExpr Nat).eval env ≠ 0 := by
  refine ⟨by decide +kernel, fun env h => ?_⟩
  simp only [eval, h]
  norm_num

/-! ### C39 -/

/-- **C39** (partial).  If the equations can be solved one unknown at a time, at least as many passes are
allowed as there are equations, and either no values are given or more than there are equations, then
`recursive_solve_symbolic` does not raise, every symbol gets a value and the given values are kept.
(What is missing: with between one and `len(equations)` given values it may raise, see
`C39_early_break_counterexample`.) -/
theorem C39_complete_partial [Nonempty α] (S : SymSolver α) (eqs : List (SymExpr α))
    (known : Option (Dict α ℚ)) (maxIter : Nat) (hkeep : KeepsSymbols S eqs)
    (hrec : RecursivelySolvable (fun x => ∃ v, dget (known.getD []) x = some v) eqs)
    (hiter : eqs.length ≤ maxIter)
    (hknown : known.getD [] = [] ∨ eqs.length < (known.getD []).length) :
    ∃ r, recursiveSolve S eqs known maxIter = .ok r ∧
      (∀ e ∈ eqs, ∀ x, Mentions x e → ∃ v, dget r x = some v) ∧
      ∀ x v, dget (known.getD []) x = some v → dget r x = some v := by
  have hrec' : RecursivelySolvable (fun x => x ∈ dkeys (known.getD [])) eqs := by
    obtain ⟨o, h1, h2⟩ := hrec
    exact ⟨o, h1, h2.mono fun y hy => (mem_dkeys_iff _ _).mpr hy⟩
  have hi := solveInv_loop S eqs (known.getD []) eqs.length hkeep maxIter _ _
    (solveInv_init S eqs (known.getD []))
  have hc := solveLoop_complete S eqs (known.getD []) eqs.length hkeep hrec' maxIter _ _
    (solveInv_init S eqs (known.getD [])) hiter (by
      rcases hknown with h | h
      · left; rw [h]; simp
      · exact Or.inr h)
  refine ⟨(solveLoop S eqs.length maxIter (known.getD []) eqs).1, ?_, ?_, ?_⟩
  · unfold recursiveSolve
    rw [if_pos hc]
  · rw [hc] at hi
    obtain ⟨pairs, o, hU, hperm, -, -, hk2, -, -⟩ := hi
    have hpn : pairs = [] := List.map_eq_nil_iff.mp hU
    subst hpn
    rw [List.map_nil, List.append_nil] at hperm
    exact fun e he x hx => (mem_dkeys_iff _ _).mp (hk2 e (hperm.symm.subset he) x hx)
  · obtain ⟨-, -, -, -, -, -, -, hk3, -⟩ := hi
    intro x v hv
    rw [hk3 x ((mem_dkeys_iff _ _).mpr ⟨v, hv⟩), hv]

theorem linSolver_keeps (eqs : List (SymExpr Nat)) : KeepsSymbols linSolver eqs :=
  fun _ _ _ _ => Iff.rfl

/-- The equations `x + y - 5`, `x - 2` meet the hypotheses: the second comes first. -/
example : ∃ r, recursiveSolve linSolver
    [.add (.add (.sym 0) (.sym 1)) (.num (-5)), .add (.sym 0) (.num (-2))] none 100 = .ok r := by
  obtain ⟨r, h, -⟩ := C39_complete_partial linSolver
    [.add (.add (.sym 0) (.sym 1)) (.num (-5)), .add (.sym 0) (.num (-2))] none 100
    (linSolver_keeps _)
    ⟨[.add (.sym 0) (.num (-2)), .add (.add (.sym 0) (.sym 1)) (.num (-5))], List.Perm.swap _ _ _,
      .cons ⟨0, fun y hy => Or.inr (by simpa [mentions_iff, atoms] using hy)⟩
        (.cons ⟨1, fun y hy => by
          rw [mentions_iff] at hy
          simp only [atoms, List.mem_append, List.mem_singleton, List.not_mem_nil, or_false] at hy
          rcases hy with rfl | rfl
          · exact Or.inl (Or.inr (.addL .sym))
          · exact Or.inr rfl⟩ .nil)⟩
    (by simp) (Or.inl rfl)
  exact ⟨r, h⟩

/-- **C39**, the other direction, for any given values and any number of passes: when
`recursive_solve_symbolic` returns, the equations can be solved one unknown at a time from the given
values, every symbol has a value, and the given values are kept.  So it raises on every other system. -/
theorem C39_otherwise_raises [Nonempty α] (S : SymSolver α) (eqs : List (SymExpr α))
    (known : Option (Dict α ℚ)) (maxIter : Nat) (hkeep : KeepsSymbols S eqs) :
    (∃ r, recursiveSolve S eqs known maxIter = .ok r ∧
      RecursivelySolvable (fun x => ∃ v, dget (known.getD []) x = some v) eqs ∧
      (∀ e ∈ eqs, ∀ x, Mentions x e → ∃ v, dget r x = some v) ∧
      ∀ x v, dget (known.getD []) x = some v → dget r x = some v) ∨
    recursiveSolve S eqs known maxIter = .error .valueError := by
  have hi := solveInv_loop S eqs (known.getD []) eqs.length hkeep maxIter _ _
    (solveInv_init S eqs (known.getD []))
  by_cases hc : (solveLoop S eqs.length maxIter (known.getD []) eqs).2 = []
  · left
    refine ⟨(solveLoop S eqs.length maxIter (known.getD []) eqs).1, ?_, ?_⟩
    · unfold recursiveSolve
      rw [if_pos hc]
    · rw [hc] at hi
      obtain ⟨pairs, o, hU, hperm, ho, -, hk2, hk3, -⟩ := hi
      have hpn : pairs = [] := List.map_eq_nil_iff.mp hU
      subst hpn
      rw [List.map_nil, List.append_nil] at hperm
      exact ⟨⟨o, hperm, ho.mono fun y hy => (mem_dkeys_iff _ _).mp hy⟩,
        fun e he x hx => (mem_dkeys_iff _ _).mp (hk2 e (hperm.symm.subset he) x hx),
        fun x v hv => by rw [hk3 x ((mem_dkeys_iff _ _).mpr ⟨v, hv⟩), hv]⟩
  · right
    unfold recursiveSolve
    rw [if_neg hc]

/-- A system that is not recursive raises: `x + y = 0`, `x - y = 0`. -/
example : recursiveSolve linSolver [.add (.sym 0) (.sym 1), minus (.sym 0) (.sym 1)] none 100 =
    .error .valueError := by decide +kernel

/-- **C39 is false** when some values are given: `a - x = 0`, `x - y = 0`, `y - z = 0` with `a = 1`
given.  After two passes the number of known values (`a`, `x`, `y`) is the number of equations, the loop
stops, and the call raises although one more pass would find `z`. -/
theorem C39_early_break_counterexample :
    recursiveSolve linSolver
      [minus (.sym 0) (.sym 1), minus (.sym 1) (.sym 2), minus (.sym 2) (.sym 3)]
      (some [(0, 1)]) 100 = .error .valueError ∧
    RecursivelySolvable (fun x => ∃ v, dget [(0, (1 : ℚ))] x = some v)
      [minus (.sym 0) (.sym 1), minus (.sym 1) (.sym 2), minus (.sym 2) (.sym 3)] := by
  refine ⟨by decide +kernel, _, List.Perm.refl _, ?_⟩
  have hm : ∀ a b y : Nat, Mentions y (minus (.sym a) (.sym b)) ↔ y = a ∨ y = b := by
    intro a b y
    rw [mentions_iff]
    simp [minus, atoms]
  refine .cons ⟨1, ?_⟩ (.cons ⟨2, ?_⟩ (.cons ⟨3, ?_⟩ .nil))
  all_goals
    intro y hy
    rw [hm] at hy
    try simp only [hm]
    rcases hy with rfl | rfl
  · exact Or.inl ⟨1, rfl⟩
  · exact Or.inr rfl
  · exact Or.inl (Or.inr (Or.inr rfl))
  · exact Or.inr rfl
  · exact Or.inl (Or.inr (Or.inr rfl))
  · exact Or.inr rfl

end Verif
