import Verif.Model.Newton
import Verif.Lemmas.Flat

/-!
# One iteration of the Newton root finder
-/

namespace Verif

variable {α : Type _}

theorem raggedLoop_flat (xs : List (NDArray α)) (h : ∀ a ∈ xs, a.WF) (pre post : List α) :
    raggedLoop (pre ++ (xs.map NDArray.data).flatten ++ post) (xs.map NDArray.shape) pre.length
      = .ok xs := by
  induction xs generalizing pre with
  | nil => rfl
  | cons a xs ih =>
    have ha : a.data.length = a.shape.prod := h a (by simp)
    have hs : slice (pre ++ ((a :: xs).map NDArray.data).flatten ++ post) pre.length
        (pre.length + a.shape.prod) = a.data := by
      rw [slice_eq, List.map_cons, List.flatten_cons, List.append_assoc, List.append_assoc,
        List.drop_left, ← ha, List.take_left]
    have ih' := ih (fun b hb => h b (by simp [hb])) (pre ++ a.data)
    rw [List.length_append, ha] at ih'
    rw [show (a :: xs).map NDArray.shape = a.shape :: xs.map NDArray.shape from rfl, raggedLoop]
    simp only [hs, bind, Except.bind, pure, Except.pure]
    rw [show reshape a.data a.shape = .ok a by unfold reshape; rw [if_pos ha]]
    dsimp only
    rw [show pre ++ ((a :: xs).map NDArray.data).flatten ++ post
        = pre ++ a.data ++ (xs.map NDArray.data).flatten ++ post by simp, ih']

theorem ragged_flat (xs : List (NDArray α)) (h : ∀ a ∈ xs, a.WF) :
    flatTensorToRaggedList (xs.map NDArray.data).flatten (xs.map NDArray.shape) = .ok xs := by
  have := raggedLoop_flat xs h [] []
  simpa [flatTensorToRaggedList] using this

theorem raggedLoop_shapes (x : List α) (shapes : List (List Nat)) (c : Nat) (xs : List (NDArray α))
    (h : raggedLoop x shapes c = .ok xs) : xs.map NDArray.shape = shapes ∧ ∀ a ∈ xs, a.WF := by
  induction shapes generalizing c xs with
  | nil => injection h with h; subst h; simp
  | cons s shapes ih =>
    rw [raggedLoop] at h
    simp only [bind, Except.bind, pure, Except.pure, reshape] at h
    split at h
    · cases h
    · rename_i a ha
      split at ha
      · rename_i hl
        injection ha with ha
        cases hr : raggedLoop x shapes (c + s.prod) with
        | error e => rw [hr] at h; cases h
        | ok r =>
          rw [hr] at h
          injection h with h
          obtain ⟨h1, h2⟩ := ih _ _ hr
          subst h
          subst ha
          refine ⟨by rw [List.map_cons, h1], ?_⟩
          intro b hb
          rcases List.mem_cons.1 hb with rfl | hb
          · exact hl
          · exact h2 b hb
      · cases ha

theorem evalMaybeExog_eq {β : Type _} (parameters : Option (List (NDArray α)))
    (f : List (NDArray α) → List (NDArray α) → Res β) (X : List (NDArray α)) :
    evalMaybeExog X (parameters.getD []) f parameters.isSome = f X (parameters.getD []) := by
  cases parameters <;> simp [evalMaybeExog]

/-- What one iteration does. -/
theorem scanBody_spec (N : NewtonArith α) (hirr : ∀ a, N.lt a a = false) (P : NewtonProblem α)
    (init tol : α) (parameters : Option (List (NDArray α))) (s s' : NewtonState α)
    (hwf : ∀ a ∈ s.X, a.WF)
    (h : scanBody N P init tol parameters.isSome (parameters.getD []) s = .ok s') :
    (s'.X.map NDArray.shape = s.X.map NDArray.shape ∧ ∀ a ∈ s'.X, a.WF) ∧
    ((s.converged = true ∧ s' = { s with stepSize := N.mul s.stepSize N.half }) ∨
     (s.converged = false ∧ ∃ fx JX d newX fnew, P.F s.X (parameters.getD []) = .ok fx ∧
        P.J s.X (parameters.getD []) = .ok JX ∧ P.solve JX fx = .ok d ∧
        flatTensorToRaggedList (List.zipWith N.sub (s.X.map NDArray.data).flatten
          (d.map (N.mul s.stepSize))) (s.X.map NDArray.shape) = .ok newX ∧
        P.F newX (parameters.getD []) = .ok fnew ∧
        s'.converged = N.lt (N.norm1 fx) tol ∧
        s'.nSteps = s.nSteps + (if s'.converged then 0 else 1) ∧
        ((N.lt (N.norm1 fnew) (N.norm1 fx) = true ∧ s'.X = newX ∧ s'.stepSize = init) ∨
         (N.lt (N.norm1 fnew) (N.norm1 fx) = false ∧ s'.X = s.X ∧
            s'.stepSize = N.mul s.stepSize N.half)))) := by
  have hne : s.X ≠ [] := by
    intro hx
    unfold scanBody at h
    rw [hx] at h
    cases h
  have hflat : flattenEquations s.X = .ok (s.X.map NDArray.data).flatten :=
    npConcatenate_ok (by simpa using hne)
  unfold scanBody at h
  simp only [hflat, bind, Except.bind, pure, Except.pure] at h
  cases hc : s.converged with
  | true =>
    rw [hc] at h
    simp only [if_true, noOp, checkConvergence, checkStepsize, hirr, Bool.false_eq_true, if_false,
      ragged_flat _ hwf] at h
    injection h with h
    subst h
    refine ⟨⟨rfl, hwf⟩, Or.inl ⟨rfl, ?_⟩⟩
    cases s; simp_all
  | false =>
    rw [hc] at h
    simp only [Bool.false_eq_true, if_false, newtonStep, bind, Except.bind, ragged_flat _ hwf,
      evalMaybeExog_eq, pure, Except.pure] at h
    cases hF : P.F s.X (parameters.getD []) with
    | error e => rw [hF] at h; cases h
    | ok fx =>
      rw [hF] at h
      dsimp only at h
      cases hJ : P.J s.X (parameters.getD []) with
      | error e => rw [hJ] at h; cases h
      | ok JX =>
        rw [hJ] at h
        dsimp only at h
        cases hS : P.solve JX fx with
        | error e => rw [hS] at h; cases h
        | ok d =>
          rw [hS] at h
          dsimp only at h
          by_cases hl : d.length = (s.X.map NDArray.data).flatten.length
          · rw [if_pos hl] at h
            cases hR : flatTensorToRaggedList (List.zipWith N.sub (s.X.map NDArray.data).flatten
                (d.map (N.mul s.stepSize))) (s.X.map NDArray.shape) with
            | error e => rw [hR] at h; cases h
            | ok newX =>
              rw [hR] at h
              dsimp only at h
              cases hFn : P.F newX (parameters.getD []) with
              | error e => rw [hFn] at h; cases h
              | ok fnew =>
                rw [hFn] at h
                simp only [checkConvergence, Bool.false_eq_true, if_false, checkStepsize] at h
                cases hlt : N.lt (N.norm1 fnew) (N.norm1 fx) with
                | true =>
                  rw [hlt] at h
                  simp only [if_true, hR] at h
                  injection h with h
                  subst h
                  refine ⟨raggedLoop_shapes _ _ _ _ hR, Or.inr ⟨rfl, fx, JX, d, newX, fnew, rfl, rfl,
                    hS, hR, hFn, rfl, ?_, Or.inl ⟨hlt, rfl, rfl⟩⟩⟩
                  dsimp only
                  cases N.lt (N.norm1 fx) tol <;> rfl
                | false =>
                  rw [hlt] at h
                  simp only [Bool.false_eq_true, if_false, ragged_flat _ hwf] at h
                  injection h with h
                  subst h
                  refine ⟨⟨rfl, hwf⟩, Or.inr ⟨rfl, fx, JX, d, newX, fnew, rfl, rfl,
                    hS, hR, hFn, rfl, ?_, Or.inr ⟨hlt, rfl, rfl⟩⟩⟩
                  dsimp only
                  cases N.lt (N.norm1 fx) tol <;> rfl
          · rw [if_neg hl] at h; cases h

theorem newtonScan_steps (body : NewtonState α → Res (NewtonState α)) (k : Nat) (s : NewtonState α)
    (H : List (NewtonState α)) (h : newtonScan body k s = .ok H) :
    H.length = k ∧ ∀ (i : Nat) a b, (s :: H)[i]? = some a → H[i]? = some b → body a = .ok b := by
  induction k generalizing s H with
  | zero => injection h with h; subst h; simp
  | succ k ih =>
    rw [newtonScan] at h
    simp only [bind, Except.bind, pure, Except.pure] at h
    cases hb : body s with
    | error e => rw [hb] at h; cases h
    | ok s' =>
      rw [hb] at h
      dsimp only at h
      cases hr : newtonScan body k s' with
      | error e => rw [hr] at h; cases h
      | ok r =>
        rw [hr] at h
        injection h with h
        subst h
        obtain ⟨h1, h2⟩ := ih s' r hr
        refine ⟨by rw [List.length_cons, h1], ?_⟩
        intro i a b ha hb'
        cases i with
        | zero =>
          simp only [List.getElem?_cons_zero, Option.some.injEq] at ha hb'
          rw [← ha, ← hb']; exact hb
        | succ i => exact h2 i a b ha hb'

end Verif
