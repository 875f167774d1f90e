import Verif.Spec.EulerPoints
import Verif.Lemmas.Euler

/-!
# Runge-Kutta steps of two models that correspond
-/

namespace Verif

variable {K : Type _} [Field K]

/-- A map of vectors that respects the combinations formed in one step. -/
structure Combines (n m : Nat) (f : List K → List K) : Prop where
  length : ∀ a, a.length = n → (f a).length = m
  half : ∀ a b, a.length = n → b.length = n →
    f (List.zipWith (fun a b => a + 2⁻¹ * b) a b) = List.zipWith (fun a b => a + 2⁻¹ * b) (f a) (f b)
  twice : ∀ a b, a.length = n → b.length = n →
    f (List.zipWith (fun a b => a + 2 * b) a b) = List.zipWith (fun a b => a + 2 * b) (f a) (f b)
  sixth : ∀ a b, a.length = n → b.length = n →
    f (List.zipWith (fun a b => (a + b) / 6) a b) = List.zipWith (fun a b => (a + b) / 6) (f a) (f b)
  add : ∀ a b, a.length = n → b.length = n →
    f (List.zipWith (· + ·) a b) = List.zipWith (· + ·) (f a) (f b)

/-- The points have as many variables and parameters as the state. -/
theorem solvedAt_len (dx : StepSolve K) (nx np : Nat) (hdx : LenOK dx nx np) (rk4 : Bool) (x t h : List K)
    (hx : x.length = nx) (ht : t.length = np) (hh : h.length = np) :
    ∀ p ∈ solvedAt dx rk4 x t h, p.1.length = nx ∧ p.2.length = np := by
  cases rk4 with
  | false =>
    intro p hp
    simp only [solvedAt, Bool.false_eq_true, if_false, List.mem_singleton] at hp
    subst hp
    exact ⟨hx, ht⟩
  | true =>
    simp only [solvedAt, if_true]
    have lt2 : (List.zipWith (fun a b => a + 2⁻¹ * b) t h).length = np := by simp [ht, hh]
    intro p hp
    rcases List.mem_cons.1 hp with rfl | hp
    · exact ⟨hx, ht⟩
    cases h1 : dx x t h with
    | error e => rw [h1] at hp; cases hp
    | ok d1 =>
      have l1 := hdx _ _ _ _ hx ht hh h1
      rw [h1] at hp
      dsimp only at hp
      have lx2 : (List.zipWith (fun a b => a + 2⁻¹ * b) x d1).length = nx := by simp [hx, l1]
      rcases List.mem_cons.1 hp with rfl | hp
      · exact ⟨lx2, lt2⟩
      cases h2 : dx (List.zipWith (fun a b => a + 2⁻¹ * b) x d1) (List.zipWith (fun a b => a + 2⁻¹ * b) t h)
          h with
      | error e => rw [h2] at hp; cases hp
      | ok d2 =>
        have l2 := hdx _ _ _ _ lx2 lt2 hh h2
        rw [h2] at hp
        dsimp only at hp
        have lx3 : (List.zipWith (fun a b => a + 2⁻¹ * b) x d2).length = nx := by simp [hx, l2]
        rcases List.mem_cons.1 hp with rfl | hp
        · exact ⟨lx3, lt2⟩
        cases h3 : dx (List.zipWith (fun a b => a + 2⁻¹ * b) x d2) (List.zipWith (fun a b => a + 2⁻¹ * b) t h)
            h with
        | error e => rw [h3] at hp; cases hp
        | ok d3 =>
          have l3 := hdx _ _ _ _ lx3 lt2 hh h3
          rw [h3] at hp
          simp only [List.mem_singleton] at hp
          subst hp
          exact ⟨by simp [hx, l3], by simp [ht, hh]⟩

/-- If at each of the points of a step the second solver returns what corresponds to the answer of the first,
then so does the whole step. -/
theorem jaxIncrement_map (dx₁ dx₂ : StepSolve K) (nx np mx mp : Nat) (hdx : LenOK dx₁ nx np)
    (fx ft : List K → List K) (cx : Combines nx mx fx) (ct : Combines np mp ft) (rk4 : Bool)
    (x t h d : List K) (hx : x.length = nx) (ht : t.length = np) (hh : h.length = np)
    (hop : ∀ p ∈ solvedAt dx₁ rk4 x t h, ∀ d, dx₁ p.1 p.2 h = .ok d →
      dx₂ (fx p.1) (ft p.2) (ft h) = .ok (fx d))
    (hd : jaxIncrement dx₁ rk4 x t h = .ok d) :
    jaxIncrement dx₂ rk4 (fx x) (ft t) (ft h) = .ok (fx d) := by
  cases rk4 with
  | false =>
    simp only [jaxIncrement, Bool.false_eq_true, if_false] at hd ⊢
    exact hop (x, t) (by simp [solvedAt]) d hd
  | true =>
    simp only [jaxIncrement, if_true, bind, Except.bind] at hd ⊢
    simp only [solvedAt, if_true] at hop
    have lt2 : (List.zipWith (fun a b => a + 2⁻¹ * b) t h).length = np := by simp [ht, hh]
    have lt4 : (List.zipWith (fun a b => a + b) t h).length = np := by simp [ht, hh]
    cases h1 : dx₁ x t h with
    | error e => rw [h1] at hd; cases hd
    | ok d1 =>
      have l1 := hdx _ _ _ _ hx ht hh h1
      rw [h1] at hd hop
      dsimp only at hd hop
      rw [vzip_ok _ _ _ (by omega), vzip_ok _ _ _ (by omega)] at hd
      dsimp only at hd
      have lx2 : (List.zipWith (fun a b => a + 2⁻¹ * b) x d1).length = nx := by simp [hx, l1]
      rw [hop (x, t) (by simp) d1 h1]
      dsimp only
      rw [vzip_ok _ _ _ (by rw [cx.length _ hx, cx.length _ l1]), vzip_ok _ _ _
        (by rw [ct.length _ ht, ct.length _ hh]), ← cx.half _ _ hx l1, ← ct.half _ _ ht hh]
      dsimp only
      cases h2 : dx₁ (List.zipWith (fun a b => a + 2⁻¹ * b) x d1) (List.zipWith (fun a b => a + 2⁻¹ * b) t h)
          h with
      | error e => rw [h2] at hd; cases hd
      | ok d2 =>
        have l2 := hdx _ _ _ _ lx2 lt2 hh h2
        rw [h2] at hd hop
        dsimp only at hd hop
        rw [vzip_ok _ _ _ (by omega)] at hd
        dsimp only at hd
        have lx3 : (List.zipWith (fun a b => a + 2⁻¹ * b) x d2).length = nx := by simp [hx, l2]
        rw [hop (_, _) (List.mem_cons_of_mem _ (by simp)) d2 h2]
        dsimp only
        rw [vzip_ok _ _ _ (by rw [cx.length _ hx, cx.length _ l2]), ← cx.half _ _ hx l2]
        dsimp only
        cases h3 : dx₁ (List.zipWith (fun a b => a + 2⁻¹ * b) x d2)
            (List.zipWith (fun a b => a + 2⁻¹ * b) t h) h with
        | error e => rw [h3] at hd; cases hd
        | ok d3 =>
          have l3 := hdx _ _ _ _ lx3 lt2 hh h3
          rw [h3] at hd hop
          dsimp only at hd hop
          rw [vzip_ok _ _ _ (by omega), vzip_ok _ _ _ (by omega)] at hd
          dsimp only at hd
          have lx4 : (List.zipWith (fun a b => a + b) x d3).length = nx := by simp [hx, l3]
          rw [hop (_, _) (List.mem_cons_of_mem _ (List.mem_cons_of_mem _ (by simp))) d3 h3]
          dsimp only
          rw [vzip_ok _ _ _ (by rw [cx.length _ hx, cx.length _ l3]), vzip_ok _ _ _
            (by rw [ct.length _ ht, ct.length _ hh]), ← cx.add _ _ hx l3, ← ct.add _ _ ht hh]
          dsimp only
          cases h4 : dx₁ (List.zipWith (fun a b => a + b) x d3) (List.zipWith (fun a b => a + b) t h) h with
          | error e => rw [h4] at hd; cases hd
          | ok d4 =>
            have l4 := hdx _ _ _ _ lx4 lt4 hh h4
            rw [h4] at hd
            dsimp only at hd
            rw [hop (_, _) (List.mem_cons_of_mem _ (List.mem_cons_of_mem _ (by simp))) d4 h4]
            simp only [vrk4, bind, Except.bind, pure, Except.pure] at hd ⊢
            have la : (List.zipWith (fun a b => a + 2 * b) d1 d2).length = nx := by simp [l1, l2]
            have lb : (List.zipWith (fun a b => a + 2 * b) (List.zipWith (fun a b => a + 2 * b) d1 d2)
              d3).length = nx := by simp [l1, l2, l3]
            rw [vzip_ok _ _ _ (by omega)] at hd
            dsimp only at hd
            rw [vzip_ok _ _ _ (by omega)] at hd
            dsimp only at hd
            rw [vzip_ok _ _ _ (by omega)] at hd
            simp only [Except.ok.injEq] at hd
            rw [vzip_ok _ _ _ (by rw [cx.length _ l1, cx.length _ l2]), ← cx.twice _ _ l1 l2]
            dsimp only
            rw [vzip_ok _ _ _ (by rw [cx.length _ la, cx.length _ l3]), ← cx.twice _ _ la l3]
            dsimp only
            rw [vzip_ok _ _ _ (by rw [cx.length _ lb, cx.length _ l4]), ← cx.sixth _ _ lb l4, hd]

end Verif
