import Verif.Lemmas.Keep

/-!
# One step when a parameter is a number, or a variable fixed by an equation
-/

namespace Verif

theorem toVec_append_left {n m : Nat} (a b : List ℝ) (ha : a.length = n) (i : Fin n) :
    toVec (n + m) (a ++ b) (Fin.castAdd m i) = toVec n a i := by
  unfold toVec
  rw [Fin.val_castAdd, List.getElem?_append_left (by rw [ha]; exact i.isLt)]

theorem toVec_append_right {n m : Nat} (a b : List ℝ) (ha : a.length = n) (i : Fin m) :
    toVec (n + m) (a ++ b) (Fin.natAdd n i) = toVec m b i := by
  unfold toVec
  rw [Fin.val_natAdd, List.getElem?_append_right (by omega), ha, Nat.add_sub_cancel_left]

theorem getD_toVec {m : Nat} (b : List ℝ) (i : Fin m) : b.getD i 0 = toVec m b i := by
  unfold toVec
  rw [List.getD_eq_getElem?_getD]

/-- A parameter that does not move may be written as a number. -/
theorem solve_number {n p r : Nat} (G₁ G₂ : List ℝ → List ℝ) (ok₁ ok₂ : List ℝ → Prop)
    (A₁ : (Fin n → ℝ) → (Fin (p + r) → ℝ) → Matrix (Fin n) (Fin n) ℝ)
    (B₁ : (Fin n → ℝ) → (Fin (p + r) → ℝ) → Matrix (Fin n) (Fin (p + r)) ℝ)
    (A₂ : (Fin n → ℝ) → (Fin p → ℝ) → Matrix (Fin n) (Fin n) ℝ)
    (B₂ : (Fin n → ℝ) → (Fin p → ℝ) → Matrix (Fin n) (Fin p) ℝ)
    (D₁ : DerivativesOf G₁ ok₁ A₁ B₁) (D₂ : DerivativesOf G₂ ok₂ A₂ B₂) (u w : List ℝ) (hu : u.length = r)
    (hwl : w.length = r) (hw : ∀ i : Fin r, toVec r w i = 0)
    (hG : ∀ x t : List ℝ, x.length = n → t.length = p → G₂ (x ++ t) = G₁ (x ++ (t ++ u)))
    (x t h d : List ℝ) (hx : x.length = n) (ht : t.length = p) (hh : h.length = p)
    (h₁ : ok₁ (x ++ (t ++ u))) (h₂ : ok₂ (x ++ t))
    (hd : (vecJac A₁ B₁).solve x (t ++ u) (h ++ w) = .ok d) :
    (vecJac A₂ B₂).solve x t h = .ok d := by
  have ltu : (t ++ u).length = p + r := by rw [List.length_append, ht, hu]
  obtain ⟨hdet, hs⟩ := (vecJac A₁ B₁).solve_spec _ _ _ d hd
  have ex := ofFn_toVec n x hx
  have et := ofFn_toVec (p + r) _ ltu
  have et2 := ofFn_toVec p t ht
  obtain ⟨a1, b1⟩ := D₁ (toVec n x) (toVec (p + r) (t ++ u)) (by rw [ex, et]; exact h₁)
  obtain ⟨a2, b2⟩ := D₂ (toVec n x) (toVec p t) (by rw [ex, et2]; exact h₂)
  rw [ex, et] at a1 b1
  rw [ex, et2] at a2 b2
  have hA : A₁ (toVec n x) (toVec (p + r) (t ++ u)) = A₂ (toVec n x) (toVec p t) := by
    ext i j
    refine (a1 i j).unique ((a2 i j).congr_of_eventuallyEq (Filter.Eventually.of_forall fun v => ?_))
    dsimp only
    rw [List.set_append_left _ _ (by rw [hx]; exact j.isLt), List.set_append_left _ _ (by rw [hx]; exact j.isLt),
      hG _ _ (by rw [List.length_set, hx]) ht]
  have hB : ∀ (i : Fin n) (j : Fin p), B₁ (toVec n x) (toVec (p + r) (t ++ u)) i (Fin.castAdd r j) =
      B₂ (toVec n x) (toVec p t) i j := by
    intro i j
    have e1 := b1 i (Fin.castAdd r j)
    have e2 := b2 i j
    rw [toVec_append_left _ _ ht] at e1
    refine e1.unique (e2.congr_of_eventuallyEq (Filter.Eventually.of_forall fun v => ?_))
    dsimp only
    rw [List.set_append_right _ _ (by rw [hx]; omega), hx, Nat.add_sub_cancel_left,
      List.set_append_left _ _ (by rw [ht]; exact j.isLt), List.set_append_right _ _ (by rw [hx]; omega), hx,
      Nat.add_sub_cancel_left, hG _ _ hx (by rw [List.length_set, ht])]
    rfl
  have ld := (vecJac A₁ B₁).lenOK _ _ _ d hx ltu (by rw [List.length_append, hh, hwl]) hd
  have hu2 : IsUnit (A₂ (toVec n x) (toVec p t)).det := hA ▸ hdet
  have hsol := (vecJac A₂ B₂).solve_of_isUnit x t h hu2
  rw [hsol]
  obtain ⟨-, hs2⟩ := (vecJac A₂ B₂).solve_spec _ _ _ _ hsol
  rw [toVec_ofFn] at hs2
  congr 1
  apply toVec_inj n _ _ (by rw [List.length_ofFn]) ld
  rw [toVec_ofFn]
  apply mulVec_inj_of_isUnit _ hu2
  refine (eq_neg_of_add_eq_zero_left hs2).trans ?_
  funext i
  have hsi := congrFun hs i
  simp only [Pi.add_apply, Pi.zero_apply, Matrix.mulVec, dotProduct] at hsi
  rw [Fin.sum_univ_add] at hsi
  change (∑ j : Fin n, A₁ (toVec n x) (toVec (p + r) (t ++ u)) i j * toVec n d j) +
      (∑ j : Fin p, B₁ (toVec n x) (toVec (p + r) (t ++ u)) i (Fin.castAdd r j) *
        toVec (p + r) (h ++ w) (Fin.castAdd r j) + ∑ j : Fin r, B₁ (toVec n x) (toVec (p + r) (t ++ u)) i
        (Fin.natAdd p j) * toVec (p + r) (h ++ w) (Fin.natAdd p j)) = 0 at hsi
  simp only [hA, hB, toVec_append_left _ _ hh, toVec_append_right _ _ hh, hw, mul_zero, Finset.sum_const_zero,
    add_zero] at hsi
  show -(∑ j : Fin p, B₂ (toVec n x) (toVec p t) i j * toVec p h j) =
    ∑ j : Fin n, A₂ (toVec n x) (toVec p t) i j * toVec n d j
  linarith

section
variable {n m p : Nat} (G₁ G₂ : List ℝ → List ℝ) (ok₁ ok₂ : List ℝ → Prop)
  (A₁ : (Fin (n + m) → ℝ) → (Fin (p + m) → ℝ) → Matrix (Fin (n + m)) (Fin (n + m)) ℝ)
  (B₁ : (Fin (n + m) → ℝ) → (Fin (p + m) → ℝ) → Matrix (Fin (n + m)) (Fin (p + m)) ℝ)
  (A₂ : (Fin n → ℝ) → (Fin (p + m) → ℝ) → Matrix (Fin n) (Fin n) ℝ)
  (B₂ : (Fin n → ℝ) → (Fin (p + m) → ℝ) → Matrix (Fin n) (Fin (p + m)) ℝ)

theorem fixed_lower (D₁ : DerivativesOf G₁ ok₁ A₁ B₁)
    (hF : ∀ x z t u : List ℝ, x.length = n → z.length = m → t.length = p → u.length = m → ∀ i : Nat, i < m →
      (G₁ ((x ++ z) ++ (t ++ u))).getD (n + i) 0 = z.getD i 0 - u.getD i 0)
    (x z t u : List ℝ) (hx : x.length = n) (hz : z.length = m) (ht : t.length = p) (hu : u.length = m)
    (h₁ : ok₁ ((x ++ z) ++ (t ++ u))) :
    (∀ (i : Fin m) (j : Fin n), A₁ (toVec (n + m) (x ++ z)) (toVec (p + m) (t ++ u)) (Fin.natAdd n i)
      (Fin.castAdd m j) = 0) ∧
    (∀ (i : Fin m) (j : Fin m), A₁ (toVec (n + m) (x ++ z)) (toVec (p + m) (t ++ u)) (Fin.natAdd n i)
      (Fin.natAdd n j) = if i = j then 1 else 0) ∧
    (∀ (i : Fin m) (j : Fin p), B₁ (toVec (n + m) (x ++ z)) (toVec (p + m) (t ++ u)) (Fin.natAdd n i)
      (Fin.castAdd m j) = 0) ∧
    ∀ (i : Fin m) (j : Fin m), B₁ (toVec (n + m) (x ++ z)) (toVec (p + m) (t ++ u)) (Fin.natAdd n i)
      (Fin.natAdd p j) = if i = j then -1 else 0 := by
  have lxz : (x ++ z).length = n + m := by rw [List.length_append, hx, hz]
  have ltu : (t ++ u).length = p + m := by rw [List.length_append, ht, hu]
  have ex := ofFn_toVec (n + m) _ lxz
  have et := ofFn_toVec (p + m) _ ltu
  obtain ⟨a1, b1⟩ := D₁ (toVec (n + m) (x ++ z)) (toVec (p + m) (t ++ u)) (by rw [ex, et]; exact h₁)
  rw [ex, et] at a1 b1
  refine ⟨fun i j => ?_, fun i j => ?_, fun i j => ?_, fun i j => ?_⟩
  · refine (a1 (Fin.natAdd n i) (Fin.castAdd m j)).unique ?_
    refine (hasDerivAt_const _ (z.getD i 0 - u.getD i 0)).congr_of_eventuallyEq (Filter.Eventually.of_forall fun v => ?_)
    dsimp only
    rw [List.set_append_left _ _ (by rw [lxz]; exact (Fin.castAdd m j).isLt), List.set_append_left _ _
      (by rw [hx]; exact j.isLt)]
    exact hF _ z t u (by rw [List.length_set, hx]) hz ht hu i i.isLt
  · refine (a1 (Fin.natAdd n i) (Fin.natAdd n j)).unique ?_
    have key : (fun v => (G₁ (((x ++ z) ++ (t ++ u)).set (Fin.natAdd n j) v)).getD (Fin.natAdd n i) 0) =
        fun v => (if i = j then v else z.getD i 0) - u.getD i 0 := by
      funext v
      rw [List.set_append_left _ _ (by rw [lxz]; exact (Fin.natAdd n j).isLt), List.set_append_right _ _
        (by rw [hx]; simp), hx, Fin.val_natAdd, Nat.add_sub_cancel_left]
      refine (hF x _ t u hx (by rw [List.length_set, hz]) ht hu i i.isLt).trans ?_
      congr 1
      rw [List.getD_eq_getElem?_getD, List.getElem?_set]
      by_cases hij : i = j
      · subst hij
        simp [hz]
      · rw [if_neg hij, if_neg (fun e => hij (Fin.ext e.symm)), List.getD_eq_getElem?_getD]
    rw [key]
    split
    · exact (hasDerivAt_id _).sub_const _
    · exact hasDerivAt_const _ _
  · refine (b1 (Fin.natAdd n i) (Fin.castAdd m j)).unique ?_
    refine (hasDerivAt_const _ (z.getD i 0 - u.getD i 0)).congr_of_eventuallyEq (Filter.Eventually.of_forall fun v => ?_)
    dsimp only
    rw [List.set_append_right _ _ (by rw [lxz]; omega), lxz, Nat.add_sub_cancel_left, List.set_append_left _ _
      (by rw [ht]; exact j.isLt)]
    exact hF x z _ u hx hz (by rw [List.length_set, ht]) hu i i.isLt
  · refine (b1 (Fin.natAdd n i) (Fin.natAdd p j)).unique ?_
    have key : (fun v => (G₁ (((x ++ z) ++ (t ++ u)).set (n + m + (Fin.natAdd p j : Nat)) v)).getD (Fin.natAdd n i) 0) =
        fun v => z.getD i 0 - (if i = j then v else u.getD i 0) := by
      funext v
      rw [List.set_append_right _ _ (by rw [lxz]; omega), lxz, Nat.add_sub_cancel_left, List.set_append_right _ _
        (by rw [ht]; simp), ht, Fin.val_natAdd, Nat.add_sub_cancel_left]
      refine (hF x z t _ hx hz ht (by rw [List.length_set, hu]) i i.isLt).trans ?_
      congr 1
      rw [List.getD_eq_getElem?_getD, List.getElem?_set]
      by_cases hij : i = j
      · subst hij
        simp [hu]
      · rw [if_neg hij, if_neg (fun e => hij (Fin.ext e.symm)), List.getD_eq_getElem?_getD]
    rw [key]
    split
    · exact (hasDerivAt_id _).const_sub _
    · exact hasDerivAt_const _ _

/-- A variable fixed at a parameter moves with it. -/
theorem solve_moves (D₁ : DerivativesOf G₁ ok₁ A₁ B₁)
    (hF : ∀ x z t u : List ℝ, x.length = n → z.length = m → t.length = p → u.length = m → ∀ i : Nat, i < m →
      (G₁ ((x ++ z) ++ (t ++ u))).getD (n + i) 0 = z.getD i 0 - u.getD i 0)
    (x z t u h k d : List ℝ) (hx : x.length = n) (hz : z.length = m) (ht : t.length = p) (hu : u.length = m)
    (hh : h.length = p) (hk : k.length = m) (h₁ : ok₁ ((x ++ z) ++ (t ++ u)))
    (hd : (vecJac A₁ B₁).solve (x ++ z) (t ++ u) (h ++ k) = .ok d) : d.drop n = k := by
  have lxz : (x ++ z).length = n + m := by rw [List.length_append, hx, hz]
  have ltu : (t ++ u).length = p + m := by rw [List.length_append, ht, hu]
  have lhk : (h ++ k).length = p + m := by rw [List.length_append, hh, hk]
  have ld := (vecJac A₁ B₁).lenOK _ _ _ d lxz ltu lhk hd
  obtain ⟨-, hs⟩ := (vecJac A₁ B₁).solve_spec _ _ _ d hd
  obtain ⟨c1, c2, c3, c4⟩ := fixed_lower G₁ ok₁ A₁ B₁ D₁ hF x z t u hx hz ht hu h₁
  apply toVec_inj m _ _ (by rw [List.length_drop, ld]; omega) hk
  funext i
  have hsi := congrFun hs (Fin.natAdd n i)
  simp only [Pi.add_apply, Pi.zero_apply, Matrix.mulVec, dotProduct] at hsi
  rw [Fin.sum_univ_add, Fin.sum_univ_add] at hsi
  change (∑ j : Fin n, A₁ (toVec (n + m) (x ++ z)) (toVec (p + m) (t ++ u)) (Fin.natAdd n i) (Fin.castAdd m j) *
      toVec (n + m) d (Fin.castAdd m j) + ∑ j : Fin m, A₁ (toVec (n + m) (x ++ z)) (toVec (p + m) (t ++ u))
      (Fin.natAdd n i) (Fin.natAdd n j) * toVec (n + m) d (Fin.natAdd n j)) +
      (∑ j : Fin p, B₁ (toVec (n + m) (x ++ z)) (toVec (p + m) (t ++ u)) (Fin.natAdd n i) (Fin.castAdd m j) *
      toVec (p + m) (h ++ k) (Fin.castAdd m j) + ∑ j : Fin m, B₁ (toVec (n + m) (x ++ z)) (toVec (p + m) (t ++ u))
      (Fin.natAdd n i) (Fin.natAdd p j) * toVec (p + m) (h ++ k) (Fin.natAdd p j)) = 0 at hsi
  simp only [c1, c2, c3, c4, zero_mul, Finset.sum_const_zero, zero_add, ite_mul, one_mul, neg_mul,
    Finset.sum_ite_eq, Finset.mem_univ, if_true, toVec_append_right _ _ hh] at hsi
  have e : toVec m (d.drop n) i = toVec (n + m) d (Fin.natAdd n i) := by
    unfold toVec
    rw [List.getElem?_drop, Fin.val_natAdd]
  rw [e]
  linarith

/-- Where the fixed variable has the value of the parameter, the other variables move as in the model without it. -/
theorem solve_fixed (D₁ : DerivativesOf G₁ ok₁ A₁ B₁) (D₂ : DerivativesOf G₂ ok₂ A₂ B₂)
    (hG : ∀ x z t u : List ℝ, x.length = n → z.length = m → t.length = p → u.length = m → ∀ i : Nat, i < n →
      (G₁ ((x ++ z) ++ (t ++ u))).getD i 0 = (G₂ (x ++ (t ++ z))).getD i 0)
    (hF : ∀ x z t u : List ℝ, x.length = n → z.length = m → t.length = p → u.length = m → ∀ i : Nat, i < m →
      (G₁ ((x ++ z) ++ (t ++ u))).getD (n + i) 0 = z.getD i 0 - u.getD i 0)
    (x z t h k d : List ℝ) (hx : x.length = n) (hz : z.length = m) (ht : t.length = p)
    (hh : h.length = p) (hk : k.length = m) (h₁ : ok₁ ((x ++ z) ++ (t ++ z))) (h₂ : ok₂ (x ++ (t ++ z)))
    (hd : (vecJac A₁ B₁).solve (x ++ z) (t ++ z) (h ++ k) = .ok d) :
    (vecJac A₂ B₂).solve x (t ++ z) (h ++ k) = .ok (d.take n) := by
  have lxz : (x ++ z).length = n + m := by rw [List.length_append, hx, hz]
  have ltu : (t ++ z).length = p + m := by rw [List.length_append, ht, hz]
  have lhk : (h ++ k).length = p + m := by rw [List.length_append, hh, hk]
  have ld := (vecJac A₁ B₁).lenOK _ _ _ d lxz ltu lhk hd
  have hmove := solve_moves G₁ ok₁ A₁ B₁ D₁ hF x z t z h k d hx hz ht hz hh hk h₁ hd
  obtain ⟨hdet, hs⟩ := (vecJac A₁ B₁).solve_spec _ _ _ d hd
  obtain ⟨c1, c2, -, -⟩ := fixed_lower G₁ ok₁ A₁ B₁ D₁ hF x z t z hx hz ht hz h₁
  have ex := ofFn_toVec (n + m) _ lxz
  have et := ofFn_toVec (p + m) _ ltu
  have ex2 := ofFn_toVec n _ hx
  obtain ⟨a1, b1⟩ := D₁ (toVec (n + m) (x ++ z)) (toVec (p + m) (t ++ z)) (by rw [ex, et]; exact h₁)
  obtain ⟨a2, b2⟩ := D₂ (toVec n x) (toVec (p + m) (t ++ z)) (by rw [ex2, et]; exact h₂)
  rw [ex, et] at a1 b1
  rw [ex2, et] at a2 b2
  have hA : ∀ (i j : Fin n), A₁ (toVec (n + m) (x ++ z)) (toVec (p + m) (t ++ z)) (Fin.castAdd m i) (Fin.castAdd m j) =
      A₂ (toVec n x) (toVec (p + m) (t ++ z)) i j := by
    intro i j
    have e1 := a1 (Fin.castAdd m i) (Fin.castAdd m j)
    rw [toVec_append_left _ _ hx] at e1
    refine e1.unique ((a2 i j).congr_of_eventuallyEq (Filter.Eventually.of_forall fun v => ?_))
    dsimp only
    rw [List.set_append_left _ _ (by rw [lxz]; exact (Fin.castAdd m j).isLt), List.set_append_left _ _
      (by rw [hx]; exact j.isLt), List.set_append_left _ _ (by rw [hx]; exact j.isLt)]
    exact hG _ z t z (by rw [List.length_set, hx]) hz ht hz i i.isLt
  have hC : ∀ (i : Fin n) (j : Fin m), A₁ (toVec (n + m) (x ++ z)) (toVec (p + m) (t ++ z)) (Fin.castAdd m i)
      (Fin.natAdd n j) = B₂ (toVec n x) (toVec (p + m) (t ++ z)) i (Fin.natAdd p j) := by
    intro i j
    have e1 := a1 (Fin.castAdd m i) (Fin.natAdd n j)
    have e2 := b2 i (Fin.natAdd p j)
    rw [toVec_append_right _ _ hx] at e1
    rw [toVec_append_right _ _ ht] at e2
    refine e1.unique (e2.congr_of_eventuallyEq (Filter.Eventually.of_forall fun v => ?_))
    dsimp only
    rw [List.set_append_left _ _ (by rw [lxz]; exact (Fin.natAdd n j).isLt), List.set_append_right _ _
      (by rw [hx]; simp), hx, Fin.val_natAdd, Nat.add_sub_cancel_left, List.set_append_right _ _ (by rw [hx]; omega),
      hx, Nat.add_sub_cancel_left, List.set_append_right _ _ (by rw [ht]; simp), ht, Fin.val_natAdd,
      Nat.add_sub_cancel_left]
    exact hG x _ t z hx (by rw [List.length_set, hz]) ht hz i i.isLt
  have hB : ∀ (i : Fin n) (j : Fin p), B₁ (toVec (n + m) (x ++ z)) (toVec (p + m) (t ++ z)) (Fin.castAdd m i)
      (Fin.castAdd m j) = B₂ (toVec n x) (toVec (p + m) (t ++ z)) i (Fin.castAdd m j) := by
    intro i j
    refine (b1 (Fin.castAdd m i) (Fin.castAdd m j)).unique ((b2 i (Fin.castAdd m j)).congr_of_eventuallyEq
      (Filter.Eventually.of_forall fun v => ?_))
    dsimp only
    rw [List.set_append_right _ _ (by rw [lxz]; omega), lxz, Nat.add_sub_cancel_left, List.set_append_left _ _
      (by rw [ht]; exact j.isLt), List.set_append_right _ _ (by rw [hx]; omega), hx, Nat.add_sub_cancel_left,
      List.set_append_left _ _ (by rw [ht]; exact j.isLt)]
    exact hG x z _ z hx hz (by rw [List.length_set, ht]) hz i i.isLt
  have hB0 : ∀ (i : Fin n) (j : Fin m), B₁ (toVec (n + m) (x ++ z)) (toVec (p + m) (t ++ z)) (Fin.castAdd m i)
      (Fin.natAdd p j) = 0 := by
    intro i j
    refine (b1 (Fin.castAdd m i) (Fin.natAdd p j)).unique ((hasDerivAt_const _ ((G₂ (x ++ (t ++ z))).getD i
      0)).congr_of_eventuallyEq (Filter.Eventually.of_forall fun v => ?_))
    dsimp only
    rw [List.set_append_right _ _ (by rw [lxz]; omega), lxz, Nat.add_sub_cancel_left, List.set_append_right _ _
      (by rw [ht]; simp)]
    exact hG x z t _ hx hz ht (by rw [List.length_set, hz]) i i.isLt
  have hblock : (A₁ (toVec (n + m) (x ++ z)) (toVec (p + m) (t ++ z))).submatrix finSumFinEquiv finSumFinEquiv =
      Matrix.fromBlocks (A₂ (toVec n x) (toVec (p + m) (t ++ z)))
        (Matrix.of fun (i : Fin n) (j : Fin m) => B₂ (toVec n x) (toVec (p + m) (t ++ z)) i (Fin.natAdd p j)) 0 1 := by
    ext i j
    rcases i with i | i <;> rcases j with j | j
    · simpa using hA i j
    · simpa using hC i j
    · simpa using c1 i j
    · simpa [Matrix.one_apply] using c2 i j
  have hu2 : IsUnit (A₂ (toVec n x) (toVec (p + m) (t ++ z))).det := by
    have hu' : IsUnit (A₁ (toVec (n + m) (x ++ z)) (toVec (p + m) (t ++ z))).det := hdet
    rw [← Matrix.det_submatrix_equiv_self finSumFinEquiv, hblock, Matrix.det_fromBlocks_zero₂₁, Matrix.det_one,
      mul_one] at hu'
    exact hu'
  have ldn : (d.take n).length = n := by rw [List.length_take]; omega
  have hsol := (vecJac A₂ B₂).solve_of_isUnit x (t ++ z) (h ++ k) hu2
  rw [hsol]
  obtain ⟨-, hs2⟩ := (vecJac A₂ B₂).solve_spec _ _ _ _ hsol
  rw [toVec_ofFn] at hs2
  congr 1
  apply toVec_inj n _ _ (by rw [List.length_ofFn]) ldn
  rw [toVec_ofFn]
  apply mulVec_inj_of_isUnit _ hu2
  refine (eq_neg_of_add_eq_zero_left hs2).trans ?_
  funext i
  have hsi := congrFun hs (Fin.castAdd m i)
  simp only [Pi.add_apply, Pi.zero_apply, Matrix.mulVec, dotProduct] at hsi
  rw [Fin.sum_univ_add, Fin.sum_univ_add] at hsi
  change (∑ j : Fin n, A₁ (toVec (n + m) (x ++ z)) (toVec (p + m) (t ++ z)) (Fin.castAdd m i) (Fin.castAdd m j) *
      toVec (n + m) d (Fin.castAdd m j) + ∑ j : Fin m, A₁ (toVec (n + m) (x ++ z)) (toVec (p + m) (t ++ z))
      (Fin.castAdd m i) (Fin.natAdd n j) * toVec (n + m) d (Fin.natAdd n j)) +
      (∑ j : Fin p, B₁ (toVec (n + m) (x ++ z)) (toVec (p + m) (t ++ z)) (Fin.castAdd m i) (Fin.castAdd m j) *
      toVec (p + m) (h ++ k) (Fin.castAdd m j) + ∑ j : Fin m, B₁ (toVec (n + m) (x ++ z)) (toVec (p + m) (t ++ z))
      (Fin.castAdd m i) (Fin.natAdd p j) * toVec (p + m) (h ++ k) (Fin.natAdd p j)) = 0 at hsi
  have e1 : ∀ j : Fin n, toVec (n + m) d (Fin.castAdd m j) = toVec n (d.take n) j := by
    intro j
    unfold toVec
    rw [List.getElem?_take_of_lt j.isLt, Fin.val_castAdd]
  have e2 : ∀ j : Fin m, toVec (n + m) d (Fin.natAdd n j) = toVec m k j := by
    intro j
    rw [← hmove]
    unfold toVec
    rw [List.getElem?_drop, Fin.val_natAdd]
  simp only [hA, hC, hB, hB0, zero_mul, Finset.sum_const_zero, add_zero, e1, e2, toVec_append_left _ _ hh] at hsi
  show -(∑ j : Fin (p + m), B₂ (toVec n x) (toVec (p + m) (t ++ z)) i j * toVec (p + m) (h ++ k) j) =
    ∑ j : Fin n, A₂ (toVec n x) (toVec (p + m) (t ++ z)) i j * toVec n (d.take n) j
  rw [Fin.sum_univ_add]
  simp only [toVec_append_left _ _ hh, toVec_append_right _ _ hh]
  linarith

end

end Verif
