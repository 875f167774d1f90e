import Verif.Lemmas.Satellite

/-!
# Runs of a model whose states keep a relation
-/

namespace Verif

section
variable {K : Type _} [Field K]

/-- The points of a step from a state in a relation are in that relation. -/
theorem solvedAt_keep (dx : StepSolve K) (rk4 : Bool) (nx np : Nat) (hdx : LenOK dx nx np) (x t h : List K)
    (hx : x.length = nx) (ht : t.length = np) (hh : h.length = np) (φ : List K → List K → Prop) (δ : List K → Prop)
    (hmid : ∀ x t d : List K, x.length = nx → t.length = np → d.length = nx → φ x t → δ d →
      φ (List.zipWith (fun a b => a + 2⁻¹ * b) x d) (List.zipWith (fun a b => a + 2⁻¹ * b) t h))
    (hend : ∀ x t d : List K, x.length = nx → t.length = np → d.length = nx → φ x t → δ d →
      φ (List.zipWith (· + ·) x d) (List.zipWith (· + ·) t h))
    (h0 : φ x t) (hδ : ∀ p ∈ solvedAt dx rk4 x t h, ∀ d, dx p.1 p.2 h = .ok d → δ d) :
    ∀ p ∈ solvedAt dx rk4 x t h, φ p.1 p.2 := by
  cases rk4 with
  | false =>
    intro p hp
    simp only [solvedAt, Bool.false_eq_true, if_false, List.mem_singleton] at hp
    subst hp
    exact h0
  | true =>
    simp only [solvedAt, if_true] at hδ ⊢
    have lt2 : (List.zipWith (fun a b => a + 2⁻¹ * b) t h).length = np := by simp [ht, hh]
    intro p hp
    rcases List.mem_cons.1 hp with rfl | hp
    · exact h0
    cases h1 : dx x t h with
    | error e => rw [h1] at hp; cases hp
    | ok d1 =>
      have l1 := hdx _ _ _ _ hx ht hh h1
      have k1 := hδ (x, t) (by simp) d1 h1
      rw [h1] at hp hδ
      dsimp only at hp hδ
      have lx2 : (List.zipWith (fun a b => a + 2⁻¹ * b) x d1).length = nx := by simp [hx, l1]
      rcases List.mem_cons.1 hp with rfl | hp
      · exact hmid _ _ _ hx ht l1 h0 k1
      cases h2 : dx (List.zipWith (fun a b => a + 2⁻¹ * b) x d1) (List.zipWith (fun a b => a + 2⁻¹ * b) t h)
          h with
      | error e => rw [h2] at hp; cases hp
      | ok d2 =>
        have l2 := hdx _ _ _ _ lx2 lt2 hh h2
        have k2 := hδ (_, _) (List.mem_cons_of_mem _ (by simp)) d2 h2
        rw [h2] at hp hδ
        dsimp only at hp hδ
        have lx3 : (List.zipWith (fun a b => a + 2⁻¹ * b) x d2).length = nx := by simp [hx, l2]
        rcases List.mem_cons.1 hp with rfl | hp
        · exact hmid _ _ _ hx ht l2 h0 k2
        cases h3 : dx (List.zipWith (fun a b => a + 2⁻¹ * b) x d2) (List.zipWith (fun a b => a + 2⁻¹ * b) t h)
            h with
        | error e => rw [h3] at hp; cases hp
        | ok d3 =>
          have l3 := hdx _ _ _ _ lx3 lt2 hh h3
          have k3 := hδ (_, _) (List.mem_cons_of_mem _ (List.mem_cons_of_mem _ (by simp))) d3 h3
          rw [h3] at hp
          simp only [List.mem_singleton] at hp
          subst hp
          exact hend _ _ _ hx ht l3 h0 k3

/-- The direction of a step combines directions found at its points. -/
theorem jaxIncrement_keep (dx : StepSolve K) (rk4 : Bool) (nx np : Nat) (hdx : LenOK dx nx np) (x t h d : List K)
    (hx : x.length = nx) (ht : t.length = np) (hh : h.length = np) (δ : List K → Prop)
    (hrk : ∀ d1 d2 d3 d4 d : List K, δ d1 → δ d2 → δ d3 → δ d4 → vrk4 d1 d2 d3 d4 = .ok d → δ d)
    (hδ : ∀ p ∈ solvedAt dx rk4 x t h, ∀ d, dx p.1 p.2 h = .ok d → δ d)
    (hd : jaxIncrement dx rk4 x t h = .ok d) : δ d := by
  cases rk4 with
  | false =>
    simp only [jaxIncrement, Bool.false_eq_true, if_false] at hd
    exact hδ (x, t) (by simp [solvedAt]) d hd
  | true =>
    simp only [jaxIncrement, if_true, bind, Except.bind] at hd
    simp only [solvedAt, if_true] at hδ
    have lt2 : (List.zipWith (fun a b => a + 2⁻¹ * b) t h).length = np := by simp [ht, hh]
    cases h1 : dx x t h with
    | error e => rw [h1] at hd; cases hd
    | ok d1 =>
      have l1 := hdx _ _ _ _ hx ht hh h1
      have k1 := hδ (x, t) (by simp) d1 h1
      rw [h1] at hd hδ
      dsimp only at hd hδ
      rw [vzip_ok _ _ _ (by omega), vzip_ok _ _ _ (by omega)] at hd
      dsimp only at hd
      have lx2 : (List.zipWith (fun a b => a + 2⁻¹ * b) x d1).length = nx := by simp [hx, l1]
      cases h2 : dx (List.zipWith (fun a b => a + 2⁻¹ * b) x d1) (List.zipWith (fun a b => a + 2⁻¹ * b) t h)
          h with
      | error e => rw [h2] at hd; cases hd
      | ok d2 =>
        have l2 := hdx _ _ _ _ lx2 lt2 hh h2
        have k2 := hδ (_, _) (List.mem_cons_of_mem _ (by simp)) d2 h2
        rw [h2] at hd hδ
        dsimp only at hd hδ
        rw [vzip_ok _ _ _ (by omega)] at hd
        dsimp only at hd
        have lx3 : (List.zipWith (fun a b => a + 2⁻¹ * b) x d2).length = nx := by simp [hx, l2]
        cases h3 : dx (List.zipWith (fun a b => a + 2⁻¹ * b) x d2)
            (List.zipWith (fun a b => a + 2⁻¹ * b) t h) h with
        | error e => rw [h3] at hd; cases hd
        | ok d3 =>
          have l3 := hdx _ _ _ _ lx3 lt2 hh h3
          have k3 := hδ (_, _) (List.mem_cons_of_mem _ (List.mem_cons_of_mem _ (by simp))) d3 h3
          rw [h3] at hd hδ
          dsimp only at hd hδ
          rw [vzip_ok _ _ _ (by omega), vzip_ok _ _ _ (by omega)] at hd
          dsimp only at hd
          cases h4 : dx (List.zipWith (fun a b => a + b) x d3) (List.zipWith (fun a b => a + b) t h) h with
          | error e => rw [h4] at hd; cases hd
          | ok d4 =>
            have k4 := hδ (_, _) (List.mem_cons_of_mem _ (List.mem_cons_of_mem _ (by simp))) d4 h4
            rw [h4] at hd
            exact hrk _ _ _ _ _ k1 k2 k3 k4 hd

/-- The states of a run from a state in a relation are in that relation. -/
theorem eulerRows_keep (dx : StepSolve K) (nx np : Nat) (hdx : LenOK dx nx np) (h : List K) (hh : h.length = np)
    (φ : List K → List K → Prop) (δ : List K → Prop)
    (hend : ∀ x t d : List K, x.length = nx → t.length = np → d.length = nx → φ x t → δ d →
      φ (List.zipWith (· + ·) x d) (List.zipWith (· + ·) t h))
    (k : Nat) (x t : List K) (hx : x.length = nx) (ht : t.length = np) (R : List (List K × List K))
    (hR : eulerRows dx h k x t = .ok R) (h0 : φ x t)
    (hδ : ∀ (j : Nat) s, j < k → ((x, t) :: R)[j]? = some s → ∀ d, dx s.1 s.2 h = .ok d → δ d) :
    ∀ (j : Nat) s, j ≤ k → ((x, t) :: R)[j]? = some s → φ s.1 s.2 := by
  induction k generalizing x t R with
  | zero =>
    intro j s hj hs
    obtain rfl : j = 0 := by omega
    simp only [List.getElem?_cons_zero, Option.some.injEq] at hs
    subst hs
    exact h0
  | succ k ih =>
    rw [eulerRows] at hR
    cases hd : dx x t h with
    | error e => rw [hd] at hR; cases hR
    | ok d =>
      rw [hd] at hR
      dsimp only at hR
      have ld := hdx _ _ _ _ hx ht hh hd
      cases hr : eulerRows dx h k (List.zipWith (· + ·) x d) (List.zipWith (· + ·) t h) with
      | error e => rw [hr] at hR; cases hR
      | ok r =>
        rw [hr] at hR
        injection hR with hR
        subst hR
        intro j s hj hs
        cases j with
        | zero =>
          simp only [List.getElem?_cons_zero, Option.some.injEq] at hs
          subst hs
          exact h0
        | succ j =>
          rw [List.getElem?_cons_succ] at hs
          exact ih _ _ (by rw [List.length_zipWith, hx, ld, min_self]) (by rw [List.length_zipWith, ht, hh, min_self]) r hr
            (hend _ _ _ hx ht ld h0 (hδ 0 (x, t) (by omega) rfl d hd))
            (fun j s hj hs => hδ (j + 1) s (by omega) (by rw [List.getElem?_cons_succ]; exact hs)) j s (by omega) hs

end

/-- A run of the larger model, restricted to the objects of the smaller one, is a run of the smaller one, if the
directions agree wherever a relation holds that the steps keep. -/
theorem runs_keep (coords : Coords) {vs ps zs us : List ModelObject} (b₁ b₂ : EulerBackend) (hb : b₂.rk4 = b₁.rk4)
    (dx₁ dx₂ : StepSolve ℝ)
    (hdx₁ : LenOK dx₁ (totalSize coords (vs ++ zs)) (totalSize coords (ps ++ us)))
    (hdx₂ : LenOK dx₂ (totalSize coords vs) (totalSize coords ps))
    (data₁ data₂ : Dict Str (NDArray ℝ)) (tf₁ tf₂ : List ℝ) (n : Nat)
    (hc₁ : EulerCall coords (vs ++ zs) (ps ++ us) data₁ tf₁) (hc₂ : EulerCall coords vs ps data₂ tf₂)
    (hn : ((vs ++ zs ++ (ps ++ us)).map ModelObject.name).Nodup)
    (hdv : flatOf data₂ vs = flatOf data₁ vs) (hdp : flatOf data₂ ps = flatOf data₁ ps)
    (htf : tf₂ = tf₁.take (totalSize coords ps))
    (outs₁ : List (NDArray ℝ)) (hrun : runEuler b₁ dx₁ (vs ++ zs) (ps ++ us) coords tf₁ n data₁ = .ok outs₁)
    (φ : List ℝ → List ℝ → Prop) (δ : List ℝ → Prop)
    (h0 : φ (flatOf data₁ (vs ++ zs)) (flatOf data₁ (ps ++ us)))
    (hmid : ∀ x t d : List ℝ, x.length = totalSize coords (vs ++ zs) → t.length = totalSize coords (ps ++ us) →
      d.length = totalSize coords (vs ++ zs) → φ x t → δ d →
      φ (List.zipWith (fun a b => a + 2⁻¹ * b) x d)
        (List.zipWith (fun a b => a + 2⁻¹ * b) t (stepVec n tf₁ (flatOf data₁ (ps ++ us)))))
    (hend : ∀ x t d : List ℝ, x.length = totalSize coords (vs ++ zs) → t.length = totalSize coords (ps ++ us) →
      d.length = totalSize coords (vs ++ zs) → φ x t → δ d →
      φ (List.zipWith (· + ·) x d) (List.zipWith (· + ·) t (stepVec n tf₁ (flatOf data₁ (ps ++ us)))))
    (hrk : ∀ d1 d2 d3 d4 d : List ℝ, δ d1 → δ d2 → δ d3 → δ d4 → vrk4 d1 d2 d3 d4 = .ok d → δ d)
    (hδ : ∀ t, t < n → ∀ s ∈ b₁.points dx₁ (totalSize coords (vs ++ zs))
      (b₁.stateAfter (vs ++ zs) (ps ++ us) data₁ outs₁ t) (stepVec n tf₁ (flatOf data₁ (ps ++ us))),
      ∀ (x t d : List ℝ), x.length = totalSize coords (vs ++ zs) → t.length = totalSize coords (ps ++ us) → s = x ++ t →
        dx₁ x t (stepVec n tf₁ (flatOf data₁ (ps ++ us))) = .ok d → δ d)
    (hop : ∀ t, t < n → ∀ s ∈ b₁.points dx₁ (totalSize coords (vs ++ zs))
      (b₁.stateAfter (vs ++ zs) (ps ++ us) data₁ outs₁ t) (stepVec n tf₁ (flatOf data₁ (ps ++ us))),
      ∀ (x t d : List ℝ), x.length = totalSize coords (vs ++ zs) → t.length = totalSize coords (ps ++ us) → s = x ++ t →
        φ x t → dx₁ x t (stepVec n tf₁ (flatOf data₁ (ps ++ us))) = .ok d →
        dx₂ (x.take (totalSize coords vs)) (t.take (totalSize coords ps))
          ((stepVec n tf₁ (flatOf data₁ (ps ++ us))).take (totalSize coords ps)) =
          .ok (d.take (totalSize coords vs))) :
    ∃ outs₂, runEuler b₂ dx₂ vs ps coords tf₂ n data₂ = .ok outs₂ ∧
      ∀ t, t ≤ n → SameArrays coords (vs ++ zs ++ (ps ++ us)) (vs ++ ps)
        (b₁.stateAfter (vs ++ zs) (ps ++ us) data₁ outs₁ t) (b₂.stateAfter vs ps data₂ outs₂ t) ∧
        φ ((b₁.stateAfter (vs ++ zs) (ps ++ us) data₁ outs₁ t).take (totalSize coords (vs ++ zs)))
          ((b₁.stateAfter (vs ++ zs) (ps ++ us) data₁ outs₁ t).drop (totalSize coords (vs ++ zs))) := by
  have sv := totalSize_append coords vs zs
  have sp := totalSize_append coords ps us
  have sh1 : ∀ o ∈ vs ++ zs, DataFor coords data₁ o := fun o ho => hc₁.shaped o (List.mem_append_left _ ho)
  have sh2 : ∀ o ∈ ps ++ us, DataFor coords data₁ o := fun o ho => hc₁.shaped o (List.mem_append_right _ ho)
  have lx := (flatOf_spec coords data₁ (vs ++ zs) sh1).1
  have lt := (flatOf_spec coords data₁ (ps ++ us) sh2).1
  have tv : ∀ d : Dict Str (NDArray ℝ), (∀ o ∈ vs ++ zs, DataFor coords d o) →
      (flatOf d (vs ++ zs)).take (totalSize coords vs) = flatOf d vs := by
    intro d hd
    rw [flatOf_append, List.take_left' (flatOf_spec coords d vs fun o ho => hd o (List.mem_append_left _ ho)).1]
  have tp : ∀ d : Dict Str (NDArray ℝ), (∀ o ∈ ps ++ us, DataFor coords d o) →
      (flatOf d (ps ++ us)).take (totalSize coords ps) = flatOf d ps := by
    intro d hd
    rw [flatOf_append, List.take_left' (flatOf_spec coords d ps fun o ho => hd o (List.mem_append_left _ ho)).1]
  have px : ∀ l : List ℝ, l.length = totalSize coords (vs ++ zs) →
      pickAt 0 (List.range (totalSize coords vs)) l = l.take (totalSize coords vs) :=
    fun l hl => pickAt_range _ l (by omega)
  have pp : ∀ l : List ℝ, l.length = totalSize coords (ps ++ us) →
      pickAt 0 (List.range (totalSize coords ps)) l = l.take (totalSize coords ps) :=
    fun l hl => pickAt_range _ l (by omega)
  have hlx : ∀ k ∈ List.range (totalSize coords vs), k < totalSize coords (vs ++ zs) := fun k hk => by
    have := List.mem_range.1 hk; omega
  have hlt : ∀ k ∈ List.range (totalSize coords ps), k < totalSize coords (ps ++ us) := fun k hk => by
    have := List.mem_range.1 hk; omega
  have hs : (stepVec n tf₁ (flatOf data₁ (ps ++ us))).length = totalSize coords (ps ++ us) := by
    simp only [stepVec, List.length_zipWith, lt, hc₁.final, min_self]
  have hstep : stepVec n tf₂ (flatOf data₂ ps) =
      pickAt 0 (List.range (totalSize coords ps)) (stepVec n tf₁ (flatOf data₁ (ps ++ us))) := by
    rw [pp _ hs]
    unfold stepVec
    rw [List.take_zipWith, tp data₁ sh2, htf, hdp]
  have hrun' := hrun
  rw [runEuler_eq b₁ dx₁ coords (vs ++ zs) (ps ++ us) data₁ tf₁ n hc₁ hdx₁] at hrun'
  cases hR : eulerRows (jaxIncrement dx₁ b₁.rk4) (stepVec n tf₁ (flatOf data₁ (ps ++ us))) n (flatOf data₁ (vs ++ zs))
      (flatOf data₁ (ps ++ us)) with
  | error e => rw [hR] at hrun'; cases hrun'
  | ok R =>
  have hrows₁ := stateAfter_rows b₁ dx₁ coords (vs ++ zs) (ps ++ us) data₁ tf₁ n hc₁ hdx₁ outs₁ hrun R hR
  have same : ∀ x t, x.length = totalSize coords (vs ++ zs) → t.length = totalSize coords (ps ++ us) →
      ∃ d : Dict Str (NDArray ℝ), (∀ o ∈ vs ++ zs ++ (ps ++ us), DataFor coords d o) ∧
        x ++ t = flatOf d (vs ++ zs ++ (ps ++ us)) ∧
        x.take (totalSize coords vs) ++ t.take (totalSize coords ps) = flatOf d (vs ++ ps) := by
    intro x t hx ht
    obtain ⟨d, hd, hflat⟩ := exists_data coords (vs ++ zs ++ (ps ++ us)) hn (x ++ t)
      (by rw [List.length_append, totalSize_append coords (vs ++ zs), hx, ht])
    have hd1 : ∀ o ∈ vs ++ zs, DataFor coords d o := fun o ho => hd o (List.mem_append_left _ ho)
    have hd2 : ∀ o ∈ ps ++ us, DataFor coords d o := fun o ho => hd o (List.mem_append_right _ ho)
    have l1 := (flatOf_spec coords d (vs ++ zs) hd1).1
    rw [flatOf_append d (vs ++ zs)] at hflat
    obtain ⟨q1, q2⟩ := List.append_inj hflat (by rw [l1, hx])
    exact ⟨d, hd, by rw [flatOf_append d (vs ++ zs), q1, q2],
      by rw [flatOf_append d vs ps, ← tv d hd1, ← tp d hd2, q1, q2]⟩
  have hin : ∀ (j : Nat) s, j < n → ((flatOf data₁ (vs ++ zs), flatOf data₁ (ps ++ us)) :: R)[j]? = some s →
      s.1.length = totalSize coords (vs ++ zs) ∧ s.2.length = totalSize coords (ps ++ us) ∧
      ∀ p ∈ solvedAt dx₁ b₁.rk4 s.1 s.2 (stepVec n tf₁ (flatOf data₁ (ps ++ us))),
        p.1.length = totalSize coords (vs ++ zs) ∧ p.2.length = totalSize coords (ps ++ us) ∧
        p.1 ++ p.2 ∈ b₁.points dx₁ (totalSize coords (vs ++ zs))
          (b₁.stateAfter (vs ++ zs) (ps ++ us) data₁ outs₁ j) (stepVec n tf₁ (flatOf data₁ (ps ++ us))) := by
    intro j s hj hsj
    obtain ⟨s', k1, k2, k3, k4⟩ := hrows₁ j (by omega)
    rw [hsj, Option.some.injEq] at k1
    subst k1
    refine ⟨k3, k4, fun p hp => ?_⟩
    obtain ⟨l1, l2⟩ := solvedAt_len dx₁ _ _ hdx₁ _ _ _ _ k3 k4 hs p hp
    refine ⟨l1, l2, ?_⟩
    unfold EulerBackend.points
    rw [k2, List.take_left' k3, List.drop_left' k3]
    exact List.mem_map.2 ⟨p, hp, rfl⟩
  have hkept := eulerRows_keep (jaxIncrement dx₁ b₁.rk4) _ _ (jaxIncrement_len dx₁ _ _ hdx₁ _) _ hs φ δ hend n _ _ lx lt R hR h0
    (by
      intro j s hj hsj d hd
      obtain ⟨k3, k4, hp⟩ := hin j s hj hsj
      refine jaxIncrement_keep dx₁ b₁.rk4 _ _ hdx₁ _ _ _ d k3 k4 hs δ hrk (fun p hpm d hd => ?_) hd
      obtain ⟨l1, l2, hm⟩ := hp p hpm
      exact hδ j hj _ hm p.1 p.2 d l1 l2 rfl hd)
  have hR₂ := eulerRows_pick (jaxIncrement dx₁ b₁.rk4) (jaxIncrement dx₂ b₁.rk4) _ _
    (jaxIncrement_len dx₁ _ _ hdx₁ _) (List.range (totalSize coords vs)) (List.range (totalSize coords ps)) hlx hlt _ hs
    (fun x t => ∀ p ∈ solvedAt dx₁ b₁.rk4 x t (stepVec n tf₁ (flatOf data₁ (ps ++ us))), ∀ d,
      dx₁ p.1 p.2 (stepVec n tf₁ (flatOf data₁ (ps ++ us))) = .ok d →
      dx₂ (p.1.take (totalSize coords vs)) (p.2.take (totalSize coords ps))
          ((stepVec n tf₁ (flatOf data₁ (ps ++ us))).take (totalSize coords ps)) =
          .ok (d.take (totalSize coords vs)))
    (by
      intro x t d hx ht hok hd
      refine jaxIncrement_map dx₁ dx₂ _ _ _ _ hdx₁ _ _ (pickAt_combines hlx) (pickAt_combines hlt) _ x t _ d
        hx ht hs (fun p hp d hd => ?_) hd
      obtain ⟨hx, ht⟩ := solvedAt_len dx₁ _ _ hdx₁ _ x t _ hx ht hs p hp
      have ld := hdx₁ _ _ _ _ hx ht hs hd
      rw [px _ hx, pp _ ht, pp _ hs, px _ ld]
      exact hok p hp d hd)
    n _ _ lx lt R hR
    (by
      intro j s hj hsj p hp d hd
      obtain ⟨k3, k4, hpt⟩ := hin j s hj hsj
      obtain ⟨l1, l2, hm⟩ := hpt p hp
      refine hop j hj _ hm p.1 p.2 d l1 l2 rfl ?_ hd
      refine solvedAt_keep dx₁ b₁.rk4 _ _ hdx₁ _ _ _ k3 k4 hs φ δ hmid hend (hkept j s (by omega) hsj)
        (fun p hpm d hd => ?_) p hp
      obtain ⟨l1, l2, hm⟩ := hpt p hpm
      exact hδ j hj _ hm p.1 p.2 d l1 l2 rfl hd)
  rw [← hstep, px _ lx, pp _ lt, tv data₁ sh1, tp data₁ sh2, ← hdv, ← hdp, ← hb] at hR₂
  obtain ⟨outs₂, hrun₂⟩ := runEuler_ok_of_rows b₂ dx₂ coords vs ps data₂ tf₂ n hc₂ hdx₂ _ hR₂
  have hrows₂ := stateAfter_rows b₂ dx₂ coords vs ps data₂ tf₂ n hc₂ hdx₂ outs₂ hrun₂ _ hR₂
  refine ⟨outs₂, hrun₂, fun t ht => ?_⟩
  obtain ⟨s₁, k1, k2, k3, k4⟩ := hrows₁ t ht
  obtain ⟨s₂, m1, m2, -, -⟩ := hrows₂ t ht
  have hs₂ : s₂ = (s₁.1.take (totalSize coords vs), s₁.2.take (totalSize coords ps)) := by
    rw [hdv, hdp, ← tv data₁ sh1, ← tp data₁ sh2, ← px _ lx, ← pp _ lt] at m1
    have : ((pickAt 0 (List.range (totalSize coords vs)) (flatOf data₁ (vs ++ zs)),
        pickAt 0 (List.range (totalSize coords ps)) (flatOf data₁ (ps ++ us))) ::
        R.map fun r => (pickAt 0 (List.range (totalSize coords vs)) r.1, pickAt 0 (List.range (totalSize coords ps)) r.2)) =
        ((flatOf data₁ (vs ++ zs), flatOf data₁ (ps ++ us)) :: R).map fun r =>
          (pickAt 0 (List.range (totalSize coords vs)) r.1, pickAt 0 (List.range (totalSize coords ps)) r.2) := rfl
    rw [this, List.getElem?_map, k1, Option.map_some, Option.some.injEq] at m1
    rw [← m1, px _ k3, pp _ k4]
  obtain ⟨d', w1, w2, w3⟩ := same s₁.1 s₁.2 k3 k4
  rw [k2, m2, hs₂, List.take_left' k3, List.drop_left' k3]
  exact ⟨⟨d', w1, w2, w3⟩, hkept t s₁ ht k1⟩

end Verif
