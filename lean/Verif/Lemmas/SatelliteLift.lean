import Verif.Lemmas.Satellite

/-!
# Equations added to a model: a run of the part that was there before can be extended
-/

namespace Verif

section
variable {K : Type _} [Field K]

/-- A step returns exactly if a direction is found at each of the points at which it is solved for. -/
theorem jaxIncrement_ok_iff (dx : StepSolve K) (nx np : Nat) (hdx : LenOK dx nx np) (rk4 : Bool) (x t h : List K)
    (hx : x.length = nx) (ht : t.length = np) (hh : h.length = np) :
    (∃ d, jaxIncrement dx rk4 x t h = .ok d) ↔ ∀ p ∈ solvedAt dx rk4 x t h, ∃ d, dx p.1 p.2 h = .ok d := by
  cases rk4 with
  | false => simp [jaxIncrement, solvedAt]
  | true =>
    simp only [jaxIncrement, if_true, bind, Except.bind, solvedAt]
    have lt2 : (List.zipWith (fun a b => a + 2⁻¹ * b) t h).length = np := by simp [ht, hh]
    have lt4 : (List.zipWith (fun a b => a + b) t h).length = np := by simp [ht, hh]
    cases h1 : dx x t h with
    | error e => simp [h1]
    | ok d1 =>
      have l1 := hdx _ _ _ _ hx ht hh h1
      dsimp only
      rw [vzip_ok _ _ _ (by omega), vzip_ok _ _ _ (by omega)]
      dsimp only
      have lx2 : (List.zipWith (fun a b => a + 2⁻¹ * b) x d1).length = nx := by simp [hx, l1]
      cases h2 : dx (List.zipWith (fun a b => a + 2⁻¹ * b) x d1) (List.zipWith (fun a b => a + 2⁻¹ * b) t h) h with
      | error e => simp [h1, h2]
      | ok d2 =>
        have l2 := hdx _ _ _ _ lx2 lt2 hh h2
        dsimp only
        rw [vzip_ok _ _ _ (by omega)]
        dsimp only
        have lx3 : (List.zipWith (fun a b => a + 2⁻¹ * b) x d2).length = nx := by simp [hx, l2]
        cases h3 : dx (List.zipWith (fun a b => a + 2⁻¹ * b) x d2) (List.zipWith (fun a b => a + 2⁻¹ * b) t h) h with
        | error e => simp [h1, h2, h3]
        | ok d3 =>
          have l3 := hdx _ _ _ _ lx3 lt2 hh h3
          dsimp only
          rw [vzip_ok _ _ _ (by omega), vzip_ok _ _ _ (by omega)]
          dsimp only
          have lx4 : (List.zipWith (fun a b => a + b) x d3).length = nx := by simp [hx, l3]
          cases h4 : dx (List.zipWith (fun a b => a + b) x d3) (List.zipWith (fun a b => a + b) t h) h with
          | error e => simp [h1, h2, h3, h4]
          | ok d4 =>
            have l4 := hdx _ _ _ _ lx4 lt4 hh h4
            simp only [vrk4, bind, Except.bind, pure, Except.pure]
            have la : (List.zipWith (fun a b => a + 2 * b) d1 d2).length = nx := by simp [l1, l2]
            have lb : (List.zipWith (fun a b => a + 2 * b) (List.zipWith (fun a b => a + 2 * b) d1 d2)
              d3).length = nx := by simp [l1, l2, l3]
            rw [vzip_ok _ _ _ (by omega)]
            dsimp only
            rw [vzip_ok _ _ _ (by omega)]
            dsimp only
            rw [vzip_ok _ _ _ (by omega)]
            simp [h1, h2, h3, h4]

/-- If directions are mapped to directions, then so are the points at which a step solves for one. -/
theorem solvedAt_map (dx₁ dx₂ : StepSolve K) (nx np mx mp : Nat) (hdx : LenOK dx₁ nx np)
    (fx ft : List K → List K) (cx : Combines nx mx fx) (ct : Combines np mp ft) (rk4 : Bool)
    (x t h : List K) (hx : x.length = nx) (ht : t.length = np) (hh : h.length = np)
    (hop : ∀ x' t' d, x'.length = nx → t'.length = np → (fx x', ft t') ∈ solvedAt dx₂ rk4 (fx x) (ft t) (ft h) →
      dx₁ x' t' h = .ok d → dx₂ (fx x') (ft t') (ft h) = .ok (fx d)) :
    ∀ p ∈ solvedAt dx₁ rk4 x t h, (fx p.1, ft p.2) ∈ solvedAt dx₂ rk4 (fx x) (ft t) (ft h) := by
  cases rk4 with
  | false => simp [solvedAt]
  | true =>
    simp only [solvedAt, if_true] at hop ⊢
    have lt2 : (List.zipWith (fun a b => a + 2⁻¹ * b) t h).length = np := by simp [ht, hh]
    intro p hp
    rcases List.mem_cons.1 hp with rfl | hp
    · exact List.mem_cons_self
    cases h1 : dx₁ x t h with
    | error e => rw [h1] at hp; cases hp
    | ok d1 =>
    rw [h1] at hp
    dsimp only at hp
    have l1 := hdx _ _ _ _ hx ht hh h1
    have lx2 : (List.zipWith (fun a b => a + 2⁻¹ * b) x d1).length = nx := by simp [hx, l1]
    have k1 := hop x t d1 hx ht List.mem_cons_self h1
    rw [k1] at hop ⊢
    dsimp only at hop ⊢
    rw [← cx.half _ _ hx l1, ← ct.half _ _ ht hh] at hop ⊢
    rcases List.mem_cons.1 hp with rfl | hp
    · exact List.mem_cons_of_mem _ List.mem_cons_self
    cases h2 : dx₁ (List.zipWith (fun a b => a + 2⁻¹ * b) x d1) (List.zipWith (fun a b => a + 2⁻¹ * b) t h) h with
    | error e => rw [h2] at hp; cases hp
    | ok d2 =>
    rw [h2] at hp
    dsimp only at hp
    have l2 := hdx _ _ _ _ lx2 lt2 hh h2
    have lx3 : (List.zipWith (fun a b => a + 2⁻¹ * b) x d2).length = nx := by simp [hx, l2]
    have k2 := hop _ _ d2 lx2 lt2 (List.mem_cons_of_mem _ List.mem_cons_self) h2
    rw [k2] at hop ⊢
    dsimp only at hop ⊢
    rw [← cx.half _ _ hx l2] at hop ⊢
    rcases List.mem_cons.1 hp with rfl | hp
    · exact List.mem_cons_of_mem _ (List.mem_cons_of_mem _ List.mem_cons_self)
    cases h3 : dx₁ (List.zipWith (fun a b => a + 2⁻¹ * b) x d2) (List.zipWith (fun a b => a + 2⁻¹ * b) t h) h with
    | error e => rw [h3] at hp; cases hp
    | ok d3 =>
    rw [h3] at hp
    dsimp only at hp
    have l3 := hdx _ _ _ _ lx3 lt2 hh h3
    have k3 := hop _ _ d3 lx3 lt2 (List.mem_cons_of_mem _ (List.mem_cons_of_mem _ List.mem_cons_self)) h3
    rw [k3]
    dsimp only
    rw [List.mem_singleton] at hp
    subst hp
    rw [← cx.add _ _ hx l3, ← ct.add _ _ ht hh]
    exact List.mem_cons_of_mem _ (List.mem_cons_of_mem _ (List.mem_cons_of_mem _ List.mem_cons_self))

/-- A step of the smaller model comes from one of the larger model. -/
theorem jaxIncrement_lift (dx₁ dx₂ : StepSolve K) (nx np mx mp : Nat) (hdx : LenOK dx₁ nx np) (hdx₂ : LenOK dx₂ mx mp)
    (fx ft : List K → List K) (cx : Combines nx mx fx) (ct : Combines np mp ft) (rk4 : Bool)
    (x t h d₂ : List K) (hx : x.length = nx) (ht : t.length = np) (hh : h.length = np)
    (hop : ∀ x' t', x'.length = nx → t'.length = np → (fx x', ft t') ∈ solvedAt dx₂ rk4 (fx x) (ft t) (ft h) →
      (∀ d, dx₁ x' t' h = .ok d → dx₂ (fx x') (ft t') (ft h) = .ok (fx d)) ∧
      ∀ e, dx₂ (fx x') (ft t') (ft h) = .ok e → ∃ d, dx₁ x' t' h = .ok d)
    (hd : jaxIncrement dx₂ rk4 (fx x) (ft t) (ft h) = .ok d₂) :
    ∃ d, jaxIncrement dx₁ rk4 x t h = .ok d ∧ fx d = d₂ := by
  have hmap := solvedAt_map dx₁ dx₂ nx np mx mp hdx fx ft cx ct rk4 x t h hx ht hh
    (fun x' t' d h1 h2 h3 => (hop x' t' h1 h2 h3).1 d)
  have hlen := solvedAt_len dx₁ nx np hdx rk4 x t h hx ht hh
  have hall := (jaxIncrement_ok_iff dx₂ mx mp hdx₂ rk4 _ _ _ (cx.length _ hx) (ct.length _ ht) (ct.length _ hh)).1 ⟨_, hd⟩
  obtain ⟨d, hd'⟩ := (jaxIncrement_ok_iff dx₁ nx np hdx rk4 x t h hx ht hh).2 (fun p hp => by
    obtain ⟨e, he⟩ := hall _ (hmap p hp)
    exact (hop p.1 p.2 (hlen p hp).1 (hlen p hp).2 (hmap p hp)).2 e he)
  refine ⟨d, hd', ?_⟩
  have := jaxIncrement_map dx₁ dx₂ nx np mx mp hdx fx ft cx ct rk4 x t h d hx ht hh
    (fun p hp d hd => (hop p.1 p.2 (hlen p hp).1 (hlen p hp).2 (hmap p hp)).1 d hd) hd'
  rw [hd] at this
  injection this with this
  exact this.symm

/-- A run of the smaller model comes from one of the larger model. -/
theorem eulerRows_lift (dx₁ dx₂ : StepSolve K) (nx np mx mp : Nat) (hdx : LenOK dx₁ nx np)
    (fx ft : List K → List K) (cx : Combines nx mx fx) (ct : Combines np mp ft) (h : List K) (hh : h.length = np)
    (P : List K → List K → Prop)
    (hop : ∀ x t d₂, x.length = nx → t.length = np → P (fx x) (ft t) → dx₂ (fx x) (ft t) (ft h) = .ok d₂ →
      ∃ d, dx₁ x t h = .ok d ∧ fx d = d₂)
    (k : Nat) (x t : List K) (hx : x.length = nx) (ht : t.length = np) (R : List (List K × List K))
    (hR : eulerRows dx₂ (ft h) k (fx x) (ft t) = .ok R)
    (hP : ∀ (j : Nat) s, j < k → ((fx x, ft t) :: R)[j]? = some s → P s.1 s.2) :
    ∃ R', eulerRows dx₁ h k x t = .ok R' ∧ R = R'.map fun r => (fx r.1, ft r.2) := by
  induction k generalizing x t R with
  | zero =>
    simp only [eulerRows, Except.ok.injEq] at hR
    exact ⟨[], rfl, hR.symm⟩
  | succ k ih =>
    rw [eulerRows] at hR ⊢
    cases hd : dx₂ (fx x) (ft t) (ft h) with
    | error e => rw [hd] at hR; cases hR
    | ok d₂ =>
      rw [hd] at hR
      dsimp only at hR
      obtain ⟨d, h1, rfl⟩ := hop x t d₂ hx ht (hP 0 _ (by omega) rfl) hd
      have ld := hdx _ _ _ _ hx ht hh h1
      rw [← cx.add _ _ hx ld, ← ct.add _ _ ht hh] at hR
      cases hr : eulerRows dx₂ (ft h) k (fx (List.zipWith (· + ·) x d)) (ft (List.zipWith (· + ·) t h)) with
      | error e => rw [hr] at hR; cases hR
      | ok r =>
        rw [hr] at hR
        simp only [Except.ok.injEq] at hR
        obtain ⟨R', hR', hmap⟩ := ih (List.zipWith (· + ·) x d) (List.zipWith (· + ·) t h) (by simp [hx, ld]) (by simp [ht, hh]) r
          hr (fun j s hj hs => hP (j + 1) s (by omega) (by rw [← hR, List.getElem?_cons_succ]; exact hs))
        rw [h1]
        dsimp only
        rw [hR']
        exact ⟨_, rfl, by rw [← hR, hmap]; rfl⟩

end

theorem take_combines {K : Type _} [Field K] {m n : Nat} (h : m ≤ n) : Combines (K := K) n m (List.take m) := by
  refine ⟨fun a ha => by rw [List.length_take]; omega, ?_, ?_, ?_, ?_⟩ <;>
    intro a b _ _ <;> rw [List.take_zipWith]

/-- The direction of a step of the larger model exists if that of the smaller one does and the matrix of the added
equations in the added variables is invertible. -/
theorem solve_widen {nx np n m p r : Nat} (hnx : nx = n + m) (hnp : np = p + r) (G₁ G₂ : List ℝ → List ℝ)
    (ok₁ ok₂ : List ℝ → Prop)
    (A₁ : (Fin nx → ℝ) → (Fin np → ℝ) → Matrix (Fin nx) (Fin nx) ℝ)
    (B₁ : (Fin nx → ℝ) → (Fin np → ℝ) → Matrix (Fin nx) (Fin np) ℝ)
    (A₂ : (Fin n → ℝ) → (Fin p → ℝ) → Matrix (Fin n) (Fin n) ℝ)
    (B₂ : (Fin n → ℝ) → (Fin p → ℝ) → Matrix (Fin n) (Fin p) ℝ)
    (D₁ : DerivativesOf G₁ ok₁ A₁ B₁) (D₂ : DerivativesOf G₂ ok₂ A₂ B₂)
    (hG : ∀ x t, x.length = nx → t.length = np → ∀ i < n,
      (G₂ (x.take n ++ t.take p)).getD i 0 = (G₁ (x ++ t)).getD i 0)
    (x t h d : List ℝ) (hx : x.length = nx) (ht : t.length = np)
    (h₁ : ok₁ (x ++ t)) (h₂ : ok₂ (x.take n ++ t.take p))
    (hE : ∀ E : Matrix (Fin m) (Fin m) ℝ, (∀ i j : Fin m, HasDerivAt (fun u =>
      (G₁ ((x ++ t).set (n + j) u)).getD (n + i) 0) (E i j) (x.getD (n + j) 0)) → E.det ≠ 0)
    (hd : (vecJac A₂ B₂).solve (x.take n) (t.take p) (h.take p) = .ok d) :
    ∃ d₁, (vecJac A₁ B₁).solve x t h = .ok d₁ := by
  subst hnx hnp
  obtain ⟨hu, -⟩ := (vecJac A₂ B₂).solve_spec _ _ _ d hd
  have hu : IsUnit (A₂ (toVec n (x.take n)) (toVec p (t.take p))).det := hu
  have hdet := det_narrow G₁ G₂ ok₁ ok₂ A₁ B₁ A₂ B₂ D₁ D₂ hG x t hx ht h₁ h₂
  have ex := ofFn_toVec (n + m) x hx
  have et := ofFn_toVec (p + r) t ht
  obtain ⟨a1, -⟩ := D₁ (toVec (n + m) x) (toVec (p + r) t) (by rw [ex, et]; exact h₁)
  rw [ex, et] at a1
  have hE' := hE (Matrix.of fun i j : Fin m => A₁ (toVec (n + m) x) (toVec (p + r) t) (Fin.natAdd n i) (Fin.natAdd n j)) (by
    intro i j
    have := a1 (Fin.natAdd n i) (Fin.natAdd n j)
    have e : toVec (n + m) x (Fin.natAdd n j) = x.getD (n + j) 0 := by
      unfold toVec
      rfl
    rw [e] at this
    exact this)
  refine ⟨_, (vecJac A₁ B₁).solve_of_isUnit x t h ?_⟩
  show IsUnit (A₁ (toVec (n + m) x) (toVec (p + r) t)).det
  rw [hdet]
  exact hu.mul (isUnit_iff_ne_zero.2 hE')

/-! ## The runs -/

/-- A run of the smaller model can be extended to one of the larger model; the points at which the latter solves for a
direction are, restricted to the objects of the smaller model, those of the former. -/
theorem runs_widen (coords : Coords) {vs ps zs us : List ModelObject} (b₁ b₂ : EulerBackend) (hb : b₂.rk4 = b₁.rk4)
    (dx₁ dx₂ : StepSolve ℝ) (G₁ G₂ : List ℝ → List ℝ) (ok₁ ok₂ : List ℝ → Prop)
    (A₁ : (Fin (totalSize coords (vs ++ zs)) → ℝ) → (Fin (totalSize coords (ps ++ us)) → ℝ) →
      Matrix (Fin (totalSize coords (vs ++ zs))) (Fin (totalSize coords (vs ++ zs))) ℝ)
    (B₁ : (Fin (totalSize coords (vs ++ zs)) → ℝ) → (Fin (totalSize coords (ps ++ us)) → ℝ) →
      Matrix (Fin (totalSize coords (vs ++ zs))) (Fin (totalSize coords (ps ++ us))) ℝ)
    (A₂ : (Fin (totalSize coords vs) → ℝ) → (Fin (totalSize coords ps) → ℝ) →
      Matrix (Fin (totalSize coords vs)) (Fin (totalSize coords vs)) ℝ)
    (B₂ : (Fin (totalSize coords vs) → ℝ) → (Fin (totalSize coords ps) → ℝ) →
      Matrix (Fin (totalSize coords vs)) (Fin (totalSize coords ps)) ℝ)
    (e₁ : ∀ x t h, x.length = totalSize coords (vs ++ zs) → t.length = totalSize coords (ps ++ us) →
      h.length = totalSize coords (ps ++ us) → dx₁ x t h = (vecJac A₁ B₁).solve x t h)
    (e₂ : ∀ x t h, x.length = totalSize coords vs → t.length = totalSize coords ps →
      h.length = totalSize coords ps → dx₂ x t h = (vecJac A₂ B₂).solve x t h)
    (D₁ : DerivativesOf G₁ ok₁ A₁ B₁) (D₂ : DerivativesOf G₂ ok₂ A₂ B₂)
    (hG : ∀ x t, x.length = totalSize coords (vs ++ zs) → t.length = totalSize coords (ps ++ us) →
      ∀ i < totalSize coords vs, (G₂ (x.take (totalSize coords vs) ++ t.take (totalSize coords ps))).getD i 0 =
        (G₁ (x ++ t)).getD i 0)
    (data₁ data₂ : Dict Str (NDArray ℝ)) (tf₁ tf₂ : List ℝ) (n : Nat)
    (hc₁ : EulerCall coords (vs ++ zs) (ps ++ us) data₁ tf₁) (hc₂ : EulerCall coords vs ps data₂ tf₂)
    (hn : ((vs ++ zs ++ (ps ++ us)).map ModelObject.name).Nodup)
    (hdv : flatOf data₂ vs = flatOf data₁ vs) (hdp : flatOf data₂ ps = flatOf data₁ ps)
    (htf : tf₂ = tf₁.take (totalSize coords ps))
    (outs₂ : List (NDArray ℝ)) (hrun : runEuler b₂ dx₂ vs ps coords tf₂ n data₂ = .ok outs₂)
    (hP : ∀ t, t < n → ∀ s₂ ∈ b₂.points dx₂ (totalSize coords vs) (b₂.stateAfter vs ps data₂ outs₂ t)
      (stepVec n tf₂ (flatOf data₂ ps)), ∀ s, SameArrays coords (vs ++ zs ++ (ps ++ us)) (vs ++ ps) s s₂ →
        ok₁ s ∧ ok₂ s₂ ∧ ∀ E : Matrix (Fin (totalSize coords zs)) (Fin (totalSize coords zs)) ℝ,
          (∀ i j : Fin (totalSize coords zs), HasDerivAt (fun u =>
            (G₁ (s.set (totalSize coords vs + j) u)).getD (totalSize coords vs + i) 0) (E i j)
            (s.getD (totalSize coords vs + j) 0)) → E.det ≠ 0) :
    ∃ outs₁, runEuler b₁ dx₁ (vs ++ zs) (ps ++ us) coords tf₁ n data₁ = .ok outs₁ ∧
      ∀ t, t < n → ∀ s ∈ b₁.points dx₁ (totalSize coords (vs ++ zs))
        (b₁.stateAfter (vs ++ zs) (ps ++ us) data₁ outs₁ t) (stepVec n tf₁ (flatOf data₁ (ps ++ us))),
        ∃ s₂ ∈ b₂.points dx₂ (totalSize coords vs) (b₂.stateAfter vs ps data₂ outs₂ t)
          (stepVec n tf₂ (flatOf data₂ ps)), SameArrays coords (vs ++ zs ++ (ps ++ us)) (vs ++ ps) s s₂ := by
  have sv := totalSize_append coords vs zs
  have sp := totalSize_append coords ps us
  have hdx₁ : LenOK dx₁ (totalSize coords (vs ++ zs)) (totalSize coords (ps ++ us)) := by
    intro x t h d hx ht hh hd
    rw [e₁ x t h hx ht hh] at hd
    exact (vecJac A₁ B₁).lenOK x t h d hx ht hh hd
  have hdx₂ : LenOK dx₂ (totalSize coords vs) (totalSize coords ps) := by
    intro x t h d hx ht hh hd
    rw [e₂ x t h hx ht hh] at hd
    exact (vecJac A₂ B₂).lenOK x t h d hx ht hh hd
  have sh1 : ∀ o ∈ vs ++ zs, DataFor coords data₁ o := fun o ho => hc₁.shaped o (List.mem_append_left _ ho)
  have sh2 : ∀ o ∈ ps ++ us, DataFor coords data₁ o := fun o ho => hc₁.shaped o (List.mem_append_right _ ho)
  have lx := (flatOf_spec coords data₁ (vs ++ zs) sh1).1
  have lt := (flatOf_spec coords data₁ (ps ++ us) sh2).1
  have tv : ∀ d : Dict Str (NDArray ℝ), (∀ o ∈ vs ++ zs, DataFor coords d o) →
      (flatOf d (vs ++ zs)).take (totalSize coords vs) = flatOf d vs := by
    intro d hd
    rw [flatOf_append, List.take_left' (flatOf_spec coords d vs fun o ho => hd o (List.mem_append_left _ ho)).1]
  have tp : ∀ d : Dict Str (NDArray ℝ), (∀ o ∈ ps ++ us, DataFor coords d o) →
      (flatOf d (ps ++ us)).take (totalSize coords ps) = flatOf d ps := by
    intro d hd
    rw [flatOf_append, List.take_left' (flatOf_spec coords d ps fun o ho => hd o (List.mem_append_left _ ho)).1]
  have cx : Combines (K := ℝ) (totalSize coords (vs ++ zs)) (totalSize coords vs) (List.take (totalSize coords vs)) :=
    take_combines (by omega)
  have ct : Combines (K := ℝ) (totalSize coords (ps ++ us)) (totalSize coords ps) (List.take (totalSize coords ps)) :=
    take_combines (by omega)
  have hs : (stepVec n tf₁ (flatOf data₁ (ps ++ us))).length = totalSize coords (ps ++ us) := by
    simp only [stepVec, List.length_zipWith, lt, hc₁.final, min_self]
  have hstep : stepVec n tf₂ (flatOf data₂ ps) =
      (stepVec n tf₁ (flatOf data₁ (ps ++ us))).take (totalSize coords ps) := by
    unfold stepVec
    rw [List.take_zipWith, tp data₁ sh2, htf, hdp]
  have hrun' := hrun
  rw [runEuler_eq b₂ dx₂ coords vs ps data₂ tf₂ n hc₂ hdx₂] at hrun'
  cases hR : eulerRows (jaxIncrement dx₂ b₂.rk4) (stepVec n tf₂ (flatOf data₂ ps)) n (flatOf data₂ vs)
      (flatOf data₂ ps) with
  | error e => rw [hR] at hrun'; cases hrun'
  | ok R =>
  have hrows₂ := stateAfter_rows b₂ dx₂ coords vs ps data₂ tf₂ n hc₂ hdx₂ outs₂ hrun R hR
  have same : ∀ x t : List ℝ, x.length = totalSize coords (vs ++ zs) → t.length = totalSize coords (ps ++ us) →
      SameArrays coords (vs ++ zs ++ (ps ++ us)) (vs ++ ps) (x ++ t)
        (x.take (totalSize coords vs) ++ t.take (totalSize coords ps)) := by
    intro x t hx ht
    obtain ⟨d, hd, hflat⟩ := exists_data coords (vs ++ zs ++ (ps ++ us)) hn (x ++ t)
      (by rw [List.length_append, totalSize_append coords (vs ++ zs), hx, ht])
    have hd1 : ∀ o ∈ vs ++ zs, DataFor coords d o := fun o ho => hd o (List.mem_append_left _ ho)
    have hd2 : ∀ o ∈ ps ++ us, DataFor coords d o := fun o ho => hd o (List.mem_append_right _ ho)
    have l1 := (flatOf_spec coords d (vs ++ zs) hd1).1
    rw [flatOf_append d (vs ++ zs)] at hflat
    obtain ⟨q1, q2⟩ := List.append_inj hflat (by rw [l1, hx])
    exact ⟨d, hd, by rw [flatOf_append d (vs ++ zs), q1, q2],
      by rw [flatOf_append d vs ps, ← tv d hd1, ← tp d hd2, q1, q2]⟩
  -- what is known at the points of the smaller run
  have hpt : ∀ (j : Nat) (s : List ℝ × List ℝ), j < n → ((flatOf data₂ vs, flatOf data₂ ps) :: R)[j]? = some s →
      ∀ x' t' : List ℝ, x'.length = totalSize coords (vs ++ zs) → t'.length = totalSize coords (ps ++ us) →
        (x'.take (totalSize coords vs), t'.take (totalSize coords ps)) ∈ solvedAt dx₂ b₂.rk4 s.1 s.2
          ((stepVec n tf₁ (flatOf data₁ (ps ++ us))).take (totalSize coords ps)) →
        (x'.take (totalSize coords vs) ++ t'.take (totalSize coords ps)) ∈ b₂.points dx₂ (totalSize coords vs)
          (b₂.stateAfter vs ps data₂ outs₂ j) (stepVec n tf₂ (flatOf data₂ ps)) := by
    intro j s hj hsj x' t' hx' ht' hin
    obtain ⟨s', k1, k2, k3, k4⟩ := hrows₂ j (by omega)
    rw [hsj, Option.some.injEq] at k1
    subst k1
    unfold EulerBackend.points
    rw [k2, List.take_left' k3, List.drop_left' k3, hstep]
    exact List.mem_map.2 ⟨_, hin, rfl⟩
  have hops : ∀ (j : Nat) (s : List ℝ × List ℝ), j < n → ((flatOf data₂ vs, flatOf data₂ ps) :: R)[j]? = some s →
      ∀ x' t' : List ℝ, x'.length = totalSize coords (vs ++ zs) → t'.length = totalSize coords (ps ++ us) →
        (x'.take (totalSize coords vs), t'.take (totalSize coords ps)) ∈ solvedAt dx₂ b₂.rk4 s.1 s.2
          ((stepVec n tf₁ (flatOf data₁ (ps ++ us))).take (totalSize coords ps)) →
        (∀ d, dx₁ x' t' (stepVec n tf₁ (flatOf data₁ (ps ++ us))) = .ok d →
          dx₂ (x'.take (totalSize coords vs)) (t'.take (totalSize coords ps))
            ((stepVec n tf₁ (flatOf data₁ (ps ++ us))).take (totalSize coords ps)) =
              .ok (d.take (totalSize coords vs))) ∧
        ∀ e, dx₂ (x'.take (totalSize coords vs)) (t'.take (totalSize coords ps))
            ((stepVec n tf₁ (flatOf data₁ (ps ++ us))).take (totalSize coords ps)) = .ok e →
          ∃ d, dx₁ x' t' (stepVec n tf₁ (flatOf data₁ (ps ++ us))) = .ok d := by
    intro j s hj hsj x' t' hx' ht' hin
    obtain ⟨o1, o2, o3⟩ := hP j hj _ (hpt j s hj hsj x' t' hx' ht' hin) _ (same x' t' hx' ht')
    have q1 := cx.length _ hx'
    have q2 := ct.length _ ht'
    have q3 := ct.length _ hs
    refine ⟨fun d hd => ?_, fun e he => ?_⟩
    · rw [e₁ _ _ _ hx' ht' hs] at hd
      rw [e₂ _ _ _ q1 q2 q3]
      exact solve_narrow' sv sp G₁ G₂ ok₁ ok₂ A₁ B₁ A₂ B₂ D₁ D₂ hG _ _ _ d hx' ht' hs o1 o2 hd
    · rw [e₂ _ _ _ q1 q2 q3] at he
      rw [e₁ _ _ _ hx' ht' hs]
      refine solve_widen sv sp G₁ G₂ ok₁ ok₂ A₁ B₁ A₂ B₂ D₁ D₂ hG _ _ _ e hx' ht' o1 o2 ?_ he
      intro E hE
      refine o3 E fun i j => ?_
      have : (x' ++ t').getD (totalSize coords vs + j) 0 = x'.getD (totalSize coords vs + j) 0 := by
        rw [List.getD_eq_getElem?_getD, List.getD_eq_getElem?_getD, List.getElem?_append_left (by omega)]
      rw [this]
      exact hE i j
  rw [hdv, hdp, ← tv data₁ sh1, ← tp data₁ sh2] at hops hpt
  rw [hstep, hdv, hdp, ← tv data₁ sh1, ← tp data₁ sh2] at hR
  obtain ⟨R', hR', hmap⟩ := eulerRows_lift (jaxIncrement dx₁ b₁.rk4) (jaxIncrement dx₂ b₂.rk4) _ _ _ _
    (jaxIncrement_len dx₁ _ _ hdx₁ _) _ _ cx ct _ hs
    (fun x t => ∃ (j : Nat) (s : List ℝ × List ℝ), j < n ∧ (((flatOf data₁ (vs ++ zs)).take (totalSize coords vs),
      (flatOf data₁ (ps ++ us)).take (totalSize coords ps)) :: R)[j]? = some s ∧ s = (x, t))
    (by
      rintro x t d₂ hx ht ⟨j, s, hj, hsj, rfl⟩ hd
      rw [hb] at hd
      refine jaxIncrement_lift dx₁ dx₂ _ _ _ _ hdx₁ hdx₂ _ _ cx ct _ x t _ d₂ hx ht hs ?_ hd
      rw [← hb]
      exact hops j _ hj hsj)
    n _ _ lx lt R hR (fun j s hj hsj => ⟨j, s, hj, hsj, rfl⟩)
  obtain ⟨outs₁, hrun₁⟩ := runEuler_ok_of_rows b₁ dx₁ coords (vs ++ zs) (ps ++ us) data₁ tf₁ n hc₁ hdx₁ _ hR'
  have hrows₁ := stateAfter_rows b₁ dx₁ coords (vs ++ zs) (ps ++ us) data₁ tf₁ n hc₁ hdx₁ outs₁ hrun₁ _ hR'
  refine ⟨outs₁, hrun₁, fun t ht s hst => ?_⟩
  obtain ⟨s₁, k1, k2, k3, k4⟩ := hrows₁ t (by omega)
  have hs₂ : (((flatOf data₁ (vs ++ zs)).take (totalSize coords vs), (flatOf data₁ (ps ++ us)).take (totalSize coords ps))
      :: R)[t]? = some (s₁.1.take (totalSize coords vs), s₁.2.take (totalSize coords ps)) := by
    have : (((flatOf data₁ (vs ++ zs)).take (totalSize coords vs), (flatOf data₁ (ps ++ us)).take (totalSize coords ps))
        :: R) = ((flatOf data₁ (vs ++ zs), flatOf data₁ (ps ++ us)) :: R').map fun r =>
          (r.1.take (totalSize coords vs), r.2.take (totalSize coords ps)) := by rw [hmap]; rfl
    rw [this, List.getElem?_map, k1]
    rfl
  unfold EulerBackend.points at hst
  rw [k2, List.take_left' k3, List.drop_left' k3] at hst
  obtain ⟨p, hp, rfl⟩ := List.mem_map.1 hst
  have hl := solvedAt_len dx₁ _ _ hdx₁ _ _ _ _ k3 k4 hs p hp
  have hin := solvedAt_map dx₁ dx₂ _ _ _ _ hdx₁ _ _ cx ct b₁.rk4 s₁.1 s₁.2 _ k3 k4 hs
    (fun x' t' d h1 h2 h3 => (hops t _ ht hs₂ x' t' h1 h2 (by rw [hb]; exact h3)).1 d) p hp
  have hfin := hpt t _ ht hs₂ p.1 p.2 hl.1 hl.2 (by rw [hb]; exact hin)
  rw [tp data₁ sh2, ← hdp] at hfin
  exact ⟨_, hfin, same p.1 p.2 hl.1 hl.2⟩

end Verif
