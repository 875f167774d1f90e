import Verif.Lemmas.Keep
import Verif.Lemmas.SatelliteLift

/-!
# A run of the smaller model extended to one of the larger model whose states keep a relation
-/

namespace Verif

section
variable {K : Type _} [Field K]

open Classical in
/-- The directions of the larger model where the relation holds; elsewhere those of the smaller one, filled up. -/
noncomputable def patched (φ : List K → List K → Prop) (dx₁ dx₂ : StepSolve K) (mx mp : Nat) (fill : List K) :
    StepSolve K := fun x t h =>
  if φ x t then dx₁ x t h
  else match dx₂ (x.take mx) (t.take mp) (h.take mp) with
    | .ok d => .ok (d ++ fill)
    | .error e => .error e

theorem patched_pos {φ : List K → List K → Prop} {dx₁ dx₂ : StepSolve K} {mx mp : Nat} {fill x t : List K} (h : List K)
    (hφ : φ x t) : patched φ dx₁ dx₂ mx mp fill x t h = dx₁ x t h := if_pos hφ

theorem id_combines (n : Nat) : Combines (K := K) n n id :=
  ⟨fun _ h => h, fun _ _ _ _ => rfl, fun _ _ _ _ => rfl, fun _ _ _ _ => rfl, fun _ _ _ _ => rfl⟩

/-- A step of the smaller model comes from one of the larger model, started where the relation holds. -/
theorem jaxIncrement_liftKeep (dx₁ dx₂ : StepSolve K) (nx np mx mp mz : Nat) (hnx : nx = mx + mz) (hnp : mp ≤ np)
    (hdx : LenOK dx₁ nx np) (hdx₂ : LenOK dx₂ mx mp) (rk4 : Bool)
    (x t h d₂ : List K) (hx : x.length = nx) (ht : t.length = np) (hh : h.length = np)
    (φ : List K → List K → Prop) (δ : List K → Prop) (fill : List K) (hfl : fill.length = mz)
    (hfill : ∀ d : List K, d.length = mx → δ (d ++ fill))
    (hmid : ∀ x t d : List K, x.length = nx → t.length = np → d.length = nx → φ x t → δ d →
      φ (List.zipWith (fun a b => a + 2⁻¹ * b) x d) (List.zipWith (fun a b => a + 2⁻¹ * b) t h))
    (hend : ∀ x t d : List K, x.length = nx → t.length = np → d.length = nx → φ x t → δ d →
      φ (List.zipWith (· + ·) x d) (List.zipWith (· + ·) t h))
    (hrk : ∀ d1 d2 d3 d4 d : List K, δ d1 → δ d2 → δ d3 → δ d4 → vrk4 d1 d2 d3 d4 = .ok d → δ d)
    (h0 : φ x t)
    (hop : ∀ x' t', x'.length = nx → t'.length = np →
      (x'.take mx, t'.take mp) ∈ solvedAt dx₂ rk4 (x.take mx) (t.take mp) (h.take mp) → φ x' t' →
      (∀ d, dx₁ x' t' h = .ok d → dx₂ (x'.take mx) (t'.take mp) (h.take mp) = .ok (d.take mx) ∧ δ d) ∧
      ∀ e, dx₂ (x'.take mx) (t'.take mp) (h.take mp) = .ok e → ∃ d, dx₁ x' t' h = .ok d)
    (hd : jaxIncrement dx₂ rk4 (x.take mx) (t.take mp) (h.take mp) = .ok d₂) :
    (∃ d, jaxIncrement dx₁ rk4 x t h = .ok d ∧ d.take mx = d₂ ∧ δ d) ∧
    ∀ p ∈ solvedAt dx₁ rk4 x t h, φ p.1 p.2 ∧
      (p.1.take mx, p.2.take mp) ∈ solvedAt dx₂ rk4 (x.take mx) (t.take mp) (h.take mp) := by
  have cx : Combines (K := K) nx mx (List.take mx) := take_combines (by omega)
  have ct : Combines (K := K) np mp (List.take mp) := take_combines hnp
  have hl : LenOK (patched φ dx₁ dx₂ mx mp fill) nx np := by
    intro x t h d hx ht hh hd
    unfold patched at hd
    split at hd
    · exact hdx x t h d hx ht hh hd
    · split at hd
      · rename_i d' hd'
        injection hd with hd
        rw [← hd, List.length_append, hdx₂ _ _ _ _ (cx.length _ hx) (ct.length _ ht) (ct.length _ hh) hd', hfl, hnx]
      · cases hd
  have hop' : ∀ x' t', x'.length = nx → t'.length = np →
      (x'.take mx, t'.take mp) ∈ solvedAt dx₂ rk4 (x.take mx) (t.take mp) (h.take mp) →
      (∀ d, patched φ dx₁ dx₂ mx mp fill x' t' h = .ok d →
        dx₂ (x'.take mx) (t'.take mp) (h.take mp) = .ok (d.take mx) ∧ δ d) ∧
      ∀ e, dx₂ (x'.take mx) (t'.take mp) (h.take mp) = .ok e → ∃ d, patched φ dx₁ dx₂ mx mp fill x' t' h = .ok d := by
    intro x' t' hx' ht' hin
    by_cases hφ : φ x' t'
    · rw [patched_pos h hφ]
      exact hop x' t' hx' ht' hin hφ
    · unfold patched
      rw [if_neg hφ]
      cases he : dx₂ (x'.take mx) (t'.take mp) (h.take mp) with
      | error e => exact ⟨fun d hd => (by cases hd), fun e he => (by cases he)⟩
      | ok e =>
        have le := hdx₂ _ _ _ _ (cx.length _ hx') (ct.length _ ht') (ct.length _ hh) he
        refine ⟨fun d hd => ?_, fun _ _ => ⟨_, rfl⟩⟩
        injection hd with hd
        rw [← hd, List.take_left' le]
        exact ⟨rfl, hfill e le⟩
  have hmap := solvedAt_map (patched φ dx₁ dx₂ mx mp fill) dx₂ nx np mx mp hl _ _ cx ct rk4 x t h hx ht hh
    (fun x' t' d h1 h2 h3 h4 => ((hop' x' t' h1 h2 h3).1 d h4).1)
  have hlen := solvedAt_len (patched φ dx₁ dx₂ mx mp fill) nx np hl rk4 x t h hx ht hh
  have hδ : ∀ p ∈ solvedAt (patched φ dx₁ dx₂ mx mp fill) rk4 x t h, ∀ d,
      patched φ dx₁ dx₂ mx mp fill p.1 p.2 h = .ok d → δ d := fun p hp d hd =>
    ((hop' p.1 p.2 (hlen p hp).1 (hlen p hp).2 (hmap p hp)).1 d hd).2
  have hkeep := solvedAt_keep (patched φ dx₁ dx₂ mx mp fill) rk4 nx np hl x t h hx ht hh φ δ hmid hend h0 hδ
  constructor
  · obtain ⟨d, h1, h2⟩ := jaxIncrement_lift (patched φ dx₁ dx₂ mx mp fill) dx₂ nx np mx mp hl hdx₂ _ _ cx ct rk4 x t h d₂ hx
      ht hh (fun x' t' a b c => ⟨fun d hd => ((hop' x' t' a b c).1 d hd).1, (hop' x' t' a b c).2⟩) hd
    refine ⟨d, ?_, h2, jaxIncrement_keep _ rk4 nx np hl x t h d hx ht hh δ hrk hδ h1⟩
    exact jaxIncrement_map _ dx₁ nx np nx np hl id id (id_combines _) (id_combines _) rk4 x t h d hx ht hh
      (fun p hp d hd => by rw [patched_pos h (hkeep p hp)] at hd; exact hd) h1
  · intro p hp
    have := solvedAt_map dx₁ (patched φ dx₁ dx₂ mx mp fill) nx np nx np hdx id id (id_combines _) (id_combines _) rk4 x t h
      hx ht hh (fun x' t' d _ _ hin hd => by
        show patched φ dx₁ dx₂ mx mp fill x' t' h = .ok d
        rw [patched_pos h (hkeep (x', t') hin)]; exact hd) p hp
    exact ⟨hkeep p this, hmap p this⟩

/-- A run of the smaller model comes from one of the larger model. -/
theorem eulerRows_liftKeep (dx₁ dx₂ : StepSolve K) (nx np mx mp : Nat) (hdx : LenOK dx₁ nx np)
    (fx ft : List K → List K) (cx : Combines nx mx fx) (ct : Combines np mp ft) (h : List K) (hh : h.length = np)
    (P : List K → List K → Prop) (φ : List K → List K → Prop) (δ : List K → Prop)
    (hend : ∀ x t d : List K, x.length = nx → t.length = np → d.length = nx → φ x t → δ d →
      φ (List.zipWith (· + ·) x d) (List.zipWith (· + ·) t h))
    (hop : ∀ x t d₂, x.length = nx → t.length = np → P (fx x) (ft t) → φ x t → dx₂ (fx x) (ft t) (ft h) = .ok d₂ →
      ∃ d, dx₁ x t h = .ok d ∧ fx d = d₂ ∧ δ d)
    (k : Nat) (x t : List K) (hx : x.length = nx) (ht : t.length = np) (h0 : φ x t) (R : List (List K × List K))
    (hR : eulerRows dx₂ (ft h) k (fx x) (ft t) = .ok R)
    (hP : ∀ (j : Nat) s, j < k → ((fx x, ft t) :: R)[j]? = some s → P s.1 s.2) :
    ∃ R', eulerRows dx₁ h k x t = .ok R' ∧ R = (R'.map fun r => (fx r.1, ft r.2)) ∧
      ∀ (j : Nat) s, ((x, t) :: R')[j]? = some s → φ s.1 s.2 := by
  induction k generalizing x t R with
  | zero =>
    simp only [eulerRows, Except.ok.injEq] at hR
    refine ⟨[], rfl, hR.symm, fun j s hs => ?_⟩
    have := List.mem_of_getElem? hs
    rw [List.mem_singleton] at this
    subst this
    exact h0
  | succ k ih =>
    rw [eulerRows] at hR ⊢
    cases hd : dx₂ (fx x) (ft t) (ft h) with
    | error e => rw [hd] at hR; cases hR
    | ok d₂ =>
      rw [hd] at hR
      dsimp only at hR
      obtain ⟨d, h1, rfl, hδ⟩ := hop x t d₂ hx ht (hP 0 _ (by omega) rfl) h0 hd
      have ld := hdx _ _ _ _ hx ht hh h1
      rw [← cx.add _ _ hx ld, ← ct.add _ _ ht hh] at hR
      cases hr : eulerRows dx₂ (ft h) k (fx (List.zipWith (· + ·) x d)) (ft (List.zipWith (· + ·) t h)) with
      | error e => rw [hr] at hR; cases hR
      | ok r =>
        rw [hr] at hR
        simp only [Except.ok.injEq] at hR
        obtain ⟨R', hR', hmap, hφ⟩ := ih (List.zipWith (· + ·) x d) (List.zipWith (· + ·) t h) (by simp [hx, ld])
          (by simp [ht, hh]) (hend x t d hx ht ld h0 hδ) r
          hr (fun j s hj hs => hP (j + 1) s (by omega) (by rw [← hR, List.getElem?_cons_succ]; exact hs))
        rw [h1]
        dsimp only
        rw [hR']
        refine ⟨_, rfl, by rw [← hR, hmap]; rfl, fun j s hs => ?_⟩
        cases j with
        | zero =>
          simp only [List.getElem?_cons_zero, Option.some.injEq] at hs
          subst hs
          exact h0
        | succ j =>
          rw [List.getElem?_cons_succ] at hs
          exact hφ j s hs

end

/-- A run of the smaller model can be extended to one of the larger model, if the directions agree wherever a relation
holds that the steps keep; the points at which the latter solves for a direction are in the relation and are, restricted
to the objects of the smaller model, those of the former. -/
theorem runs_liftKeep (coords : Coords) {vs ps zs us : List ModelObject} (b₁ b₂ : EulerBackend) (hb : b₂.rk4 = b₁.rk4)
    (dx₁ dx₂ : StepSolve ℝ)
    (hdx₁ : LenOK dx₁ (totalSize coords (vs ++ zs)) (totalSize coords (ps ++ us)))
    (hdx₂ : LenOK dx₂ (totalSize coords vs) (totalSize coords ps))
    (data₁ data₂ : Dict Str (NDArray ℝ)) (tf₁ tf₂ : List ℝ) (n : Nat)
    (hc₁ : EulerCall coords (vs ++ zs) (ps ++ us) data₁ tf₁) (hc₂ : EulerCall coords vs ps data₂ tf₂)
    (hdv : flatOf data₂ vs = flatOf data₁ vs) (hdp : flatOf data₂ ps = flatOf data₁ ps)
    (htf : tf₂ = tf₁.take (totalSize coords ps))
    (outs₂ : List (NDArray ℝ)) (hrun : runEuler b₂ dx₂ vs ps coords tf₂ n data₂ = .ok outs₂)
    (φ : List ℝ → List ℝ → Prop) (δ : List ℝ → Prop) (fill : List ℝ) (hfl : fill.length = totalSize coords zs)
    (hfill : ∀ d : List ℝ, d.length = totalSize coords vs → δ (d ++ fill))
    (h0 : φ (flatOf data₁ (vs ++ zs)) (flatOf data₁ (ps ++ us)))
    (hmid : ∀ x t d : List ℝ, x.length = totalSize coords (vs ++ zs) → t.length = totalSize coords (ps ++ us) →
      d.length = totalSize coords (vs ++ zs) → φ x t → δ d →
      φ (List.zipWith (fun a b => a + 2⁻¹ * b) x d)
        (List.zipWith (fun a b => a + 2⁻¹ * b) t (stepVec n tf₁ (flatOf data₁ (ps ++ us)))))
    (hend : ∀ x t d : List ℝ, x.length = totalSize coords (vs ++ zs) → t.length = totalSize coords (ps ++ us) →
      d.length = totalSize coords (vs ++ zs) → φ x t → δ d →
      φ (List.zipWith (· + ·) x d) (List.zipWith (· + ·) t (stepVec n tf₁ (flatOf data₁ (ps ++ us)))))
    (hrk : ∀ d1 d2 d3 d4 d : List ℝ, δ d1 → δ d2 → δ d3 → δ d4 → vrk4 d1 d2 d3 d4 = .ok d → δ d)
    (hop : ∀ t, t < n → ∀ s₂ ∈ b₂.points dx₂ (totalSize coords vs) (b₂.stateAfter vs ps data₂ outs₂ t)
      (stepVec n tf₂ (flatOf data₂ ps)), ∀ (x t : List ℝ), x.length = totalSize coords (vs ++ zs) →
        t.length = totalSize coords (ps ++ us) → s₂ = x.take (totalSize coords vs) ++ t.take (totalSize coords ps) →
        φ x t →
        (∀ d, dx₁ x t (stepVec n tf₁ (flatOf data₁ (ps ++ us))) = .ok d →
          dx₂ (x.take (totalSize coords vs)) (t.take (totalSize coords ps))
            ((stepVec n tf₁ (flatOf data₁ (ps ++ us))).take (totalSize coords ps)) =
              .ok (d.take (totalSize coords vs)) ∧ δ d) ∧
        ∀ e, dx₂ (x.take (totalSize coords vs)) (t.take (totalSize coords ps))
            ((stepVec n tf₁ (flatOf data₁ (ps ++ us))).take (totalSize coords ps)) = .ok e →
          ∃ d, dx₁ x t (stepVec n tf₁ (flatOf data₁ (ps ++ us))) = .ok d) :
    ∃ outs₁, runEuler b₁ dx₁ (vs ++ zs) (ps ++ us) coords tf₁ n data₁ = .ok outs₁ ∧
      ∀ t, t < n → ∀ s ∈ b₁.points dx₁ (totalSize coords (vs ++ zs))
        (b₁.stateAfter (vs ++ zs) (ps ++ us) data₁ outs₁ t) (stepVec n tf₁ (flatOf data₁ (ps ++ us))),
        ∃ x' t', x'.length = totalSize coords (vs ++ zs) ∧ t'.length = totalSize coords (ps ++ us) ∧ s = x' ++ t' ∧
          φ x' t' ∧ x'.take (totalSize coords vs) ++ t'.take (totalSize coords ps) ∈ b₂.points dx₂ (totalSize coords vs)
            (b₂.stateAfter vs ps data₂ outs₂ t) (stepVec n tf₂ (flatOf data₂ ps)) := by
  have sv := totalSize_append coords vs zs
  have sp := totalSize_append coords ps us
  have sh1 : ∀ o ∈ vs ++ zs, DataFor coords data₁ o := fun o ho => hc₁.shaped o (List.mem_append_left _ ho)
  have sh2 : ∀ o ∈ ps ++ us, DataFor coords data₁ o := fun o ho => hc₁.shaped o (List.mem_append_right _ ho)
  have lx := (flatOf_spec coords data₁ (vs ++ zs) sh1).1
  have lt := (flatOf_spec coords data₁ (ps ++ us) sh2).1
  have tv : (flatOf data₁ (vs ++ zs)).take (totalSize coords vs) = flatOf data₁ vs := by
    rw [flatOf_append, List.take_left' (flatOf_spec coords data₁ vs fun o ho => sh1 o (List.mem_append_left _ ho)).1]
  have tp : (flatOf data₁ (ps ++ us)).take (totalSize coords ps) = flatOf data₁ ps := by
    rw [flatOf_append, List.take_left' (flatOf_spec coords data₁ ps fun o ho => sh2 o (List.mem_append_left _ ho)).1]
  have cx : Combines (K := ℝ) (totalSize coords (vs ++ zs)) (totalSize coords vs) (List.take (totalSize coords vs)) :=
    take_combines (by omega)
  have ct : Combines (K := ℝ) (totalSize coords (ps ++ us)) (totalSize coords ps) (List.take (totalSize coords ps)) :=
    take_combines (by omega)
  have hs : (stepVec n tf₁ (flatOf data₁ (ps ++ us))).length = totalSize coords (ps ++ us) := by
    simp only [stepVec, List.length_zipWith, lt, hc₁.final, min_self]
  have hstep : stepVec n tf₂ (flatOf data₂ ps) =
      (stepVec n tf₁ (flatOf data₁ (ps ++ us))).take (totalSize coords ps) := by
    unfold stepVec
    rw [List.take_zipWith, tp, htf, hdp]
  have hrun' := hrun
  rw [runEuler_eq b₂ dx₂ coords vs ps data₂ tf₂ n hc₂ hdx₂] at hrun'
  cases hR : eulerRows (jaxIncrement dx₂ b₂.rk4) (stepVec n tf₂ (flatOf data₂ ps)) n (flatOf data₂ vs)
      (flatOf data₂ ps) with
  | error e => rw [hR] at hrun'; cases hrun'
  | ok R =>
  have hrows₂ := stateAfter_rows b₂ dx₂ coords vs ps data₂ tf₂ n hc₂ hdx₂ outs₂ hrun R hR
  rw [hstep, hdv, hdp, ← tv, ← tp, hb] at hR
  rw [hdv, hdp, ← tv, ← tp] at hrows₂
  generalize hh : stepVec n tf₁ (flatOf data₁ (ps ++ us)) = h at *
  rw [hstep] at hop ⊢
  have hpt : ∀ (j : Nat) (s : List ℝ × List ℝ), j < n → (((flatOf data₁ (vs ++ zs)).take (totalSize coords vs),
        (flatOf data₁ (ps ++ us)).take (totalSize coords ps)) :: R)[j]? = some s →
      ∀ q ∈ solvedAt dx₂ b₁.rk4 s.1 s.2 (h.take (totalSize coords ps)),
        q.1 ++ q.2 ∈ b₂.points dx₂ (totalSize coords vs)
          (b₂.stateAfter vs ps data₂ outs₂ j) (h.take (totalSize coords ps)) := by
    intro j s hj hsj q hin
    obtain ⟨s', k1, k2, k3, k4⟩ := hrows₂ j (by omega)
    rw [hsj, Option.some.injEq] at k1
    subst k1
    unfold EulerBackend.points
    rw [k2, List.take_left' k3, List.drop_left' k3, hb]
    exact List.mem_map.2 ⟨_, hin, rfl⟩
  have hstepLift : ∀ (j : Nat) (x t d₂ : List ℝ), j < n → x.length = totalSize coords (vs ++ zs) →
      t.length = totalSize coords (ps ++ us) → (((flatOf data₁ (vs ++ zs)).take (totalSize coords vs),
        (flatOf data₁ (ps ++ us)).take (totalSize coords ps)) :: R)[j]? =
          some (x.take (totalSize coords vs), t.take (totalSize coords ps)) → φ x t →
      jaxIncrement dx₂ b₁.rk4 (x.take (totalSize coords vs)) (t.take (totalSize coords ps))
        (h.take (totalSize coords ps)) = .ok d₂ →
      (∃ d, jaxIncrement dx₁ b₁.rk4 x t h = .ok d ∧ d.take (totalSize coords vs) = d₂ ∧ δ d) ∧
      ∀ p ∈ solvedAt dx₁ b₁.rk4 x t h, φ p.1 p.2 ∧
        (p.1.take (totalSize coords vs), p.2.take (totalSize coords ps)) ∈ solvedAt dx₂ b₁.rk4
          (x.take (totalSize coords vs)) (t.take (totalSize coords ps)) (h.take (totalSize coords ps)) := by
    intro j x t d₂ hj hx ht hsj hφ hd
    refine jaxIncrement_liftKeep dx₁ dx₂ _ _ _ _ _ sv (by omega) hdx₁ hdx₂ b₁.rk4 x t h d₂ hx ht hs φ δ fill hfl hfill hmid
      hend hrk hφ (fun x' t' hx' ht' hin hφ' => ?_) hd
    exact hop j hj _ (hpt j _ hj hsj _ hin) x' t' hx' ht' rfl hφ'
  obtain ⟨R', hR', hmap, hφ⟩ := eulerRows_liftKeep (jaxIncrement dx₁ b₁.rk4) (jaxIncrement dx₂ b₁.rk4) _ _ _ _
    (jaxIncrement_len dx₁ _ _ hdx₁ _) _ _ cx ct _ hs
    (fun x t => ∃ (j : Nat), j < n ∧ (((flatOf data₁ (vs ++ zs)).take (totalSize coords vs),
      (flatOf data₁ (ps ++ us)).take (totalSize coords ps)) :: R)[j]? = some (x, t)) φ δ hend
    (by
      rintro x t d₂ hx ht ⟨j, hj, hsj⟩ hφ hd
      exact (hstepLift j x t d₂ hj hx ht hsj hφ hd).1)
    n _ _ lx lt h0 R hR (fun j s hj hsj => ⟨j, hj, hsj⟩)
  rw [← hh] at hR'
  obtain ⟨outs₁, hrun₁⟩ := runEuler_ok_of_rows b₁ dx₁ coords (vs ++ zs) (ps ++ us) data₁ tf₁ n hc₁ hdx₁ _ hR'
  have hrows₁ := stateAfter_rows b₁ dx₁ coords (vs ++ zs) (ps ++ us) data₁ tf₁ n hc₁ hdx₁ outs₁ hrun₁ _ hR'
  refine ⟨outs₁, hrun₁, fun t ht s hst => ?_⟩
  obtain ⟨s₁, k1, k2, k3, k4⟩ := hrows₁ t (by omega)
  have hs₂ : (((flatOf data₁ (vs ++ zs)).take (totalSize coords vs), (flatOf data₁ (ps ++ us)).take (totalSize coords ps))
      :: R)[t]? = some (s₁.1.take (totalSize coords vs), s₁.2.take (totalSize coords ps)) := by
    have : (((flatOf data₁ (vs ++ zs)).take (totalSize coords vs), (flatOf data₁ (ps ++ us)).take (totalSize coords ps))
        :: R) = ((flatOf data₁ (vs ++ zs), flatOf data₁ (ps ++ us)) :: R').map fun r =>
          (r.1.take (totalSize coords vs), r.2.take (totalSize coords ps)) := by rw [hmap]; rfl
    rw [this, List.getElem?_map, k1]
    rfl
  unfold EulerBackend.points at hst
  rw [k2, List.take_left' k3, List.drop_left' k3] at hst
  obtain ⟨p, hp, rfl⟩ := List.mem_map.1 hst
  have hl := solvedAt_len dx₁ _ _ hdx₁ _ _ _ _ k3 k4 hs p hp
  have hall : ∃ d₂, jaxIncrement dx₂ b₁.rk4 (s₁.1.take (totalSize coords vs)) (s₁.2.take (totalSize coords ps))
      (h.take (totalSize coords ps)) = .ok d₂ := by
    obtain ⟨x1, t1, d, h1, h2, -⟩ := eulerRows_steps _ _ n _ _ R hR t ht
    rw [hs₂, Option.some.injEq, Prod.mk.injEq] at h1
    rw [h1.1, h1.2]
    exact ⟨d, h2⟩
  obtain ⟨d₂, hd₂⟩ := hall
  obtain ⟨hφp, hin⟩ := (hstepLift t _ _ d₂ ht k3 k4 hs₂ (hφ t s₁ k1) hd₂).2 p hp
  exact ⟨p.1, p.2, hl.1, hl.2, rfl, hφp, hpt t _ ht hs₂ _ hin⟩

end Verif
