import Verif.Lemmas.Keep
import Verif.Lemmas.Exogenous
import Verif.Props.ReorderModels

/-!
# `simulate` on two models, one with further objects, when the states of the larger one keep a relation
-/

namespace Verif

variable {coords : Coords}

theorem simulate_keep {vs zs ps us : List ModelObject} {G₁ G₂ : List ℝ → List ℝ} {ok₁ ok₂ : List ℝ → Prop}
    {b₁ b₂ : EulerBackend} {dx₁ dx₂ : StepSolve ℝ} {env₁ env₂ : SamEnv ℝ (List (NDArray ℝ))} {A₁ B₁ A₂ B₂}
    (hs₁ : StepsFrom coords (vs ++ zs) (ps ++ us) G₁ ok₁ b₁ env₁ dx₁ A₁ B₁)
    (hs₂ : StepsFrom coords vs ps G₂ ok₂ b₂ env₂ dx₂ A₂ B₂) (hb : b₂.rk4 = b₁.rk4)
    (hnames : ((vs ++ zs ++ (ps ++ us)).map ModelObject.name).Nodup)
    (fl : SimFlags) (add mul : NDArray ℝ → NDArray ℝ → NDArray ℝ) (heap₁ heap₂ : Heap (NDArray ℝ)) (c₁ c₂ : SimCall ℝ)
    (hr₁ : RequestOK coords (vs ++ zs) (ps ++ us) add mul heap₁ c₁)
    (hr₂ : RequestOK coords vs ps add mul heap₂ c₂)
    (heul₁ : c₁.useEuler = true) (hopt₁ : c₁.useOptimizer = false)
    (heul₂ : c₂.useEuler = true) (hopt₂ : c₂.useOptimizer = false)
    (h1 : 1 ≤ c₁.nIterEuler) (hn : c₂.nIterEuler = c₁.nIterEuler)
    (hinit : ∀ o ∈ vs ++ ps, seen heap₂ c₂.initial o.name = seen heap₁ c₁.initial o.name)
    (hwant : ∀ o ∈ ps, wantedValue add mul heap₂ c₂ o.name = wantedValue add mul heap₁ c₁ o.name)
    (outs : List (NDArray ℝ))
    (hrun : env₁.euler (derefDict heap₁ c₁.initial) (wantedFlat add mul heap₁ c₁ (ps ++ us)) c₁.nIterEuler = .ok outs)
    (φ : List ℝ → List ℝ → Prop) (δ : List ℝ → Prop) (R : List ℝ → Prop) (h : List ℝ)
    (hh : h = stepVec c₁.nIterEuler (wantedFlat add mul heap₁ c₁ (ps ++ us)) (initialFlat heap₁ c₁ (ps ++ us)))
    (h0 : φ (initialFlat heap₁ c₁ (vs ++ zs)) (initialFlat heap₁ c₁ (ps ++ us)))
    (hmid : ∀ x t d : List ℝ, x.length = totalSize coords (vs ++ zs) → t.length = totalSize coords (ps ++ us) →
      d.length = totalSize coords (vs ++ zs) → φ x t → δ d →
      φ (List.zipWith (fun a b => a + 2⁻¹ * b) x d) (List.zipWith (fun a b => a + 2⁻¹ * b) t h))
    (hend : ∀ x t d : List ℝ, x.length = totalSize coords (vs ++ zs) → t.length = totalSize coords (ps ++ us) →
      d.length = totalSize coords (vs ++ zs) → φ x t → δ d →
      φ (List.zipWith (· + ·) x d) (List.zipWith (· + ·) t h))
    (hrk : ∀ d1 d2 d3 d4 d : List ℝ, δ d1 → δ d2 → δ d3 → δ d4 → vrk4 d1 d2 d3 d4 = .ok d → δ d)
    (hδ : ∀ x t d : List ℝ, x.length = totalSize coords (vs ++ zs) → t.length = totalSize coords (ps ++ us) →
      h.length = totalSize coords (ps ++ us) → R (x ++ t) → (vecJac A₁ B₁).solve x t h = .ok d → δ d)
    (hop : ∀ x t d : List ℝ, x.length = totalSize coords (vs ++ zs) → t.length = totalSize coords (ps ++ us) →
      h.length = totalSize coords (ps ++ us) → R (x ++ t) → φ x t → (vecJac A₁ B₁).solve x t h = .ok d →
      (vecJac A₂ B₂).solve (x.take (totalSize coords vs)) (t.take (totalSize coords ps)) (h.take (totalSize coords ps)) =
        .ok (d.take (totalSize coords vs)))
    (hreg : ∀ t, t < c₁.nIterEuler → ∀ s ∈ b₁.points dx₁ (totalSize coords (vs ++ zs))
        (b₁.stateAfter (vs ++ zs) (ps ++ us) (derefDict heap₁ c₁.initial) outs t) h, R s) :
    ∃ e₁ e₂ outs₂,
      simulateCompute (simEnvOf env₁ (fun _ => false) fl add mul) heap₁ c₁ = .ok ⟨some e₁, none, none, false⟩ ∧
      simulateCompute (simEnvOf env₂ (fun _ => false) fl add mul) heap₂ c₂ = .ok ⟨some e₂, none, none, false⟩ ∧
      env₂.euler (derefDict heap₂ c₂.initial) (wantedFlat add mul heap₂ c₂ ps) c₂.nIterEuler = .ok outs₂ ∧
      (∀ t, t ≤ c₁.nIterEuler → SameArrays coords (vs ++ zs ++ (ps ++ us)) (vs ++ ps)
        (b₁.stateAfter (vs ++ zs) (ps ++ us) (derefDict heap₁ c₁.initial) outs t)
        (b₂.stateAfter vs ps (derefDict heap₂ c₂.initial) outs₂ t) ∧
        φ ((b₁.stateAfter (vs ++ zs) (ps ++ us) (derefDict heap₁ c₁.initial) outs t).take (totalSize coords (vs ++ zs)))
          ((b₁.stateAfter (vs ++ zs) (ps ++ us) (derefDict heap₁ c₁.initial) outs t).drop (totalSize coords (vs ++ zs)))) ∧
      ∀ o ∈ vs ++ ps, DataFor coords e₁.start o ∧ dget e₂.start o.name = dget e₁.start o.name := by
  obtain ⟨hem₁, hce₁, hve₁, hpe₁, hcomp₁, hsteps₁, hsolve₁, hder₁⟩ := id hs₁
  obtain ⟨hem₂, hce₂, hve₂, hpe₂, hcomp₂, hsteps₂, hsolve₂, hder₂⟩ := id hs₂
  have hl₁ := hs₁.lenOK
  have hl₂ := hs₂.lenOK
  obtain ⟨hcall₁, hini₁, hsim₁⟩ := simulate_euler_only env₁ b₁ dx₁ hsteps₁ (by rw [hce₁, hve₁, hpe₁]; exact hem₁)
    (by rw [hce₁, hve₁, hpe₁]; exact hl₁) hcomp₁ fl add mul heap₁ c₁ (by rw [hce₁, hve₁, hpe₁]; exact hr₁) heul₁ hopt₁ h1
  obtain ⟨hcall₂, hini₂, hsim₂⟩ := simulate_euler_only env₂ b₂ dx₂ hsteps₂ (by rw [hce₂, hve₂, hpe₂]; exact hem₂)
    (by rw [hce₂, hve₂, hpe₂]; exact hl₂) hcomp₂ fl add mul heap₂ c₂ (by rw [hce₂, hve₂, hpe₂]; exact hr₂) heul₂ hopt₂
    (by rw [hn]; exact h1)
  rw [hce₁, hve₁, hpe₁] at hcall₁ hsim₁
  rw [hve₁, hpe₁] at hini₁
  rw [hce₂, hve₂, hpe₂] at hcall₂ hsim₂
  rw [hve₂, hpe₂] at hini₂
  rw [hn] at hsim₂
  rw [hsteps₁] at hrun
  dsimp only at hrun
  rw [hce₁, hve₁, hpe₁] at hrun
  obtain ⟨e₁, g1, -, g3, g4⟩ := hsim₁ outs hrun
  have hsub : ∀ o ∈ vs ++ ps, o ∈ vs ++ zs ++ (ps ++ us) := by
    intro o ho
    rcases List.mem_append.1 ho with ho | ho
    · exact List.mem_append_left _ (List.mem_append_left _ ho)
    · exact List.mem_append_right _ (List.mem_append_left _ ho)
  have hflat : ∀ objs, (∀ o ∈ objs, o ∈ vs ++ ps) →
      flatOf (derefDict heap₂ c₂.initial) objs = flatOf (derefDict heap₁ c₁.initial) objs := by
    intro objs ho
    rw [hini₂ objs ho, hini₁ objs fun o h => hsub o (ho o h)]
    unfold initialFlat
    apply List.flatMap_congr
    intro o h
    rw [hinit o (ho o h)]
  have hwf : wantedFlat add mul heap₂ c₂ ps = (wantedFlat add mul heap₁ c₁ (ps ++ us)).take (totalSize coords ps) := by
    have e : wantedFlat add mul heap₂ c₂ ps = wantedFlat add mul heap₁ c₁ ps := by
      unfold wantedFlat
      apply List.flatMap_congr
      intro o ho
      rw [hwant o ho]
    have e' : wantedFlat add mul heap₁ c₁ (ps ++ us) =
        wantedFlat add mul heap₁ c₁ ps ++ wantedFlat add mul heap₁ c₁ us := by
      unfold wantedFlat; rw [List.flatMap_append]
    rw [e', List.take_left' (by rw [← e]; exact hcall₂.final), e]
  have hip := hini₁ (ps ++ us) (fun o ho => List.mem_append_right _ ho)
  have hiv := hini₁ (vs ++ zs) (fun o ho => List.mem_append_left _ ho)
  rw [← hip] at hh h0
  rw [← hiv] at h0
  have hlh : h.length = totalSize coords (ps ++ us) := by
    rw [hh, stepVec, List.length_zipWith, hcall₁.final,
      (flatOf_spec coords _ _ fun o ho => hcall₁.shaped o (List.mem_append_right _ ho)).1, min_self]
  subst hh
  obtain ⟨outs₂, hrun₂, hst⟩ := runs_keep coords b₁ b₂ hb dx₁ dx₂ hl₁ hl₂ _ _ _ _ c₁.nIterEuler hcall₁ hcall₂ hnames
    (hflat _ fun o ho => List.mem_append_left _ ho) (hflat _ fun o ho => List.mem_append_right _ ho) hwf outs hrun φ δ h0
    hmid hend hrk
    (by
      intro j hj s hs x t d hx ht hsx hd
      rw [hsolve₁ _ _ _ hx ht hlh] at hd
      exact hδ x t d hx ht hlh (hsx ▸ hreg j hj s hs) hd)
    (by
      intro j hj s hs x t d hx ht hsx hφ hd
      rw [hsolve₁ _ _ _ hx ht hlh] at hd
      have sv := totalSize_append coords vs zs
      have sp := totalSize_append coords ps us
      rw [hsolve₂ _ _ _ (by rw [List.length_take]; omega) (by rw [List.length_take]; omega)
        (by rw [List.length_take]; omega)]
      exact hop x t d hx ht hlh (hsx ▸ hreg j hj s hs) hφ hd)
  obtain ⟨e₂, k1, -, k3, k4⟩ := hsim₂ outs₂ hrun₂
  refine ⟨e₁, e₂, outs₂, g1, k1, ?_, hst, ?_⟩
  · rw [hsteps₂]
    dsimp only
    rw [hce₂, hve₂, hpe₂, hn]
    exact hrun₂
  · obtain ⟨⟨d, w1, w2, w3⟩, -⟩ := hst _ le_rfl
    rw [w2] at g4
    rw [w3] at k4
    have i1 := flatOf_inj coords _ e₁.start d g3 w1 g4
    have i2 := flatOf_inj coords _ e₂.start d k3 (fun o ho => w1 o (hsub o ho)) k4
    intro o ho
    exact ⟨g3 o (hsub o ho), by rw [i1 o (hsub o ho), i2 o ho]⟩

end Verif
