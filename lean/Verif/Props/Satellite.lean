import Verif.Lemmas.SatelliteLift
import Verif.Props.ReorderModels

/-!
# C103: equations and variables added to a model do not change the model they are added to
-/

namespace Verif

open SymExpr

variable {coords : Coords} {vars params more extra : List ModelObject} {numeraire : Option ModelObject}
  {eqs further : List IndexedEq}

/-- **C103, solutions.**  Add variables `more`, parameters `extra` and equations `further` to a model whose own equations
are kept.  The named arrays `d` are a solution of the larger model if and only if they are a solution of the smaller one
and the added equations hold. -/
theorem C103_solutions (h₁ : IndexedModel coords (vars ++ more) (params ++ extra) numeraire (eqs ++ further))
    (h₂ : IndexedModel coords vars params numeraire eqs) (d : Dict Str (NDArray ℝ))
    (hd : ∀ o ∈ solvedVars numeraire (vars ++ more) ++ (params ++ extra), DataFor coords d o) :
    (∀ y ∈ imbalances coords (vars ++ more) (params ++ extra) numeraire (eqs ++ further)
        (flatOf d (solvedVars numeraire (vars ++ more) ++ (params ++ extra))), y = 0) ↔
      (∀ y ∈ imbalances coords vars params numeraire eqs (flatOf d (solvedVars numeraire vars ++ params)), y = 0) ∧
      ∀ y ∈ imbalances coords (vars ++ more) (params ++ extra) numeraire further
        (flatOf d (solvedVars numeraire (vars ++ more) ++ (params ++ extra))), y = 0 := by
  have hx := (flatOf_spec coords d _ fun o ho => hd o (List.mem_append_left _ ho)).1
  have ht := (flatOf_spec coords d _ fun o ho => hd o (List.mem_append_right _ ho)).1
  have hv : ∀ o ∈ solvedVars numeraire vars, DataFor coords d o := fun o ho =>
    hd o (List.mem_append_left _ (by rw [solvedVars_append]; exact List.mem_append_left _ ho))
  have hp : ∀ o ∈ params, DataFor coords d o := fun o ho =>
    hd o (List.mem_append_right _ (List.mem_append_left _ ho))
  have e1 : (flatOf d (solvedVars numeraire (vars ++ more))).take (totalSize coords (solvedVars numeraire vars)) =
      flatOf d (solvedVars numeraire vars) := by
    rw [solvedVars_append, flatOf_append, List.take_left' (flatOf_spec coords d _ hv).1]
  have e2 : (flatOf d (params ++ extra)).take (totalSize coords params) = flatOf d params := by
    rw [flatOf_append, List.take_left' (flatOf_spec coords d _ hp).1]
  rw [flatOf_append d (solvedVars numeraire (vars ++ more)), imbalances_narrow h₁ h₂ _ _ hx ht, e1, e2,
    flatOf_append d (solvedVars numeraire vars)]
  simp only [List.mem_append]
  exact ⟨fun h => ⟨fun y hy => h y (.inl hy), fun y hy => h y (.inr hy)⟩, fun h y hy => hy.elim (h.1 y) (h.2 y)⟩

/-- **C103, simulations.**  Add variables `more`, parameters `extra` and equations `further` to a model whose own equations
are kept; each model is built for any back-end, but both with Euler or both with Runge-Kutta steps.  Let both calls ask
for the same number of steps, from the same initial values to the same values of the parameters of the smaller model.
Let the Euler function of the larger model return, and let the powers and logarithms of both models be defined at the
points at which it solved for a direction.  Then `simulate` with Euler steps only returns for both models; at every step
the arrays of the smaller model are those that the larger model has under the same names, and so are the final states. -/
theorem C103_simulate {es₁ es₂ : List (SymExpr Str)} {b₁ b₂ : EulerBackend} {dx₁ dx₂ : StepSolve ℝ}
    {env₁ env₂ : SamEnv ℝ (List (NDArray ℝ))}
    (hm₁ : BuiltOn coords (vars ++ more) (params ++ extra) numeraire (eqs ++ further) es₁ b₁ dx₁ env₁)
    (hm₂ : BuiltOn coords vars params numeraire eqs es₂ b₂ dx₂ env₂) (hb : b₂.rk4 = b₁.rk4)
    (hsq₁ : es₁.length = totalSize coords (solvedVars numeraire (vars ++ more)))
    (hsq₂ : es₂.length = totalSize coords (solvedVars numeraire vars))
    (fl : SimFlags) (add mul : NDArray ℝ → NDArray ℝ → NDArray ℝ) (heap₁ heap₂ : Heap (NDArray ℝ)) (c₁ c₂ : SimCall ℝ)
    (hr₁ : RequestOK coords (solvedVars numeraire (vars ++ more)) (params ++ extra) add mul heap₁ c₁)
    (hr₂ : RequestOK coords (solvedVars numeraire vars) params add mul heap₂ c₂)
    (heul₁ : c₁.useEuler = true) (hopt₁ : c₁.useOptimizer = false)
    (heul₂ : c₂.useEuler = true) (hopt₂ : c₂.useOptimizer = false)
    (h1 : 1 ≤ c₁.nIterEuler) (hn : c₂.nIterEuler = c₁.nIterEuler)
    (hinit : ∀ o ∈ solvedVars numeraire vars ++ params, seen heap₂ c₂.initial o.name = seen heap₁ c₁.initial o.name)
    (hwant : ∀ o ∈ params, wantedValue add mul heap₂ c₂ o.name = wantedValue add mul heap₁ c₁ o.name)
    (outs : List (NDArray ℝ))
    (hrun : env₁.euler (derefDict heap₁ c₁.initial) (wantedFlat add mul heap₁ c₁ (params ++ extra)) c₁.nIterEuler = .ok outs)
    (hreg : ∀ t, t < c₁.nIterEuler → ∀ s ∈ b₁.points dx₁ (totalSize coords (solvedVars numeraire (vars ++ more)))
        (b₁.stateAfter (solvedVars numeraire (vars ++ more)) (params ++ extra) (derefDict heap₁ c₁.initial) outs t)
        (stepVec c₁.nIterEuler (wantedFlat add mul heap₁ c₁ (params ++ extra)) (initialFlat heap₁ c₁ (params ++ extra))),
      (∀ e ∈ es₁, Regular (flatPoint (scalarNames coords
        (solvedVars numeraire (vars ++ more) ++ (params ++ extra))) s) e) ∧
      ∀ s₂, SameArrays coords (solvedVars numeraire (vars ++ more) ++ (params ++ extra))
          (solvedVars numeraire vars ++ params) s s₂ →
        ∀ e ∈ es₂, Regular (flatPoint (scalarNames coords (solvedVars numeraire vars ++ params)) s₂) e) :
    ∃ e₁ e₂ outs₂,
      simulateCompute (simEnvOf env₁ (fun _ => false) fl add mul) heap₁ c₁ = .ok ⟨some e₁, none, none, false⟩ ∧
      simulateCompute (simEnvOf env₂ (fun _ => false) fl add mul) heap₂ c₂ = .ok ⟨some e₂, none, none, false⟩ ∧
      env₂.euler (derefDict heap₂ c₂.initial) (wantedFlat add mul heap₂ c₂ params) c₂.nIterEuler = .ok outs₂ ∧
      (∀ t, t ≤ c₁.nIterEuler → SameArrays coords (solvedVars numeraire (vars ++ more) ++ (params ++ extra))
        (solvedVars numeraire vars ++ params)
        (b₁.stateAfter (solvedVars numeraire (vars ++ more)) (params ++ extra) (derefDict heap₁ c₁.initial) outs t)
        (b₂.stateAfter (solvedVars numeraire vars) params (derefDict heap₂ c₂.initial) outs₂ t)) ∧
      ∀ o ∈ solvedVars numeraire vars ++ params, DataFor coords e₁.start o ∧
        dget e₂.start o.name = dget e₁.start o.name := by
  obtain ⟨hmod₁, dx₁', A₁, B₁, hpts, hs₁⟩ := hm₁.stepsFrom hsq₁
  simp only [← hpts] at hreg
  have hcount := hm₂.count
  obtain ⟨hmod₂, dx₂', A₂, B₂, -, hs₂⟩ := hm₂.stepsFrom hsq₂
  clear hm₁ hm₂ hpts dx₁ dx₂
  rename' dx₁' => dx₁, dx₂' => dx₂
  have hnames := (solvedModel (numeraire := numeraire) hmod₁.scalar).names
  have hG : ∀ x t, x.length = totalSize coords (solvedVars numeraire (vars ++ more)) →
      t.length = totalSize coords (params ++ extra) → ∀ i < totalSize coords (solvedVars numeraire vars),
      (imbalances coords vars params numeraire eqs (x.take (totalSize coords (solvedVars numeraire vars)) ++
        t.take (totalSize coords params))).getD i 0 =
      (imbalances coords (vars ++ more) (params ++ extra) numeraire (eqs ++ further) (x ++ t)).getD i 0 := by
    intro x t hx ht i hi
    rw [imbalances_narrow hmod₁ hmod₂ x t hx ht, List.getD_eq_getElem?_getD, List.getD_eq_getElem?_getD,
      List.getElem?_append_left (by rw [length_imbalances, ← hcount, hsq₂]; exact hi)]
  obtain ⟨hem₁, hce₁, hve₁, hpe₁, hcomp₁, hsteps₁, hsolve₁, hder₁⟩ := id hs₁
  obtain ⟨hem₂, hce₂, hve₂, hpe₂, hcomp₂, hsteps₂, hsolve₂, hder₂⟩ := id hs₂
  have hl₁ := hs₁.lenOK
  have hl₂ := hs₂.lenOK
  obtain ⟨hcall₁, hini₁, hsim₁⟩ := simulate_euler_only env₁ b₁ dx₁ hsteps₁ (by rw [hce₁, hve₁, hpe₁]; exact hem₁)
    (by rw [hce₁, hve₁, hpe₁]; exact hl₁) hcomp₁ fl add mul heap₁ c₁ (by rw [hce₁, hve₁, hpe₁]; exact hr₁) heul₁ hopt₁ h1
  obtain ⟨hcall₂, hini₂, hsim₂⟩ := simulate_euler_only env₂ b₂ dx₂ hsteps₂ (by rw [hce₂, hve₂, hpe₂]; exact hem₂)
    (by rw [hce₂, hve₂, hpe₂]; exact hl₂) hcomp₂ fl add mul heap₂ c₂ (by rw [hce₂, hve₂, hpe₂]; exact hr₂) heul₂ hopt₂
    (by rw [hn]; exact h1)
  rw [hce₁, hve₁, hpe₁] at hcall₁ hsim₁
  rw [hve₁, hpe₁] at hini₁
  rw [hce₂, hve₂, hpe₂] at hcall₂ hsim₂
  rw [hve₂, hpe₂] at hini₂
  rw [hn] at hsim₂
  rw [hsteps₁] at hrun
  dsimp only at hrun
  rw [hce₁, hve₁, hpe₁] at hrun
  obtain ⟨e₁, g1, -, g3, g4⟩ := hsim₁ outs hrun
  rw [← hini₁ (params ++ extra) (fun o ho => List.mem_append_right _ ho)] at hreg
  have hsub : ∀ o ∈ solvedVars numeraire vars ++ params, o ∈ solvedVars numeraire (vars ++ more) ++ (params ++ extra) := by
    intro o ho
    rw [solvedVars_append]
    rcases List.mem_append.1 ho with ho | ho
    · exact List.mem_append_left _ (List.mem_append_left _ ho)
    · exact List.mem_append_right _ (List.mem_append_left _ ho)
  have hflat : ∀ objs, (∀ o ∈ objs, o ∈ solvedVars numeraire vars ++ params) →
      flatOf (derefDict heap₂ c₂.initial) objs = flatOf (derefDict heap₁ c₁.initial) objs := by
    intro objs ho
    rw [hini₂ objs ho, hini₁ objs fun o h => hsub o (ho o h)]
    unfold initialFlat
    apply List.flatMap_congr
    intro o h
    rw [hinit o (ho o h)]
  have hwf : wantedFlat add mul heap₂ c₂ params =
      (wantedFlat add mul heap₁ c₁ (params ++ extra)).take (totalSize coords params) := by
    have e : wantedFlat add mul heap₂ c₂ params = wantedFlat add mul heap₁ c₁ params := by
      unfold wantedFlat
      apply List.flatMap_congr
      intro o ho
      rw [hwant o ho]
    have e' : wantedFlat add mul heap₁ c₁ (params ++ extra) =
        wantedFlat add mul heap₁ c₁ params ++ wantedFlat add mul heap₁ c₁ extra := by
      unfold wantedFlat; rw [List.flatMap_append]
    rw [e', List.take_left' (by rw [← e]; exact hcall₂.final), e]
  have hvs := solvedVars_append numeraire vars more
  generalize solvedVars numeraire (vars ++ more) = vs₁ at *
  subst hvs
  obtain ⟨outs₂, hrun₂, hst⟩ := runs_narrow coords b₁ b₂ hb dx₁ dx₂ _ _ _ _ A₁ B₁ A₂ B₂ hsolve₁ hsolve₂ hder₁ hder₂ hG
    _ _ _ _ c₁.nIterEuler hcall₁ hcall₂ hnames (hflat _ fun o ho => List.mem_append_left _ ho)
    (hflat _ fun o ho => List.mem_append_right _ ho) hwf outs hrun hreg
  obtain ⟨e₂, k1, -, k3, k4⟩ := hsim₂ outs₂ hrun₂
  refine ⟨e₁, e₂, outs₂, g1, k1, ?_, hst, ?_⟩
  · rw [hsteps₂]
    dsimp only
    rw [hce₂, hve₂, hpe₂, hn]
    exact hrun₂
  · obtain ⟨d, w1, w2, w3⟩ := hst _ le_rfl
    rw [w2] at g4
    rw [w3] at k4
    have i1 := flatOf_inj coords _ e₁.start d g3 w1 g4
    have i2 := flatOf_inj coords _ e₂.start d k3 (fun o ho => w1 o (hsub o ho)) k4
    intro o ho
    exact ⟨g3 o (hsub o ho), by rw [i1 o (hsub o ho), i2 o ho]⟩

/-- **C103, the larger model runs if the smaller one does.**  As in `C103_simulate`, but let the Euler function of the
smaller model return.  At every state of the larger model that agrees by name with a point at which it solved for a
direction, let the powers and logarithms of both models be defined, and let the matrix of the derivatives of the added
equations in the added variables be invertible.  Then the Euler function of the larger model returns too, so that
`simulate` returns for both, with the same arrays for the objects of the smaller model. -/
theorem C103_returns {es₁ es₂ : List (SymExpr Str)} {b₁ b₂ : EulerBackend} {dx₁ dx₂ : StepSolve ℝ}
    {env₁ env₂ : SamEnv ℝ (List (NDArray ℝ))}
    (hm₁ : BuiltOn coords (vars ++ more) (params ++ extra) numeraire (eqs ++ further) es₁ b₁ dx₁ env₁)
    (hm₂ : BuiltOn coords vars params numeraire eqs es₂ b₂ dx₂ env₂) (hb : b₂.rk4 = b₁.rk4)
    (hsq₁ : es₁.length = totalSize coords (solvedVars numeraire (vars ++ more)))
    (hsq₂ : es₂.length = totalSize coords (solvedVars numeraire vars))
    (fl : SimFlags) (add mul : NDArray ℝ → NDArray ℝ → NDArray ℝ) (heap₁ heap₂ : Heap (NDArray ℝ)) (c₁ c₂ : SimCall ℝ)
    (hr₁ : RequestOK coords (solvedVars numeraire (vars ++ more)) (params ++ extra) add mul heap₁ c₁)
    (hr₂ : RequestOK coords (solvedVars numeraire vars) params add mul heap₂ c₂)
    (heul₁ : c₁.useEuler = true) (hopt₁ : c₁.useOptimizer = false)
    (heul₂ : c₂.useEuler = true) (hopt₂ : c₂.useOptimizer = false)
    (h1 : 1 ≤ c₁.nIterEuler) (hn : c₂.nIterEuler = c₁.nIterEuler)
    (hinit : ∀ o ∈ solvedVars numeraire vars ++ params, seen heap₂ c₂.initial o.name = seen heap₁ c₁.initial o.name)
    (hwant : ∀ o ∈ params, wantedValue add mul heap₂ c₂ o.name = wantedValue add mul heap₁ c₁ o.name)
    (outs₂ : List (NDArray ℝ))
    (hrun : env₂.euler (derefDict heap₂ c₂.initial) (wantedFlat add mul heap₂ c₂ params) c₂.nIterEuler = .ok outs₂)
    (hreg : ∀ t, t < c₂.nIterEuler → ∀ s₂ ∈ b₂.points dx₂ (totalSize coords (solvedVars numeraire vars))
        (b₂.stateAfter (solvedVars numeraire vars) params (derefDict heap₂ c₂.initial) outs₂ t)
        (stepVec c₂.nIterEuler (wantedFlat add mul heap₂ c₂ params) (initialFlat heap₂ c₂ params)),
      ∀ s, SameArrays coords (solvedVars numeraire (vars ++ more) ++ (params ++ extra))
          (solvedVars numeraire vars ++ params) s s₂ →
        (∀ e ∈ es₁, Regular (flatPoint (scalarNames coords
          (solvedVars numeraire (vars ++ more) ++ (params ++ extra))) s) e) ∧
        (∀ e ∈ es₂, Regular (flatPoint (scalarNames coords (solvedVars numeraire vars ++ params)) s₂) e) ∧
        ∀ E : Matrix (Fin (totalSize coords (solvedVars numeraire more)))
            (Fin (totalSize coords (solvedVars numeraire more))) ℝ,
          (∀ i j : Fin (totalSize coords (solvedVars numeraire more)), HasDerivAt (fun u =>
            (imbalances coords (vars ++ more) (params ++ extra) numeraire further
              (s.set (totalSize coords (solvedVars numeraire vars) + j) u)).getD i 0) (E i j)
            (s.getD (totalSize coords (solvedVars numeraire vars) + j) 0)) → E.det ≠ 0) :
    ∃ e₁ e₂ outs,
      env₁.euler (derefDict heap₁ c₁.initial) (wantedFlat add mul heap₁ c₁ (params ++ extra)) c₁.nIterEuler = .ok outs ∧
      simulateCompute (simEnvOf env₁ (fun _ => false) fl add mul) heap₁ c₁ = .ok ⟨some e₁, none, none, false⟩ ∧
      simulateCompute (simEnvOf env₂ (fun _ => false) fl add mul) heap₂ c₂ = .ok ⟨some e₂, none, none, false⟩ ∧
      ∀ o ∈ solvedVars numeraire vars ++ params, DataFor coords e₁.start o ∧
        dget e₂.start o.name = dget e₁.start o.name := by
  suffices hsuff : ∃ outs,
      env₁.euler (derefDict heap₁ c₁.initial) (wantedFlat add mul heap₁ c₁ (params ++ extra)) c₁.nIterEuler = .ok outs ∧
      ∀ t, t < c₁.nIterEuler → ∀ s ∈ b₁.points dx₁ (totalSize coords (solvedVars numeraire (vars ++ more)))
        (b₁.stateAfter (solvedVars numeraire (vars ++ more)) (params ++ extra) (derefDict heap₁ c₁.initial) outs t)
        (stepVec c₁.nIterEuler (wantedFlat add mul heap₁ c₁ (params ++ extra)) (initialFlat heap₁ c₁ (params ++ extra))),
      (∀ e ∈ es₁, Regular (flatPoint (scalarNames coords
        (solvedVars numeraire (vars ++ more) ++ (params ++ extra))) s) e) ∧
      ∀ s₂, SameArrays coords (solvedVars numeraire (vars ++ more) ++ (params ++ extra))
          (solvedVars numeraire vars ++ params) s s₂ →
        ∀ e ∈ es₂, Regular (flatPoint (scalarNames coords (solvedVars numeraire vars ++ params)) s₂) e by
    obtain ⟨outs, g1, g2⟩ := hsuff
    obtain ⟨e₁, e₂, -, k1, k2, -, -, k5⟩ := C103_simulate hm₁ hm₂ hb hsq₁ hsq₂ fl add mul heap₁ heap₂ c₁ c₂ hr₁ hr₂ heul₁
      hopt₁ heul₂ hopt₂ h1 hn hinit hwant outs g1 g2
    exact ⟨e₁, e₂, outs, g1, k1, k2, k5⟩
  obtain ⟨hmod₁, dx₁', A₁, B₁, hpts₁, hs₁⟩ := hm₁.stepsFrom hsq₁
  have hcount := hm₂.count
  obtain ⟨hmod₂, dx₂', A₂, B₂, hpts₂, hs₂⟩ := hm₂.stepsFrom hsq₂
  simp only [← hpts₁]
  simp only [← hpts₂] at hreg
  clear hm₁ hm₂ hpts₁ hpts₂ dx₁ dx₂
  rename' dx₁' => dx₁, dx₂' => dx₂
  have hnames := (solvedModel (numeraire := numeraire) hmod₁.scalar).names
  have hlen : ∀ flat, (imbalances coords vars params numeraire eqs flat).length =
      totalSize coords (solvedVars numeraire vars) := fun flat => by rw [length_imbalances, ← hcount, hsq₂]
  have hG : ∀ x t, x.length = totalSize coords (solvedVars numeraire (vars ++ more)) →
      t.length = totalSize coords (params ++ extra) → ∀ i < totalSize coords (solvedVars numeraire vars),
      (imbalances coords vars params numeraire eqs (x.take (totalSize coords (solvedVars numeraire vars)) ++
        t.take (totalSize coords params))).getD i 0 =
      (imbalances coords (vars ++ more) (params ++ extra) numeraire (eqs ++ further) (x ++ t)).getD i 0 := by
    intro x t hx ht i hi
    rw [imbalances_narrow hmod₁ hmod₂ x t hx ht, List.getD_eq_getElem?_getD, List.getD_eq_getElem?_getD,
      List.getElem?_append_left (by rw [hlen]; exact hi)]
  have hfur : ∀ flat i, (imbalances coords (vars ++ more) (params ++ extra) numeraire (eqs ++ further) flat).getD
      (totalSize coords (solvedVars numeraire vars) + i) 0 =
      (imbalances coords (vars ++ more) (params ++ extra) numeraire further flat).getD i 0 := by
    intro flat i
    have hl : (imbalances coords (vars ++ more) (params ++ extra) numeraire eqs flat).length =
        totalSize coords (solvedVars numeraire vars) := by rw [length_imbalances, ← hcount, hsq₂]
    rw [imbalances_append, List.getD_eq_getElem?_getD, List.getD_eq_getElem?_getD,
      List.getElem?_append_right (by omega), hl, Nat.add_sub_cancel_left]
  simp only [← hfur] at hreg
  obtain ⟨hem₁, hce₁, hve₁, hpe₁, hcomp₁, hsteps₁, hsolve₁, hder₁⟩ := id hs₁
  obtain ⟨hem₂, hce₂, hve₂, hpe₂, hcomp₂, hsteps₂, hsolve₂, hder₂⟩ := id hs₂
  have hl₁ := hs₁.lenOK
  have hl₂ := hs₂.lenOK
  obtain ⟨hcall₁, hini₁, -⟩ := simulate_euler_only env₁ b₁ dx₁ hsteps₁ (by rw [hce₁, hve₁, hpe₁]; exact hem₁)
    (by rw [hce₁, hve₁, hpe₁]; exact hl₁) hcomp₁ fl add mul heap₁ c₁ (by rw [hce₁, hve₁, hpe₁]; exact hr₁) heul₁ hopt₁ h1
  obtain ⟨hcall₂, hini₂, -⟩ := simulate_euler_only env₂ b₂ dx₂ hsteps₂ (by rw [hce₂, hve₂, hpe₂]; exact hem₂)
    (by rw [hce₂, hve₂, hpe₂]; exact hl₂) hcomp₂ fl add mul heap₂ c₂ (by rw [hce₂, hve₂, hpe₂]; exact hr₂) heul₂ hopt₂
    (by rw [hn]; exact h1)
  rw [hce₁, hve₁, hpe₁] at hcall₁
  rw [hve₁, hpe₁] at hini₁
  rw [hce₂, hve₂, hpe₂] at hcall₂
  rw [hve₂, hpe₂] at hini₂
  rw [hsteps₂] at hrun
  dsimp only at hrun
  rw [hce₂, hve₂, hpe₂, hn] at hrun
  rw [hn, ← hini₂ params (fun o ho => List.mem_append_right _ ho)] at hreg
  rw [← hini₁ (params ++ extra) (fun o ho => List.mem_append_right _ ho)]
  have hsub : ∀ o ∈ solvedVars numeraire vars ++ params, o ∈ solvedVars numeraire (vars ++ more) ++ (params ++ extra) := by
    intro o ho
    rw [solvedVars_append]
    rcases List.mem_append.1 ho with ho | ho
    · exact List.mem_append_left _ (List.mem_append_left _ ho)
    · exact List.mem_append_right _ (List.mem_append_left _ ho)
  have hflat : ∀ objs, (∀ o ∈ objs, o ∈ solvedVars numeraire vars ++ params) →
      flatOf (derefDict heap₂ c₂.initial) objs = flatOf (derefDict heap₁ c₁.initial) objs := by
    intro objs ho
    rw [hini₂ objs ho, hini₁ objs fun o h => hsub o (ho o h)]
    unfold initialFlat
    apply List.flatMap_congr
    intro o h
    rw [hinit o (ho o h)]
  have hwf : wantedFlat add mul heap₂ c₂ params =
      (wantedFlat add mul heap₁ c₁ (params ++ extra)).take (totalSize coords params) := by
    have e : wantedFlat add mul heap₂ c₂ params = wantedFlat add mul heap₁ c₁ params := by
      unfold wantedFlat
      apply List.flatMap_congr
      intro o ho
      rw [hwant o ho]
    have e' : wantedFlat add mul heap₁ c₁ (params ++ extra) =
        wantedFlat add mul heap₁ c₁ params ++ wantedFlat add mul heap₁ c₁ extra := by
      unfold wantedFlat; rw [List.flatMap_append]
    rw [e', List.take_left' (by rw [← e]; exact hcall₂.final), e]
  have hvs := solvedVars_append numeraire vars more
  generalize solvedVars numeraire (vars ++ more) = vs₁ at *
  subst hvs
  obtain ⟨outs, hrun₁, hst⟩ := runs_widen coords b₁ b₂ hb dx₁ dx₂ _ _ _ _ A₁ B₁ A₂ B₂ hsolve₁ hsolve₂ hder₁ hder₂ hG
    _ _ _ _ c₁.nIterEuler hcall₁ hcall₂ hnames (hflat _ fun o ho => List.mem_append_left _ ho)
    (hflat _ fun o ho => List.mem_append_right _ ho) hwf outs₂ hrun hreg
  refine ⟨outs, ?_, fun t ht s hs => ?_⟩
  · rw [hsteps₁]
    dsimp only
    rw [hce₁, hve₁, hpe₁]
    exact hrun₁
  · obtain ⟨s₂, hs₂, hss⟩ := hst t ht s hs
    obtain ⟨o1, o2, -⟩ := hreg t ht s₂ hs₂ s hss
    refine ⟨o1, fun s₂' hss' => ?_⟩
    have : s₂' = s₂ := by
      obtain ⟨d, w1, w2, w3⟩ := hss
      obtain ⟨d', v1, v2, v3⟩ := hss'
      have hi := flatOf_inj coords _ d d' w1 v1 (by rw [← w2, ← v2])
      rw [w3, v3]
      unfold flatOf
      apply List.flatMap_congr
      intro o ho
      rw [hi o (hsub o ho)]
    rw [this]
    exact o2

/-! ## Reports -/

/-- The equation `Z = rhs`. -/
def reportEq (name : Template) (Z : Str) (rhs : RExpr) : IndexedEq := ⟨name, .sym Z, rhs⟩

theorem sideOK_zero (objs : List ModelObject) : SideOK coords objs numeraire (.num 0) :=
  ⟨trivial, ⟨fun x hx => (by cases hx), fun v hv => (by cases hv)⟩, fun o _ v hv => (by cases hv), fun o _ => trivial⟩

theorem report_scalarModel {name : Template} {rhs : RExpr} {Z : ModelObject} {vars' params' : List ModelObject}
    {eqs' : List IndexedEq} (hs : ScalarModel coords vars params)
    (hnum : ∀ o, numeraire = some o → o ∈ vars) (h : IndexedModel coords vars' params' numeraire eqs')
    (hside : SideOK coords (solvedVars numeraire vars ++ params) numeraire rhs) (hclean : name.Clean)
    (hmark : ∀ d ∈ name.dims, d ∈ freeDims coords (numeraire.toList.map ModelObject.name) (.sym Z.name) rhs)
    (hfree : freeDims coords (numeraire.toList.map ModelObject.name) (.sym Z.name) rhs = []) :
    IndexedModel coords vars params numeraire [⟨name, .num 0, rhs⟩] where
  scalar := hs
  coords_nodup := h.coords_nodup
  dim_names := h.dim_names
  label_names := h.label_names
  numeraire_mem := hnum
  sides := by
    intro q hq
    rw [List.mem_singleton] at hq
    subst hq
    exact ⟨sideOK_zero _, hside⟩
  clean := by
    intro q hq
    rw [List.mem_singleton] at hq
    subst hq
    exact hclean
  markers := by
    intro q hq
    rw [List.mem_singleton] at hq
    subst hq
    exact hmark
  names := by
    have hfree' : freeDims coords (numeraire.toList.map ModelObject.name) (.num 0) rhs = [] := hfree
    simp [hfree', product]

/-- What the report is off by: the value of `Z` less a number that does not depend on `Z`. -/
theorem report_off {name : Template} {rhs : RExpr} {Z : ModelObject} (hZ : Z.dims = [])
    (h₁ : IndexedModel coords (vars ++ [Z]) (params ++ extra) numeraire (eqs ++ [reportEq name Z.name rhs]))
    (h₂ : IndexedModel coords vars params numeraire eqs)
    (hside : SideOK coords (solvedVars numeraire vars ++ (params ++ extra)) numeraire rhs)
    (hfree : freeDims coords (numeraire.toList.map ModelObject.name) (.sym Z.name) rhs = []) (x t : List ℝ)
    (hx : x.length = totalSize coords (solvedVars numeraire (vars ++ [Z])))
    (ht : t.length = totalSize coords (params ++ extra)) :
    ∃ v, ∀ u, imbalances coords (vars ++ [Z]) (params ++ extra) numeraire [reportEq name Z.name rhs]
      ((x ++ t).set (totalSize coords (solvedVars numeraire vars)) u) = [u - v] := by
  have hq₁ := h₁.sides (reportEq name Z.name rhs) (by simp)
  have hsub : (vars ++ (params ++ extra)).Sublist (vars ++ [Z] ++ (params ++ extra)) :=
    (List.sublist_append_left _ _).append (List.Sublist.refl _)
  have hsc : ScalarModel coords vars (params ++ extra) :=
    { known := fun o ho => h₁.scalar.known o (hsub.subset ho)
      dims := fun o ho => h₁.scalar.dims o (hsub.subset ho)
      fresh := fun o ho => h₁.scalar.fresh o (hsub.subset ho)
      labels := fun o ho => h₁.scalar.labels o (hsub.subset ho)
      names := h₁.scalar.names.sublist (hsub.map _)
      scalars := h₁.scalar.scalars.sublist (scalarNames_sublist hsub) }
  have hext : params ++ extra ++ [] = params ++ extra := List.append_nil _
  have hm₁ : IndexedModel coords (vars ++ [Z]) (params ++ extra ++ []) numeraire ([⟨name, .num 0, rhs⟩] ++ []) := by
    rw [hext]
    exact report_scalarModel h₁.scalar h₁.numeraire_mem h₁ hq₁.2 (h₁.clean (reportEq name Z.name rhs) (by simp))
      (h₁.markers (reportEq name Z.name rhs) (by simp)) hfree
  have hm₂ : IndexedModel coords vars (params ++ extra) numeraire [⟨name, .num 0, rhs⟩] :=
    report_scalarModel hsc h₂.numeraire_mem h₁ hside (h₁.clean (reportEq name Z.name rhs) (by simp))
      (h₁.markers (reportEq name Z.name rhs) (by simp)) hfree
  -- `Z` is not the numeraire
  have hnum : Z.name ∉ numeraire.toList.map ModelObject.name := by
    intro hmem
    obtain ⟨o, ho, hon⟩ := List.mem_map.1 hmem
    have ho' : o ∈ vars := h₂.numeraire_mem o (by simpa using ho)
    have hnd := h₁.scalar.names
    rw [List.map_append] at hnd
    have hnd := hnd.of_append_left
    rw [List.map_append, List.nodup_append] at hnd
    exact hnd.2.2 o.name (List.mem_map_of_mem ho') Z.name (by simp) hon
  have hsolved : solvedVars numeraire [Z] = [Z] := by
    unfold solvedVars
    rw [List.filter_eq_self]
    intro o ho
    rw [List.mem_singleton] at ho
    subst ho
    simpa using hnum
  have hmem : ∃ o ∈ solvedVars numeraire (vars ++ [Z]), o.name = Z.name ∧ o.dims = [] := by
    refine ⟨Z, ?_, rfl, hZ⟩
    rw [solvedVars_append, hsolved]
    simp
  have hpos : positionOf coords (solvedVars numeraire (vars ++ [Z])) Z.name =
      totalSize coords (solvedVars numeraire vars) := by
    rw [solvedVars_append, hsolved]
    unfold positionOf
    have hne : ∀ o ∈ solvedVars numeraire vars, o.name ≠ Z.name := by
      intro o ho
      have hnd := h₁.scalar.names
      rw [List.map_append] at hnd
      have hnd := hnd.of_append_left
      rw [List.map_append, List.nodup_append] at hnd
      exact hnd.2.2 o.name (List.mem_map_of_mem (List.mem_of_mem_filter ho)) Z.name (by simp)
    rw [List.takeWhile_append_of_pos (by intro o ho; simpa using hne o ho), List.takeWhile_cons_of_neg (by simp),
      List.append_nil]
  have hlt : totalSize coords (solvedVars numeraire vars) < x.length := by
    rw [hx, solvedVars_append, hsolved, totalSize_append]
    have : totalSize coords [Z] = 1 := by simp [totalSize, specSize, specShape, hZ]
    omega
  -- the value of the right hand side
  refine ⟨-(demanded coords (numeraire.toList.map ModelObject.name) (solvedVars numeraire vars ++ (params ++ extra))
    (x.take (totalSize coords (solvedVars numeraire vars)) ++ t.take (totalSize coords (params ++ extra)))
    ⟨name, .num 0, rhs⟩).headD 0, fun u => ?_⟩
  have key := demanded_narrow hm₁ hm₂ ⟨name, .num 0, rhs⟩ (by simp)
    (x.set (totalSize coords (solvedVars numeraire vars)) u) t (by rw [List.length_set, hx])
    (by rw [hext]; exact ht)
  rw [take_set_ge _ _ _ _ le_rfl, hext] at key
  rw [List.set_append_left _ _ hlt, ← key]
  have hfree' : freeDims coords (numeraire.toList.map ModelObject.name) (.num 0) rhs = [] := hfree
  unfold imbalances
  rw [List.flatMap_singleton]
  unfold demanded reportEq
  dsimp only
  rw [hfree, hfree']
  simp only [List.map_nil, product, List.map_cons, List.headD_cons, List.cons.injEq, and_true, RExpr.value]
  rw [entryFixing, if_neg hnum, arrayEntry_scalar coords _ _ Z.name _ hmem, hpos, List.getD_eq_getElem?_getD,
    List.getElem?_append_left (by rw [List.length_set]; exact hlt), List.getElem?_set_self hlt]
  simp

/-- **C103, reports.**  Add a variable `Z` without dims, perhaps parameters `extra`, and the equation `Z = rhs` to a model,
where `rhs` has no free index and mentions only these parameters and objects of the model.  If the Euler function of the model returns and the powers and logarithms
are defined where it solved for a direction, then it also returns for the larger model, and `simulate` returns for both,
with the same arrays for the objects of the model. -/
theorem C103_report {name : Template} {rhs : RExpr} {Z : ModelObject} (hZ : Z.dims = [])
    (hside : SideOK coords (solvedVars numeraire vars ++ (params ++ extra)) numeraire rhs)
    (hfree : freeDims coords (numeraire.toList.map ModelObject.name) (.sym Z.name) rhs = [])
    {es₁ es₂ : List (SymExpr Str)} {b₁ b₂ : EulerBackend} {dx₁ dx₂ : StepSolve ℝ}
    {env₁ env₂ : SamEnv ℝ (List (NDArray ℝ))}
    (hm₁ : BuiltOn coords (vars ++ [Z]) (params ++ extra) numeraire (eqs ++ [reportEq name Z.name rhs]) es₁ b₁ dx₁ env₁)
    (hm₂ : BuiltOn coords vars params numeraire eqs es₂ b₂ dx₂ env₂) (hb : b₂.rk4 = b₁.rk4)
    (hsq₁ : es₁.length = totalSize coords (solvedVars numeraire (vars ++ [Z])))
    (hsq₂ : es₂.length = totalSize coords (solvedVars numeraire vars))
    (fl : SimFlags) (add mul : NDArray ℝ → NDArray ℝ → NDArray ℝ) (heap₁ heap₂ : Heap (NDArray ℝ)) (c₁ c₂ : SimCall ℝ)
    (hr₁ : RequestOK coords (solvedVars numeraire (vars ++ [Z])) (params ++ extra) add mul heap₁ c₁)
    (hr₂ : RequestOK coords (solvedVars numeraire vars) params add mul heap₂ c₂)
    (heul₁ : c₁.useEuler = true) (hopt₁ : c₁.useOptimizer = false)
    (heul₂ : c₂.useEuler = true) (hopt₂ : c₂.useOptimizer = false)
    (h1 : 1 ≤ c₁.nIterEuler) (hn : c₂.nIterEuler = c₁.nIterEuler)
    (hinit : ∀ o ∈ solvedVars numeraire vars ++ params, seen heap₂ c₂.initial o.name = seen heap₁ c₁.initial o.name)
    (hwant : ∀ o ∈ params, wantedValue add mul heap₂ c₂ o.name = wantedValue add mul heap₁ c₁ o.name)
    (outs₂ : List (NDArray ℝ))
    (hrun : env₂.euler (derefDict heap₂ c₂.initial) (wantedFlat add mul heap₂ c₂ params) c₂.nIterEuler = .ok outs₂)
    (hreg : ∀ t, t < c₂.nIterEuler → ∀ s₂ ∈ b₂.points dx₂ (totalSize coords (solvedVars numeraire vars))
        (b₂.stateAfter (solvedVars numeraire vars) params (derefDict heap₂ c₂.initial) outs₂ t)
        (stepVec c₂.nIterEuler (wantedFlat add mul heap₂ c₂ params) (initialFlat heap₂ c₂ params)),
      ∀ s, SameArrays coords (solvedVars numeraire (vars ++ [Z]) ++ (params ++ extra))
          (solvedVars numeraire vars ++ params) s s₂ →
        (∀ e ∈ es₁, Regular (flatPoint (scalarNames coords
          (solvedVars numeraire (vars ++ [Z]) ++ (params ++ extra))) s) e) ∧
        ∀ e ∈ es₂, Regular (flatPoint (scalarNames coords (solvedVars numeraire vars ++ params)) s₂) e) :
    ∃ e₁ e₂ outs,
      env₁.euler (derefDict heap₁ c₁.initial) (wantedFlat add mul heap₁ c₁ (params ++ extra)) c₁.nIterEuler = .ok outs ∧
      simulateCompute (simEnvOf env₁ (fun _ => false) fl add mul) heap₁ c₁ = .ok ⟨some e₁, none, none, false⟩ ∧
      simulateCompute (simEnvOf env₂ (fun _ => false) fl add mul) heap₂ c₂ = .ok ⟨some e₂, none, none, false⟩ ∧
      ∀ o ∈ solvedVars numeraire vars ++ params, DataFor coords e₁.start o ∧
        dget e₂.start o.name = dget e₁.start o.name := by
  have hmod₁ := (hm₁.stepsFrom hsq₁).1
  have hmod₂ := (hm₂.stepsFrom hsq₂).1
  refine C103_returns (more := [Z]) (further := [reportEq name Z.name rhs]) hm₁ hm₂
    hb hsq₁ hsq₂ fl add mul heap₁ heap₂ c₁ c₂ hr₁ hr₂ heul₁ hopt₁ heul₂ hopt₂ h1 hn hinit hwant outs₂ hrun ?_
  intro t ht s₂ hs₂ s hss
  obtain ⟨o1, o2⟩ := hreg t ht s₂ hs₂ s hss
  refine ⟨o1, o2, fun E hE => ?_⟩
  have hone : totalSize coords (solvedVars numeraire [Z]) = 1 := by
    have hs1 : totalSize coords (solvedVars numeraire (vars ++ [Z])) =
        totalSize coords (solvedVars numeraire vars) + scalarCount coords numeraire (reportEq name Z.name rhs) := by
      rw [← hsq₁, ← hsq₂, hm₁.count, hm₂.count, List.map_append, List.sum_append]
      simp
    have hc : scalarCount coords numeraire (reportEq name Z.name rhs) = 1 := by
      unfold scalarCount reportEq
      dsimp only
      rw [hfree]
      rfl
    rw [solvedVars_append, totalSize_append, hc] at hs1
    omega
  obtain ⟨d, w1, w2, -⟩ := hss
  have lx := (flatOf_spec coords d _ fun o ho => w1 o (List.mem_append_left _ ho)).1
  have lt := (flatOf_spec coords d _ fun o ho => w1 o (List.mem_append_right _ ho)).1
  rw [flatOf_append] at w2
  obtain ⟨v, hv⟩ := report_off hZ hmod₁ hmod₂ hside hfree _ _ lx lt
  rw [← w2] at hv
  revert E
  rw [hone]
  intro E hE
  have h00 := hE 0 0
  simp only [Fin.val_zero, Nat.add_zero, hv, List.getD_cons_zero] at h00
  have h01 : E 0 0 = 1 := h00.unique ((hasDerivAt_id _).sub_const v)
  rw [Matrix.det_fin_one, h01]
  exact one_ne_zero

/-! ## An example

To the model `x + y = p`, `x = y` of C83 add a report of the value `V = w * x` at a given weight `w`. -/

def repVars : List ModelObject := duoVars ++ [{ name := "V" }]
def repParams : List ModelObject := sqParams ++ [{ name := "w" }]
def repFurther : List IndexedEq :=
  [⟨[.lit "report".toList], .sym "V".toList, .mul (.sym "w".toList) (.sym "x".toList)⟩]

def repEs : List (SymExpr Str) :=
  duoEs ++ [.add (.sym "V".toList) (.mul (.num (-1)) (.mul (.sym "w".toList) (.sym "x".toList)))]

theorem rep_side (e : RExpr) (h1 : AllPlain [] e) (h2 : e.indexeds = [])
    (h3 : ∀ x ∈ e.syms, x ∈ ["x".toList, "y".toList, "V".toList, "p".toList, "w".toList]) :
    SideOK [] (solvedVars none repVars ++ repParams) none e := by
  refine ⟨h1, ⟨fun x hx => ?_, fun v hv => by rw [h2] at hv; cases hv⟩, fun o ho => (nomatch ho), fun o ho => (nomatch ho)⟩
  have := h3 x hx
  simp only [List.mem_cons, List.not_mem_nil, or_false] at this
  rcases this with rfl | rfl | rfl | rfl | rfl <;> decide +kernel

theorem repModel : IndexedModel [] repVars repParams none (duoEqs ++ repFurther) where
  scalar :=
    { known := by decide +kernel
      dims := by decide +kernel
      fresh := by decide +kernel
      labels := by decide +kernel
      names := by decide +kernel
      scalars := by decide +kernel }
  coords_nodup := by decide +kernel
  dim_names := by decide +kernel
  label_names := by intro i ls h; cases h
  numeraire_mem := by rintro o ⟨⟩
  sides := by
    intro q hq
    simp only [duoEqs, repFurther, List.cons_append, List.nil_append, List.mem_cons, List.not_mem_nil, or_false] at hq
    rcases hq with rfl | rfl | rfl
    · exact ⟨rep_side _ ⟨trivial, trivial⟩ rfl (by simp [RExpr.syms]), rep_side _ trivial rfl (by simp [RExpr.syms])⟩
    · exact ⟨rep_side _ trivial rfl (by simp [RExpr.syms]), rep_side _ trivial rfl (by simp [RExpr.syms])⟩
    · exact ⟨rep_side _ trivial rfl (by simp [RExpr.syms]), rep_side _ ⟨trivial, trivial⟩ rfl (by simp [RExpr.syms])⟩
  clean := by
    intro q hq
    simp only [duoEqs, repFurther, List.cons_append, List.nil_append, List.mem_cons, List.not_mem_nil, or_false] at hq
    rcases hq with rfl | rfl | rfl <;> decide +kernel
  markers := by decide +kernel
  names := by decide +kernel

/-- The hypotheses of `C103_solutions`. -/
example (d : Dict Str (NDArray ℝ)) (hd : ∀ o ∈ solvedVars none repVars ++ repParams, DataFor [] d o) :
    (∀ y ∈ imbalances [] repVars repParams none (duoEqs ++ repFurther) (flatOf d (solvedVars none repVars ++ repParams)),
      y = 0) ↔
    (∀ y ∈ imbalances [] duoVars sqParams none duoEqs (flatOf d (solvedVars none duoVars ++ sqParams)), y = 0) ∧
      ∀ y ∈ imbalances [] repVars repParams none repFurther (flatOf d (solvedVars none repVars ++ repParams)), y = 0 :=
  C103_solutions repModel duoModel d hd

theorem repNumba : ∃ uv up K, BuiltNumba [] repVars repParams (duoEqs ++ repFurther) repEs uv up K ∧
    dkeys uv = ["x".toList, "y".toList, "V".toList] ∧ dkeys up = ["p".toList, "w".toList] :=
  ⟨_, _, _, ⟨id, id, id, id, _, fun _ _ => Iff.rfl, fun _ _ => Iff.rfl, fun _ _ => Iff.rfl, rfl, rfl,
    rfl, rfl, rfl⟩, rfl, rfl⟩

/-- The larger model on the numba back-end without an optimizer. -/
noncomputable def repEnv (uv up : Dict Str ModelObject) (K : NumbaFns) : SamEnv ℝ (List (NDArray ℝ)) :=
  ⟨repVars, repParams, [], ["euler".toList],
    .flat (callNumba (dkeys uv) (dkeys up) K.system),
    .flat fun x theta => (callNumba (dkeys uv) (dkeys up) [K.loss] x theta).map fun l => l.headD 0,
    [], fun _ _ _ _ => .error .valueError, fun _ _ _ _ => .error .valueError, fun x0 theta n => runEuler .numba
      (numbaDX ["p".toList, "w".toList, "x".toList, "y".toList, "V".toList] (dkeys uv) (dkeys up) repEs) repVars repParams []
      theta n x0⟩

theorem repEulerNames : EulerNames (scalarNames [] (repVars ++ repParams)) where
  nodup := by decide +kernel
  word := by decide +kernel
  noZero := by
    intro a ha b hb
    revert a b
    decide +kernel
  noExog := by decide +kernel
  noEndog := by decide +kernel
  noNumpy := by decide +kernel

theorem repEuler : EulerModel [] repVars repParams where
  labelled := ⟨by decide +kernel, by decide +kernel, by decide +kernel, by decide +kernel⟩
  nonempty := by decide +kernel
  someVar := by decide +kernel
  someParam := by decide +kernel
  keywords := by decide +kernel

/-- As `duoCall`, with `V = w = 5`. -/
def repCall : SimCall ℝ where
  initial := [("x".toList, .num ⟨[], [1]⟩), ("y".toList, .num ⟨[], [1]⟩), ("V".toList, .num ⟨[], [5]⟩),
    ("p".toList, .num ⟨[], [2]⟩), ("w".toList, .num ⟨[], [5]⟩)]
  finalValues := some [("p".toList, .num ⟨[], [6]⟩)]
  useOptimizer := false

theorem repRequest (add mul : NDArray ℝ → NDArray ℝ → NDArray ℝ) :
    RequestOK [] (solvedVars none repVars) repParams add mul [] repCall where
  nodup := by simp [repCall, dkeys]
  exact := by intro n; simp [repCall, dkeys, repVars, duoVars, repParams, sqParams, solvedVars]
  distinct := by simp [repCall, dkeys]
  some_change := by simp [repCall, dkeys]
  known := by simp [repCall, dkeys]
  valid := by simp [repCall, ValidRefs, refsOf]
  unshared := by simp [repCall, refsOf]
  shaped := by
    intro o ho
    have : o = { name := "x" } ∨ o = { name := "y" } ∨ o = { name := "V" } ∨ o = { name := "p" } ∨ o = { name := "w" } := by
      simpa [repVars, duoVars, repParams, sqParams, solvedVars] using ho
    rcases this with rfl | rfl | rfl | rfl | rfl
    · exact ⟨⟨[], [1]⟩, rfl, rfl, rfl⟩
    · exact ⟨⟨[], [1]⟩, rfl, rfl, rfl⟩
    · exact ⟨⟨[], [5]⟩, rfl, rfl, rfl⟩
    · exact ⟨⟨[], [2]⟩, rfl, rfl, rfl⟩
    · exact ⟨⟨[], [5]⟩, rfl, rfl, rfl⟩
  sized := by
    intro o ho
    have : o = { name := "p" } ∨ o = { name := "w" } := by simpa [repParams, sqParams] using ho
    rcases this with rfl | rfl
    · exact ⟨⟨[], [6]⟩, rfl, rfl⟩
    · exact ⟨⟨[], [5]⟩, rfl, rfl⟩

theorem repRegular (v : Str → ℝ) : ∀ e ∈ repEs, Regular v e := by
  intro e he
  simp only [repEs, duoEs, List.cons_append, List.nil_append, List.mem_cons, List.not_mem_nil, or_false] at he
  rcases he with rfl | rfl | rfl <;> simp [Regular]

theorem rep_regular_matrix (x : Fin 3 → ℝ) (t : Fin 2 → ℝ) :
    IsUnit (symA 3 2 ["x".toList, "y".toList, "V".toList] ["p".toList, "w".toList] repEs x t).det := by
  rw [Matrix.det_fin_three]
  simp [symA, repEs, duoEs, diff, SymExpr.eval]
  norm_num

/-- The two models, simulated: `x` and `y` are the same at every step. -/
example (fl : SimFlags) (add mul : NDArray ℝ → NDArray ℝ → NDArray ℝ) :
    ∃ env₁ env₂ outs outs₂ e₁ e₂,
      simulateCompute (simEnvOf env₁ (fun _ => false) fl add mul) [] repCall = .ok ⟨some e₁, none, none, false⟩ ∧
      simulateCompute (simEnvOf env₂ (fun _ => false) fl add mul) [] duoCall = .ok ⟨some e₂, none, none, false⟩ ∧
      env₁.variables = repVars ∧ env₂.variables = duoVars ∧
      (∀ t, t ≤ 10000 → SameArrays [] (repVars ++ repParams) (duoVars ++ sqParams)
        (EulerBackend.numba.stateAfter repVars repParams (derefDict [] repCall.initial) outs t)
        (EulerBackend.numba.stateAfter duoVars sqParams (derefDict [] duoCall.initial) outs₂ t)) ∧
      dget e₂.start "x".toList = dget e₁.start "x".toList := by
  obtain ⟨uv₂, up₂, K₂, hK₂, k3, k4⟩ := duoNumba
  obtain ⟨uv, up, K, hK, k1, k2⟩ := repNumba
  have hN₂ : scalarNames [] (duoVars ++ sqParams) = ["x".toList, "y".toList] ++ ["p".toList] := by decide +kernel
  have hN : scalarNames [] (repVars ++ repParams) = ["x".toList, "y".toList, "V".toList] ++ ["p".toList, "w".toList] := by
    decide +kernel
  have hm : BuiltOn [] repVars repParams none (duoEqs ++ repFurther) repEs .numba (fun _ _ _ => .ok [])
      (repEnv uv up K) := by
    refine Or.inr ⟨rfl, rfl, ["p".toList, "w".toList, "x".toList, "y".toList, "V".toList], repModel, repEulerNames, repEuler,
      ?_, rfl, rfl, rfl, List.cons_ne_nil _ _, uv, up, K, hK, rfl⟩
    intro a
    rw [hN]
    simp only [List.cons_append, List.nil_append, List.mem_cons, List.not_mem_nil, or_false]
    tauto
  have hm₂ : BuiltOn [] duoVars sqParams none duoEqs duoEs .numba (fun _ _ _ => .ok [])
      (duoEnv duoVars duoEs uv₂ up₂ K₂) := by
    refine Or.inr ⟨rfl, rfl, ["p".toList, "x".toList, "y".toList], duoModel, duoEulerNames, duoEuler, ?_,
      rfl, rfl, rfl, List.cons_ne_nil _ _, uv₂, up₂, K₂, hK₂, rfl⟩
    intro a
    rw [hN₂]
    simp only [List.cons_append, List.nil_append, List.mem_cons, List.not_mem_nil, or_false]
    tauto
  have hcall : EulerCall [] repVars repParams (derefDict [] repCall.initial)
      (wantedFlat add mul [] repCall repParams) := by
    obtain ⟨-, dx, A, B, -, hs⟩ := hm.stepsFrom rfl
    have hl := hs.lenOK
    exact (euler_setup .numba dx _ hs.steps hs.euler hl hs.coords_eq hs.variables_eq hs.parameters_eq
      hs.compiled fl add mul [] repCall (repRequest add mul) rfl rfl).1
  have hrun : ∃ outs, (repEnv uv up K).euler (derefDict [] repCall.initial)
      (wantedFlat add mul [] repCall repParams) repCall.nIterEuler = .ok outs := by
    show ∃ outs, runEuler .numba (numbaDX _ (dkeys uv) (dkeys up) repEs) repVars repParams [] _ _ _ = _
    rw [k1, k2, runEuler_numbaDX [] repVars repParams _ _ hcall _ _ _ repEs (hN ▸ repEulerNames)
      (by
        intro a
        simp only [List.cons_append, List.nil_append, List.mem_cons, List.not_mem_nil, or_false]
        tauto)
      (by
        intro e he a ha
        have := (hK.values repModel).1 e he a ((mem_atoms_iff a e).2 ha)
        rwa [hN] at this) rfl rfl rfl]
    cases hc : runEuler .numba (vecJac (nx := totalSize [] repVars) (np := totalSize [] repParams)
        (symA _ _ ["x".toList, "y".toList, "V".toList] ["p".toList, "w".toList] repEs)
        (symB _ _ ["x".toList, "y".toList, "V".toList] ["p".toList, "w".toList] repEs)).solve repVars repParams []
        (wantedFlat add mul [] repCall repParams) repCall.nIterEuler (derefDict [] repCall.initial) with
    | ok outs => exact ⟨outs, rfl⟩
    | error e =>
      obtain ⟨-, x, t, -, -, hs⟩ := C20_fails_only_if_singular _ _ _ _ _ _ _ _ hcall e hc
      exact absurd (rep_regular_matrix _ _) hs
  obtain ⟨outs, hrun⟩ := hrun
  obtain ⟨e₁, e₂, outs₂, g1, g2, -, g4, g5⟩ := C103_simulate (more := [{ name := "V" }]) (extra := [{ name := "w" }])
    hm hm₂ rfl rfl rfl fl add mul [] [] repCall duoCall
    (repRequest add mul) (duoRequest add mul) rfl rfl rfl rfl (by decide) rfl
    (by
      intro o ho
      have : o = { name := "x" } ∨ o = { name := "y" } ∨ o = { name := "p" } := by
        simpa [duoVars, sqParams, solvedVars] using ho
      rcases this with rfl | rfl | rfl <;> rfl)
    (by
      intro o ho
      have : o = { name := "p" } := by simpa [sqParams] using ho
      subst this
      rfl) outs hrun
    (fun _ _ _ _ => ⟨repRegular _, fun _ _ e he => duoRegular _ e (List.mem_append_left _ he)⟩)
  exact ⟨_, _, outs, outs₂, e₁, e₂, g1, g2, rfl, rfl, g4, (g5 { name := "x" } (by decide +kernel)).2⟩

theorem rep_same (o : ModelObject) (ho : o ∈ solvedVars none duoVars ++ sqParams) :
    seen [] duoCall.initial o.name = seen ([] : Heap (NDArray ℝ)) repCall.initial o.name := by
  have : o = { name := "x" } ∨ o = { name := "y" } ∨ o = { name := "p" } := by
    simpa [duoVars, sqParams, solvedVars] using ho
  rcases this with rfl | rfl | rfl <;> rfl

/-- The model without the report returns, so the model with the report does. -/
example (fl : SimFlags) (add mul : NDArray ℝ → NDArray ℝ → NDArray ℝ) :
    ∃ env₁ env₂ e₁ e₂,
      simulateCompute (simEnvOf env₁ (fun _ => false) fl add mul) [] repCall = .ok ⟨some e₁, none, none, false⟩ ∧
      simulateCompute (simEnvOf env₂ (fun _ => false) fl add mul) [] duoCall = .ok ⟨some e₂, none, none, false⟩ ∧
      env₁.variables = repVars ∧ env₂.variables = duoVars ∧
      dget e₂.start "y".toList = dget e₁.start "y".toList := by
  obtain ⟨uv₂, up₂, K₂, hK₂, k3, k4⟩ := duoNumba
  obtain ⟨uv, up, K, hK, -, -⟩ := repNumba
  have hN₂ : scalarNames [] (duoVars ++ sqParams) = ["x".toList, "y".toList] ++ ["p".toList] := by decide +kernel
  have hN : scalarNames [] (repVars ++ repParams) = ["x".toList, "y".toList, "V".toList] ++ ["p".toList, "w".toList] := by
    decide +kernel
  have hm : BuiltOn [] repVars repParams none (duoEqs ++ repFurther) repEs .numba (fun _ _ _ => .ok [])
      (repEnv uv up K) := by
    refine Or.inr ⟨rfl, rfl, ["p".toList, "w".toList, "x".toList, "y".toList, "V".toList], repModel, repEulerNames, repEuler,
      ?_, rfl, rfl, rfl, List.cons_ne_nil _ _, uv, up, K, hK, rfl⟩
    intro a
    rw [hN]
    simp only [List.cons_append, List.nil_append, List.mem_cons, List.not_mem_nil, or_false]
    tauto
  have hm₂ : BuiltOn [] duoVars sqParams none duoEqs duoEs .numba (fun _ _ _ => .ok [])
      (duoEnv duoVars duoEs uv₂ up₂ K₂) := by
    refine Or.inr ⟨rfl, rfl, ["p".toList, "x".toList, "y".toList], duoModel, duoEulerNames, duoEuler, ?_,
      rfl, rfl, rfl, List.cons_ne_nil _ _, uv₂, up₂, K₂, hK₂, rfl⟩
    intro a
    rw [hN₂]
    simp only [List.cons_append, List.nil_append, List.mem_cons, List.not_mem_nil, or_false]
    tauto
  have hcall : EulerCall [] duoVars sqParams (derefDict [] duoCall.initial) (wantedFlat add mul [] duoCall sqParams) := by
    obtain ⟨-, dx, A, B, -, hs⟩ := hm₂.stepsFrom rfl
    have hl := hs.lenOK
    exact (euler_setup .numba dx _ hs.steps hs.euler hl hs.coords_eq hs.variables_eq hs.parameters_eq
      hs.compiled fl add mul [] duoCall (duoRequest add mul) rfl rfl).1
  have hrun : ∃ outs, (duoEnv duoVars duoEs uv₂ up₂ K₂).euler (derefDict [] duoCall.initial)
      (wantedFlat add mul [] duoCall sqParams) duoCall.nIterEuler = .ok outs := by
    show ∃ outs, runEuler .numba (numbaDX _ (dkeys uv₂) (dkeys up₂) duoEs) duoVars sqParams [] _ _ _ = _
    rw [k3, k4, runEuler_numbaDX [] duoVars sqParams _ _ hcall _ _ _ duoEs (hN₂ ▸ duoEulerNames)
      (by
        intro a
        simp only [List.cons_append, List.nil_append, List.mem_cons, List.not_mem_nil, or_false]
        tauto)
      (by
        intro e he a ha
        have := (hK₂.values duoModel).1 e he a ((mem_atoms_iff a e).2 ha)
        rwa [hN₂] at this) rfl rfl rfl]
    cases hc : runEuler .numba (vecJac (nx := totalSize [] duoVars) (np := totalSize [] sqParams)
        (symA _ _ ["x".toList, "y".toList] ["p".toList] duoEs)
        (symB _ _ ["x".toList, "y".toList] ["p".toList] duoEs)).solve duoVars sqParams []
        (wantedFlat add mul [] duoCall sqParams) duoCall.nIterEuler (derefDict [] duoCall.initial) with
    | ok outs => exact ⟨outs, rfl⟩
    | error e =>
      obtain ⟨-, x, t, -, -, hs⟩ := C20_fails_only_if_singular _ _ _ _ _ _ _ _ hcall e hc
      exact absurd (duo_regular_matrix _ _) hs
  obtain ⟨outs₂, hrun⟩ := hrun
  obtain ⟨e₁, e₂, outs, -, g1, g2, g5⟩ := C103_report (Z := { name := "V" }) (extra := [{ name := "w" }]) rfl
    (rhs := .mul (.sym "w".toList) (.sym "x".toList)) (name := [.lit "report".toList])
    (by
      refine ⟨⟨trivial, trivial⟩, ⟨fun x hx => ?_, fun v hv => (by cases hv)⟩, fun o ho => (nomatch ho), fun o ho => (nomatch ho)⟩
      have : x = "w".toList ∨ x = "x".toList := by simpa [RExpr.syms] using hx
      rcases this with rfl | rfl <;> decide +kernel)
    (by decide +kernel) hm hm₂ rfl rfl rfl fl add mul [] [] repCall duoCall (repRequest add mul) (duoRequest add mul) rfl rfl
    rfl rfl (by decide) rfl rep_same
    (by
      intro o ho
      have : o = { name := "p" } := by simpa [sqParams] using ho
      subst this
      rfl) outs₂ hrun
    (fun _ _ _ _ _ _ => ⟨repRegular _, fun e he => duoRegular _ e (List.mem_append_left _ he)⟩)
  exact ⟨_, _, e₁, e₂, g1, g2, rfl, rfl, (g5 { name := "y" } (by decide +kernel)).2⟩

end Verif
