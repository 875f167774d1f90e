import Verif.Props.ExogenousExample
import Verif.Lemmas.ExogenousBack

/-!
# Exogenous quantities: if the model with fewer objects returns, so does the other one (C107)
-/

namespace Verif

variable {coords : Coords} {vars params : List ModelObject} {numeraire : Option ModelObject} {eqs : List IndexedEq}
  {k z p : ModelObject}

theorem sameArrays_unique {large small : List ModelObject} (hsub : ∀ o ∈ small, o ∈ large) {s s₂ s₂' : List ℝ}
    (h : SameArrays coords large small s s₂) (h' : SameArrays coords large small s s₂') : s₂' = s₂ := by
  obtain ⟨d, w1, w2, w3⟩ := h
  obtain ⟨d', v1, v2, v3⟩ := h'
  have hi := flatOf_inj coords _ d d' w1 v1 (by rw [← w2, ← v2])
  rw [w3, v3]
  unfold flatOf
  apply List.flatMap_congr
  intro o ho
  rw [hi o (hsub o ho)]

/-- **C107, numbers: the other direction.**  As `C107_number`, but let the Euler function of the model with the number
return, and let the powers and logarithms of both models be defined where it solved for a direction.  Then the Euler
function of the model with the parameter returns as well, so does `simulate` for both models, and the states are the
same. -/
theorem C107_number_returns {q : ℚ} (hk : k.dims = []) {es₁ es₂ : List (SymExpr Str)} {b₁ b₂ : EulerBackend}
    {dx₁ dx₂ : StepSolve ℝ} {env₁ env₂ : SamEnv ℝ (List (NDArray ℝ))}
    (hm₁ : BuiltOn coords vars (params ++ [k]) numeraire eqs es₁ b₁ dx₁ env₁)
    (hm₂ : BuiltOn coords vars params numeraire (eqs.map (IndexedEq.withNumber k.name q)) es₂ b₂ dx₂ env₂)
    (hb : b₂.rk4 = b₁.rk4)
    (hsq₁ : es₁.length = totalSize coords (solvedVars numeraire vars))
    (hsq₂ : es₂.length = totalSize coords (solvedVars numeraire vars))
    (fl : SimFlags) (add mul : NDArray ℝ → NDArray ℝ → NDArray ℝ) (heap₁ heap₂ : Heap (NDArray ℝ)) (c₁ c₂ : SimCall ℝ)
    (hr₁ : RequestOK coords (solvedVars numeraire vars) (params ++ [k]) add mul heap₁ c₁)
    (hr₂ : RequestOK coords (solvedVars numeraire vars) params add mul heap₂ c₂)
    (heul₁ : c₁.useEuler = true) (hopt₁ : c₁.useOptimizer = false)
    (heul₂ : c₂.useEuler = true) (hopt₂ : c₂.useOptimizer = false)
    (h1 : 1 ≤ c₁.nIterEuler) (hn : c₂.nIterEuler = c₁.nIterEuler)
    (hq₀ : (seen heap₁ c₁.initial k.name).map NDArray.data = some [(q : ℝ)])
    (hq₁ : (wantedValue add mul heap₁ c₁ k.name).map NDArray.data = some [(q : ℝ)])
    (hinit : ∀ o ∈ solvedVars numeraire vars ++ params, seen heap₂ c₂.initial o.name = seen heap₁ c₁.initial o.name)
    (hwant : ∀ o ∈ params, wantedValue add mul heap₂ c₂ o.name = wantedValue add mul heap₁ c₁ o.name)
    (outs₂ : List (NDArray ℝ))
    (hrun : env₂.euler (derefDict heap₂ c₂.initial) (wantedFlat add mul heap₂ c₂ params) c₂.nIterEuler = .ok outs₂)
    (hreg : ∀ t, t < c₂.nIterEuler → ∀ s₂ ∈ b₂.points dx₂ (totalSize coords (solvedVars numeraire vars))
        (b₂.stateAfter (solvedVars numeraire vars) params (derefDict heap₂ c₂.initial) outs₂ t)
        (stepVec c₂.nIterEuler (wantedFlat add mul heap₂ c₂ params) (initialFlat heap₂ c₂ params)),
      (∀ e ∈ es₂, Regular (flatPoint (scalarNames coords (solvedVars numeraire vars ++ params)) s₂) e) ∧
      ∀ d : Dict Str (NDArray ℝ), (∀ o ∈ solvedVars numeraire vars ++ (params ++ [k]), DataFor coords d o) →
        s₂ = flatOf d (solvedVars numeraire vars ++ params) → (dget d k.name).map NDArray.data = some [(q : ℝ)] →
        ∀ e ∈ es₁, Regular (flatPoint (scalarNames coords (solvedVars numeraire vars ++ (params ++ [k])))
          (flatOf d (solvedVars numeraire vars ++ (params ++ [k])))) e) :
    ∃ e₁ e₂ outs,
      env₁.euler (derefDict heap₁ c₁.initial) (wantedFlat add mul heap₁ c₁ (params ++ [k])) c₁.nIterEuler = .ok outs ∧
      simulateCompute (simEnvOf env₁ (fun _ => false) fl add mul) heap₁ c₁ = .ok ⟨some e₁, none, none, false⟩ ∧
      simulateCompute (simEnvOf env₂ (fun _ => false) fl add mul) heap₂ c₂ = .ok ⟨some e₂, none, none, false⟩ ∧
      (∀ t, t ≤ c₁.nIterEuler → SameArrays coords (solvedVars numeraire vars ++ (params ++ [k]))
        (solvedVars numeraire vars ++ params)
        (b₁.stateAfter (solvedVars numeraire vars) (params ++ [k]) (derefDict heap₁ c₁.initial) outs t)
        (b₂.stateAfter (solvedVars numeraire vars) params (derefDict heap₂ c₂.initial) outs₂ t)) ∧
      ∀ o ∈ solvedVars numeraire vars ++ params, DataFor coords e₁.start o ∧
        dget e₂.start o.name = dget e₁.start o.name := by
  suffices hsuff : ∃ outs,
      env₁.euler (derefDict heap₁ c₁.initial) (wantedFlat add mul heap₁ c₁ (params ++ [k])) c₁.nIterEuler = .ok outs ∧
      ∀ t, t < c₁.nIterEuler → ∀ s ∈ b₁.points dx₁ (totalSize coords (solvedVars numeraire vars))
        (b₁.stateAfter (solvedVars numeraire vars) (params ++ [k]) (derefDict heap₁ c₁.initial) outs t)
        (stepVec c₁.nIterEuler (wantedFlat add mul heap₁ c₁ (params ++ [k])) (initialFlat heap₁ c₁ (params ++ [k]))),
      (∀ e ∈ es₁, Regular (flatPoint (scalarNames coords (solvedVars numeraire vars ++ (params ++ [k]))) s) e) ∧
      ∀ s₂, SameArrays coords (solvedVars numeraire vars ++ (params ++ [k])) (solvedVars numeraire vars ++ params) s s₂ →
        ∀ e ∈ es₂, Regular (flatPoint (scalarNames coords (solvedVars numeraire vars ++ params)) s₂) e by
    obtain ⟨outs, g1, g2⟩ := hsuff
    obtain ⟨e₁, e₂, outs₂', k1, k2, k3, k4, k5⟩ := C107_number hk hm₁ hm₂ hb hsq₁ hsq₂ fl add mul heap₁ heap₂ c₁ c₂ hr₁ hr₂
      heul₁ hopt₁ heul₂ hopt₂ h1 hn hq₀ hq₁ hinit hwant outs g1 g2
    rw [hrun] at k3
    injection k3 with k3
    subst k3
    exact ⟨e₁, e₂, outs, g1, k1, k2, k4, k5⟩
  obtain ⟨hmod₁, dx₁', A₁, B₁, hpts₁, hs₁⟩ := hm₁.stepsFrom hsq₁
  obtain ⟨hmod₂, dx₂', A₂, B₂, hpts₂, hs₂⟩ := hm₂.stepsFrom hsq₂
  simp only [← hpts₁]
  simp only [← hpts₂] at hreg
  have hnames := (solvedModel (numeraire := numeraire) hmod₁.scalar).names
  have hsk : totalSize coords [k] = 1 := by simp [totalSize, specSize, specShape, hk]
  have sp := totalSize_append coords params [k]
  have hdrop : (stepVec c₁.nIterEuler (wantedFlat add mul heap₁ c₁ (params ++ [k]))
      (initialFlat heap₁ c₁ (params ++ [k]))).drop (totalSize coords params) = [0] := by
    unfold stepVec
    rw [List.drop_zipWith, wanted_append, initial_append,
      List.drop_left' (hr₁.wanted_length params fun o ho => List.mem_append_left _ ho),
      List.drop_left' (hr₁.initial_length params fun o ho => List.mem_append_right _ (List.mem_append_left _ ho))]
    simp [wantedFlat, initialFlat, hq₀, hq₁]
  -- what is known at a point of the larger model
  have hat : ∀ x t : List ℝ, x.length = totalSize coords (solvedVars numeraire vars) →
      t.length = totalSize coords (params ++ [k]) → t.drop (totalSize coords params) = [(q : ℝ)] →
      ((∀ e ∈ es₂, Regular (flatPoint (scalarNames coords (solvedVars numeraire vars ++ params))
          (x.take (totalSize coords (solvedVars numeraire vars)) ++ t.take (totalSize coords params))) e) ∧
        ∀ d : Dict Str (NDArray ℝ), (∀ o ∈ solvedVars numeraire vars ++ (params ++ [k]), DataFor coords d o) →
          x.take (totalSize coords (solvedVars numeraire vars)) ++ t.take (totalSize coords params) =
            flatOf d (solvedVars numeraire vars ++ params) → (dget d k.name).map NDArray.data = some [(q : ℝ)] →
          ∀ e ∈ es₁, Regular (flatPoint (scalarNames coords (solvedVars numeraire vars ++ (params ++ [k])))
            (flatOf d (solvedVars numeraire vars ++ (params ++ [k])))) e) →
      (∀ e ∈ es₁, Regular (flatPoint (scalarNames coords (solvedVars numeraire vars ++ (params ++ [k]))) (x ++ t)) e) ∧
      ∀ s₂, SameArrays coords (solvedVars numeraire vars ++ (params ++ [k])) (solvedVars numeraire vars ++ params)
          (x ++ t) s₂ →
        ∀ e ∈ es₂, Regular (flatPoint (scalarNames coords (solvedVars numeraire vars ++ params)) s₂) e := by
    intro x t hx ht hq hR
    have hsame := sameArrays_take (coords := coords) (vs := solvedVars numeraire vars) (zs := []) (ps := params)
      (us := [k]) (by simpa using hnames) x t (by simpa using hx) ht
    rw [List.append_nil] at hsame
    refine ⟨?_, fun s₂ hs₂ => ?_⟩
    · obtain ⟨d, w1, w2, w3⟩ := id hsame
      rw [w2]
      refine hR.2 d w1 w3 ?_
      obtain ⟨a, ha, -⟩ := w1 k (by simp)
      have l1 := (flatOf_spec coords d (solvedVars numeraire vars) fun o ho => w1 o (by simp [ho])).1
      have l2 := (flatOf_spec coords d params fun o ho => w1 o (by simp [ho])).1
      rw [flatOf_append] at w2
      obtain ⟨-, w2⟩ := List.append_inj w2 (by rw [l1, hx])
      rw [w2, flatOf_append, List.drop_left' l2, flatOf_one ha] at hq
      rw [ha, Option.map_some, hq]
    · rw [sameArrays_unique (fun o ho => by
        rcases List.mem_append.1 ho with h | h
        · exact List.mem_append_left _ h
        · exact List.mem_append_right _ (List.mem_append_left _ h)) hsame hs₂]
      exact hR.1
  have key := @simulate_liftKeep coords (solvedVars numeraire vars) [] params [k]
  rw [List.append_nil] at key
  obtain ⟨outs, g1, g2⟩ := key hs₁ hs₂ hb fl add mul heap₁ heap₂ c₁ c₂ hr₁ hr₂ heul₁ hopt₁
    heul₂ hopt₂ h1 hn hinit hwant outs₂ hrun (fun _ t => t.drop (totalSize coords params) = [(q : ℝ)]) (fun _ => True)
    (fun s₂ => (∀ e ∈ es₂, Regular (flatPoint (scalarNames coords (solvedVars numeraire vars ++ params)) s₂) e) ∧
      ∀ d : Dict Str (NDArray ℝ), (∀ o ∈ solvedVars numeraire vars ++ (params ++ [k]), DataFor coords d o) →
        s₂ = flatOf d (solvedVars numeraire vars ++ params) → (dget d k.name).map NDArray.data = some [(q : ℝ)] →
        ∀ e ∈ es₁, Regular (flatPoint (scalarNames coords (solvedVars numeraire vars ++ (params ++ [k])))
          (flatOf d (solvedVars numeraire vars ++ (params ++ [k])))) e) _ rfl [] rfl (fun _ _ => trivial)
    (by
      rw [initial_append, List.drop_left' (hr₁.initial_length params fun o ho =>
        List.mem_append_right _ (List.mem_append_left _ ho))]
      simp [initialFlat, hq₀])
    (by
      intro x t d _ _ _ hφ _
      rw [List.drop_zipWith, hdrop, hφ]
      simp)
    (by
      intro x t d _ _ _ hφ _
      rw [List.drop_zipWith, hdrop, hφ]
      simp)
    (fun _ _ _ _ _ _ _ _ _ _ => trivial)
    (by
      intro x t hx ht hlen hR hφ
      obtain ⟨r1, -⟩ := hat x t hx ht hφ hR
      have htx : x.take (totalSize coords (solvedVars numeraire vars)) = x := List.take_of_length_le (by omega)
      have r2 := hR.1
      rw [htx] at r2 ⊢
      have et := List.take_append_drop (totalSize coords params) t
      have eh := List.take_append_drop (totalSize coords params) (stepVec c₁.nIterEuler
        (wantedFlat add mul heap₁ c₁ (params ++ [k])) (initialFlat heap₁ c₁ (params ++ [k])))
      rw [hφ] at et
      rw [hdrop] at eh
      refine ⟨fun d hd => ⟨?_, trivial⟩, fun e he => ?_⟩
      · have ld := hs₁.lenOK x t _ d hx ht hlen (by rw [hs₁.solves x t _ hx ht hlen]; exact hd)
        rw [List.take_of_length_le (show d.length ≤ _ by omega)]
        refine solve_number' (by rw [sp]) _ _ _ _ A₁ B₁ A₂ B₂ hs₁.derivatives hs₂.derivatives [(q : ℝ)] [0]
          (by rw [hsk]; rfl) (by rw [hsk]; rfl) (fun i => ?_)
          (fun x t hx ht => imbalances_withNumber hk hmod₁ q x t hx ht)
          x _ _ d hx (by rw [List.length_take]; omega) (by rw [List.length_take]; omega) ?_ r2 ?_
        · have : (i : Nat) = 0 := by have := i.isLt; omega
          unfold toVec
          rw [this]
          rfl
        · rw [et]; exact r1
        · rw [et, eh]; exact hd
      · have := solve_number_back (by rw [sp]) _ _ _ _ A₁ B₁ A₂ B₂ hs₁.derivatives hs₂.derivatives [(q : ℝ)]
          (by rw [hsk]; rfl) (fun x t hx ht => imbalances_withNumber hk hmod₁ q x t hx ht)
          x _ _ (stepVec c₁.nIterEuler (wantedFlat add mul heap₁ c₁ (params ++ [k]))
            (initialFlat heap₁ c₁ (params ++ [k]))) e hx (by rw [List.length_take]; omega) (by rw [et]; exact r1) r2 he
        rw [et] at this
        exact this)
    hreg
  refine ⟨outs, g1, fun t ht s hs => ?_⟩
  obtain ⟨x', t', l1, l2, rfl, l4, l5⟩ := g2 t ht s hs
  exact hat x' t' l1 l2 l4 l5

/-- **C107, fixed variables: the other direction.**  As `C107_fixed`, but let the Euler function of the model with the
parameter alone return, and let the powers and logarithms of both models be defined where it solved for a direction.
Then the Euler function of the model with the fixed variable returns as well, so does `simulate` for both models, and the
states are the same. -/
theorem C107_fixed_returns (hz : z.dims = p.dims) (hord : p.dims.Sublist (dkeys coords)) {name : Template}
    {es₁ es₂ : List (SymExpr Str)} {b₁ b₂ : EulerBackend}
    {dx₁ dx₂ : StepSolve ℝ} {env₁ env₂ : SamEnv ℝ (List (NDArray ℝ))}
    (hm₁ : BuiltOn coords (vars ++ [z]) (params ++ [p]) numeraire
      (eqs.map (IndexedEq.instead p.name z.name) ++ [fixedAt name z p]) es₁ b₁ dx₁ env₁)
    (hm₂ : BuiltOn coords vars (params ++ [p]) numeraire eqs es₂ b₂ dx₂ env₂)
    (hb : b₂.rk4 = b₁.rk4)
    (hsq₁ : es₁.length = totalSize coords (solvedVars numeraire (vars ++ [z])))
    (hsq₂ : es₂.length = totalSize coords (solvedVars numeraire vars))
    (fl : SimFlags) (add mul : NDArray ℝ → NDArray ℝ → NDArray ℝ) (heap₁ heap₂ : Heap (NDArray ℝ)) (c₁ c₂ : SimCall ℝ)
    (hr₁ : RequestOK coords (solvedVars numeraire (vars ++ [z])) (params ++ [p]) add mul heap₁ c₁)
    (hr₂ : RequestOK coords (solvedVars numeraire vars) (params ++ [p]) add mul heap₂ c₂)
    (heul₁ : c₁.useEuler = true) (hopt₁ : c₁.useOptimizer = false)
    (heul₂ : c₂.useEuler = true) (hopt₂ : c₂.useOptimizer = false)
    (h1 : 1 ≤ c₁.nIterEuler) (hn : c₂.nIterEuler = c₁.nIterEuler)
    (hz₀ : seen heap₁ c₁.initial z.name = seen heap₁ c₁.initial p.name)
    (hinit : ∀ o ∈ solvedVars numeraire vars ++ (params ++ [p]),
      seen heap₂ c₂.initial o.name = seen heap₁ c₁.initial o.name)
    (hwant : ∀ o ∈ params ++ [p], wantedValue add mul heap₂ c₂ o.name = wantedValue add mul heap₁ c₁ o.name)
    (outs₂ : List (NDArray ℝ))
    (hrun : env₂.euler (derefDict heap₂ c₂.initial) (wantedFlat add mul heap₂ c₂ (params ++ [p])) c₂.nIterEuler = .ok outs₂)
    (hreg : ∀ t, t < c₂.nIterEuler → ∀ s₂ ∈ b₂.points dx₂ (totalSize coords (solvedVars numeraire vars))
        (b₂.stateAfter (solvedVars numeraire vars) (params ++ [p]) (derefDict heap₂ c₂.initial) outs₂ t)
        (stepVec c₂.nIterEuler (wantedFlat add mul heap₂ c₂ (params ++ [p])) (initialFlat heap₂ c₂ (params ++ [p]))),
      (∀ e ∈ es₂, Regular (flatPoint (scalarNames coords (solvedVars numeraire vars ++ (params ++ [p]))) s₂) e) ∧
      ∀ d : Dict Str (NDArray ℝ), (∀ o ∈ solvedVars numeraire (vars ++ [z]) ++ (params ++ [p]), DataFor coords d o) →
        s₂ = flatOf d (solvedVars numeraire vars ++ (params ++ [p])) → dget d z.name = dget d p.name →
        ∀ e ∈ es₁, Regular (flatPoint (scalarNames coords (solvedVars numeraire (vars ++ [z]) ++ (params ++ [p])))
          (flatOf d (solvedVars numeraire (vars ++ [z]) ++ (params ++ [p])))) e) :
    ∃ e₁ e₂ outs,
      env₁.euler (derefDict heap₁ c₁.initial) (wantedFlat add mul heap₁ c₁ (params ++ [p])) c₁.nIterEuler = .ok outs ∧
      simulateCompute (simEnvOf env₁ (fun _ => false) fl add mul) heap₁ c₁ = .ok ⟨some e₁, none, none, false⟩ ∧
      simulateCompute (simEnvOf env₂ (fun _ => false) fl add mul) heap₂ c₂ = .ok ⟨some e₂, none, none, false⟩ ∧
      (∀ t, t ≤ c₁.nIterEuler → ∃ d : Dict Str (NDArray ℝ),
        (∀ o ∈ solvedVars numeraire (vars ++ [z]) ++ (params ++ [p]), DataFor coords d o) ∧
        b₁.stateAfter (solvedVars numeraire (vars ++ [z])) (params ++ [p]) (derefDict heap₁ c₁.initial) outs t =
          flatOf d (solvedVars numeraire (vars ++ [z]) ++ (params ++ [p])) ∧
        b₂.stateAfter (solvedVars numeraire vars) (params ++ [p]) (derefDict heap₂ c₂.initial) outs₂ t =
          flatOf d (solvedVars numeraire vars ++ (params ++ [p])) ∧
        dget d z.name = dget d p.name) ∧
      ∀ o ∈ solvedVars numeraire vars ++ (params ++ [p]), DataFor coords e₁.start o ∧
        dget e₂.start o.name = dget e₁.start o.name := by
  suffices hsuff : ∃ outs,
      env₁.euler (derefDict heap₁ c₁.initial) (wantedFlat add mul heap₁ c₁ (params ++ [p])) c₁.nIterEuler = .ok outs ∧
      ∀ t, t < c₁.nIterEuler → ∀ s ∈ b₁.points dx₁ (totalSize coords (solvedVars numeraire (vars ++ [z])))
        (b₁.stateAfter (solvedVars numeraire (vars ++ [z])) (params ++ [p]) (derefDict heap₁ c₁.initial) outs t)
        (stepVec c₁.nIterEuler (wantedFlat add mul heap₁ c₁ (params ++ [p])) (initialFlat heap₁ c₁ (params ++ [p]))),
      (∀ e ∈ es₁, Regular (flatPoint (scalarNames coords
        (solvedVars numeraire (vars ++ [z]) ++ (params ++ [p]))) s) e) ∧
      ∀ s₂, SameArrays coords (solvedVars numeraire (vars ++ [z]) ++ (params ++ [p]))
          (solvedVars numeraire vars ++ (params ++ [p])) s s₂ →
        ∀ e ∈ es₂, Regular (flatPoint (scalarNames coords (solvedVars numeraire vars ++ (params ++ [p]))) s₂) e by
    obtain ⟨outs, g1, g2⟩ := hsuff
    obtain ⟨e₁, e₂, outs₂', k1, k2, k3, k4, k5⟩ := C107_fixed hz hord hm₁ hm₂ hb hsq₁ hsq₂ fl add mul heap₁ heap₂ c₁ c₂ hr₁
      hr₂ heul₁ hopt₁ heul₂ hopt₂ h1 hn hz₀ hinit hwant outs g1 g2
    rw [hrun] at k3
    injection k3 with k3
    subst k3
    exact ⟨e₁, e₂, outs, g1, k1, k2, k4, k5⟩
  obtain ⟨hmod₁, dx₁', A₁, B₁, hpts₁, hs₁⟩ := hm₁.stepsFrom hsq₁
  have hcount := hm₂.count
  obtain ⟨hmod₂, dx₂', A₂, B₂, hpts₂, hs₂⟩ := hm₂.stepsFrom hsq₂
  simp only [← hpts₁]
  simp only [← hpts₂] at hreg
  have himb := imbalances_instead hz hmod₁ hmod₂ hord
  have hsol : solvedVars numeraire [z] = [z] := (himb (List.replicate _ 0)
    (List.replicate _ 0) (List.replicate _ 0) (List.replicate _ 0) List.length_replicate List.length_replicate
    List.length_replicate List.length_replicate).1
  have himb := fun x w t u hx hw ht hu => (himb x w t u hx hw ht hu).2
  have hnames := (solvedModel (numeraire := numeraire) hmod₁.scalar).names
  have hvs := solvedVars_append numeraire vars [z]
  rw [hsol] at hvs
  have hlenG : ∀ flat, (imbalances coords vars (params ++ [p]) numeraire eqs flat).length =
      totalSize coords (solvedVars numeraire vars) := fun flat => by rw [length_imbalances, ← hcount, hsq₂]
  clear hm₁ hm₂ hpts₁ hpts₂ dx₁ dx₂ hmod₁ hmod₂ hcount hsq₁ hsq₂
  rename' dx₁' => dx₁, dx₂' => dx₂
  generalize imbalances coords (vars ++ [z]) (params ++ [p]) numeraire
    (eqs.map (IndexedEq.instead p.name z.name) ++ [fixedAt name z p]) = G₁ at *
  generalize imbalances coords vars (params ++ [p]) numeraire eqs = G₂ at *
  generalize solvedVars numeraire (vars ++ [z]) = vs₁ at *
  subst hvs
  generalize solvedVars numeraire vars = V at *
  have hs1 : ∀ o : ModelObject, totalSize coords [o] = specSize coords o := fun o => by simp [totalSize]
  have hshape : specShape coords z = specShape coords p := by simp only [specShape, hz]
  have hsz : specSize coords z = specSize coords p := by simp only [specSize, hshape]
  have sv : totalSize coords (V ++ [z]) = totalSize coords V + specSize coords p := by rw [totalSize_append, hs1, hsz]
  have sp : totalSize coords (params ++ [p]) = totalSize coords params + specSize coords p := by
    rw [totalSize_append, hs1]
  have hG : ∀ x w t u : List ℝ, x.length = totalSize coords V → w.length = specSize coords p →
      t.length = totalSize coords params → u.length = specSize coords p → ∀ i : Nat, i < totalSize coords V →
      (G₁ ((x ++ w) ++ (t ++ u))).getD i 0 = (G₂ (x ++ (t ++ w))).getD i 0 := by
    intro x w t u hx hw ht hu i hi
    rw [himb x w t u hx hw ht hu, List.getD_eq_getElem?_getD, List.getD_eq_getElem?_getD,
      List.getElem?_append_left (by rw [hlenG]; exact hi)]
  have hF : ∀ x w t u : List ℝ, x.length = totalSize coords V → w.length = specSize coords p →
      t.length = totalSize coords params → u.length = specSize coords p → ∀ i : Nat, i < specSize coords p →
      (G₁ ((x ++ w) ++ (t ++ u))).getD (totalSize coords V + i) 0 = w.getD i 0 - u.getD i 0 := by
    intro x w t u hx hw ht hu i hi
    rw [himb x w t u hx hw ht hu, List.getD_eq_getElem?_getD, List.getElem?_append_right (by rw [hlenG]; omega), hlenG,
      Nat.add_sub_cancel_left, List.getElem?_zipWith, List.getElem?_eq_getElem (by omega),
      List.getElem?_eq_getElem (by omega), List.getD_eq_getElem?_getD, List.getD_eq_getElem?_getD,
      List.getElem?_eq_getElem (by omega), List.getElem?_eq_getElem (by omega)]
    rfl
  -- what is known at a point of the larger model
  have hat : ∀ x t : List ℝ, x.length = totalSize coords (V ++ [z]) →
      t.length = totalSize coords (params ++ [p]) → x.drop (totalSize coords V) = t.drop (totalSize coords params) →
      ((∀ e ∈ es₂, Regular (flatPoint (scalarNames coords (V ++ (params ++ [p])))
          (x.take (totalSize coords V) ++ t.take (totalSize coords (params ++ [p])))) e) ∧
        ∀ d : Dict Str (NDArray ℝ), (∀ o ∈ V ++ [z] ++ (params ++ [p]), DataFor coords d o) →
          x.take (totalSize coords V) ++ t.take (totalSize coords (params ++ [p])) = flatOf d (V ++ (params ++ [p])) →
          dget d z.name = dget d p.name →
          ∀ e ∈ es₁, Regular (flatPoint (scalarNames coords (V ++ [z] ++ (params ++ [p])))
            (flatOf d (V ++ [z] ++ (params ++ [p])))) e) →
      (∀ e ∈ es₁, Regular (flatPoint (scalarNames coords (V ++ [z] ++ (params ++ [p]))) (x ++ t)) e) ∧
      ∀ s₂, SameArrays coords (V ++ [z] ++ (params ++ [p])) (V ++ (params ++ [p])) (x ++ t) s₂ →
        ∀ e ∈ es₂, Regular (flatPoint (scalarNames coords (V ++ (params ++ [p]))) s₂) e := by
    intro x t hx ht hq hR
    have hsame := sameArrays_take (coords := coords) (vs := V) (zs := [z]) (ps := params ++ [p])
      (us := []) (by simpa using hnames) x t hx (by simpa using ht)
    rw [List.append_nil] at hsame
    refine ⟨?_, fun s₂ hs₂ => ?_⟩
    · obtain ⟨d, w1, w2, w3⟩ := id hsame
      rw [w2]
      refine hR.2 d w1 w3 ?_
      obtain ⟨a, ha, has, -⟩ := w1 z (by simp)
      obtain ⟨b, hb', hbs, -⟩ := w1 p (by simp)
      have lV := (flatOf_spec coords d V fun o ho => w1 o (by simp [ho])).1
      have lP := (flatOf_spec coords d params fun o ho => w1 o (by simp [ho])).1
      have lVz := (flatOf_spec coords d (V ++ [z]) fun o ho => w1 o (List.mem_append_left _ ho)).1
      rw [flatOf_append] at w2
      obtain ⟨w4, w5⟩ := List.append_inj w2 (by rw [lVz, hx])
      rw [w4, w5, flatOf_append, flatOf_append, List.drop_left' lV, List.drop_left' lP, flatOf_one ha,
        flatOf_one hb'] at hq
      rw [ha, hb', Option.some.injEq]
      cases a; cases b
      simp only at hq has hbs
      rw [hq, has, hbs, hshape]
    · rw [sameArrays_unique (fun o ho => by
        rcases List.mem_append.1 ho with h | h
        · exact List.mem_append_left _ (List.mem_append_left _ h)
        · exact List.mem_append_right _ h) hsame hs₂]
      exact hR.1
  have hlenH : (stepVec c₁.nIterEuler (wantedFlat add mul heap₁ c₁ (params ++ [p]))
      (initialFlat heap₁ c₁ (params ++ [p]))).length = totalSize coords (params ++ [p]) := by
    rw [stepVec, List.length_zipWith, hr₁.wanted_length _ fun o ho => ho,
      hr₁.initial_length _ fun o ho => List.mem_append_right _ ho, min_self]
  have key := @simulate_liftKeep coords V [z] (params ++ [p]) []
  rw [List.append_nil] at key
  obtain ⟨outs, g1, g2⟩ := key hs₁ hs₂ hb fl add mul heap₁ heap₂ c₁ c₂ hr₁ hr₂ heul₁ hopt₁
    heul₂ hopt₂ h1 hn hinit hwant outs₂ hrun
    (fun x t => x.drop (totalSize coords V) = t.drop (totalSize coords params))
    (fun d => d.drop (totalSize coords V) = (stepVec c₁.nIterEuler (wantedFlat add mul heap₁ c₁ (params ++ [p]))
      (initialFlat heap₁ c₁ (params ++ [p]))).drop (totalSize coords params))
    (fun s₂ => (∀ e ∈ es₂, Regular (flatPoint (scalarNames coords (V ++ (params ++ [p]))) s₂) e) ∧
      ∀ d : Dict Str (NDArray ℝ), (∀ o ∈ V ++ [z] ++ (params ++ [p]), DataFor coords d o) →
        s₂ = flatOf d (V ++ (params ++ [p])) → dget d z.name = dget d p.name →
        ∀ e ∈ es₁, Regular (flatPoint (scalarNames coords (V ++ [z] ++ (params ++ [p])))
          (flatOf d (V ++ [z] ++ (params ++ [p])))) e) _ rfl
    ((stepVec c₁.nIterEuler (wantedFlat add mul heap₁ c₁ (params ++ [p]))
      (initialFlat heap₁ c₁ (params ++ [p]))).drop (totalSize coords params))
    (by rw [List.length_drop, hlenH, hs1, hsz]; omega)
    (fun d hd => List.drop_left' hd)
    (by
      rw [initial_append, initial_append, List.drop_left' (hr₁.initial_length params fun o ho =>
        List.mem_append_right _ (List.mem_append_left _ ho)), List.drop_left' (hr₁.initial_length V fun o ho =>
        List.mem_append_left _ (List.mem_append_left _ ho))]
      simp [initialFlat, hz₀])
    (by
      intro x t d _ _ _ hφ hδ
      rw [List.drop_zipWith, List.drop_zipWith, hφ, hδ])
    (by
      intro x t d _ _ _ hφ hδ
      rw [List.drop_zipWith, List.drop_zipWith, hφ, hδ])
    (fun d1 d2 d3 d4 d h1 h2 h3 h4 h => rk4_same _ _ d1 d2 d3 d4 d h1 h2 h3 h4 h)
    (by
      intro x t hx ht hlen hR hφ
      obtain ⟨r1, -⟩ := hat x t hx ht hφ hR
      have r2 := hR.1
      generalize stepVec c₁.nIterEuler (wantedFlat add mul heap₁ c₁ (params ++ [p]))
        (initialFlat heap₁ c₁ (params ++ [p])) = h at *
      rw [List.take_of_length_le (show t.length ≤ _ by omega)] at r2 ⊢
      rw [List.take_of_length_le (show h.length ≤ _ by omega)]
      have ex := List.take_append_drop (totalSize coords V) x
      have et := List.take_append_drop (totalSize coords params) t
      have et' := et
      have eh := List.take_append_drop (totalSize coords params) h
      rw [← hφ] at et
      refine ⟨fun d hd => ⟨?_, ?_⟩, fun e he => ?_⟩
      · have := solve_fixed' sv sp _ _ _ _ A₁ B₁ A₂ B₂ hs₁.derivatives hs₂.derivatives hG hF (x.take (totalSize coords V))
          (x.drop (totalSize coords V)) (t.take (totalSize coords params)) (h.take (totalSize coords params))
          (h.drop (totalSize coords params)) d (by rw [List.length_take]; omega) (by rw [List.length_drop]; omega)
          (by rw [List.length_take]; omega) (by rw [List.length_take]; omega)
          (by rw [List.length_drop]; omega) (by rw [ex, et]; exact r1) (by rw [et]; exact r2)
          (by rw [ex, et, eh]; exact hd)
        rw [et, eh] at this
        exact this
      · refine solve_moves' sv sp _ _ A₁ B₁ hs₁.derivatives hF (x.take (totalSize coords V)) (x.drop (totalSize coords V))
          (t.take (totalSize coords params)) (t.drop (totalSize coords params)) (h.take (totalSize coords params))
          (h.drop (totalSize coords params)) d (by rw [List.length_take]; omega) (by rw [List.length_drop]; omega)
          (by rw [List.length_take]; omega) (by rw [List.length_drop]; omega) (by rw [List.length_take]; omega)
          (by rw [List.length_drop]; omega) ?_ ?_
        · rw [ex, et']; exact r1
        · rw [ex, et', eh]; exact hd
      · have := solve_fixed_back sv sp _ _ _ _ A₁ B₁ A₂ B₂ hs₁.derivatives hs₂.derivatives hG hF
          (x.take (totalSize coords V)) (x.drop (totalSize coords V)) (t.take (totalSize coords params)) h h e
          (by rw [List.length_take]; omega) (by rw [List.length_drop]; omega) (by rw [List.length_take]; omega)
          (by rw [ex, et]; exact r1) (by rw [et]; exact r2) (by rw [et]; exact he)
        rw [ex, et] at this
        exact this)
    hreg
  refine ⟨outs, g1, fun t ht s hs => ?_⟩
  obtain ⟨x', t', l1, l2, rfl, l4, l5⟩ := g2 t ht s hs
  exact hat x' t' l1 l2 l4 l5

/-- The models of `lagEqs` and `lagNumberEqs`, given only that the second one returns. -/
example (fl : SimFlags) (add mul : NDArray ℝ → NDArray ℝ → NDArray ℝ) :
    ∃ env₁ env₂ outs outs₂ e₁ e₂,
      simulateCompute (simEnvOf env₁ (fun _ => false) fl add mul) [] lagCall = .ok ⟨some e₁, none, none, false⟩ ∧
      simulateCompute (simEnvOf env₂ (fun _ => false) fl add mul) [] lagNumberCall = .ok ⟨some e₂, none, none, false⟩ ∧
      env₁.parameters = lagParams ∧ env₂.parameters = sqParams ∧
      (∀ t, t ≤ 10000 → SameArrays [] (duoVars ++ lagParams) (duoVars ++ sqParams)
        (EulerBackend.numba.stateAfter duoVars lagParams (derefDict [] lagCall.initial) outs t)
        (EulerBackend.numba.stateAfter duoVars sqParams (derefDict [] lagNumberCall.initial) outs₂ t)) ∧
      dget e₂.start "x".toList = dget e₁.start "x".toList := by
  obtain ⟨uv, up, K, hK, k1, k2⟩ := lagNumba
  obtain ⟨uv₂, up₂, K₂, hK₂, k3, k4⟩ := lagNumberNumba
  have hm := (plain_runs lagModel lagNames lagEuler hK (by decide +kernel) k1 k2 rfl rfl rfl
    (fun x t => by
      show IsUnit (symA 2 2 _ _ _ x t).det
      rw [Matrix.det_fin_two]
      simp [symA, lagEs, SymExpr.diff, SymExpr.eval]
      norm_num) fl add mul lagCall (lagRequest add mul) rfl rfl).1
  obtain ⟨hm₂, outs₂, hrun⟩ := plain_runs lagNumberModel (vn := ["x".toList, "y".toList]) (pn := ["p".toList]) duoEulerNames duoEuler
    hK₂ (by decide +kernel) k3 k4 rfl rfl rfl
    (fun x t => by
      show IsUnit (symA 2 1 _ _ _ x t).det
      rw [Matrix.det_fin_two]
      simp [symA, lagEs, SymExpr.diff, SymExpr.eval]
      norm_num) fl add mul lagNumberCall (lagNumberRequest add mul) rfl rfl
  obtain ⟨e₁, e₂, outs, -, g1, g2, g4, g5⟩ := C107_number_returns (k := lagParam) (q := 1) rfl hm hm₂ rfl rfl rfl fl add mul [] []
    lagCall lagNumberCall (lagRequest add mul) (lagNumberRequest add mul) rfl rfl rfl rfl (by decide) rfl
    (by simp [lagCall, seen, lagParam, dget, readVal])
    (by
      show some [(1 : ℝ)] = _
      simp)
    (by
      intro o ho
      have : o = { name := "x" } ∨ o = { name := "y" } ∨ o = { name := "p" } := by
        simpa [duoVars, sqParams, solvedVars] using ho
      rcases this with rfl | rfl | rfl <;> rfl)
    (by
      intro o ho
      have : o = { name := "p" } := by simpa [sqParams] using ho
      subst this
      rfl) outs₂ hrun
    (by
      intro t _ s _
      refine ⟨fun e he => ?_, fun _ _ _ _ e he => ?_⟩ <;>
      · simp only [lagEs, List.mem_cons, List.not_mem_nil, or_false] at he
        rcases he with rfl | rfl <;> simp [Regular])
  exact ⟨_, _, outs, outs₂, e₁, e₂, g1, g2, rfl, rfl, g4, (g5 { name := "x" } (by decide +kernel)).2⟩

/-- The models of `linkEqs` and `duoEqs`, given only that the second one returns. -/
example (fl : SimFlags) (add mul : NDArray ℝ → NDArray ℝ → NDArray ℝ) :
    ∃ env₁ env₂ outs outs₂ e₁ e₂,
      simulateCompute (simEnvOf env₁ (fun _ => false) fl add mul) [] linkCall = .ok ⟨some e₁, none, none, false⟩ ∧
      simulateCompute (simEnvOf env₂ (fun _ => false) fl add mul) [] duoCall = .ok ⟨some e₂, none, none, false⟩ ∧
      env₁.variables = linkVars ∧ env₂.variables = duoVars ∧
      (∀ t, t ≤ 10000 → ∃ d : Dict Str (NDArray ℝ), (∀ o ∈ linkVars ++ sqParams, DataFor [] d o) ∧
        EulerBackend.numba.stateAfter linkVars sqParams (derefDict [] linkCall.initial) outs t =
          flatOf d (linkVars ++ sqParams) ∧
        EulerBackend.numba.stateAfter duoVars sqParams (derefDict [] duoCall.initial) outs₂ t =
          flatOf d (duoVars ++ sqParams) ∧ dget d "z".toList = dget d "p".toList) ∧
      dget e₂.start "x".toList = dget e₁.start "x".toList := by
  obtain ⟨uv, up, K, hK, k1, k2⟩ := linkNumba
  obtain ⟨uv₂, up₂, K₂, hK₂, k3, k4⟩ := duoNumba
  have hm := (plain_runs linkModel linkNames linkEuler hK (by decide +kernel) k1 k2 rfl rfl rfl
    (fun x t => by
      show IsUnit (symA 3 1 _ _ _ x t).det
      rw [Matrix.det_fin_three]
      simp [symA, linkEs, SymExpr.diff, SymExpr.eval]
      norm_num) fl add mul linkCall (linkRequest add mul) rfl rfl).1
  obtain ⟨hm₂, outs₂, hrun⟩ := plain_runs duoModel (vn := ["x".toList, "y".toList]) (pn := ["p".toList]) duoEulerNames duoEuler hK₂
    (by decide +kernel) k3 k4 rfl rfl rfl (fun x t => duo_regular_matrix x t) fl add mul duoCall (duoRequest add mul) rfl rfl
  obtain ⟨e₁, e₂, outs, -, g1, g2, g4, g5⟩ := C107_fixed_returns (vars := duoVars) (params := []) (eqs := duoEqs) (z := linkVar)
    (p := { name := "p" }) (name := linkName) rfl (by decide) hm hm₂ rfl rfl rfl fl add mul [] []
    linkCall duoCall (linkRequest add mul) (duoRequest add mul) rfl rfl rfl rfl (by decide) rfl rfl
    (by
      intro o ho
      have : o = { name := "x" } ∨ o = { name := "y" } ∨ o = { name := "p" } := by
        simpa [duoVars, sqParams, solvedVars] using ho
      rcases this with rfl | rfl | rfl <;> rfl)
    (by
      intro o ho
      have : o = { name := "p" } := by simpa [sqParams] using ho
      subst this
      rfl) outs₂ hrun
    (by
      intro t _ s _
      refine ⟨fun e he => duoRegular _ e (List.mem_append_left _ he), fun _ _ _ _ e he => ?_⟩
      simp only [linkEs, List.mem_cons, List.not_mem_nil, or_false] at he
      rcases he with rfl | rfl | rfl <;> simp [Regular])
  exact ⟨_, _, outs, outs₂, e₁, e₂, g1, g2, rfl, rfl, g4, (g5 { name := "x" } (by decide +kernel)).2⟩

end Verif
