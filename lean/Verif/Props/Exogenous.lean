import Verif.Lemmas.ExogenousEqs
import Verif.Lemmas.SimulateKeep

/-!
# C107: what is exogenous may be a parameter, a number in the equations, or a variable fixed at a parameter
-/

namespace Verif

open SymExpr

variable {coords : Coords} {vars params : List ModelObject} {numeraire : Option ModelObject} {eqs : List IndexedEq}
  {k z p : ModelObject}

theorem flatOf_one {d : Dict Str (NDArray ℝ)} {o : ModelObject} {a : NDArray ℝ} (h : dget d o.name = some a) :
    flatOf d [o] = a.data := by
  simp [flatOf, h]

/-- **C107, numbers: solutions.**  Let a scalar parameter `k` have the value `q`.  Named arrays are a solution of the
equations if and only if they are one of the equations with the number `q` written for `k`, in the model without `k`. -/
theorem C107_number_solutions (hk : k.dims = []) (h : IndexedModel coords vars (params ++ [k]) numeraire eqs) (q : ℚ)
    (d : Dict Str (NDArray ℝ)) (hd : ∀ o ∈ solvedVars numeraire vars ++ (params ++ [k]), DataFor coords d o)
    (hq : (dget d k.name).map NDArray.data = some [(q : ℝ)]) :
    (∀ y ∈ imbalances coords vars (params ++ [k]) numeraire eqs
        (flatOf d (solvedVars numeraire vars ++ (params ++ [k]))), y = 0) ↔
      ∀ y ∈ imbalances coords vars params numeraire (eqs.map (IndexedEq.withNumber k.name q))
        (flatOf d (solvedVars numeraire vars ++ params)), y = 0 := by
  obtain ⟨a, ha, haq⟩ := Option.map_eq_some_iff.1 hq
  rw [flatOf_append, flatOf_append, flatOf_append, flatOf_one ha, haq, imbalances_withNumber hk h q]
  · exact (flatOf_spec coords d _ fun o ho => hd o (List.mem_append_left _ ho)).1
  · exact (flatOf_spec coords d _ fun o ho => hd o (List.mem_append_right _ (List.mem_append_left _ ho))).1

/-- **C107, fixed variables: solutions.**  Write a new variable `z` with the dims of a parameter `p` for `p` in all
equations, and add the equation `z = p`.  Named arrays are a solution of the new model if and only if they are one of the
old model and the array of `z` is that of `p`. -/
theorem C107_fixed_solutions (hz : z.dims = p.dims) (hord : p.dims.Sublist (dkeys coords)) {name : Template}
    (h₁ : IndexedModel coords (vars ++ [z]) (params ++ [p]) numeraire
      (eqs.map (IndexedEq.instead p.name z.name) ++ [fixedAt name z p]))
    (h₂ : IndexedModel coords vars (params ++ [p]) numeraire eqs)
    (d : Dict Str (NDArray ℝ)) (hd : ∀ o ∈ solvedVars numeraire (vars ++ [z]) ++ (params ++ [p]), DataFor coords d o) :
    (∀ y ∈ imbalances coords (vars ++ [z]) (params ++ [p]) numeraire
        (eqs.map (IndexedEq.instead p.name z.name) ++ [fixedAt name z p])
        (flatOf d (solvedVars numeraire (vars ++ [z]) ++ (params ++ [p]))), y = 0) ↔
      (∀ y ∈ imbalances coords vars (params ++ [p]) numeraire eqs
        (flatOf d (solvedVars numeraire vars ++ (params ++ [p]))), y = 0) ∧ dget d z.name = dget d p.name := by
  have hd' := hd
  have hsol : solvedVars numeraire [z] = [z] := (imbalances_instead hz h₁ h₂ hord (List.replicate _ 0)
    (List.replicate _ 0) (List.replicate _ 0) (List.replicate _ 0) List.length_replicate List.length_replicate
    List.length_replicate List.length_replicate).1
  rw [solvedVars_append, hsol] at hd'
  obtain ⟨a, ha, has, haw⟩ := hd' z (by simp)
  obtain ⟨b, hb, hbs, hbw⟩ := hd' p (by simp)
  have hshape : specShape coords z = specShape coords p := by simp only [specShape, hz]
  have hal : a.data.length = specSize coords p := by rw [haw, has, hshape]; rfl
  have hbl : b.data.length = specSize coords p := by rw [hbw, hbs]; rfl
  rw [solvedVars_append, hsol, flatOf_append, flatOf_append, flatOf_append, flatOf_one ha, flatOf_one hb,
    (imbalances_instead hz h₁ h₂ hord _ _ _ _
      (flatOf_spec coords d _ fun o ho => hd' o (List.mem_append_left _ (List.mem_append_left _ ho))).1 hal
      (flatOf_spec coords d _ fun o ho => hd' o (List.mem_append_right _ (List.mem_append_left _ ho))).1 hbl).2,
    flatOf_append, flatOf_append, flatOf_one hb, ha, hb, Option.some.injEq]
  have hab : (∀ y ∈ List.zipWith (· - ·) a.data b.data, y = 0) ↔ a = b := by
    constructor
    · intro h
      have hdat : a.data = b.data := by
        apply List.ext_getElem (by rw [hal, hbl])
        intro i h1 h2
        have := h _ (List.getElem_mem (l := List.zipWith (· - ·) a.data b.data) (n := i) (by
          rw [List.length_zipWith]; omega))
        rw [List.getElem_zipWith] at this
        linarith
      cases a; cases b
      simp only at hdat has hbs
      rw [hdat, has, hbs, hshape]
    · rintro rfl y hy
      rw [List.zipWith_self] at hy
      obtain ⟨c, -, rfl⟩ := List.mem_map.1 hy
      exact sub_self c
  rw [← hab]
  simp only [List.mem_append]
  constructor
  · intro h
    have hw := hab.1 fun y hy => h y (.inr hy)
    subst hw
    exact ⟨fun y hy => h y (.inl hy), fun y hy => h y (.inr hy)⟩
  · rintro ⟨g1, g2⟩ y (hy | hy)
    · have hw := hab.1 g2
      subst hw
      exact g1 y hy
    · exact g2 y hy

/-! ## Simulations -/

theorem wanted_append (add mul : NDArray ℝ → NDArray ℝ → NDArray ℝ) (h : Heap (NDArray ℝ)) (c : SimCall ℝ)
    (a b : List ModelObject) : wantedFlat add mul h c (a ++ b) = wantedFlat add mul h c a ++ wantedFlat add mul h c b := by
  unfold wantedFlat; rw [List.flatMap_append]

theorem initial_append (h : Heap (NDArray ℝ)) (c : SimCall ℝ)
    (a b : List ModelObject) : initialFlat h c (a ++ b) = initialFlat h c a ++ initialFlat h c b := by
  unfold initialFlat; rw [List.flatMap_append]

theorem RequestOK.wanted_length {vs ps : List ModelObject} {add mul : NDArray ℝ → NDArray ℝ → NDArray ℝ}
    {h : Heap (NDArray ℝ)} {c : SimCall ℝ} (hr : RequestOK coords vs ps add mul h c) (objs : List ModelObject)
    (ho : ∀ o ∈ objs, o ∈ ps) : (wantedFlat add mul h c objs).length = totalSize coords objs := by
  unfold wantedFlat totalSize
  rw [List.length_flatMap]
  congr 1
  apply List.map_congr_left
  intro o hm
  obtain ⟨a, h1, h2⟩ := hr.sized o (ho o hm)
  rw [h1]
  exact h2

theorem RequestOK.initial_length {vs ps : List ModelObject} {add mul : NDArray ℝ → NDArray ℝ → NDArray ℝ}
    {h : Heap (NDArray ℝ)} {c : SimCall ℝ} (hr : RequestOK coords vs ps add mul h c) (objs : List ModelObject)
    (ho : ∀ o ∈ objs, o ∈ vs ++ ps) : (initialFlat h c objs).length = totalSize coords objs := by
  unfold initialFlat totalSize
  rw [List.length_flatMap]
  congr 1
  apply List.map_congr_left
  intro o hm
  obtain ⟨a, h1, h2, h3⟩ := hr.shaped o (ho o hm)
  rw [h1]
  show a.data.length = _
  rw [h3, h2]
  rfl

theorem sameArrays_take {vs zs ps us : List ModelObject} (hn : ((vs ++ zs ++ (ps ++ us)).map ModelObject.name).Nodup)
    (x t : List ℝ) (hx : x.length = totalSize coords (vs ++ zs)) (ht : t.length = totalSize coords (ps ++ us)) :
    SameArrays coords (vs ++ zs ++ (ps ++ us)) (vs ++ ps) (x ++ t)
      (x.take (totalSize coords vs) ++ t.take (totalSize coords ps)) := by
  obtain ⟨d, hd, hflat⟩ := exists_data coords (vs ++ zs ++ (ps ++ us)) hn (x ++ t)
    (by rw [List.length_append, totalSize_append coords (vs ++ zs), hx, ht])
  have hd1 : ∀ o ∈ vs ++ zs, DataFor coords d o := fun o ho => hd o (List.mem_append_left _ ho)
  have hd2 : ∀ o ∈ ps ++ us, DataFor coords d o := fun o ho => hd o (List.mem_append_right _ ho)
  have l1 := (flatOf_spec coords d (vs ++ zs) hd1).1
  have e1 := (flatOf_spec coords d vs fun o ho => hd1 o (List.mem_append_left _ ho)).1
  have e2 := (flatOf_spec coords d ps fun o ho => hd2 o (List.mem_append_left _ ho)).1
  refine ⟨d, hd, hflat.symm, ?_⟩
  rw [flatOf_append d (vs ++ zs)] at hflat
  obtain ⟨q1, q2⟩ := List.append_inj hflat (by rw [l1, hx])
  rw [← q1, ← q2, flatOf_append, flatOf_append, flatOf_append, List.take_left' e1, List.take_left' e2]

theorem solve_number' {n np p r : Nat} (hnp : np = p + r) (G₁ G₂ : List ℝ → List ℝ) (ok₁ ok₂ : List ℝ → Prop)
    (A₁ : (Fin n → ℝ) → (Fin np → ℝ) → Matrix (Fin n) (Fin n) ℝ)
    (B₁ : (Fin n → ℝ) → (Fin np → ℝ) → Matrix (Fin n) (Fin np) ℝ)
    (A₂ : (Fin n → ℝ) → (Fin p → ℝ) → Matrix (Fin n) (Fin n) ℝ)
    (B₂ : (Fin n → ℝ) → (Fin p → ℝ) → Matrix (Fin n) (Fin p) ℝ)
    (D₁ : DerivativesOf G₁ ok₁ A₁ B₁) (D₂ : DerivativesOf G₂ ok₂ A₂ B₂) (u w : List ℝ) (hu : u.length = r)
    (hwl : w.length = r) (hw : ∀ i : Fin r, toVec r w i = 0)
    (hG : ∀ x t : List ℝ, x.length = n → t.length = p → G₂ (x ++ t) = G₁ (x ++ (t ++ u)))
    (x t h d : List ℝ) (hx : x.length = n) (ht : t.length = p) (hh : h.length = p)
    (h₁ : ok₁ (x ++ (t ++ u))) (h₂ : ok₂ (x ++ t))
    (hd : (vecJac A₁ B₁).solve x (t ++ u) (h ++ w) = .ok d) :
    (vecJac A₂ B₂).solve x t h = .ok d := by
  subst hnp
  exact solve_number G₁ G₂ ok₁ ok₂ A₁ B₁ A₂ B₂ D₁ D₂ u w hu hwl hw hG x t h d hx ht hh h₁ h₂ hd

theorem solve_moves' {nx np n m p : Nat} (hnx : nx = n + m) (hnp : np = p + m) (G₁ : List ℝ → List ℝ)
    (ok₁ : List ℝ → Prop)
    (A₁ : (Fin nx → ℝ) → (Fin np → ℝ) → Matrix (Fin nx) (Fin nx) ℝ)
    (B₁ : (Fin nx → ℝ) → (Fin np → ℝ) → Matrix (Fin nx) (Fin np) ℝ) (D₁ : DerivativesOf G₁ ok₁ A₁ B₁)
    (hF : ∀ x z t u : List ℝ, x.length = n → z.length = m → t.length = p → u.length = m → ∀ i : Nat, i < m →
      (G₁ ((x ++ z) ++ (t ++ u))).getD (n + i) 0 = z.getD i 0 - u.getD i 0)
    (x z t u h k d : List ℝ) (hx : x.length = n) (hz : z.length = m) (ht : t.length = p) (hu : u.length = m)
    (hh : h.length = p) (hk : k.length = m) (h₁ : ok₁ ((x ++ z) ++ (t ++ u)))
    (hd : (vecJac A₁ B₁).solve (x ++ z) (t ++ u) (h ++ k) = .ok d) : d.drop n = k := by
  subst hnx hnp
  exact solve_moves G₁ ok₁ A₁ B₁ D₁ hF x z t u h k d hx hz ht hu hh hk h₁ hd

theorem solve_fixed' {nx np n m p : Nat} (hnx : nx = n + m) (hnp : np = p + m) (G₁ G₂ : List ℝ → List ℝ)
    (ok₁ ok₂ : List ℝ → Prop)
    (A₁ : (Fin nx → ℝ) → (Fin np → ℝ) → Matrix (Fin nx) (Fin nx) ℝ)
    (B₁ : (Fin nx → ℝ) → (Fin np → ℝ) → Matrix (Fin nx) (Fin np) ℝ)
    (A₂ : (Fin n → ℝ) → (Fin np → ℝ) → Matrix (Fin n) (Fin n) ℝ)
    (B₂ : (Fin n → ℝ) → (Fin np → ℝ) → Matrix (Fin n) (Fin np) ℝ)
    (D₁ : DerivativesOf G₁ ok₁ A₁ B₁) (D₂ : DerivativesOf G₂ ok₂ A₂ B₂)
    (hG : ∀ x z t u : List ℝ, x.length = n → z.length = m → t.length = p → u.length = m → ∀ i : Nat, i < n →
      (G₁ ((x ++ z) ++ (t ++ u))).getD i 0 = (G₂ (x ++ (t ++ z))).getD i 0)
    (hF : ∀ x z t u : List ℝ, x.length = n → z.length = m → t.length = p → u.length = m → ∀ i : Nat, i < m →
      (G₁ ((x ++ z) ++ (t ++ u))).getD (n + i) 0 = z.getD i 0 - u.getD i 0)
    (x z t h k d : List ℝ) (hx : x.length = n) (hz : z.length = m) (ht : t.length = p)
    (hh : h.length = p) (hk : k.length = m) (h₁ : ok₁ ((x ++ z) ++ (t ++ z))) (h₂ : ok₂ (x ++ (t ++ z)))
    (hd : (vecJac A₁ B₁).solve (x ++ z) (t ++ z) (h ++ k) = .ok d) :
    (vecJac A₂ B₂).solve x (t ++ z) (h ++ k) = .ok (d.take n) := by
  subst hnx hnp
  exact solve_fixed G₁ G₂ ok₁ ok₂ A₁ B₁ A₂ B₂ D₁ D₂ hG hF x z t h k d hx hz ht hh hk h₁ h₂ hd

/-- **C107, numbers: simulations.**  Let a scalar parameter `k` have the value `q` at the start and at the end of the
request.  Write the number `q` for `k` in all equations and drop `k` from the model; each model is built for any back-end,
but both with Euler or both with Runge-Kutta steps.  Let both calls ask for the same number of steps, from the same initial
values to the same values of the other parameters.  Let the Euler function of the model with `k` return, and let the
powers and logarithms of both models be defined where it solved for a direction.  Then `simulate` with Euler steps only
returns for both models; at every step the arrays of the variables and of the other parameters are the same, and so are
the final states. -/
theorem C107_number {q : ℚ} (hk : k.dims = []) {es₁ es₂ : List (SymExpr Str)} {b₁ b₂ : EulerBackend}
    {dx₁ dx₂ : StepSolve ℝ} {env₁ env₂ : SamEnv ℝ (List (NDArray ℝ))}
    (hm₁ : BuiltOn coords vars (params ++ [k]) numeraire eqs es₁ b₁ dx₁ env₁)
    (hm₂ : BuiltOn coords vars params numeraire (eqs.map (IndexedEq.withNumber k.name q)) es₂ b₂ dx₂ env₂)
    (hb : b₂.rk4 = b₁.rk4)
    (hsq₁ : es₁.length = totalSize coords (solvedVars numeraire vars))
    (hsq₂ : es₂.length = totalSize coords (solvedVars numeraire vars))
    (fl : SimFlags) (add mul : NDArray ℝ → NDArray ℝ → NDArray ℝ) (heap₁ heap₂ : Heap (NDArray ℝ)) (c₁ c₂ : SimCall ℝ)
    (hr₁ : RequestOK coords (solvedVars numeraire vars) (params ++ [k]) add mul heap₁ c₁)
    (hr₂ : RequestOK coords (solvedVars numeraire vars) params add mul heap₂ c₂)
    (heul₁ : c₁.useEuler = true) (hopt₁ : c₁.useOptimizer = false)
    (heul₂ : c₂.useEuler = true) (hopt₂ : c₂.useOptimizer = false)
    (h1 : 1 ≤ c₁.nIterEuler) (hn : c₂.nIterEuler = c₁.nIterEuler)
    (hq₀ : (seen heap₁ c₁.initial k.name).map NDArray.data = some [(q : ℝ)])
    (hq₁ : (wantedValue add mul heap₁ c₁ k.name).map NDArray.data = some [(q : ℝ)])
    (hinit : ∀ o ∈ solvedVars numeraire vars ++ params, seen heap₂ c₂.initial o.name = seen heap₁ c₁.initial o.name)
    (hwant : ∀ o ∈ params, wantedValue add mul heap₂ c₂ o.name = wantedValue add mul heap₁ c₁ o.name)
    (outs : List (NDArray ℝ))
    (hrun : env₁.euler (derefDict heap₁ c₁.initial) (wantedFlat add mul heap₁ c₁ (params ++ [k])) c₁.nIterEuler = .ok outs)
    (hreg : ∀ t, t < c₁.nIterEuler → ∀ s ∈ b₁.points dx₁ (totalSize coords (solvedVars numeraire vars))
        (b₁.stateAfter (solvedVars numeraire vars) (params ++ [k]) (derefDict heap₁ c₁.initial) outs t)
        (stepVec c₁.nIterEuler (wantedFlat add mul heap₁ c₁ (params ++ [k])) (initialFlat heap₁ c₁ (params ++ [k]))),
      (∀ e ∈ es₁, Regular (flatPoint (scalarNames coords (solvedVars numeraire vars ++ (params ++ [k]))) s) e) ∧
      ∀ s₂, SameArrays coords (solvedVars numeraire vars ++ (params ++ [k])) (solvedVars numeraire vars ++ params) s s₂ →
        ∀ e ∈ es₂, Regular (flatPoint (scalarNames coords (solvedVars numeraire vars ++ params)) s₂) e) :
    ∃ e₁ e₂ outs₂,
      simulateCompute (simEnvOf env₁ (fun _ => false) fl add mul) heap₁ c₁ = .ok ⟨some e₁, none, none, false⟩ ∧
      simulateCompute (simEnvOf env₂ (fun _ => false) fl add mul) heap₂ c₂ = .ok ⟨some e₂, none, none, false⟩ ∧
      env₂.euler (derefDict heap₂ c₂.initial) (wantedFlat add mul heap₂ c₂ params) c₂.nIterEuler = .ok outs₂ ∧
      (∀ t, t ≤ c₁.nIterEuler → SameArrays coords (solvedVars numeraire vars ++ (params ++ [k]))
        (solvedVars numeraire vars ++ params)
        (b₁.stateAfter (solvedVars numeraire vars) (params ++ [k]) (derefDict heap₁ c₁.initial) outs t)
        (b₂.stateAfter (solvedVars numeraire vars) params (derefDict heap₂ c₂.initial) outs₂ t)) ∧
      ∀ o ∈ solvedVars numeraire vars ++ params, DataFor coords e₁.start o ∧
        dget e₂.start o.name = dget e₁.start o.name := by
  obtain ⟨hmod₁, dx₁', A₁, B₁, hpts, hs₁⟩ := hm₁.stepsFrom hsq₁
  simp only [← hpts] at hreg
  obtain ⟨hmod₂, dx₂', A₂, B₂, -, hs₂⟩ := hm₂.stepsFrom hsq₂
  have hnames := (solvedModel (numeraire := numeraire) hmod₁.scalar).names
  have hsk : totalSize coords [k] = 1 := by simp [totalSize, specSize, specShape, hk]
  have sp := totalSize_append coords params [k]
  have hdrop : (stepVec c₁.nIterEuler (wantedFlat add mul heap₁ c₁ (params ++ [k]))
      (initialFlat heap₁ c₁ (params ++ [k]))).drop (totalSize coords params) = [0] := by
    unfold stepVec
    rw [List.drop_zipWith, wanted_append, initial_append,
      List.drop_left' (hr₁.wanted_length params fun o ho => List.mem_append_left _ ho),
      List.drop_left' (hr₁.initial_length params fun o ho => List.mem_append_right _ (List.mem_append_left _ ho))]
    simp [wantedFlat, initialFlat, hq₀, hq₁]
  have key := @simulate_keep coords (solvedVars numeraire vars) [] params [k]
  rw [List.append_nil] at key
  obtain ⟨e₁, e₂, outs₂, g1, g2, g3, g4, g5⟩ := key hs₁ hs₂ hb hnames fl add mul heap₁ heap₂ c₁ c₂ hr₁ hr₂ heul₁ hopt₁
    heul₂ hopt₂ h1 hn hinit hwant outs hrun (fun _ t => t.drop (totalSize coords params) = [(q : ℝ)]) (fun _ => True)
    (fun s => (∀ e ∈ es₁, Regular (flatPoint (scalarNames coords (solvedVars numeraire vars ++ (params ++ [k]))) s) e) ∧
      ∀ s₂, SameArrays coords (solvedVars numeraire vars ++ (params ++ [k])) (solvedVars numeraire vars ++ params) s s₂ →
        ∀ e ∈ es₂, Regular (flatPoint (scalarNames coords (solvedVars numeraire vars ++ params)) s₂) e) _ rfl
    (by
      rw [initial_append, List.drop_left' (hr₁.initial_length params fun o ho =>
        List.mem_append_right _ (List.mem_append_left _ ho))]
      simp [initialFlat, hq₀])
    (by
      intro x t d _ _ _ hφ _
      rw [List.drop_zipWith, hdrop, hφ]
      simp)
    (by
      intro x t d _ _ _ hφ _
      rw [List.drop_zipWith, hdrop, hφ]
      simp)
    (fun _ _ _ _ _ _ _ _ _ _ => trivial) (fun _ _ _ _ _ _ _ _ => trivial)
    (by
      intro x t d hx ht hlen hR hφ hd
      have ld := hs₁.lenOK x t _ d hx ht hlen (by rw [hs₁.solves x t _ hx ht hlen]; exact hd)
      have hsame := sameArrays_take (coords := coords) (vs := solvedVars numeraire vars) (zs := []) (ps := params)
        (us := [k]) (by simpa using hnames) x t (by simpa using hx) ht
      rw [List.append_nil] at hsame
      have htx : x.take (totalSize coords (solvedVars numeraire vars)) = x := List.take_of_length_le (by omega)
      rw [htx] at hsame ⊢
      rw [List.take_of_length_le (show d.length ≤ _ by omega)]
      have et := List.take_append_drop (totalSize coords params) t
      have eh := List.take_append_drop (totalSize coords params) (stepVec c₁.nIterEuler
        (wantedFlat add mul heap₁ c₁ (params ++ [k])) (initialFlat heap₁ c₁ (params ++ [k])))
      rw [hφ] at et
      rw [hdrop] at eh
      refine solve_number' (by rw [sp]) _ _ _ _ A₁ B₁ A₂ B₂ hs₁.derivatives hs₂.derivatives [(q : ℝ)] [0]
        (by rw [hsk]; rfl) (by rw [hsk]; rfl) (fun i => ?_) (fun x t hx ht => imbalances_withNumber hk hmod₁ q x t hx ht)
        x _ _ d hx (by rw [List.length_take]; omega) (by rw [List.length_take]; omega) ?_ (hR.2 _ hsame) ?_
      · have : (i : Nat) = 0 := by have := i.isLt; omega
        unfold toVec
        rw [this]
        rfl
      · rw [et]; exact hR.1
      · rw [et, eh]; exact hd)
    hreg
  exact ⟨e₁, e₂, outs₂, g1, g2, g3, fun t ht => (g4 t ht).1, g5⟩

theorem rk4_same (g : List ℝ) (n : Nat) (d1 d2 d3 d4 d : List ℝ) (h1 : d1.drop n = g) (h2 : d2.drop n = g)
    (h3 : d3.drop n = g) (h4 : d4.drop n = g) (h : vrk4 d1 d2 d3 d4 = .ok d) : d.drop n = g := by
  unfold vrk4 vzip at h
  simp only [bind, Except.bind] at h
  split at h
  · cases h
  rename_i a ha
  split at h
  · cases h
  rename_i b hb
  split at ha
  · injection ha with ha
    split at hb
    · injection hb with hb
      split at h
      · injection h with h
        subst ha hb h
        simp only [List.drop_zipWith, h1, h2, h3, h4]
        apply List.ext_getElem?
        intro i
        simp only [List.getElem?_zipWith]
        cases g[i]? with
        | none => rfl
        | some v =>
          simp only [Option.some.injEq]
          ring
      · cases h
    · cases hb
  · cases ha

/-- **C107, fixed variables: simulations.**  Write a new variable `z` with the dims of a parameter `p` for `p` in all
equations, and add the equation `z = p`; each model is built for any back-end, but both with Euler or both with
Runge-Kutta steps.  Let both calls ask for the same number of steps, from the same initial values, with `z` at the value
of `p`, to the same values of the parameters.  Let the Euler function of the model with `z` return, and let the powers
and logarithms of both models be defined where it solved for a direction.  Then `simulate` with Euler steps only returns
for both models; at every step all other arrays are the same and the array of `z` is that of `p`, and so are the final
states. -/
theorem C107_fixed (hz : z.dims = p.dims) (hord : p.dims.Sublist (dkeys coords)) {name : Template}
    {es₁ es₂ : List (SymExpr Str)} {b₁ b₂ : EulerBackend}
    {dx₁ dx₂ : StepSolve ℝ} {env₁ env₂ : SamEnv ℝ (List (NDArray ℝ))}
    (hm₁ : BuiltOn coords (vars ++ [z]) (params ++ [p]) numeraire
      (eqs.map (IndexedEq.instead p.name z.name) ++ [fixedAt name z p]) es₁ b₁ dx₁ env₁)
    (hm₂ : BuiltOn coords vars (params ++ [p]) numeraire eqs es₂ b₂ dx₂ env₂)
    (hb : b₂.rk4 = b₁.rk4)
    (hsq₁ : es₁.length = totalSize coords (solvedVars numeraire (vars ++ [z])))
    (hsq₂ : es₂.length = totalSize coords (solvedVars numeraire vars))
    (fl : SimFlags) (add mul : NDArray ℝ → NDArray ℝ → NDArray ℝ) (heap₁ heap₂ : Heap (NDArray ℝ)) (c₁ c₂ : SimCall ℝ)
    (hr₁ : RequestOK coords (solvedVars numeraire (vars ++ [z])) (params ++ [p]) add mul heap₁ c₁)
    (hr₂ : RequestOK coords (solvedVars numeraire vars) (params ++ [p]) add mul heap₂ c₂)
    (heul₁ : c₁.useEuler = true) (hopt₁ : c₁.useOptimizer = false)
    (heul₂ : c₂.useEuler = true) (hopt₂ : c₂.useOptimizer = false)
    (h1 : 1 ≤ c₁.nIterEuler) (hn : c₂.nIterEuler = c₁.nIterEuler)
    (hz₀ : seen heap₁ c₁.initial z.name = seen heap₁ c₁.initial p.name)
    (hinit : ∀ o ∈ solvedVars numeraire vars ++ (params ++ [p]),
      seen heap₂ c₂.initial o.name = seen heap₁ c₁.initial o.name)
    (hwant : ∀ o ∈ params ++ [p], wantedValue add mul heap₂ c₂ o.name = wantedValue add mul heap₁ c₁ o.name)
    (outs : List (NDArray ℝ))
    (hrun : env₁.euler (derefDict heap₁ c₁.initial) (wantedFlat add mul heap₁ c₁ (params ++ [p])) c₁.nIterEuler = .ok outs)
    (hreg : ∀ t, t < c₁.nIterEuler → ∀ s ∈ b₁.points dx₁ (totalSize coords (solvedVars numeraire (vars ++ [z])))
        (b₁.stateAfter (solvedVars numeraire (vars ++ [z])) (params ++ [p]) (derefDict heap₁ c₁.initial) outs t)
        (stepVec c₁.nIterEuler (wantedFlat add mul heap₁ c₁ (params ++ [p])) (initialFlat heap₁ c₁ (params ++ [p]))),
      (∀ e ∈ es₁, Regular (flatPoint (scalarNames coords
        (solvedVars numeraire (vars ++ [z]) ++ (params ++ [p]))) s) e) ∧
      ∀ s₂, SameArrays coords (solvedVars numeraire (vars ++ [z]) ++ (params ++ [p]))
          (solvedVars numeraire vars ++ (params ++ [p])) s s₂ →
        ∀ e ∈ es₂, Regular (flatPoint (scalarNames coords (solvedVars numeraire vars ++ (params ++ [p]))) s₂) e) :
    ∃ e₁ e₂ outs₂,
      simulateCompute (simEnvOf env₁ (fun _ => false) fl add mul) heap₁ c₁ = .ok ⟨some e₁, none, none, false⟩ ∧
      simulateCompute (simEnvOf env₂ (fun _ => false) fl add mul) heap₂ c₂ = .ok ⟨some e₂, none, none, false⟩ ∧
      env₂.euler (derefDict heap₂ c₂.initial) (wantedFlat add mul heap₂ c₂ (params ++ [p])) c₂.nIterEuler = .ok outs₂ ∧
      (∀ t, t ≤ c₁.nIterEuler → ∃ d : Dict Str (NDArray ℝ),
        (∀ o ∈ solvedVars numeraire (vars ++ [z]) ++ (params ++ [p]), DataFor coords d o) ∧
        b₁.stateAfter (solvedVars numeraire (vars ++ [z])) (params ++ [p]) (derefDict heap₁ c₁.initial) outs t =
          flatOf d (solvedVars numeraire (vars ++ [z]) ++ (params ++ [p])) ∧
        b₂.stateAfter (solvedVars numeraire vars) (params ++ [p]) (derefDict heap₂ c₂.initial) outs₂ t =
          flatOf d (solvedVars numeraire vars ++ (params ++ [p])) ∧
        dget d z.name = dget d p.name) ∧
      ∀ o ∈ solvedVars numeraire vars ++ (params ++ [p]), DataFor coords e₁.start o ∧
        dget e₂.start o.name = dget e₁.start o.name := by
  obtain ⟨hmod₁, dx₁', A₁, B₁, hpts, hs₁⟩ := hm₁.stepsFrom hsq₁
  simp only [← hpts] at hreg
  have hcount := hm₂.count
  obtain ⟨hmod₂, dx₂', A₂, B₂, -, hs₂⟩ := hm₂.stepsFrom hsq₂
  have himb := imbalances_instead hz hmod₁ hmod₂ hord
  have hsol : solvedVars numeraire [z] = [z] := (himb (List.replicate _ 0)
    (List.replicate _ 0) (List.replicate _ 0) (List.replicate _ 0) List.length_replicate List.length_replicate
    List.length_replicate List.length_replicate).1
  have himb := fun x w t u hx hw ht hu => (himb x w t u hx hw ht hu).2
  have hnames := (solvedModel (numeraire := numeraire) hmod₁.scalar).names
  have hvs := solvedVars_append numeraire vars [z]
  rw [hsol] at hvs
  have hlenG : ∀ flat, (imbalances coords vars (params ++ [p]) numeraire eqs flat).length =
      totalSize coords (solvedVars numeraire vars) := fun flat => by rw [length_imbalances, ← hcount, hsq₂]
  clear hm₁ hm₂ hpts dx₁ dx₂ hmod₁ hmod₂ hcount hsq₁ hsq₂
  rename' dx₁' => dx₁, dx₂' => dx₂
  generalize imbalances coords (vars ++ [z]) (params ++ [p]) numeraire
    (eqs.map (IndexedEq.instead p.name z.name) ++ [fixedAt name z p]) = G₁ at *
  generalize imbalances coords vars (params ++ [p]) numeraire eqs = G₂ at *
  generalize solvedVars numeraire (vars ++ [z]) = vs₁ at *
  subst hvs
  generalize solvedVars numeraire vars = V at *
  have hs1 : ∀ o : ModelObject, totalSize coords [o] = specSize coords o := fun o => by simp [totalSize]
  have hshape : specShape coords z = specShape coords p := by simp only [specShape, hz]
  have hsz : specSize coords z = specSize coords p := by simp only [specSize, hshape]
  have sv : totalSize coords (V ++ [z]) = totalSize coords V + specSize coords p := by rw [totalSize_append, hs1, hsz]
  have sp : totalSize coords (params ++ [p]) = totalSize coords params + specSize coords p := by
    rw [totalSize_append, hs1]
  have hG : ∀ x w t u : List ℝ, x.length = totalSize coords V → w.length = specSize coords p →
      t.length = totalSize coords params → u.length = specSize coords p → ∀ i : Nat, i < totalSize coords V →
      (G₁ ((x ++ w) ++ (t ++ u))).getD i 0 = (G₂ (x ++ (t ++ w))).getD i 0 := by
    intro x w t u hx hw ht hu i hi
    rw [himb x w t u hx hw ht hu, List.getD_eq_getElem?_getD, List.getD_eq_getElem?_getD,
      List.getElem?_append_left (by rw [hlenG]; exact hi)]
  have hF : ∀ x w t u : List ℝ, x.length = totalSize coords V → w.length = specSize coords p →
      t.length = totalSize coords params → u.length = specSize coords p → ∀ i : Nat, i < specSize coords p →
      (G₁ ((x ++ w) ++ (t ++ u))).getD (totalSize coords V + i) 0 = w.getD i 0 - u.getD i 0 := by
    intro x w t u hx hw ht hu i hi
    rw [himb x w t u hx hw ht hu, List.getD_eq_getElem?_getD, List.getElem?_append_right (by rw [hlenG]; omega), hlenG,
      Nat.add_sub_cancel_left, List.getElem?_zipWith, List.getElem?_eq_getElem (by omega),
      List.getElem?_eq_getElem (by omega), List.getD_eq_getElem?_getD, List.getD_eq_getElem?_getD,
      List.getElem?_eq_getElem (by omega), List.getElem?_eq_getElem (by omega)]
    rfl
  have key := @simulate_keep coords V [z] (params ++ [p]) []
  rw [List.append_nil] at key
  obtain ⟨e₁, e₂, outs₂, g1, g2, g3, g4, g5⟩ := key hs₁ hs₂ hb hnames fl add mul heap₁ heap₂ c₁ c₂ hr₁ hr₂ heul₁ hopt₁
    heul₂ hopt₂ h1 hn hinit hwant outs hrun
    (fun x t => x.drop (totalSize coords V) = t.drop (totalSize coords params))
    (fun d => d.drop (totalSize coords V) = (stepVec c₁.nIterEuler (wantedFlat add mul heap₁ c₁ (params ++ [p]))
      (initialFlat heap₁ c₁ (params ++ [p]))).drop (totalSize coords params))
    (fun s => (∀ e ∈ es₁, Regular (flatPoint (scalarNames coords (V ++ [z] ++ (params ++ [p]))) s) e) ∧
      ∀ s₂, SameArrays coords (V ++ [z] ++ (params ++ [p])) (V ++ (params ++ [p])) s s₂ →
        ∀ e ∈ es₂, Regular (flatPoint (scalarNames coords (V ++ (params ++ [p]))) s₂) e) _ rfl
    (by
      rw [initial_append, initial_append, List.drop_left' (hr₁.initial_length params fun o ho =>
        List.mem_append_right _ (List.mem_append_left _ ho)), List.drop_left' (hr₁.initial_length V fun o ho =>
        List.mem_append_left _ (List.mem_append_left _ ho))]
      simp [initialFlat, hz₀])
    (by
      intro x t d _ _ _ hφ hδ
      rw [List.drop_zipWith, List.drop_zipWith, hφ, hδ])
    (by
      intro x t d _ _ _ hφ hδ
      rw [List.drop_zipWith, List.drop_zipWith, hφ, hδ])
    (fun d1 d2 d3 d4 d h1 h2 h3 h4 h => rk4_same _ _ d1 d2 d3 d4 d h1 h2 h3 h4 h)
    (by
      intro x t d hx ht hlen hR hd
      generalize stepVec c₁.nIterEuler (wantedFlat add mul heap₁ c₁ (params ++ [p]))
        (initialFlat heap₁ c₁ (params ++ [p])) = h at *
      refine solve_moves' sv sp _ _ A₁ B₁ hs₁.derivatives hF (x.take (totalSize coords V)) (x.drop (totalSize coords V))
        (t.take (totalSize coords params)) (t.drop (totalSize coords params)) (h.take (totalSize coords params))
        (h.drop (totalSize coords params)) d (by rw [List.length_take]; omega) (by rw [List.length_drop]; omega)
        (by rw [List.length_take]; omega) (by rw [List.length_drop]; omega) (by rw [List.length_take]; omega)
        (by rw [List.length_drop]; omega) ?_ ?_
      · rw [List.take_append_drop, List.take_append_drop]; exact hR.1
      · rw [List.take_append_drop, List.take_append_drop, List.take_append_drop]; exact hd)
    (by
      intro x t d hx ht hlen hR hφ hd
      have hsame := sameArrays_take (coords := coords) (vs := V) (zs := [z]) (ps := params ++ [p])
        (us := []) (by simpa using hnames) x t hx (by simpa using ht)
      rw [List.append_nil] at hsame
      generalize stepVec c₁.nIterEuler (wantedFlat add mul heap₁ c₁ (params ++ [p]))
        (initialFlat heap₁ c₁ (params ++ [p])) = h at *
      rw [List.take_of_length_le (show t.length ≤ _ by omega)] at hsame ⊢
      rw [List.take_of_length_le (show h.length ≤ _ by omega)]
      have ex := List.take_append_drop (totalSize coords V) x
      have et := List.take_append_drop (totalSize coords params) t
      have eh := List.take_append_drop (totalSize coords params) h
      rw [← hφ] at et
      have := solve_fixed' sv sp _ _ _ _ A₁ B₁ A₂ B₂ hs₁.derivatives hs₂.derivatives hG hF (x.take (totalSize coords V))
        (x.drop (totalSize coords V)) (t.take (totalSize coords params)) (h.take (totalSize coords params))
        (h.drop (totalSize coords params)) d (by rw [List.length_take]; omega) (by rw [List.length_drop]; omega)
        (by rw [List.length_take]; omega) (by rw [List.length_take]; omega)
        (by rw [List.length_drop]; omega) (by rw [ex, et]; exact hR.1) (by rw [et]; exact hR.2 _ hsame)
        (by rw [ex, et, eh]; exact hd)
      rw [et, eh] at this
      exact this)
    hreg
  refine ⟨e₁, e₂, outs₂, g1, g2, g3, fun t ht => ?_, g5⟩
  obtain ⟨⟨d, w1, w2, w3⟩, w4⟩ := g4 t ht
  refine ⟨d, w1, w2, w3, ?_⟩
  obtain ⟨a, ha, has, haw⟩ := w1 z (by simp)
  obtain ⟨b, hb', hbs, hbw⟩ := w1 p (by simp)
  have lV := (flatOf_spec coords d V fun o ho => w1 o (by simp [ho])).1
  have lP := (flatOf_spec coords d params fun o ho => w1 o (by simp [ho])).1
  have lVz := (flatOf_spec coords d (V ++ [z]) fun o ho => w1 o (List.mem_append_left _ ho)).1
  rw [w2, flatOf_append, List.take_left' lVz, List.drop_left' lVz, flatOf_append, flatOf_append, List.drop_left' lV,
    List.drop_left' lP, flatOf_one ha, flatOf_one hb'] at w4
  rw [ha, hb', Option.some.injEq]
  cases a; cases b
  simp only at w4 has hbs
  rw [w4, has, hbs, hshape]

end Verif
