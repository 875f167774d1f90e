import Verif.Props.RunsPlaced
import Verif.Lemmas.RelabelModel

/-!
# C104: the order of the labels does not matter
-/

namespace Verif

open SymExpr

section
variable {coords coords₂ : Coords}

theorem placeIn_append (h : SameLabels coords coords₂) {vs ps : List ModelObject}
    (hN : (scalarNames coords (vs ++ ps)).Nodup) (x t : List ℝ) (hx : x.length = totalSize coords vs) :
    pickAt 0 (placeIn coords coords₂ (vs ++ ps)) (x ++ t) =
      pickAt 0 (placeIn coords coords₂ vs) x ++ pickAt 0 (placeIn coords coords₂ ps) t := by
  rw [scalarNames_append] at hN
  obtain ⟨-, -, hdis⟩ := List.nodup_append.1 hN
  unfold placeIn pickAt
  rw [scalarNames_append, scalarNames_append, List.map_append, List.map_append]
  simp only [List.map_map]
  congr 1
  · refine List.map_congr_left fun n hn => ?_
    have hm := (h.scalarNames vs).mem_iff.1 hn
    have hlt := List.idxOf_lt_length_of_mem hm
    rw [length_scalarNames] at hlt
    simp only [Function.comp_apply]
    rw [List.idxOf_append_of_mem hm, List.getD_eq_getElem?_getD, List.getD_eq_getElem?_getD,
      List.getElem?_append_left (by omega)]
  · refine List.map_congr_left fun n hn => ?_
    have hm := (h.scalarNames ps).mem_iff.1 hn
    have hnot : n ∉ scalarNames coords vs := fun hv => hdis n hv n hm rfl
    simp only [Function.comp_apply]
    rw [List.idxOf_append_of_notMem hnot, length_scalarNames, List.getD_eq_getElem?_getD, List.getD_eq_getElem?_getD,
      List.getElem?_append_right (by omega), hx, Nat.add_sub_cancel_left]

/-- The run of the one model gives that of the other. -/
theorem runs_relabel (hl : SameLabels coords coords₂) {vs ps : List ModelObject}
    (hN : (scalarNames coords (vs ++ ps)).Nodup) (b₁ b₂ : EulerBackend) (hb : b₂.rk4 = b₁.rk4)
    (dx₁ dx₂ : StepSolve ℝ) (G₁ G₂ : List ℝ → List ℝ) (ok₁ ok₂ : List ℝ → Prop)
    (A₁ : (Fin (totalSize coords vs) → ℝ) → (Fin (totalSize coords ps) → ℝ) →
      Matrix (Fin (totalSize coords vs)) (Fin (totalSize coords vs)) ℝ)
    (B₁ : (Fin (totalSize coords vs) → ℝ) → (Fin (totalSize coords ps) → ℝ) →
      Matrix (Fin (totalSize coords vs)) (Fin (totalSize coords ps)) ℝ)
    (A₂ : (Fin (totalSize coords₂ vs) → ℝ) → (Fin (totalSize coords₂ ps) → ℝ) →
      Matrix (Fin (totalSize coords₂ vs)) (Fin (totalSize coords₂ vs)) ℝ)
    (B₂ : (Fin (totalSize coords₂ vs) → ℝ) → (Fin (totalSize coords₂ ps) → ℝ) →
      Matrix (Fin (totalSize coords₂ vs)) (Fin (totalSize coords₂ ps)) ℝ)
    (e₁ : ∀ x t h, x.length = totalSize coords vs → t.length = totalSize coords ps →
      h.length = totalSize coords ps → dx₁ x t h = (vecJac A₁ B₁).solve x t h)
    (e₂ : ∀ x t h, x.length = totalSize coords₂ vs → t.length = totalSize coords₂ ps →
      h.length = totalSize coords₂ ps → dx₂ x t h = (vecJac A₂ B₂).solve x t h)
    (D₁ : DerivativesOf G₁ ok₁ A₁ B₁) (D₂ : DerivativesOf G₂ ok₂ A₂ B₂)
    (hG : ∃ M : Matrix (Fin (totalSize coords vs)) (Fin (totalSize coords vs)) ℝ, IsUnit M.det ∧
      ∀ s, s.length = totalSize coords (vs ++ ps) →
        toVec (totalSize coords vs) (G₂ (pickAt 0 (placeIn coords coords₂ (vs ++ ps)) s)) =
          M.mulVec (toVec (totalSize coords vs) (G₁ s)))
    (data data₂ : Dict Str (NDArray ℝ)) (tf₁ tf₂ : List ℝ) (n : Nat)
    (hc₁ : EulerCall coords vs ps data tf₁) (hc₂ : EulerCall coords₂ vs ps data₂ tf₂)
    (hd : flatOf data₂ (vs ++ ps) = pickAt 0 (placeIn coords coords₂ (vs ++ ps)) (flatOf data (vs ++ ps)))
    (ht : tf₂ = pickAt 0 (placeIn coords coords₂ ps) tf₁)
    (outs₁ : List (NDArray ℝ)) (hrun : runEuler b₁ dx₁ vs ps coords tf₁ n data = .ok outs₁)
    (hP : ∀ t, t < n → ∀ s ∈ b₁.points dx₁ (totalSize coords vs) (b₁.stateAfter vs ps data outs₁ t)
      (stepVec n tf₁ (flatOf data ps)), ok₁ s ∧ (s.length = totalSize coords (vs ++ ps) →
        ok₂ (pickAt 0 (placeIn coords coords₂ (vs ++ ps)) s))) :
    ∃ outs₂, runEuler b₂ dx₂ vs ps coords₂ tf₂ n data₂ = .ok outs₂ ∧
      ∀ t, t ≤ n → (b₁.stateAfter vs ps data outs₁ t).length = totalSize coords (vs ++ ps) ∧
        b₂.stateAfter vs ps data₂ outs₂ t =
          pickAt 0 (placeIn coords coords₂ (vs ++ ps)) (b₁.stateAfter vs ps data outs₁ t) := by
  have split := fun x t hx => placeIn_append hl hN x t hx
  have hNv : (scalarNames coords vs).Nodup := by
    rw [scalarNames_append] at hN; exact (List.nodup_append.1 hN).1
  have hNp : (scalarNames coords ps).Nodup := by
    rw [scalarNames_append] at hN; exact (List.nodup_append.1 hN).2.1
  have lx := (flatOf_spec coords data vs fun o ho => hc₁.shaped o (by simp [ho])).1
  have lx' := (flatOf_spec coords₂ data₂ vs fun o ho => hc₂.shaped o (by simp [ho])).1
  have lall : totalSize coords (vs ++ ps) = totalSize coords vs + totalSize coords ps := totalSize_append coords vs ps
  have lix : (placeIn coords coords₂ vs).length = totalSize coords vs := by
    rw [(placeIn_perm hl hNv).length_eq, List.length_range]
  rw [flatOf_append, flatOf_append, split _ _ lx] at hd
  obtain ⟨fx, ft⟩ := List.append_inj hd (by rw [lx', length_pickAt, lix, hl.size])
  obtain ⟨M, hM, hMG⟩ := hG
  obtain ⟨outs₂, h1, h2⟩ := runs_placed (hl.size vs) (hl.size ps) (placeIn_perm hl hNv) (placeIn_perm hl hNp) b₁ b₂ hb
    dx₁ dx₂ G₁ G₂ ok₁ ok₂ A₁ B₁ A₂ B₂ e₁ e₂ D₁ D₂
    ⟨M, hM, fun x t hx ht => by
      rw [← split x t hx]
      exact hMG _ (by rw [List.length_append, lall, hx, ht])⟩
    data data₂ tf₁ tf₂ n hc₁ hc₂ fx ft ht outs₁ hrun
    (fun t ht s hs => ⟨(hP t ht s hs).1, fun x y he hx hy => by
      rw [← split x y hx, ← he]
      exact (hP t ht s hs).2 (by rw [he, List.length_append, lall, hx, hy])⟩)
  refine ⟨outs₂, h1, fun t ht => ?_⟩
  obtain ⟨x, y, hx, hy, e1, e2⟩ := h2 t ht
  rw [e1, e2, split x y hx]
  exact ⟨by rw [List.length_append, lall, hx, hy], rfl⟩

end

variable {coords coords₂ : Coords} {vars params : List ModelObject} {numeraire : Option ModelObject}
  {eqs : List IndexedEq}

theorem model_same_iff (h : IndexedModel coords vars params numeraire eqs) (hl : SameLabels coords coords₂)
    (objs : List ModelObject) (hsub : objs.Sublist (solvedVars numeraire vars ++ params)) (s s₂ : List ℝ) :
    SameEntries coords coords₂ objs s s₂ ↔
      s.length = totalSize coords objs ∧ s₂ = pickAt 0 (placeIn coords coords₂ objs) s := by
  have hm := solvedModel (numeraire := numeraire) h.scalar
  exact sameEntries_iff hl (hm.scalars.sublist (scalarNames_sublist hsub))
    (hm.names.sublist (hsub.map _)) (fun o _ ls hls l hl => model_reads h o ls hls l hl) s s₂

/-- The equations of the two models, at states laid out by their own labels, are a permutation of each other. -/
theorem relabel_matrix (h : IndexedModel coords vars params numeraire eqs) (hl : SameLabels coords coords₂)
    (hw : ∀ q ∈ eqs, WholeRange coords q.lhs ∧ WholeRange coords q.rhs)
    (hn : (allChoices coords numeraire eqs).length = totalSize coords (solvedVars numeraire vars)) :
    ∃ M : Matrix (Fin (totalSize coords (solvedVars numeraire vars)))
      (Fin (totalSize coords (solvedVars numeraire vars))) ℝ, IsUnit M.det ∧
      ∀ s, s.length = totalSize coords (solvedVars numeraire vars ++ params) →
        toVec (totalSize coords (solvedVars numeraire vars)) (imbalances coords₂ vars params numeraire eqs
          (pickAt 0 (placeIn coords coords₂ (solvedVars numeraire vars ++ params)) s)) =
          M.mulVec (toVec (totalSize coords (solvedVars numeraire vars))
            (imbalances coords vars params numeraire eqs s)) := by
  have hperm := allChoices_perm (numeraire := numeraire) (eqs := eqs) hl h.coords_nodup
  obtain ⟨idx, g1, g2⟩ := perm_blocks (α := ℝ) (fun _ => 1) 0 hperm
  have hn' : ((allChoices coords numeraire eqs).map fun _ => 1).sum =
      totalSize coords (solvedVars numeraire vars) := by
    rw [List.map_const', List.sum_replicate, smul_eq_mul, mul_one, hn]
  rw [hn'] at g1
  generalize totalSize coords (solvedVars numeraire vars) = n at g1 ⊢
  obtain ⟨σ, hσ⟩ := perm_equiv g1
  refine ⟨(1 : Matrix (Fin n) (Fin n) ℝ).submatrix σ id, ?_, fun s hslen => ?_⟩
  · rw [Matrix.det_permute]
    simp only [Matrix.det_one, mul_one]
    exact_mod_cast (Units.isUnit (Equiv.Perm.sign σ)).map (Int.castRingHom ℝ)
  · have hse := (model_same_iff h hl _ (List.Sublist.refl _) s _).2 ⟨hslen, rfl⟩
    have hflat : ∀ (l : List (IndexedEq × (Str → Option Str))) (f : IndexedEq × (Str → Option Str) → ℝ),
        (l.map fun p => [f p]).flatten = l.map f := by
      intro l f
      rw [← List.flatMap_def]
      induction l with
      | nil => rfl
      | cons a l ih => rw [List.flatMap_cons, List.map_cons, ih]; rfl
    have := g2 (fun p => [gapAt coords numeraire (solvedVars numeraire vars ++ params) s p]) (fun _ _ => rfl)
    rw [hflat, hflat] at this
    rw [imbalances_relabel h hl hw s _ hse, this, imbalances_choices coords, toVec_pickAt hσ]
    funext i
    simp only [Matrix.mulVec, dotProduct, Matrix.submatrix_apply, Matrix.one_apply, id, Function.comp_apply]
    simp

/-- **C104 (simulations).**  Two models with the same variables, parameters and equations, whose `coords` have the
same dims and labels in different orders; every sum and product ranges over all labels.  They are given the same
request: the same initial values and the same final values for the same labels, each laid out in the order of its own
labels.  Let the Euler function of the first return, and let the powers and logarithms of both be defined at the points
at which it solved for a direction.  Then `simulate` with Euler steps only returns for both, and all states, in
particular the final ones, have the same entries for the same labels. -/
theorem C104_simulate {es es₂ : List (SymExpr Str)} {b b₂ : EulerBackend} {dx dx₂ : StepSolve ℝ}
    {env env₂ : SamEnv ℝ (List (NDArray ℝ))}
    (hm : BuiltOn coords vars params numeraire eqs es b dx env)
    (hm₂ : BuiltOn coords₂ vars params numeraire eqs es₂ b₂ dx₂ env₂) (hb : b₂.rk4 = b.rk4)
    (hsquare : es.length = totalSize coords (solvedVars numeraire vars)) (hl : SameLabels coords coords₂)
    (hw : ∀ q ∈ eqs, WholeRange coords q.lhs ∧ WholeRange coords q.rhs)
    (fl : SimFlags) (add mul : NDArray ℝ → NDArray ℝ → NDArray ℝ) (h h₂ : Heap (NDArray ℝ)) (c c₂ : SimCall ℝ)
    (hr : RequestOK coords (solvedVars numeraire vars) params add mul h c)
    (hr₂ : RequestOK coords₂ (solvedVars numeraire vars) params add mul h₂ c₂)
    (hini : SameEntries coords coords₂ (solvedVars numeraire vars ++ params)
      (initialFlat h c (solvedVars numeraire vars ++ params)) (initialFlat h₂ c₂ (solvedVars numeraire vars ++ params)))
    (hfin : SameEntries coords coords₂ params (wantedFlat add mul h c params) (wantedFlat add mul h₂ c₂ params))
    (heul : c.useEuler = true) (hopt : c.useOptimizer = false) (h1 : 1 ≤ c.nIterEuler)
    (heul₂ : c₂.useEuler = true) (hopt₂ : c₂.useOptimizer = false) (hn₂ : c₂.nIterEuler = c.nIterEuler)
    (outs : List (NDArray ℝ))
    (hrun : env.euler (derefDict h c.initial) (wantedFlat add mul h c params) c.nIterEuler = .ok outs)
    (hreg : ∀ t, t < c.nIterEuler → ∀ s ∈ b.points dx (totalSize coords (solvedVars numeraire vars))
        (b.stateAfter (solvedVars numeraire vars) params (derefDict h c.initial) outs t)
        (stepVec c.nIterEuler (wantedFlat add mul h c params) (initialFlat h c params)),
      ∀ e ∈ es ++ es₂, Regular (flatPoint (scalarNames coords (solvedVars numeraire vars ++ params)) s) e) :
    ∃ e e₂ outs₂,
      simulateCompute (simEnvOf env (fun _ => false) fl add mul) h c = .ok ⟨some e, none, none, false⟩ ∧
      simulateCompute (simEnvOf env₂ (fun _ => false) fl add mul) h₂ c₂ = .ok ⟨some e₂, none, none, false⟩ ∧
      env₂.euler (derefDict h₂ c₂.initial) (wantedFlat add mul h₂ c₂ params) c.nIterEuler = .ok outs₂ ∧
      (∀ t, t ≤ c.nIterEuler → SameEntries coords coords₂ (solvedVars numeraire vars ++ params)
        (b.stateAfter (solvedVars numeraire vars) params (derefDict h c.initial) outs t)
        (b₂.stateAfter (solvedVars numeraire vars) params (derefDict h₂ c₂.initial) outs₂ t)) ∧
      SameEntries coords coords₂ (solvedVars numeraire vars ++ params)
        (flatOf e.start (solvedVars numeraire vars ++ params))
        (flatOf e₂.start (solvedVars numeraire vars ++ params)) := by
  have hmod := (hm.stepsFrom hsquare).1
  have hcount := hm.count
  have hcount₂ := hm₂.count
  have hperm := allChoices_perm (numeraire := numeraire) (eqs := eqs) hl hmod.coords_nodup
  have len : ∀ co : Coords, (allChoices co numeraire eqs).length = (eqs.map (scalarCount co numeraire)).sum := by
    intro co
    rw [← length_imbalances co vars params numeraire eqs [], imbalances_choices, List.length_map]
  have hsame : es₂.length = es.length := by
    rw [hcount, hcount₂, ← len, ← len, hperm.length_eq]
  have hsize := hl.size (solvedVars numeraire vars)
  obtain ⟨-, dx', A, B, hpts, hs⟩ := hm.stepsFrom hsquare
  simp only [← hpts] at hreg
  clear hm hpts dx
  rename' dx' => dx
  obtain ⟨-, dx₂', A₂, B₂, -, hs₂⟩ := hm₂.stepsFrom (by rw [hsame, hsquare, hsize])
  clear hm₂ dx₂
  rename' dx₂' => dx₂
  have iff := fun objs hsub => model_same_iff hmod hl objs hsub
  have hN := (solvedModel (numeraire := numeraire) hmod.scalar).scalars
  have hG := relabel_matrix (params := params) hmod hl hw (by rw [len, ← hcount, hsquare])
  obtain ⟨hem, hce, hve, hpe, hcomp, hsteps, hsolve, hder⟩ := id hs
  obtain ⟨hem₂, hce₂, hve₂, hpe₂, hcomp₂, hsteps₂, hsolve₂, hder₂⟩ := id hs₂
  have hlen := hs.lenOK
  have hlen₂ := hs₂.lenOK
  clear hs hs₂
  have hvnames : (scalarNames coords (solvedVars numeraire vars ++ params)).Nodup := hN
  have hpoint : ∀ s : List ℝ, s.length = totalSize coords (solvedVars numeraire vars ++ params) →
      flatPoint (scalarNames coords₂ (solvedVars numeraire vars ++ params))
        (pickAt 0 (placeIn coords coords₂ (solvedVars numeraire vars ++ params)) s) =
      flatPoint (scalarNames coords (solvedVars numeraire vars ++ params)) s := by
    intro s hslen
    obtain ⟨q1, q2⟩ := positions_of_perm (hl.scalarNames (solvedVars numeraire vars ++ params)) hN
    exact flatPoint_pick hN q1 q2 s (by rw [hslen, length_scalarNames])
  have i1 := (iff _ (List.Sublist.refl _) _ _).1 hini
  have i2 := (iff _ (List.sublist_append_right _ _) _ _).1 hfin
  have back := fun s s₂ => (iff (solvedVars numeraire vars ++ params) (List.Sublist.refl _) s s₂).2
  clear iff hini hfin
  generalize solvedVars numeraire vars = vs at *
  subst hve hpe
  have hce' := hce
  subst hce'
  have hve₂' := hve₂
  have hpe₂' := hpe₂
  subst hce₂
  rw [← hve₂, ← hpe₂] at hr₂ hem₂ hlen₂
  obtain ⟨hcall, hinit, hsim⟩ := simulate_euler_only env b _ hsteps hem hlen hcomp fl add mul h c hr heul hopt h1
  obtain ⟨hcall₂, hinit₂, hsim₂⟩ := simulate_euler_only env₂ b₂ _ hsteps₂ hem₂ hlen₂ hcomp₂ fl add mul h₂ c₂ hr₂
    heul₂ hopt₂ (by rw [hn₂]; exact h1)
  rw [hve₂, hpe₂] at hcall₂ hinit₂ hsim₂
  rw [hn₂] at hsim₂
  rw [← hinit env.parameters (by simp +contextual)] at hreg
  rw [← hinit _ (fun _ ho => ho), ← hinit₂ _ (fun _ ho => ho)] at i1
  rw [hsteps] at hrun
  dsimp only at hrun
  obtain ⟨e, g1, g2, g3, g4⟩ := hsim outs hrun
  obtain ⟨outs₂, hrun₂, hst⟩ := runs_relabel hl hN b b₂ hb dx dx₂ _ _ _ _ A B A₂ B₂ hsolve hsolve₂ hder hder₂ hG
    (derefDict h c.initial) (derefDict h₂ c₂.initial) _ _ c.nIterEuler hcall hcall₂ i1.2 i2.2 outs hrun
    (by
      intro t ht s hs
      refine ⟨fun e he => hreg t ht s hs e (by simp [he]), fun hslen e he => ?_⟩
      rw [hpoint s hslen]
      exact hreg t ht s hs e (by simp [he]))
  obtain ⟨e₂, k1, k2, k3, k4⟩ := hsim₂ outs₂ hrun₂
  refine ⟨e, e₂, outs₂, g1, k1, ?_, fun t ht => back _ _ (hst t ht), ?_⟩
  · rw [hsteps₂, hve₂, hpe₂]
    exact hrun₂
  · rw [g4, k4]
    exact back _ _ (hst _ le_rfl)

/-- **C104 (equations).**  At arrays with the same entries for the same labels, the equations of the two models, each
known by its name with the labels filled in, are off by the same amounts; so the one model is in equilibrium exactly
when the other is. -/
theorem C104_equations (h : IndexedModel coords vars params numeraire eqs) (hl : SameLabels coords coords₂)
    (hw : ∀ q ∈ eqs, WholeRange coords q.lhs ∧ WholeRange coords q.rhs) (s s₂ : List ℝ)
    (hs : SameEntries coords coords₂ (solvedVars numeraire vars ++ params) s s₂) :
    ((eqs.flatMap (filledNames coords₂ numeraire)).zip (imbalances coords₂ vars params numeraire eqs s₂)).Perm
      ((eqs.flatMap (filledNames coords numeraire)).zip (imbalances coords vars params numeraire eqs s)) ∧
    ((∀ r ∈ imbalances coords₂ vars params numeraire eqs s₂, r = 0) ↔
      ∀ r ∈ imbalances coords vars params numeraire eqs s, r = 0) := by
  have hp := allChoices_perm (numeraire := numeraire) (eqs := eqs) hl h.coords_nodup
  rw [imbalances_relabel h hl hw s s₂ hs, imbalances_choices coords, names_choices, names_choices]
  constructor
  · rw [List.zip_map', List.zip_map']
    exact hp.map _
  · have hm := hp.map (gapAt coords numeraire (solvedVars numeraire vars ++ params) s)
    exact ⟨fun H r hr => H r (hm.mem_iff.2 hr), fun H r hr => H r (hm.mem_iff.1 hr)⟩

theorem relabel_sumSq (h : IndexedModel coords vars params numeraire eqs) (hl : SameLabels coords coords₂)
    (hw : ∀ q ∈ eqs, WholeRange coords q.lhs ∧ WholeRange coords q.rhs) (s s₂ : List ℝ)
    (hs : SameEntries coords coords₂ (solvedVars numeraire vars ++ params) s s₂) :
    (imbalances coords₂ vars params numeraire eqs s₂).Perm (imbalances coords vars params numeraire eqs s) := by
  rw [imbalances_relabel h hl hw s s₂ hs, imbalances_choices coords]
  exact (allChoices_perm hl h.coords_nodup).map _

/-- **C104 (objective).**  The objective that the minimizer of the default back-end is given has the same value in both
models, at arrays with the same entries for the same labels. -/
theorem C104_objective {F F₂ : SympyTensorFns} (hF : BuiltFns coords vars params numeraire eqs F)
    (hF₂ : BuiltFns coords₂ vars params numeraire eqs F₂)
    (h : IndexedModel coords vars params numeraire eqs) (h₂ : IndexedModel coords₂ vars params numeraire eqs)
    (hl : SameLabels coords coords₂) (hw : ∀ q ∈ eqs, WholeRange coords q.lhs ∧ WholeRange coords q.rhs)
    (vn vn₂ : List Str) (x t x₂ t₂ : List ℝ) (hx : x.length = totalSize coords (solvedVars numeraire vars))
    (hx₂ : x₂.length = totalSize coords₂ (solvedVars numeraire vars))
    (hs : SameEntries coords coords₂ (solvedVars numeraire vars ++ params) (x ++ t) (x₂ ++ t₂)) :
    wrapForScipy (callGraphs ((solvedVars numeraire vars ++ params).map ModelObject.name) vn₂ [F₂.loss])
        (solvedVars numeraire vars) params coords₂ x₂ t₂ =
      wrapForScipy (callGraphs ((solvedVars numeraire vars ++ params).map ModelObject.name) vn [F.loss])
        (solvedVars numeraire vars) params coords x t := by
  have l1 := hs.1
  have l2 := hs.2.1
  rw [List.length_append, totalSize_append] at l1 l2
  rw [hF.loss h vn _ _ hx (by omega), hF₂.loss h₂ vn₂ _ _ hx₂ (by omega)]
  rw [((relabel_sumSq h hl hw _ _ hs).map (· ^ 2)).sum_eq]

/-- **C104 (equilibrium check).**  `check_for_equilibrium` gives the same verdict for both models, at arrays with the same
entries for the same labels, and flags the same equations with the same errors. -/
theorem C104_check (h : IndexedModel coords vars params numeraire eqs)
    (h₂ : IndexedModel coords₂ vars params numeraire eqs) (hl : SameLabels coords coords₂)
    (hw : ∀ q ∈ eqs, WholeRange coords q.lhs ∧ WholeRange coords q.rhs) (byName byName₂ : Bool)
    (hv0 : solvedVars numeraire vars ≠ []) (hp0 : params ≠ [])
    (ref ref₂ : Dict Str (NDArray ℝ)) (hs : ModelState coords (solvedVars numeraire vars) params ref)
    (hs₂ : ModelState coords₂ (solvedVars numeraire vars) params ref₂)
    (hsame : SameEntries coords coords₂ (solvedVars numeraire vars ++ params)
      (flatOf ref (solvedVars numeraire vars ++ params)) (flatOf ref₂ (solvedVars numeraire vars ++ params)))
    (data data₂ : EqData ℝ) (hr : Represents (solvedVars numeraire vars) params ref data)
    (hr₂ : Represents (solvedVars numeraire vars) params ref₂ data₂) (tol : ℝ) :
    let check := checkForEquilibrium (fun x t => imbalances coords vars params numeraire eqs (x ++ t)) byName
      (solvedVars numeraire vars) params coords (eqs.flatMap (filledNames coords numeraire)) data tol
    let check₂ := checkForEquilibrium (fun x t => imbalances coords₂ vars params numeraire eqs (x ++ t))
      byName₂ (solvedVars numeraire vars) params coords₂ (eqs.flatMap (filledNames coords₂ numeraire)) data₂ tol
    (check = .ok .found ∧ check₂ = .ok .found) ∨
    (∃ l l₂, check = .ok (.notFound l) ∧ check₂ = .ok (.notFound l₂) ∧ l₂.Perm l) ∨
    (check = .error .valueError ∧ check₂ = .error .valueError) := by
  intro check check₂
  have hsc := solvedModel (numeraire := numeraire) h.scalar
  have hsc₂ := solvedModel (numeraire := numeraire) h₂.scalar
  have c1 : check = _ := check_eq _ byName coords _ params _ ref data tol hsc.known hsc.names hv0 hp0 hs hr _ _
    (pack_flat coords ref _ _ hv0 hp0 hs.data)
  have c2 : check₂ = _ := check_eq _ byName₂ coords₂ _ params _ ref₂ data₂ tol hsc₂.known hsc₂.names hv0 hp0
    hs₂ hr₂ _ _ (pack_flat coords₂ ref₂ _ _ hv0 hp0 hs₂.data)
  rw [← flatOf_append] at c1 c2
  have p1 := relabel_sumSq h hl hw _ _ hsame
  have p2 := (C104_equations h hl hw _ _ hsame).1
  have hsum : sumSq (imbalances coords₂ vars params numeraire eqs
      (flatOf ref₂ (solvedVars numeraire vars ++ params))) =
      sumSq (imbalances coords vars params numeraire eqs
        (flatOf ref (solvedVars numeraire vars ++ params))) := (p1.map _).sum_eq
  have hnames : eqs.flatMap (filledNames coords₂ numeraire) = [] ↔
      eqs.flatMap (filledNames coords numeraire) = [] := by
    rw [names_choices, names_choices, List.map_eq_nil_iff, List.map_eq_nil_iff]
    have := (allChoices_perm (numeraire := numeraire) (eqs := eqs) hl h.coords_nodup).length_eq
    rw [← List.length_eq_zero_iff, ← List.length_eq_zero_iff, this]
  rw [c1, c2]
  unfold eqReport
  rw [hsum]
  by_cases hlt : sumSq (imbalances coords vars params numeraire eqs
      (flatOf ref (solvedVars numeraire vars ++ params))) < tol
  · exact Or.inl ⟨if_pos hlt, if_pos hlt⟩
  · rw [if_neg hlt, if_neg hlt]
    by_cases hn : eqs.flatMap (filledNames coords numeraire) = []
    · exact Or.inr (Or.inr ⟨if_pos hn, if_pos (hnames.2 hn)⟩)
    · rw [if_neg hn, if_neg fun e => hn (hnames.1 e)]
      exact Or.inr (Or.inl ⟨_, _, rfl, rfl, p2.filter _⟩)

end Verif
