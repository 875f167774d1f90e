import Verif.Spec.JaxFns
import Verif.Props.Wrappers
import Verif.Props.TensorJacobian
import Verif.Lemmas.SympyTensor
import Verif.Lemmas.ReorderEqs
import Verif.Props.BackEnds
import Mathlib.Analysis.Calculus.FDeriv.Pi
import Mathlib.Analysis.Calculus.FDeriv.Mul
import Mathlib.Analysis.Calculus.FDeriv.Pow

/-!
# C97: what the optimizers are handed on the JAX back-end
-/

namespace Verif

open Filter Topology

theorem zip_raggedOf {β : Type} (coords : Coords) (objs : List ModelObject) (x : List β) :
    (objs.map ModelObject.name).zip (raggedOf (objs.map (specShape coords)) x) = flatPairs coords objs x := by
  induction objs generalizing x with
  | nil => rfl
  | cons o os ih =>
    have h := ih (x.drop (specShape coords o).prod)
    simp only [List.map_cons, raggedOf, List.zip_cons_cons, flatPairs, splitBlocks, List.zipWith_cons_cons] at h ⊢
    rw [h]
    rfl

theorem raggedOf_append {β : Type} (s1 s2 : List (List Nat)) (x y : List β)
    (hx : x.length = (s1.map List.prod).sum) : raggedOf (s1 ++ s2) (x ++ y) = raggedOf s1 x ++ raggedOf s2 y := by
  induction s1 generalizing x with
  | nil =>
    have : x = [] := List.eq_nil_of_length_eq_zero (by simpa using hx)
    subst this
    rfl
  | cons s s1 ih =>
    simp only [List.map_cons, List.sum_cons] at hx
    simp only [List.cons_append, raggedOf]
    rw [List.take_append_of_le_length (by omega), List.drop_append_of_le_length (by omega),
      ih (x.drop s.prod) (by rw [List.length_drop]; omega)]

variable {coords : Coords} {vars params : List ModelObject}

/-- The flat function JAX differentiates is the function handed to scipy. -/
theorem jaxWrapped_eq {β : Type} (hk : ∀ o ∈ vars ++ params, KnownDims coords o)
    (hn : ((vars ++ params).map ModelObject.name).Nodup) (f : KwFun ℝ β) (x theta : List ℝ)
    (hx : x.length = totalSize coords vars) (ht : theta.length = totalSize coords params) :
    jaxWrapped (callPositional ((vars ++ params).map ModelObject.name) f) (vars.map (specShape coords))
      (params.map (specShape coords)) x theta = wrapForScipy f vars params coords x theta := by
  have hs : ∀ objs : List ModelObject, ((objs.map (specShape coords)).map List.prod).sum = totalSize coords objs := by
    intro objs
    rw [List.map_map]
    rfl
  unfold jaxWrapped wrapForScipy
  rw [ragged_eq x _ (by rw [hs]; omega), ragged_eq theta _ (by rw [hs]; omega),
    flatArrayToVariableDict_flatPairs coords (vars ++ params) hk hn (x ++ theta)
      (by rw [List.length_append, totalSize_append]; omega)]
  show f (_) = f _
  rw [← raggedOf_append _ _ _ _ (by rw [hs]; omega), ← List.map_append, zip_raggedOf]

section
variable {n m : Nat} {G : (Fin n → ℝ) → Fin m → ℝ} {v : Fin n → ℝ}

theorem hasFDerivAt_halfSq (h : DifferentiableAt ℝ G v) :
    HasFDerivAt (halfSq G) (∑ i, G v i • fderiv ℝ (fun u => G u i) v) v := by
  have hi : ∀ i, HasFDerivAt (fun u => G u i) (fderiv ℝ (fun u => G u i) v) v := fun i =>
    ((differentiableAt_pi.1 h) i).hasFDerivAt
  have h2 : ∀ i, HasFDerivAt (fun u => G u i ^ 2) ((2 * G v i) • fderiv ℝ (fun u => G u i) v) v := fun i => by
    have := (hi i).pow 2
    simpa using this
  have h3 := (HasFDerivAt.fun_sum (u := Finset.univ) fun i _ => h2 i).const_mul (1 / 2 : ℝ)
  refine h3.congr_fderiv ?_
  rw [Finset.smul_sum]
  refine Finset.sum_congr rfl fun i _ => ?_
  rw [smul_smul]
  congr 1
  ring

theorem partialD_halfSq (h : DifferentiableAt ℝ G v) (k : Fin n) :
    partialD (halfSq G) k v = ∑ i, G v i * partialD (fun u => G u i) k v := by
  unfold partialD
  rw [(hasFDerivAt_halfSq h).fderiv]
  simp

theorem contDiffAt_halfSq {r : WithTop ℕ∞} (h : ContDiffAt ℝ r G v) : ContDiffAt ℝ r (halfSq G) v := by
  unfold halfSq
  refine contDiffAt_const.mul (ContDiffAt.sum fun i _ => ?_)
  exact ((contDiffAt_pi.1 h) i).pow 2

/-- The gradient of a twice differentiable function is differentiable. -/
theorem differentiableAt_partialD {g : (Fin n → ℝ) → ℝ} (h : ContDiffAt ℝ 2 g v) :
    DifferentiableAt ℝ (fun u k => partialD g k u) v := by
  have h1 : DifferentiableAt ℝ (fderiv ℝ g) v := (h.fderiv_right (m := 1) (by norm_num)).differentiableAt (by norm_num)
  refine differentiableAt_pi.2 fun k => ?_
  exact h1.clm_apply (differentiableAt_const _)

theorem fderiv_apply_sum {H : (Fin n → ℝ) → Fin m → ℝ} (h : DifferentiableAt ℝ H v) (p : Fin n → ℝ) (i : Fin m) :
    fderiv ℝ H v p i = ∑ k, partialD (fun u => H u i) k v * p k := by
  have hi := (differentiableAt_pi.1 h) i
  have h1 : fderiv ℝ H v p i = fderiv ℝ (fun u => H u i) v p := by
    rw [fderiv_pi (differentiableAt_pi.1 h)]
    rfl
  rw [h1]
  conv_lhs => rw [← Finset.univ_sum_single p]
  rw [map_sum]
  refine Finset.sum_congr rfl fun k _ => ?_
  have : (Pi.single k (p k) : Fin n → ℝ) = p k • Pi.single k 1 := by
    rw [← Pi.single_smul, smul_eq_mul, mul_one]
  rw [this, map_smul, smul_eq_mul, mul_comm]
  rfl

end

/-- **C97.**  In JAX mode, whatever residual function the equations were compiled to, the functions handed to
scipy are its residuals, half the sum of their squares, and their exact derivatives with respect to the flat
vector of variables. -/
theorem C97_jax_functions (lib : JaxLib) (hlib : JaxExact lib)
    (hk : ∀ o ∈ vars ++ params, KnownDims coords o) (hn : ((vars ++ params).map ModelObject.name).Nodup)
    (hpt : ∀ v ∈ vars, pointName v.name ∉ (vars ++ params).map ModelObject.name)
    (hv : vars ≠ []) (hp : params ≠ []) (hpos : 0 < totalSize coords vars)
    (f : KwFun ℝ (List ℝ)) (theta : List ℝ) (ht : theta.length = totalSize coords params)
    {m : Nat} (G : (Fin (totalSize coords vars) → ℝ) → Fin m → ℝ)
    (hG : ∀ u, wrapForScipy f vars params coords (List.ofFn u) theta = .ok (List.ofFn (G u))) :
    ∃ fns, compileJaxFns lib coords vars params f = .ok fns ∧ HandsDerivatives coords vars params fns theta G := by
  have hvs : vars.mapM (fun o => inferShape o coords) = .ok (vars.map (specShape coords)) :=
    mapM_ok_of_forall _ _ _ fun o ho => inferShape_eq (hk o (by simp [ho]))
  have hps : params.mapM (fun o => inferShape o coords) = .ok (params.map (specShape coords)) :=
    mapM_ok_of_forall _ _ _ fun o ho => inferShape_eq (hk o (by simp [ho]))
  refine ⟨_, by unfold compileJaxFns; rw [hvs, hps]; rfl, fun v => ?_⟩
  have hlen : ∀ u : Fin (totalSize coords vars) → ℝ, (List.ofFn u).length = totalSize coords vars := fun u => by simp
  have hsys : ∀ u : Fin (totalSize coords vars) → ℝ,
      jaxWrapped (callPositional ((vars ++ params).map ModelObject.name) f) (vars.map (specShape coords))
        (params.map (specShape coords)) (List.ofFn u) theta = .ok (List.ofFn (G u)) := fun u => by
    rw [jaxWrapped_eq hk hn f _ _ (hlen u) ht, hG]
  have hloss : ∀ u : Fin (totalSize coords vars) → ℝ,
      jaxWrapped (callPositional ((vars ++ params).map ModelObject.name) (jaxLossGraph f))
        (vars.map (specShape coords)) (params.map (specShape coords)) (List.ofFn u) theta = .ok (halfSq G u) := fun u => by
    rw [jaxWrapped_eq hk hn _ _ _ (hlen u) ht]
    have h := hG u
    unfold wrapForScipy jaxLossGraph at *
    cases hd : flatArrayToVariableDict (List.ofFn u ++ theta) (vars ++ params) coords with
    | error e => rw [hd] at h; cases h
    | ok d =>
      rw [hd] at h
      have h' : f d = .ok (List.ofFn (G u)) := h
      show (f d >>= fun r => Except.ok (0.5 * (r.map (· ^ 2)).sum)) = _
      rw [h']
      show Except.ok _ = Except.ok _
      rw [List.map_ofFn, List.sum_ofFn]
      unfold halfSq
      norm_num
  have hgradAt : ∀ u, DifferentiableAt ℝ G u → jaxGrad lib
      (jaxWrapped (callPositional ((vars ++ params).map ModelObject.name) (jaxLossGraph f))
        (vars.map (specShape coords)) (params.map (specShape coords))) (List.ofFn u) theta =
      .ok (List.ofFn fun k => partialD (halfSq G) k u) := fun u hu => by
    unfold jaxGrad
    rw [hlib.grad _ theta (halfSq G) u (Eventually.of_forall hloss) (hasFDerivAt_halfSq hu).differentiableAt]
    show stackVector _ = _
    unfold stackVector
    rw [if_neg]
    intro h
    have := congrArg List.length h
    simp at this
    omega
  refine ⟨hG v, ?_, fun hd => ⟨?_, ?_⟩, fun h2 => ?_⟩
  · show wrapForScipy (wrapForPytensor _ vars params) vars params coords _ _ = _
    rw [C07_flat_round_trip _ coords vars params _ _ hk hn hv hp (hlen v) ht, hloss]
  · show wrapForScipy (wrapForPytensor _ vars params) vars params coords _ _ = _
    rw [C07_flat_round_trip _ coords vars params _ _ hk hn hv hp (hlen v) ht]
    exact hlib.jacobian _ theta G v (Eventually.of_forall hsys) hd
  · show wrapForScipy (wrapForPytensor _ vars params) vars params coords _ _ = _
    rw [C07_flat_round_trip _ coords vars params _ _ hk hn hv hp (hlen v) ht, hgradAt v hd]
    simp only [partialD_halfSq hd]
  · have hev : ∀ᶠ u in 𝓝 v, jaxGrad lib
        (jaxWrapped (callPositional ((vars ++ params).map ModelObject.name) (jaxLossGraph f))
          (vars.map (specShape coords)) (params.map (specShape coords))) (List.ofFn u) theta =
        .ok (List.ofFn fun k => partialD (halfSq G) k u) := by
      filter_upwards [h2.eventually (by simp)] with u hu
      exact hgradAt u (hu.differentiableAt (by norm_num))
    have hdg := differentiableAt_partialD (contDiffAt_halfSq h2)
    refine ⟨?_, fun p => ?_⟩
    · show wrapForScipy (wrapForPytensor _ vars params) vars params coords _ _ = _
      rw [C07_flat_round_trip _ coords vars params _ _ hk hn hv hp (hlen v) ht]
      unfold jaxHess
      rw [hlib.jacfwd _ theta (fun u k => partialD (halfSq G) k u) v hev hdg]
      show stackMatrix _ = _
      unfold stackMatrix
      rw [if_neg]
      show ¬ totalSize coords vars = 0
      omega
    · show wrapForScipyP (wrapForPytensorP _ vars params) vars params coords _ _ _ = _
      rw [C07_hessp_flat_round_trip_partial _ coords vars params _ _ _ hk hn hpt hv hp (hlen v) (hlen p) ht]
      unfold jaxHessp
      rw [hlib.jvp _ (fun u k => partialD (halfSq G) k u) v p hev hdg]
      show stackVector _ = _
      unfold stackVector
      rw [if_neg]
      · show Except.ok (List.ofFn _) = Except.ok (List.ofFn _)
        congr 2
        funext k
        rw [fderiv_apply_sum hdg]
      · intro h
        have := congrArg List.length h
        simp at this
        omega

/-- **C97 (nothing to solve for).**  If no variable has an element (a dimension without labels), the gradient of
the JAX back-end raises `ValueError`. -/
theorem C97_no_elements (lib : JaxLib) (hlib : JaxExact lib)
    (hk : ∀ o ∈ vars ++ params, KnownDims coords o) (hn : ((vars ++ params).map ModelObject.name).Nodup)
    (hv : vars ≠ []) (hp : params ≠ []) (hzero : totalSize coords vars = 0)
    (f : KwFun ℝ (List ℝ)) (theta : List ℝ) (ht : theta.length = totalSize coords params)
    (r : List ℝ) (hr : wrapForScipy f vars params coords [] theta = .ok r) :
    ∃ fns, compileJaxFns lib coords vars params f = .ok fns ∧
      wrapForScipy fns.grad vars params coords [] theta = .error .valueError := by
  have hvs : vars.mapM (fun o => inferShape o coords) = .ok (vars.map (specShape coords)) :=
    mapM_ok_of_forall _ _ _ fun o ho => inferShape_eq (hk o (by simp [ho]))
  have hps : params.mapM (fun o => inferShape o coords) = .ok (params.map (specShape coords)) :=
    mapM_ok_of_forall _ _ _ fun o ho => inferShape_eq (hk o (by simp [ho]))
  have hlen : ([] : List ℝ).length = totalSize coords vars := by rw [hzero]; rfl
  have hloss : jaxWrapped (callPositional ((vars ++ params).map ModelObject.name) (jaxLossGraph f))
        (vars.map (specShape coords)) (params.map (specShape coords)) [] theta =
      .ok (0.5 * (r.map (· ^ 2)).sum) := by
    rw [jaxWrapped_eq hk hn _ _ _ hlen ht]
    unfold wrapForScipy jaxLossGraph at *
    cases hd : flatArrayToVariableDict ([] ++ theta) (vars ++ params) coords with
    | error e => rw [hd] at hr; cases hr
    | ok d =>
      rw [hd] at hr
      have h' : f d = .ok r := hr
      show (f d >>= fun r => Except.ok (0.5 * (r.map (· ^ 2)).sum)) = _
      rw [h']
      rfl
  have hgrad : jaxGrad lib (jaxWrapped (callPositional ((vars ++ params).map ModelObject.name) (jaxLossGraph f))
        (vars.map (specShape coords)) (params.map (specShape coords))) [] theta = .error .valueError := by
    have hg := hlib.grad (n := 0) _ theta (fun _ => 0.5 * (r.map (· ^ 2)).sum) (fun i => i.elim0)
      (Eventually.of_forall fun u => (by rw [List.ofFn_zero]; exact hloss)) (differentiableAt_const _)
    rw [List.ofFn_zero, List.ofFn_zero] at hg
    unfold jaxGrad
    rw [hg]
    rfl
  refine ⟨_, by unfold compileJaxFns; rw [hvs, hps]; rfl, ?_⟩
  show wrapForScipy (wrapForPytensor _ vars params) vars params coords _ _ = _
  rw [C07_flat_round_trip _ coords vars params _ _ hk hn hv hp hlen ht, hgrad]

/-- **C97 (models written as texts).**  For a model whose equations are array texts, the functions the JAX
back-end hands to scipy are what the indexed equations demand at the flat vectors, and the derivatives of that. -/
theorem C97_texts (lib : JaxLib) (hlib : JaxExact lib) {eqs : List TextEq}
    (h : ArrayModel coords vars params eqs) {es : List PExpr} {ps : List ParsedEq}
    (hes : List.Forall₂ (fun q e => Reads (normalizeEq q.arrText) e) eqs es)
    (hps : List.Forall₂ (ParsesTo coords (vars ++ params)) eqs ps)
    (hpt : ∀ v ∈ vars, pointName v.name ∉ (vars ++ params).map ModelObject.name)
    (hv : vars ≠ []) (hp : params ≠ []) (hpos : 0 < totalSize coords vars) :
    ∃ f fns, compileText coords (vars ++ params) (eqs.map fun q => q.name.text) es = .ok f ∧
      compileJaxFns lib coords vars params f = .ok fns ∧
      ∀ theta : List ℝ, theta.length = totalSize coords params →
        ∃ (m : Nat) (G : (Fin (totalSize coords vars) → ℝ) → Fin m → ℝ),
          (∀ u, List.ofFn (G u) = (List.zipWith indexedEq eqs ps).flatMap
            (demanded coords [] (vars ++ params) (List.ofFn u ++ theta))) ∧
          HandsDerivatives coords vars params fns theta G := by
  obtain ⟨f, hf, hr⟩ := C76_array_residuals_partial h hes hps
  obtain ⟨fns, hfns⟩ : ∃ fns, compileJaxFns lib coords vars params f = .ok fns := by
    have hvs : vars.mapM (fun o => inferShape o coords) = .ok (vars.map (specShape coords)) :=
      mapM_ok_of_forall _ _ _ fun o ho => inferShape_eq (h.scalar.known o (by simp [ho]))
    have hps : params.mapM (fun o => inferShape o coords) = .ok (params.map (specShape coords)) :=
      mapM_ok_of_forall _ _ _ fun o ho => inferShape_eq (h.scalar.known o (by simp [ho]))
    exact ⟨_, by unfold compileJaxFns; rw [hvs, hps]; rfl⟩
  refine ⟨f, fns, hf, hfns, fun theta ht => ?_⟩
  have hlen : ∀ flat, ((List.zipWith indexedEq eqs ps).flatMap (demanded coords [] (vars ++ params) flat)).length =
      ((List.zipWith indexedEq eqs ps).map (scalarCount coords none)).sum := fun flat => by
    rw [List.length_flatMap]
    congr 1
    exact List.map_congr_left fun q _ => length_demanded coords none _ _ q
  have hofn : ∀ u : Fin (totalSize coords vars) → ℝ,
      List.ofFn (fun i : Fin ((List.zipWith indexedEq eqs ps).map (scalarCount coords none)).sum =>
        ((List.zipWith indexedEq eqs ps).flatMap
          (demanded coords [] (vars ++ params) (List.ofFn u ++ theta))).getD i 0) =
      (List.zipWith indexedEq eqs ps).flatMap (demanded coords [] (vars ++ params) (List.ofFn u ++ theta)) := fun u => by
    apply List.ext_getElem
    · rw [List.length_ofFn, hlen]
    · intro i h1 h2
      rw [List.getElem_ofFn, List.getD_eq_getElem?_getD, List.getElem?_eq_getElem h2]
      rfl
  refine ⟨_, fun u i => ((List.zipWith indexedEq eqs ps).flatMap
    (demanded coords [] (vars ++ params) (List.ofFn u ++ theta))).getD i 0, hofn, ?_⟩
  obtain ⟨fns', hfns', hh⟩ := C97_jax_functions lib hlib h.scalar.known h.scalar.names hpt hv hp hpos f theta ht
    (fun u i => ((List.zipWith indexedEq eqs ps).flatMap
      (demanded coords [] (vars ++ params) (List.ofFn u ++ theta))).getD i 0)
    (fun u => by rw [hr _ _ (by simp) ht, hofn])
  rw [hfns] at hfns'
  cases hfns'
  exact hh

/-! ## A library that differentiates exactly -/

/-- `A` is the matrix of partial derivatives of what `f` computes at `x`. -/
def JacobianAt (f : List ℝ → Res (List ℝ)) (x : List ℝ) (A : NDArray ℝ) : Prop :=
  ∃ (n m : Nat) (G : (Fin n → ℝ) → Fin m → ℝ) (v : Fin n → ℝ), List.ofFn v = x ∧
    (∀ᶠ u in 𝓝 v, f (List.ofFn u) = .ok (List.ofFn (G u))) ∧ DifferentiableAt ℝ G v ∧
    A = arrayOf fun i k => partialD (fun u => G u i) k v

/-- `g` is the gradient of what `f` computes at `x`. -/
def GradientAt (f : List ℝ → Res ℝ) (x g : List ℝ) : Prop :=
  ∃ (n : Nat) (L : (Fin n → ℝ) → ℝ) (v : Fin n → ℝ), List.ofFn v = x ∧
    (∀ᶠ u in 𝓝 v, f (List.ofFn u) = .ok (L u)) ∧ DifferentiableAt ℝ L v ∧ g = List.ofFn fun k => partialD L k v

/-- `r` is the value and the derivative along `p` of what `f` computes at `x`. -/
def DirectionAt (f : List ℝ → Res (List ℝ)) (x p : List ℝ) (r : List ℝ × List ℝ) : Prop :=
  ∃ (n m : Nat) (G : (Fin n → ℝ) → Fin m → ℝ) (v w : Fin n → ℝ), List.ofFn v = x ∧ List.ofFn w = p ∧
    (∀ᶠ u in 𝓝 v, f (List.ofFn u) = .ok (List.ofFn (G u))) ∧ DifferentiableAt ℝ G v ∧
    r = (List.ofFn (G v), List.ofFn (fderiv ℝ G v w))

theorem same_function {f : List ℝ → Res (List ℝ)} {n m m' : Nat} {v : Fin n → ℝ} {G : (Fin n → ℝ) → Fin m → ℝ}
    {G' : (Fin n → ℝ) → Fin m' → ℝ} (h : ∀ᶠ u in 𝓝 v, f (List.ofFn u) = .ok (List.ofFn (G u)))
    (h' : ∀ᶠ u in 𝓝 v, f (List.ofFn u) = .ok (List.ofFn (G' u))) :
    ∃ e : m = m', G' =ᶠ[𝓝 v] fun u => e ▸ G u := by
  have h0 := h.self_of_nhds
  rw [h'.self_of_nhds] at h0
  have hm : m = m' := by
    have := congrArg (fun r : Res (List ℝ) => r.map List.length) h0
    have h2 : Except.ok m' = (Except.ok m : Res Nat) := by simpa [Except.map] using this
    cases h2
    rfl
  subst hm
  refine ⟨rfl, ?_⟩
  filter_upwards [h, h'] with u h1 h2
  rw [h1] at h2
  injection h2 with h2
  exact (List.ofFn_injective h2).symm

theorem jacobianAt_unique {f : List ℝ → Res (List ℝ)} {x : List ℝ} {A B : NDArray ℝ} (hA : JacobianAt f x A)
    (hB : JacobianAt f x B) : A = B := by
  obtain ⟨n, m, G, v, hv, h1, -, rfl⟩ := hA
  obtain ⟨n', m', G', v', hv', h1', -, rfl⟩ := hB
  have hn : n = n' := by rw [← hv'] at hv; simpa using congrArg List.length hv
  subst hn
  rw [← hv'] at hv
  cases List.ofFn_injective hv
  obtain ⟨rfl, he⟩ := same_function h1 h1'
  congr 1
  funext i k
  unfold partialD
  have : (fun u => G' u i) =ᶠ[𝓝 v] fun u => G u i := he.mono fun u hu => congrFun hu i
  rw [this.fderiv_eq]

theorem gradientAt_unique {f : List ℝ → Res ℝ} {x g g' : List ℝ} (hA : GradientAt f x g)
    (hB : GradientAt f x g') : g = g' := by
  obtain ⟨n, L, v, hv, h1, -, rfl⟩ := hA
  obtain ⟨n', L', v', hv', h1', -, rfl⟩ := hB
  have hn : n = n' := by rw [← hv'] at hv; simpa using congrArg List.length hv
  subst hn
  rw [← hv'] at hv
  cases List.ofFn_injective hv
  have : L' =ᶠ[𝓝 v] L := by
    filter_upwards [h1, h1'] with u a b
    rw [a] at b
    injection b with b
    exact b.symm
  congr 1
  funext k
  unfold partialD
  rw [this.fderiv_eq]

theorem directionAt_unique {f : List ℝ → Res (List ℝ)} {x p : List ℝ} {r r' : List ℝ × List ℝ}
    (hA : DirectionAt f x p r) (hB : DirectionAt f x p r') : r = r' := by
  obtain ⟨n, m, G, v, w, hv, hw, h1, -, rfl⟩ := hA
  obtain ⟨n', m', G', v', w', hv', hw', h1', -, rfl⟩ := hB
  have hn : n = n' := by rw [← hv'] at hv; simpa using congrArg List.length hv
  subst hn
  rw [← hv'] at hv
  rw [← hw'] at hw
  cases List.ofFn_injective hv
  cases List.ofFn_injective hw
  obtain ⟨rfl, he⟩ := same_function h1 h1'
  have he : G' =ᶠ[𝓝 v] G := he
  rw [he.fderiv_eq, he.self_of_nhds]

open Classical in
/-- A library that returns the derivatives where there are any. -/
noncomputable def exactLib : JaxLib where
  jacobian f _ x theta := if h : ∃ A, JacobianAt (fun y => f y theta) x A then .ok h.choose else .error .typeError
  jacfwd f _ x theta := if h : ∃ A, JacobianAt (fun y => f y theta) x A then .ok h.choose else .error .typeError
  grad f _ x theta := if h : ∃ g, GradientAt (fun y => f y theta) x g then .ok h.choose else .error .typeError
  jvp f x p := if h : ∃ r, DirectionAt f x p r then .ok h.choose else .error .typeError

open Classical in
theorem exactLib_exact : JaxExact exactLib where
  jacobian := fun f theta G v h1 h2 => by
    have hA : JacobianAt (fun y => f y theta) (List.ofFn v) _ := ⟨_, _, G, v, rfl, h1, h2, rfl⟩
    have he : ∃ A, JacobianAt (fun y => f y theta) (List.ofFn v) A := ⟨_, hA⟩
    show dite _ _ _ = _
    rw [dif_pos he, jacobianAt_unique he.choose_spec hA]
  jacfwd := fun f theta G v h1 h2 => by
    have hA : JacobianAt (fun y => f y theta) (List.ofFn v) _ := ⟨_, _, G, v, rfl, h1, h2, rfl⟩
    have he : ∃ A, JacobianAt (fun y => f y theta) (List.ofFn v) A := ⟨_, hA⟩
    show dite _ _ _ = _
    rw [dif_pos he, jacobianAt_unique he.choose_spec hA]
  grad := fun f theta g v h1 h2 => by
    have hA : GradientAt (fun y => f y theta) (List.ofFn v) _ := ⟨_, g, v, rfl, h1, h2, rfl⟩
    have he : ∃ g, GradientAt (fun y => f y theta) (List.ofFn v) g := ⟨_, hA⟩
    show dite _ _ _ = _
    rw [dif_pos he, gradientAt_unique he.choose_spec hA]
  jvp := fun f G v p h1 h2 => by
    have hA : DirectionAt f (List.ofFn v) (List.ofFn p) _ := ⟨_, _, G, v, p, rfl, rfl, h1, h2, rfl⟩
    have he : ∃ r, DirectionAt f (List.ofFn v) (List.ofFn p) r := ⟨_, hA⟩
    show dite _ _ _ = _
    rw [dif_pos he, directionAt_unique he.choose_spec hA]

/-- The hypotheses hold for the model `x[i] = A[i] * y`, `y = sum of x`. -/
example : ∃ es f fns,
    compileText scCoords (baVars ++ baParams) (baEqs.map fun q => q.name.text) es = .ok f ∧
    compileJaxFns exactLib scCoords baVars baParams f = .ok fns ∧
    ∀ theta : List ℝ, theta.length = totalSize scCoords baParams →
      ∃ (m : Nat) (G : (Fin (totalSize scCoords baVars) → ℝ) → Fin m → ℝ),
        (∀ u, List.ofFn (G u) = (List.zipWith indexedEq baEqs baParsed).flatMap
          (demanded scCoords [] (baVars ++ baParams) (List.ofFn u ++ theta))) ∧
        HandsDerivatives scCoords baVars baParams fns theta G := by
  obtain ⟨⟨es, hes⟩, -⟩ := C76_texts_parse_partial baModel
  exact ⟨es, C97_texts exactLib exactLib_exact baModel hes baParses
    (by decide +kernel) (by simp [baVars]) (by simp [baParams]) (by decide +kernel)⟩

/-- `x * y - a = 0` and `x - y = 0` by keywords. -/
noncomputable def jxSystem : KwFun ℝ (List ℝ) := fun d => do
  let x ← dgetE d "x".toList
  let y ← dgetE d "y".toList
  let a ← dgetE d "a".toList
  return [x.data.headD 0 * y.data.headD 0 - a.data.headD 0, x.data.headD 0 - y.data.headD 0]

/-- The residuals of the example and what they mean: at `x = 3`, `y = 2`, `a = 5` scipy is handed the Jacobian
`[[2, 3], [1, -1]]` and the gradient `[3, 2]`. -/
example : ∃ fns, compileJaxFns exactLib [] [{ name := "x" }, { name := "y" }] [{ name := "a" }] jxSystem = .ok fns ∧
    wrapForScipy fns.jac [{ name := "x" }, { name := "y" }] [{ name := "a" }] [] [3, 2] [5] =
      .ok ⟨[2, 2], [2, 3, 1, -1]⟩ ∧
    wrapForScipy fns.grad [{ name := "x" }, { name := "y" }] [{ name := "a" }] [] [3, 2] [5] = .ok [3, 2] := by
  have hts : totalSize [] [{ name := "x" }, { name := "y" }] = 2 := rfl
  obtain ⟨fns, h1, h2⟩ := C97_jax_functions (coords := []) (vars := [{ name := "x" }, { name := "y" }])
    (params := [{ name := "a" }]) exactLib exactLib_exact (by decide +kernel) (by decide +kernel)
    (by decide +kernel) (by simp) (by simp) (by decide +kernel) jxSystem [5] rfl
    (m := 2) (fun u => ![u ⟨0, by decide⟩ * u ⟨1, by decide⟩ - 5, u ⟨0, by decide⟩ - u ⟨1, by decide⟩])
    (fun u => rfl)
  refine ⟨fns, h1, ?_⟩
  let G : (Fin 2 → ℝ) → Fin 2 → ℝ := fun u => ![u 0 * u 1 - 5, u 0 - u 1]
  have hp0 : ∀ v : Fin 2 → ℝ, HasFDerivAt (fun u : Fin 2 → ℝ => u 0 * u 1 - 5)
      (v 0 • ContinuousLinearMap.proj (R := ℝ) (φ := fun _ : Fin 2 => ℝ) 1 +
        v 1 • ContinuousLinearMap.proj (R := ℝ) (φ := fun _ : Fin 2 => ℝ) 0) v := fun v =>
    ((hasFDerivAt_apply (𝕜 := ℝ) (0 : Fin 2) v).mul (hasFDerivAt_apply (𝕜 := ℝ) (1 : Fin 2) v)).sub_const 5
  have hp1 : ∀ v : Fin 2 → ℝ, HasFDerivAt (fun u : Fin 2 → ℝ => u 0 - u 1)
      (ContinuousLinearMap.proj (R := ℝ) (φ := fun _ : Fin 2 => ℝ) 0 -
        ContinuousLinearMap.proj (R := ℝ) (φ := fun _ : Fin 2 => ℝ) 1) v := fun v =>
    (hasFDerivAt_apply (𝕜 := ℝ) (0 : Fin 2) v).sub (hasFDerivAt_apply (𝕜 := ℝ) (1 : Fin 2) v)
  have hd : DifferentiableAt ℝ G ![3, 2] := by
    refine differentiableAt_pi.2 fun i => ?_
    fin_cases i
    · exact (hp0 _).differentiableAt
    · exact (hp1 _).differentiableAt
  have hj : ∀ i k : Fin 2, partialD (fun u => G u i) k ![3, 2] = ![![2, 3], ![1, -1]] i k := by
    intro i k
    fin_cases i
    · show fderiv ℝ (fun u : Fin 2 → ℝ => u 0 * u 1 - 5) _ _ = _
      rw [(hp0 _).fderiv]
      fin_cases k <;> simp
    · show fderiv ℝ (fun u : Fin 2 → ℝ => u 0 - u 1) _ _ = _
      rw [(hp1 _).fderiv]
      fin_cases k <;> simp
  obtain ⟨-, -, h3, -⟩ := h2 (![3, 2] : Fin 2 → ℝ)
  obtain ⟨h4, h5⟩ := h3 hd
  constructor
  · refine h4.trans ?_
    show Except.ok (arrayOf fun i k => partialD (fun u => G u i) k ![3, 2]) = _
    simp only [hj]
    simp [arrayOf, List.ofFn_succ]
  · refine h5.trans ?_
    show Except.ok (List.ofFn fun k : Fin 2 => ∑ i : Fin 2, G ![3, 2] i * partialD (fun u => G u i) k ![3, 2]) = _
    simp only [hj]
    simp [G, List.ofFn_succ, Fin.sum_univ_two]
    norm_num

/-- A variable over a dimension without labels. -/
example (a : ℝ) : ∃ fns, compileJaxFns exactLib [("i".toList, [])] [{ name := "x", dims := ["i".toList] }]
      [{ name := "a" }] (fun _ => .ok []) = .ok fns ∧
    wrapForScipy fns.grad [{ name := "x", dims := ["i".toList] }] [{ name := "a" }] [("i".toList, [])] [] [a] =
      .error .valueError :=
  C97_no_elements exactLib exactLib_exact (by decide +kernel) (by decide +kernel) (by simp) (by simp)
    (by decide +kernel) _ [a] (by simp; decide +kernel) [] rfl

end Verif
