import Verif.Spec.PytensorFns
import Verif.Props.JaxFns

/-!
# C97: what the optimizers are handed on the pytensor back-end
-/

namespace Verif

open Filter Topology

theorem tensorsOf_eq (shapes : List (List Nat)) (x : List ℝ) : tensorsOf shapes x = raggedOf shapes x := by
  induction shapes generalizing x with
  | nil => rfl
  | cons s ss ih => rw [tensorsOf, raggedOf, ih]

theorem length_tensorsOf (shapes : List (List Nat)) (x : List ℝ) : (tensorsOf shapes x).length = shapes.length := by
  rw [tensorsOf_eq, length_raggedOf]

theorem flatten_tensorsOf (shapes : List (List Nat)) (x : List ℝ) (h : (shapes.map List.prod).sum = x.length) :
    ((tensorsOf shapes x).map NDArray.data).flatten = x := by
  induction shapes generalizing x with
  | nil =>
    have : x = [] := List.eq_nil_of_length_eq_zero (by simpa using h.symm)
    subst this
    rfl
  | cons s ss ih =>
    simp only [List.map_cons, List.sum_cons] at h
    simp only [tensorsOf, List.map_cons, List.flatten_cons]
    rw [ih _ (by rw [List.length_drop]; omega), List.take_append_drop]

theorem row_of_flatten : ∀ (R : List (List ℝ)) (c i : Nat) (r : List ℝ), (∀ q ∈ R, q.length = c) → R[i]? = some r →
    (R.flatten.drop (i * c)).take c = r
  | [], _, _, _, _, h => by simp at h
  | q :: R, c, 0, r, hl, h => by
    simp only [List.getElem?_cons_zero, Option.some.injEq] at h
    subst h
    have := hl q (by simp)
    simp [← this]
  | q :: R, c, i + 1, r, hl, h => by
    simp only [List.getElem?_cons_succ] at h
    have hq := hl q (by simp)
    have ih := row_of_flatten R c i r (fun q' hq' => hl q' (by simp [hq'])) h
    rw [List.flatten_cons, Nat.add_mul, Nat.one_mul, Nat.add_comm, ← List.drop_drop,
      show (q ++ R.flatten).drop c = R.flatten by rw [← hq]; simp]
    exact ih

section
variable {m n : Nat} (A : Fin m → Fin n → ℝ)

/-- The blocks as matrices. -/
def matrixBlocks : List (List Nat) → Nat → List (NDArray ℝ)
  | [], _ => []
  | s :: ss, k => ⟨[m, s.prod], (List.ofFn fun i => ((List.ofFn (A i)).drop k).take s.prod).flatten⟩ ::
      matrixBlocks ss (k + s.prod)

theorem length_rows (k c : Nat) (h : k + c ≤ n) :
    (List.ofFn fun i => ((List.ofFn (A i)).drop k).take c).flatten.length = m * c := by
  rw [List.length_flatten, List.map_ofFn, List.sum_ofFn]
  simp only [Function.comp_def, List.length_take, List.length_drop, List.length_ofFn]
  rw [Nat.min_eq_left (by omega)]
  simp

theorem blocks_reshape (hm : 0 < m) (shapes : List (List Nat)) (k : Nat)
    (h : k + (shapes.map List.prod).sum ≤ n) :
    (columnBlocks A shapes k).mapM (blockReshape m) = .ok (matrixBlocks A shapes k) := by
  induction shapes generalizing k with
  | nil => rfl
  | cons s ss ih =>
    simp only [List.map_cons, List.sum_cons] at h
    have hl := length_rows A k s.prod (by omega)
    have hb : blockReshape m ⟨m :: s, (List.ofFn fun i => ((List.ofFn (A i)).drop k).take s.prod).flatten⟩ =
        .ok ⟨[m, s.prod], (List.ofFn fun i => ((List.ofFn (A i)).drop k).take s.prod).flatten⟩ := by
      unfold blockReshape
      dsimp only
      rw [hl, if_neg (by simp; omega), Nat.mul_div_cancel_left _ hm]
    rw [columnBlocks, List.mapM_cons, hb, ih (k + s.prod) (by omega)]
    rfl

theorem nCols_blocks (shapes : List (List Nat)) (k : Nat) :
    (matrixBlocks A shapes k).map nCols = shapes.map List.prod := by
  induction shapes generalizing k with
  | nil => rfl
  | cons s ss ih => rw [matrixBlocks, List.map_cons, ih]; rfl

theorem row_blocks (shapes : List (List Nat)) (k : Nat) (h : k + (shapes.map List.prod).sum = n) (i : Fin m) :
    (matrixBlocks A shapes k).flatMap (fun b => matRow b i) = (List.ofFn (A i)).drop k := by
  induction shapes generalizing k with
  | nil =>
    simp only [matrixBlocks, List.flatMap_nil]
    rw [List.drop_eq_nil_of_le (by simp at h ⊢; omega)]
  | cons s ss ih =>
    simp only [List.map_cons, List.sum_cons] at h
    rw [matrixBlocks, List.flatMap_cons, ih (k + s.prod) (by omega)]
    have : matRow (⟨[m, s.prod], (List.ofFn fun i => ((List.ofFn (A i)).drop k).take s.prod).flatten⟩ : NDArray ℝ) i =
        ((List.ofFn (A i)).drop k).take s.prod := by
      unfold matRow
      show List.take s.prod (List.drop (i * s.prod) _) = _
      apply row_of_flatten _ _ _ _ _ (by simp)
      intro q hq
      obtain ⟨j, rfl⟩ := (List.mem_ofFn' _ _).1 hq
      simp
      omega
    rw [this, ← List.drop_drop, List.take_append_drop]

theorem jacobian_blocks (hm : 0 < m) (shapes : List (List Nat)) (hs : shapes ≠ [])
    (h : (shapes.map List.prod).sum = n) : makeTensorJacobian m (columnBlocks A shapes 0) = .ok (arrayOf A) := by
  unfold makeTensorJacobian
  rw [blocks_reshape A hm shapes 0 (by omega)]
  show concatLast m _ = _
  unfold concatLast
  rw [if_neg, nCols_blocks, h]
  · unfold arrayOf
    congr 2
    rw [List.flatMap_def]
    congr 1
    apply List.ext_getElem
    · simp
    · intro i h1 h2
      have hi : i < m := by simpa using h1
      rw [List.getElem_map, List.getElem_range, List.getElem_ofFn]
      exact (row_blocks A shapes 0 (by omega) ⟨i, hi⟩).trans (by simp)
  · cases shapes with
    | nil => exact absurd rfl hs
    | cons s ss => simp [matrixBlocks]

end

variable {coords : Coords} {vars params : List ModelObject}

theorem positional_eq {β : Type} (hk : ∀ o ∈ vars ++ params, KnownDims coords o)
    (hn : ((vars ++ params).map ModelObject.name).Nodup) (f : KwFun ℝ β) (x theta : List ℝ)
    (hx : x.length = totalSize coords vars) (ht : theta.length = totalSize coords params) :
    callPositional ((vars ++ params).map ModelObject.name) f (tensorsOf (vars.map (specShape coords)) x ++
      tensorsOf (params.map (specShape coords)) theta) = wrapForScipy f vars params coords x theta := by
  have hs : ∀ objs : List ModelObject, ((objs.map (specShape coords)).map List.prod).sum = totalSize coords objs := by
    intro objs
    rw [List.map_map]
    rfl
  rw [← jaxWrapped_eq hk hn f x theta hx ht]
  unfold jaxWrapped
  rw [ragged_eq x _ (by rw [hs]; omega), ragged_eq theta _ (by rw [hs]; omega), tensorsOf_eq, tensorsOf_eq]
  rfl

theorem mapM_dgetE_zip : ∀ (names : List Str) (arrs : List (NDArray ℝ)), names.Nodup →
    names.length = arrs.length → names.mapM (dgetE (names.zip arrs)) = .ok arrs := by
  intro names arrs hn hl
  have hkeys : dkeys (names.zip arrs) = names := by
    unfold dkeys
    rw [List.map_fst_zip (by omega)]
  have h : names.mapM (dgetE (names.zip arrs)) = .ok (names.map fun n => ((dget (names.zip arrs) n).getD ⟨[], []⟩)) := by
    apply mapM_ok_of_forall
    intro n hm
    have : dget (names.zip arrs) n ≠ none := by
      rw [Ne, dget_eq_none_iff, hkeys]
      exact fun h => h hm
    obtain ⟨a, ha⟩ := Option.ne_none_iff_exists'.1 this
    unfold dgetE
    rw [ha]
    rfl
  rw [h]
  congr 1
  apply List.ext_getElem
  · simpa using hl
  · intro i h1 h2
    rw [List.getElem_map]
    have hm : (names[i]'(by omega), arrs[i]) ∈ names.zip arrs := by
      rw [List.mem_iff_getElem]
      exact ⟨i, by simp; omega, by simp⟩
    rw [dget_of_mem_nodup _ (by rw [hkeys]; exact hn) hm]
    rfl

theorem callInputs_zip {β : Type} (names : List Str) (arrs : List (NDArray ℝ)) (hn : names.Nodup)
    (hl : names.length = arrs.length) (g : List (NDArray ℝ) → Res β) :
    callInputs names g (names.zip arrs) = g arrs := by
  have hkeys : dkeys (names.zip arrs) = names := by
    unfold dkeys
    rw [List.map_fst_zip (by omega)]
  unfold callInputs
  rw [hkeys, if_neg, mapM_dgetE_zip names arrs hn hl]
  · rfl
  · simp

/-- A compiled function is handed the arrays in the order of its inputs. -/
theorem callInputs_scipy {β : Type} (hk : ∀ o ∈ vars ++ params, KnownDims coords o)
    (hn : ((vars ++ params).map ModelObject.name).Nodup) (g : List (NDArray ℝ) → Res β) (x theta : List ℝ)
    (hx : x.length = totalSize coords vars) (ht : theta.length = totalSize coords params) :
    wrapForScipy (callInputs ((vars ++ params).map ModelObject.name) g) vars params coords x theta =
      g (tensorsOf (vars.map (specShape coords)) x ++ tensorsOf (params.map (specShape coords)) theta) := by
  rw [← positional_eq hk hn _ x theta hx ht]
  unfold callPositional
  exact callInputs_zip _ _ hn (by rw [List.length_append, length_tensorsOf, length_tensorsOf]; simp) g

theorem callInputs_scipyP {β : Type} (hk : ∀ o ∈ vars ++ params, KnownDims coords o)
    (hn : ((vars ++ params).map ModelObject.name).Nodup)
    (hpt : ∀ v ∈ vars, pointName v.name ∉ (vars ++ params).map ModelObject.name)
    (g : List (NDArray ℝ) → Res β) (x p theta : List ℝ)
    (hx : x.length = totalSize coords vars) (hpl : p.length = totalSize coords vars)
    (ht : theta.length = totalSize coords params) :
    wrapForScipyP (callInputs ((vars ++ params).map ModelObject.name ++ vars.map fun v => pointName v.name) g)
        vars params coords x p theta =
      g ((tensorsOf (vars.map (specShape coords)) x ++ tensorsOf (params.map (specShape coords)) theta) ++
        tensorsOf (vars.map (specShape coords)) p) := by
  have hs : ∀ objs : List ModelObject, ((objs.map (specShape coords)).map List.prod).sum = totalSize coords objs := by
    intro objs
    rw [List.map_map]
    rfl
  have hnv : (vars.map ModelObject.name).Nodup := by
    rw [List.map_append] at hn; exact (List.nodup_append.1 hn).1
  have hnpt : (vars.map fun v => pointName v.name).Nodup := by
    have := List.Nodup.map (f := pointName) (fun a b h => pointName_inj h) hnv
    rw [List.map_map] at this
    exact this
  have hdata : flatArrayToVariableDict (x ++ theta) (vars ++ params) coords =
      .ok (((vars ++ params).map ModelObject.name).zip
        (tensorsOf (vars.map (specShape coords)) x ++ tensorsOf (params.map (specShape coords)) theta)) := by
    rw [flatArrayToVariableDict_flatPairs coords (vars ++ params) hk hn (x ++ theta)
      (by rw [List.length_append, totalSize_append]; omega), tensorsOf_eq, tensorsOf_eq,
      ← raggedOf_append _ _ _ _ (by rw [hs]; omega), ← List.map_append, zip_raggedOf]
  have hpd : flatArrayToVariableDict p vars coords =
      .ok ((vars.map ModelObject.name).zip (tensorsOf (vars.map (specShape coords)) p)) := by
    rw [flatArrayToVariableDict_flatPairs coords vars (fun o h => hk o (by simp [h])) hnv p hpl, tensorsOf_eq, zip_raggedOf]
  have hpoint : ((vars.map ModelObject.name).zip (tensorsOf (vars.map (specShape coords)) p)).map
      (fun kv => (pointName kv.1, kv.2)) =
      (vars.map fun v => pointName v.name).zip (tensorsOf (vars.map (specShape coords)) p) := by
    rw [show (vars.map fun v => pointName v.name) = (vars.map ModelObject.name).map pointName by rw [List.map_map]; rfl]
    conv_rhs => rw [List.zip_map_left]
    rfl
  have hkp : ((vars.map fun v => pointName v.name).zip (tensorsOf (vars.map (specShape coords)) p)).map Prod.fst =
      vars.map fun v => pointName v.name := by
    rw [List.map_fst_zip (by rw [length_tensorsOf]; simp)]
  have hkd : dkeys (((vars ++ params).map ModelObject.name).zip
        (tensorsOf (vars.map (specShape coords)) x ++ tensorsOf (params.map (specShape coords)) theta)) =
      (vars ++ params).map ModelObject.name := by
    unfold dkeys
    rw [List.map_fst_zip (by rw [List.length_append, length_tensorsOf, length_tensorsOf]; simp)]
  have hnall : ((vars ++ params).map ModelObject.name ++ vars.map fun v => pointName v.name).Nodup := by
    rw [List.nodup_append]
    refine ⟨hn, hnpt, ?_⟩
    intro a ha b hb hab
    subst hab
    obtain ⟨v, hv, rfl⟩ := List.mem_map.1 hb
    exact hpt v hv ha
  unfold wrapForScipyP
  rw [hdata]
  show (flatArrayToVariableDict p vars coords >>= _) = _
  rw [hpd]
  show callInputs _ g (dupdate _ (dofPairs (List.map (fun kv : Str × NDArray ℝ => (pointName kv.1, kv.2)) _))) = _
  rw [hpoint, dofPairs_of_nodup _ (by rw [hkp]; exact hnpt), dupdate_of_nodup _ _ (by
    rw [hkd, hkp]; exact hnall), ← List.zip_append (by
      rw [List.length_append, length_tensorsOf, length_tensorsOf]; simp)]
  exact callInputs_zip _ _ hnall (by
    simp only [List.length_append, length_tensorsOf, List.length_map]) g

theorem zipWith_ofFn {n : Nat} (a b : Fin n → ℝ) :
    List.zipWith (· * ·) (List.ofFn a) (List.ofFn b) = List.ofFn fun i => a i * b i := by
  apply List.ext_getElem
  · simp
  · intro i h1 h2
    simp

/-- The derivative of `gradient · p` is the Hessian times `p`. -/
theorem partialD_pairing {n : Nat} {g : (Fin n → ℝ) → ℝ} {v : Fin n → ℝ} (h : ContDiffAt ℝ 2 g v) (p : Fin n → ℝ)
    (k : Fin n) : partialD (fun u => ∑ l, partialD g l u * p l) k v = ∑ l, partialD (partialD g k) l v * p l := by
  have h1 : DifferentiableAt ℝ (fderiv ℝ g) v := (h.fderiv_right (m := 1) (by norm_num)).differentiableAt (by norm_num)
  have hsymm := h.isSymmSndFDerivAt (by simp)
  have h2 : ∀ i j, partialD (partialD g i) j v = fderiv ℝ (fderiv ℝ g) v (Pi.single j 1) (Pi.single i 1) := by
    intro i j
    unfold partialD
    have := (h1.hasFDerivAt.clm_apply (hasFDerivAt_const (Pi.single i (1 : ℝ) : Fin n → ℝ) v)).fderiv
    rw [this]
    simp
  have h3 : ∀ l, HasFDerivAt (fun u => partialD g l u * p l) (p l • fderiv ℝ (partialD g l) v) v := by
    intro l
    exact ((differentiableAt_pi.1 (differentiableAt_partialD h)) l).hasFDerivAt.mul_const (p l)
  have h4 := HasFDerivAt.fun_sum (u := Finset.univ) fun l _ => h3 l
  unfold partialD at h4 ⊢
  rw [h4.fderiv, ContinuousLinearMap.sum_apply]
  refine Finset.sum_congr rfl fun l _ => ?_
  have e1 := h2 l k
  have e2 := h2 k l
  unfold partialD at e1 e2
  rw [ContinuousLinearMap.smul_apply, smul_eq_mul, e1, e2, mul_comm, hsymm]

/-- **C97 (pytensor back-end).**  In pytensor mode, whatever residual function the equations were compiled to, the
functions handed to scipy are its residuals, half the sum of their squares, and their exact derivatives with respect
to the flat vector of variables. -/
theorem C97_pytensor_functions (lib : PtLib) (hlib : PtExact lib)
    (hk : ∀ o ∈ vars ++ params, KnownDims coords o) (hn : ((vars ++ params).map ModelObject.name).Nodup)
    (hpt : ∀ v ∈ vars, pointName v.name ∉ (vars ++ params).map ModelObject.name)
    (hv : vars ≠ []) (hpos : 0 < totalSize coords vars)
    (f : KwFun ℝ (List ℝ)) (theta : List ℝ) (ht : theta.length = totalSize coords params)
    {m : Nat} (hm : 0 < m) (G : (Fin (totalSize coords vars) → ℝ) → Fin m → ℝ)
    (hG : ∀ u, wrapForScipy f vars params coords (List.ofFn u) theta = .ok (List.ofFn (G u))) :
    HandsDerivatives coords vars params (compilePytensorFns lib vars params (totalSize coords vars) m f) theta G := by
  have hs : ∀ objs : List ModelObject, ((objs.map (specShape coords)).map List.prod).sum = totalSize coords objs := by
    intro objs
    rw [List.map_map]
    rfl
  have hsne : vars.map (specShape coords) ≠ [] := by simpa using hv
  have hlen : ∀ u : Fin (totalSize coords vars) → ℝ, (List.ofFn u).length = totalSize coords vars := fun u => by simp
  have hsys : ∀ u : Fin (totalSize coords vars) → ℝ,
      callPositional ((vars ++ params).map ModelObject.name) f (tensorsOf (vars.map (specShape coords)) (List.ofFn u) ++
        tensorsOf (params.map (specShape coords)) theta) = .ok (List.ofFn (G u)) := fun u => by
    rw [positional_eq hk hn f _ _ (hlen u) ht, hG]
  have hloss : ∀ u : Fin (totalSize coords vars) → ℝ,
      callPositional ((vars ++ params).map ModelObject.name) (jaxLossGraph f)
        (tensorsOf (vars.map (specShape coords)) (List.ofFn u) ++ tensorsOf (params.map (specShape coords)) theta) =
        .ok (halfSq G u) := fun u => by
    have h := hsys u
    unfold callPositional jaxLossGraph at *
    rw [h]
    show Except.ok _ = Except.ok _
    rw [List.map_ofFn, List.sum_ofFn]
    unfold halfSq
    norm_num
  have hcat : ∀ w : Fin (totalSize coords vars) → ℝ,
      concatRavel (tensorsOf (vars.map (specShape coords)) (List.ofFn w)) = .ok (List.ofFn w) := fun w => by
    unfold concatRavel
    rw [npConcatenate_ok, flatten_tensorsOf _ _ (by rw [hs, hlen])]
    intro h
    have := congrArg List.length h
    rw [List.length_map, length_tensorsOf, List.length_map] at this
    exact hv (List.eq_nil_of_length_eq_zero this)
  have hgradAt : ∀ u, DifferentiableAt ℝ G u →
      ptGrad lib (totalSize coords vars) (callPositional ((vars ++ params).map ModelObject.name) (jaxLossGraph f))
        (tensorsOf (vars.map (specShape coords)) (List.ofFn u)) (tensorsOf (params.map (specShape coords)) theta) =
      .ok (List.ofFn fun k => partialD (halfSq G) k u) := fun u hu => by
    unfold ptGrad
    rw [hlib.grad (vars.map (specShape coords)) (hs vars) _ (halfSq G) u (Eventually.of_forall hloss)
      (hasFDerivAt_halfSq hu).differentiableAt]
    show (concatRavel _ >>= _) = _
    rw [hcat]
    show specifyLength _ _ = _
    rw [specifyLength, if_pos (hlen _)]
  have hspl : ∀ w : Fin (totalSize coords vars) → ℝ,
      ((tensorsOf (vars.map (specShape coords)) (List.ofFn w) ++ tensorsOf (params.map (specShape coords)) theta).take
        vars.length = tensorsOf (vars.map (specShape coords)) (List.ofFn w)) ∧
      ((tensorsOf (vars.map (specShape coords)) (List.ofFn w) ++ tensorsOf (params.map (specShape coords)) theta).drop
        vars.length = tensorsOf (params.map (specShape coords)) theta) := fun w => by
    have h : (tensorsOf (vars.map (specShape coords)) (List.ofFn w)).length = vars.length := by
      rw [length_tensorsOf, List.length_map]
    rw [← h]
    simp
  intro v
  refine ⟨hG v, ?_, fun hd => ⟨?_, ?_⟩, fun h2 => ?_⟩
  · show wrapForScipy (callInputs _ _) vars params coords _ _ = _
    rw [callInputs_scipy hk hn _ _ _ (hlen v) ht, hloss]
  · show wrapForScipy (callInputs _ _) vars params coords _ _ = _
    rw [callInputs_scipy hk hn _ _ _ (hlen v) ht, (hspl v).1, (hspl v).2]
    unfold ptJacobian
    rw [hlib.jacobian (vars.map (specShape coords)) (hs vars) _ G v (Eventually.of_forall hsys) hd]
    exact jacobian_blocks _ hm _ hsne (hs vars)
  · show wrapForScipy (callInputs _ _) vars params coords _ _ = _
    rw [callInputs_scipy hk hn _ _ _ (hlen v) ht, (hspl v).1, (hspl v).2, hgradAt v hd]
    simp only [partialD_halfSq hd]
  · have hev : ∀ᶠ u in 𝓝 v,
        ptGrad lib (totalSize coords vars) (callPositional ((vars ++ params).map ModelObject.name) (jaxLossGraph f))
          (tensorsOf (vars.map (specShape coords)) (List.ofFn u)) (tensorsOf (params.map (specShape coords)) theta) =
        .ok (List.ofFn fun k => partialD (halfSq G) k u) := by
      filter_upwards [h2.eventually (by simp)] with u hu
      exact hgradAt u (hu.differentiableAt (by norm_num))
    have hdg := differentiableAt_partialD (contDiffAt_halfSq h2)
    refine ⟨?_, fun p => ?_⟩
    · show wrapForScipy (callInputs _ _) vars params coords _ _ = _
      rw [callInputs_scipy hk hn _ _ _ (hlen v) ht, (hspl v).1, (hspl v).2]
      unfold ptJacobian
      rw [hlib.jacobian (vars.map (specShape coords)) (hs vars) _ (fun u k => partialD (halfSq G) k u) v hev hdg]
      exact jacobian_blocks _ hpos _ hsne (hs vars)
    · show wrapForScipyP (callInputs _ _) vars params coords _ _ _ = _
      rw [callInputs_scipyP hk hn hpt _ _ _ _ (hlen v) (hlen p) ht]
      have hln : (tensorsOf (vars.map (specShape coords)) (List.ofFn v) ++
          tensorsOf (params.map (specShape coords)) theta).length =
          ((vars ++ params).map ModelObject.name).length := by
        simp only [List.length_append, length_tensorsOf, List.length_map]
      have h1 : ((tensorsOf (vars.map (specShape coords)) (List.ofFn v) ++
          tensorsOf (params.map (specShape coords)) theta) ++
            tensorsOf (vars.map (specShape coords)) (List.ofFn p)).take vars.length =
          tensorsOf (vars.map (specShape coords)) (List.ofFn v) := by
        rw [List.take_append_of_le_length (by
          simp only [List.length_append, length_tensorsOf, List.length_map]; omega), (hspl v).1]
      rw [h1, List.take_left' hln, (hspl v).2, List.drop_left' hln]
      unfold ptHessp
      rw [hcat]
      show (lib.grad _ _ >>= _) = _
      rw [hlib.grad (vars.map (specShape coords)) (hs vars) _
        (fun u => ∑ l, partialD (halfSq G) l u * p l) v ?_ ?_]
      · show (concatRavel _ >>= _) = _
        rw [hcat]
        show specifyLength _ _ = _
        rw [specifyLength, if_pos (hlen _)]
        congr 2
        funext k
        exact partialD_pairing (contDiffAt_halfSq h2) p k
      · filter_upwards [hev] with u hu
        rw [hu]
        show Except.ok _ = Except.ok _
        congr 1
        rw [zipWith_ofFn, List.sum_ofFn]
      · exact DifferentiableAt.fun_sum fun l _ => ((differentiableAt_pi.1 hdg) l).mul_const _

/-- **C97 (pytensor Ops).**  The Ops of `compile_cge_model_to_pytensor_Op` are, as functions of the tensors in order,
the residuals and their Jacobian with respect to the flat vector of variables. -/
theorem C97_ops (lib : PtLib) (hlib : PtExact lib)
    (hk : ∀ o ∈ vars ++ params, KnownDims coords o) (hn : ((vars ++ params).map ModelObject.name).Nodup)
    (hv : vars ≠ []) (f : KwFun ℝ (List ℝ)) (theta : List ℝ) (ht : theta.length = totalSize coords params)
    {m : Nat} (hm : 0 < m) (G : (Fin (totalSize coords vars) → ℝ) → Fin m → ℝ)
    (hG : ∀ u, wrapForScipy f vars params coords (List.ofFn u) theta = .ok (List.ofFn (G u)))
    (v : Fin (totalSize coords vars) → ℝ) (args : List (NDArray ℝ))
    (hargs : args = tensorsOf (vars.map (specShape coords)) (List.ofFn v) ++
      tensorsOf (params.map (specShape coords)) theta) :
    (pytensorOps lib vars params m f).1 args = .ok (List.ofFn (G v)) ∧
    (DifferentiableAt ℝ G v → (pytensorOps lib vars params m f).2 args =
      .ok (arrayOf fun i k => partialD (fun u => G u i) k v)) := by
  have hs : ((vars.map (specShape coords)).map List.prod).sum = totalSize coords vars := by
    rw [List.map_map]
    rfl
  have hlen : ∀ u : Fin (totalSize coords vars) → ℝ, (List.ofFn u).length = totalSize coords vars := fun u => by simp
  have hsys : ∀ u : Fin (totalSize coords vars) → ℝ,
      callPositional ((vars ++ params).map ModelObject.name) f (tensorsOf (vars.map (specShape coords)) (List.ofFn u) ++
        tensorsOf (params.map (specShape coords)) theta) = .ok (List.ofFn (G u)) := fun u => by
    rw [positional_eq hk hn f _ _ (hlen u) ht, hG]
  subst hargs
  refine ⟨hsys v, fun hd => ?_⟩
  have hl : (tensorsOf (vars.map (specShape coords)) (List.ofFn v)).length = vars.length := by
    rw [length_tensorsOf, List.length_map]
  unfold pytensorOps
  dsimp only
  rw [List.take_left' hl, List.drop_left' hl]
  unfold ptJacobian
  rw [hlib.jacobian (vars.map (specShape coords)) hs _ G v (Eventually.of_forall hsys) hd]
  exact jacobian_blocks _ hm _ (by simpa using hv) hs

/-- **C97 (the back-ends agree).**  What scipy is handed does not depend on whether JAX or pytensor compiled the
model. -/
theorem C97_same_on_both (jlib : JaxLib) (hj : JaxExact jlib) (plib : PtLib) (hplib : PtExact plib)
    (hk : ∀ o ∈ vars ++ params, KnownDims coords o) (hn : ((vars ++ params).map ModelObject.name).Nodup)
    (hpt : ∀ v ∈ vars, pointName v.name ∉ (vars ++ params).map ModelObject.name)
    (hv : vars ≠ []) (hp : params ≠ []) (hpos : 0 < totalSize coords vars)
    (f : KwFun ℝ (List ℝ)) (theta : List ℝ) (ht : theta.length = totalSize coords params)
    {m : Nat} (hm : 0 < m) (G : (Fin (totalSize coords vars) → ℝ) → Fin m → ℝ)
    (hG : ∀ u, wrapForScipy f vars params coords (List.ofFn u) theta = .ok (List.ofFn (G u))) (hsm : ContDiff ℝ 2 G) :
    ∃ fns, compileJaxFns jlib coords vars params f = .ok fns ∧
      ∀ x p : List ℝ, x.length = totalSize coords vars → p.length = totalSize coords vars →
        let pt := compilePytensorFns plib vars params (totalSize coords vars) m f
        wrapForScipy fns.jac vars params coords x theta = wrapForScipy pt.jac vars params coords x theta ∧
        wrapForScipy fns.resid vars params coords x theta = wrapForScipy pt.resid vars params coords x theta ∧
        wrapForScipy fns.grad vars params coords x theta = wrapForScipy pt.grad vars params coords x theta ∧
        wrapForScipy fns.hess vars params coords x theta = wrapForScipy pt.hess vars params coords x theta ∧
        wrapForScipyP fns.hessp vars params coords x p theta =
          wrapForScipyP pt.hessp vars params coords x p theta := by
  obtain ⟨fns, h1, h2⟩ := C97_jax_functions jlib hj hk hn hpt hv hp hpos f theta ht G hG
  have h3 := C97_pytensor_functions plib hplib hk hn hpt hv hpos f theta ht hm G hG
  refine ⟨fns, h1, fun x p hx hpl => ?_⟩
  have hof : ∀ y : List ℝ, y.length = totalSize coords vars → ∃ v : Fin (totalSize coords vars) → ℝ, y = List.ofFn v := by
    intro y hy
    refine ⟨fun i => y[i.1]'(by omega), ?_⟩
    apply List.ext_getElem
    · simpa using hy
    · intro i _ _
      simp
  obtain ⟨v, rfl⟩ := hof x hx
  obtain ⟨w, rfl⟩ := hof p hpl
  obtain ⟨a1, a2, a3, a4⟩ := h2 v
  obtain ⟨b1, b2, b3, b4⟩ := h3 v
  have hd : DifferentiableAt ℝ G v := hsm.contDiffAt.differentiableAt (by norm_num)
  obtain ⟨a5, a6⟩ := a3 hd
  obtain ⟨b5, b6⟩ := b3 hd
  obtain ⟨a7, a8⟩ := a4 hsm.contDiffAt
  obtain ⟨b7, b8⟩ := b4 hsm.contDiffAt
  exact ⟨a5.trans b5.symm, a2.trans b2.symm, a6.trans b6.symm, a7.trans b7.symm, (a8 w).trans (b8 w).symm⟩

/-! ## A library that differentiates exactly -/

/-- `B` are the blocks of partial derivatives of what `f` computes at the tensors. -/
def BlocksAt (f : List (NDArray ℝ) → Res (List ℝ)) (args B : List (NDArray ℝ)) : Prop :=
  ∃ (n m : Nat) (shapes : List (List Nat)) (G : (Fin n → ℝ) → Fin m → ℝ) (v : Fin n → ℝ),
    (shapes.map List.prod).sum = n ∧ tensorsOf shapes (List.ofFn v) = args ∧
    (∀ᶠ u in 𝓝 v, f (tensorsOf shapes (List.ofFn u)) = .ok (List.ofFn (G u))) ∧ DifferentiableAt ℝ G v ∧
    B = columnBlocks (fun i k => partialD (fun u => G u i) k v) shapes 0

/-- `B` are the arrays of partial derivatives of the number `f` computes at the tensors. -/
def GradBlocksAt (f : List (NDArray ℝ) → Res ℝ) (args B : List (NDArray ℝ)) : Prop :=
  ∃ (n : Nat) (shapes : List (List Nat)) (g : (Fin n → ℝ) → ℝ) (v : Fin n → ℝ),
    (shapes.map List.prod).sum = n ∧ tensorsOf shapes (List.ofFn v) = args ∧
    (∀ᶠ u in 𝓝 v, f (tensorsOf shapes (List.ofFn u)) = .ok (g u)) ∧ DifferentiableAt ℝ g v ∧
    B = tensorsOf shapes (List.ofFn fun k => partialD g k v)

theorem shape_tensorsOf (shapes : List (List Nat)) (x : List ℝ) : (tensorsOf shapes x).map NDArray.shape = shapes := by
  induction shapes generalizing x with
  | nil => rfl
  | cons s ss ih => rw [tensorsOf, List.map_cons, ih]

theorem tensorsOf_inj {shapes shapes' : List (List Nat)} {n n' : Nat} {v : Fin n → ℝ} {v' : Fin n' → ℝ}
    (hs : (shapes.map List.prod).sum = n) (hs' : (shapes'.map List.prod).sum = n')
    (h : tensorsOf shapes (List.ofFn v) = tensorsOf shapes' (List.ofFn v')) :
    shapes = shapes' ∧ ∃ e : n = n', v' = e ▸ v := by
  have h1 := congrArg (List.map NDArray.shape) h
  rw [shape_tensorsOf, shape_tensorsOf] at h1
  subst h1
  have hn : n = n' := hs.symm.trans hs'
  subst hn
  have h2 : ((tensorsOf shapes (List.ofFn v)).map NDArray.data).flatten =
      ((tensorsOf shapes (List.ofFn v')).map NDArray.data).flatten := by rw [h]
  rw [flatten_tensorsOf _ _ (by simpa using hs), flatten_tensorsOf _ _ (by simpa using hs)] at h2
  exact ⟨rfl, rfl, (List.ofFn_injective h2).symm⟩

theorem blocksAt_unique {f : List (NDArray ℝ) → Res (List ℝ)} {args B B' : List (NDArray ℝ)}
    (hA : BlocksAt f args B) (hB : BlocksAt f args B') : B = B' := by
  obtain ⟨n, m, shapes, G, v, hs, rfl, h1, -, rfl⟩ := hA
  obtain ⟨n', m', shapes', G', v', hs', hv', h1', -, rfl⟩ := hB
  obtain ⟨rfl, rfl, rfl⟩ := tensorsOf_inj hs hs' hv'.symm
  obtain ⟨rfl, he⟩ := same_function (f := fun x => f (tensorsOf shapes x)) h1 h1'
  congr 1
  funext i k
  unfold partialD
  have : (fun u => G' u i) =ᶠ[𝓝 v'] fun u => G u i := he.mono fun u hu => congrFun hu i
  rw [this.fderiv_eq]

theorem gradBlocksAt_unique {f : List (NDArray ℝ) → Res ℝ} {args B B' : List (NDArray ℝ)}
    (hA : GradBlocksAt f args B) (hB : GradBlocksAt f args B') : B = B' := by
  obtain ⟨n, shapes, g, v, hs, rfl, h1, -, rfl⟩ := hA
  obtain ⟨n', shapes', g', v', hs', hv', h1', -, rfl⟩ := hB
  obtain ⟨rfl, rfl, rfl⟩ := tensorsOf_inj hs hs' hv'.symm
  have : g' =ᶠ[𝓝 v'] g := by
    filter_upwards [h1, h1'] with u a b
    rw [a] at b
    injection b with b
    exact b.symm
  congr 2
  funext k
  unfold partialD
  rw [this.fderiv_eq]

open Classical in
/-- A library that returns the derivatives where there are any. -/
noncomputable def exactPt : PtLib where
  jacobian f args := if h : ∃ B, BlocksAt f args B then .ok h.choose else .error .typeError
  grad f args := if h : ∃ B, GradBlocksAt f args B then .ok h.choose else .error .typeError

open Classical in
theorem exactPt_exact : PtExact exactPt where
  jacobian := fun shapes hs f G v h1 h2 => by
    have hA : BlocksAt f (tensorsOf shapes (List.ofFn v)) _ := ⟨_, _, shapes, G, v, hs, rfl, h1, h2, rfl⟩
    have he : ∃ B, BlocksAt f (tensorsOf shapes (List.ofFn v)) B := ⟨_, hA⟩
    show dite _ _ _ = _
    rw [dif_pos he, blocksAt_unique he.choose_spec hA]
  grad := fun shapes hs f g v h1 h2 => by
    have hA : GradBlocksAt f (tensorsOf shapes (List.ofFn v)) _ := ⟨_, shapes, g, v, hs, rfl, h1, h2, rfl⟩
    have he : ∃ B, GradBlocksAt f (tensorsOf shapes (List.ofFn v)) B := ⟨_, hA⟩
    show dite _ _ _ = _
    rw [dif_pos he, gradBlocksAt_unique he.choose_spec hA]

/-- **C97 (models written as texts, pytensor).**  For a model whose equations are array texts, the functions the
pytensor back-end hands to scipy are what the indexed equations demand at the flat vectors, and the derivatives of
that. -/
theorem C97_texts_pytensor (lib : PtLib) (hlib : PtExact lib) {eqs : List TextEq}
    (h : ArrayModel coords vars params eqs) {es : List PExpr} {ps : List ParsedEq}
    (hes : List.Forall₂ (fun q e => Reads (normalizeEq q.arrText) e) eqs es)
    (hps : List.Forall₂ (ParsesTo coords (vars ++ params)) eqs ps)
    (hpt : ∀ v ∈ vars, pointName v.name ∉ (vars ++ params).map ModelObject.name)
    (hv : vars ≠ []) (hpos : 0 < totalSize coords vars) :
    ∃ f m, compileText coords (vars ++ params) (eqs.map fun q => q.name.text) es = .ok f ∧
      unpackedEquationNames (eqs.map fun q => q.name.text) coords = .ok m ∧
      ∀ theta : List ℝ, theta.length = totalSize coords params →
        ∃ G : (Fin (totalSize coords vars) → ℝ) → Fin m.length → ℝ,
          (∀ u, List.ofFn (G u) = (List.zipWith indexedEq eqs ps).flatMap
            (demanded coords [] (vars ++ params) (List.ofFn u ++ theta))) ∧
          HandsDerivatives coords vars params
            (compilePytensorFns lib vars params (totalSize coords vars) m.length f) theta G := by
  obtain ⟨f, hf, hr⟩ := C76_array_residuals_partial h hes hps
  obtain ⟨m, hm, hmne⟩ : ∃ m, unpackedEquationNames (eqs.map fun q => q.name.text) coords = .ok m ∧ m ≠ [] := by
    refine ⟨_, unpacked_names h, ?_⟩
    obtain ⟨q, l, rfl⟩ := List.exists_cons_of_ne_nil h.nonempty
    obtain ⟨_, _, _, _, ds, hq⟩ := h.sides q (by simp)
    have hne : (product (q.name.dims.map (labelsOf coords))).length ≠ 0 := by
      rw [length_product]
      intro h0
      rw [List.prod_eq_zero_iff, List.map_map, List.mem_map] at h0
      obtain ⟨d, hd, h0⟩ := h0
      rw [hq.markers] at hd
      exact h.labels d (hq.order.subset hd) (List.eq_nil_of_length_eq_zero h0)
    intro h0
    have h1 := congrArg List.length h0
    rw [List.flatMap_cons, List.length_append] at h1
    have h2 : (textNames coords q).length = (product (q.name.dims.map (labelsOf coords))).length := by
      unfold textNames
      rw [List.length_map]
    simp only [List.length_nil] at h1
    omega
  refine ⟨f, m, hf, hm, fun theta ht => ?_⟩
  have hlen : ∀ u : Fin (totalSize coords vars) → ℝ, ((List.zipWith indexedEq eqs ps).flatMap
      (demanded coords [] (vars ++ params) (List.ofFn u ++ theta))).length = m.length := fun u => by
    have h1 := hr (List.ofFn u) theta (by simp) ht
    unfold wrapForScipy at h1
    cases hd : flatArrayToVariableDict (List.ofFn u ++ theta) (vars ++ params) coords with
    | error e => rw [hd] at h1; cases h1
    | ok d =>
      rw [hd] at h1
      obtain ⟨m', hm', hl⟩ := C76_residual_count hf (show f d = .ok _ from h1)
      rw [hm] at hm'
      cases hm'
      exact hl
  have hofn : ∀ u : Fin (totalSize coords vars) → ℝ,
      List.ofFn (fun i : Fin m.length => ((List.zipWith indexedEq eqs ps).flatMap
          (demanded coords [] (vars ++ params) (List.ofFn u ++ theta))).getD i 0) =
      (List.zipWith indexedEq eqs ps).flatMap (demanded coords [] (vars ++ params) (List.ofFn u ++ theta)) := fun u => by
    apply List.ext_getElem
    · rw [List.length_ofFn, hlen]
    · intro i h1 h2
      rw [List.getElem_ofFn, List.getD_eq_getElem?_getD, List.getElem?_eq_getElem h2]
      rfl
  refine ⟨_, hofn, ?_⟩
  refine C97_pytensor_functions lib hlib h.scalar.known h.scalar.names hpt hv hpos f theta ht ?_ _
    (fun u => by rw [hr _ _ (by simp) ht, hofn])
  exact List.length_pos_of_ne_nil hmne

/-- The hypotheses hold for the model `x[i] = A[i] * y`, `y = sum of x`. -/
example : ∃ es f m,
    compileText scCoords (baVars ++ baParams) (baEqs.map fun q => q.name.text) es = .ok f ∧
    unpackedEquationNames (baEqs.map fun q => q.name.text) scCoords = .ok m ∧
    ∀ theta : List ℝ, theta.length = totalSize scCoords baParams →
      ∃ G : (Fin (totalSize scCoords baVars) → ℝ) → Fin m.length → ℝ,
        (∀ u, List.ofFn (G u) = (List.zipWith indexedEq baEqs baParsed).flatMap
          (demanded scCoords [] (baVars ++ baParams) (List.ofFn u ++ theta))) ∧
        HandsDerivatives scCoords baVars baParams
          (compilePytensorFns exactPt baVars baParams (totalSize scCoords baVars) m.length f) theta G := by
  obtain ⟨⟨es, hes⟩, -⟩ := C76_texts_parse_partial baModel
  exact ⟨es, C97_texts_pytensor exactPt exactPt_exact baModel hes baParses
    (by decide +kernel) (by simp [baVars]) (by decide +kernel)⟩

/-- The example of `x * y - a = 0`, `x - y = 0`: the two libraries hand over the same. -/
example (a : ℝ) : ∃ fns, compileJaxFns exactLib [] [{ name := "x" }, { name := "y" }] [{ name := "a" }] jxSystem = .ok fns ∧
    ∀ x p : List ℝ, x.length = 2 → p.length = 2 →
      let pt := compilePytensorFns exactPt [{ name := "x" }, { name := "y" }] [{ name := "a" }] 2 2 jxSystem
      wrapForScipy fns.jac [{ name := "x" }, { name := "y" }] [{ name := "a" }] [] x [a] =
        wrapForScipy pt.jac [{ name := "x" }, { name := "y" }] [{ name := "a" }] [] x [a] ∧
      wrapForScipyP fns.hessp [{ name := "x" }, { name := "y" }] [{ name := "a" }] [] x p [a] =
        wrapForScipyP pt.hessp [{ name := "x" }, { name := "y" }] [{ name := "a" }] [] x p [a] := by
  have hG : ContDiff ℝ 2 (fun u : Fin 2 → ℝ => (![u 0 * u 1 - a, u 0 - u 1] : Fin 2 → ℝ)) := by
    refine contDiff_pi.2 fun i => ?_
    have h0 : ContDiff ℝ 2 fun u : Fin 2 → ℝ => u 0 := contDiff_apply ℝ ℝ 0
    have h1 : ContDiff ℝ 2 fun u : Fin 2 → ℝ => u 1 := contDiff_apply ℝ ℝ 1
    fin_cases i
    · exact (h0.mul h1).sub contDiff_const
    · exact h0.sub h1
  obtain ⟨fns, h1, h2⟩ := C97_same_on_both (coords := []) (vars := [{ name := "x" }, { name := "y" }])
    (params := [{ name := "a" }]) exactLib exactLib_exact exactPt exactPt_exact (by decide +kernel) (by decide +kernel)
    (by decide +kernel) (by simp) (by simp) (by decide +kernel) jxSystem [a] rfl (m := 2) (by norm_num)
    (fun u => ![u ⟨0, by decide⟩ * u ⟨1, by decide⟩ - a, u ⟨0, by decide⟩ - u ⟨1, by decide⟩])
    (fun u => rfl) hG
  exact ⟨fns, h1, fun x p hx hp => ⟨(h2 x p hx hp).1, (h2 x p hx hp).2.2.2.2⟩⟩

/-- **C97 (names).**  The compiled functions of the pytensor back-end take the names of the variables and
parameters and no others: a missing or an unknown name is refused with a `TypeError`, and the Hessian-vector
product also asks for the points. -/
theorem C97_pytensor_names (lib : PtLib) (n m : Nat) (f : KwFun ℝ (List ℝ)) (d : Dict Str (NDArray ℝ)) :
    let fns := compilePytensorFns lib vars params n m f
    let names := (vars ++ params).map ModelObject.name
    let points := vars.map fun v => pointName v.name
    ((∃ x, x ∈ names ∧ x ∉ dkeys d) ∨ (∃ x, x ∈ dkeys d ∧ x ∉ names) →
      fns.jac d = .error .typeError ∧ fns.resid d = .error .typeError ∧ fns.grad d = .error .typeError ∧
      fns.hess d = .error .typeError) ∧
    ((∃ x, x ∈ names ++ points ∧ x ∉ dkeys d) ∨ (∃ x, x ∈ dkeys d ∧ x ∉ names ++ points) →
      fns.hessp d = .error .typeError) := by
  have key : ∀ {β : Type} (inputs : List Str) (g : List (NDArray ℝ) → Res β),
      (∃ x, x ∈ inputs ∧ x ∉ dkeys d) ∨ (∃ x, x ∈ dkeys d ∧ x ∉ inputs) →
      callInputs inputs g d = .error .typeError := by
    intro β inputs g h
    unfold callInputs
    rw [if_pos]
    rw [Bool.not_eq_true', Bool.and_eq_false_iff]
    rcases h with ⟨x, h1, h2⟩ | ⟨x, h1, h2⟩
    · refine .inr ?_
      rw [List.all_eq_false]
      exact ⟨x, h1, by simpa using h2⟩
    · refine .inl ?_
      rw [List.all_eq_false]
      exact ⟨x, h1, by simpa using h2⟩
  intro fns names points
  exact ⟨fun h => ⟨key _ _ h, key _ _ h, key _ _ h, key _ _ h⟩, fun h => key _ _ h⟩

example (lib : PtLib) (f : KwFun ℝ (List ℝ)) :
    (compilePytensorFns lib [{ name := "x" }] [{ name := "a" }] 1 1 f).grad
      [("x".toList, ⟨[], [2]⟩)] = .error .typeError :=
  ((C97_pytensor_names lib 1 1 f _).1 (.inl ⟨"a".toList, by simp, by decide⟩)).2.2.1

end Verif
