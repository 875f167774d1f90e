import Verif.Lemmas.Reorder
import Mathlib.LinearAlgebra.Matrix.Determinant.Basic

/-!
# The Euler step of a model with reordered objects and recombined equations
-/

namespace Verif

open SymExpr

/-- A list with the numbers below `n` in some order, as a permutation. -/
theorem perm_equiv {n : Nat} {idx : List Nat} (h : idx.Perm (List.range n)) :
    ∃ σ : Equiv.Perm (Fin n), ∀ i : Fin n, idx[i.val]? = some (σ i).val := by
  have hl : idx.length = n := by rw [h.length_eq, List.length_range]
  have hnd : idx.Nodup := h.nodup_iff.2 List.nodup_range
  have hlt : ∀ k ∈ idx, k < n := fun k hk => List.mem_range.1 (h.mem_iff.1 hk)
  let f : Fin n → Fin n := fun i => ⟨idx[i.val]'(by rw [hl]; exact i.isLt), hlt _ (List.getElem_mem _)⟩
  have hinj : Function.Injective f := by
    intro i j hij
    have : idx[i.val]'(by rw [hl]; exact i.isLt) = idx[j.val]'(by rw [hl]; exact j.isLt) :=
      congrArg Fin.val hij
    exact Fin.ext ((hnd.getElem_inj_iff).1 this)
  refine ⟨Equiv.ofBijective f (Finite.injective_iff_bijective.1 hinj), fun i => ?_⟩
  rw [List.getElem?_eq_getElem (by rw [hl]; exact i.isLt)]
  rfl

theorem toVec_pickAt {K : Type _} [Field K] {n : Nat} {idx : List Nat} {σ : Equiv.Perm (Fin n)}
    (hσ : ∀ i : Fin n, idx[i.val]? = some (σ i).val) (v : List K) :
    toVec n (pickAt 0 idx v) = toVec n v ∘ σ := by
  funext i
  simp only [toVec, Function.comp_apply]
  rw [getElem?_pickAt 0 idx v _ _ (hσ i), Option.getD_some, List.getD_eq_getElem?_getD]

theorem pickAt_set {K : Type _} [Field K] {n : Nat} {idx : List Nat} (hl : idx.length = n)
    {σ : Equiv.Perm (Fin n)} (hσ : ∀ i : Fin n, idx[i.val]? = some (σ i).val) (v : List K)
    (hv : v.length = n) (j : Fin n) (u : K) :
    pickAt 0 idx (v.set (σ j) u) = (pickAt 0 idx v).set j u := by
  apply toVec_inj n _ _ (by rw [length_pickAt, hl]) (by rw [List.length_set, length_pickAt, hl])
  rw [toVec_pickAt hσ]
  funext i
  have hp : (pickAt 0 idx v).length = n := by rw [length_pickAt, hl]
  have hpi := getElem?_pickAt 0 idx v _ _ (hσ i)
  simp only [toVec, Function.comp_apply, List.getElem?_set]
  by_cases hij : j = i
  · subst hij
    rw [if_pos rfl, if_pos (by rw [hv]; exact (σ j).isLt), if_pos rfl,
      if_pos (by rw [hp]; exact j.isLt)]
  · have h1 : (σ j).val ≠ (σ i).val := fun h => hij (σ.injective (Fin.ext h))
    have h2 : j.val ≠ i.val := fun h => hij (Fin.ext h)
    rw [if_neg h1, if_neg h2, hpi, Option.getD_some, List.getD_eq_getElem?_getD]

variable {nx np : Nat}

/-- The solution of the step of the second model is the reordered solution of the first, if the residuals
of the second are a constant invertible combination of those of the first. -/
theorem solve_pick {ix it : List Nat} (hix : ix.Perm (List.range nx)) (hit : it.Perm (List.range np))
    (G₁ G₂ : List ℝ → List ℝ) (ok₁ ok₂ : List ℝ → Prop)
    (A₁ A₂ : (Fin nx → ℝ) → (Fin np → ℝ) → Matrix (Fin nx) (Fin nx) ℝ)
    (B₁ B₂ : (Fin nx → ℝ) → (Fin np → ℝ) → Matrix (Fin nx) (Fin np) ℝ)
    (D₁ : DerivativesOf G₁ ok₁ A₁ B₁) (D₂ : DerivativesOf G₂ ok₂ A₂ B₂)
    (R : Matrix (Fin nx) (Fin nx) ℝ) (hR : IsUnit R.det)
    (hG : ∀ x t, x.length = nx → t.length = np →
      toVec nx (G₂ (pickAt 0 ix x ++ pickAt 0 it t)) = R.mulVec (toVec nx (G₁ (x ++ t))))
    (x t h d : List ℝ) (hx : x.length = nx) (ht : t.length = np) (hh : h.length = np)
    (h₁ : ok₁ (x ++ t)) (h₂ : ok₂ (pickAt 0 ix x ++ pickAt 0 it t))
    (hd : (vecJac A₁ B₁).solve x t h = .ok d) :
    (vecJac A₂ B₂).solve (pickAt 0 ix x) (pickAt 0 it t) (pickAt 0 it h) = .ok (pickAt 0 ix d) := by
  have ld := (vecJac A₁ B₁).lenOK x t h d hx ht hh hd
  obtain ⟨hu, hs⟩ := (vecJac A₁ B₁).solve_spec x t h d hd
  obtain ⟨σ, hσ⟩ := perm_equiv hix
  obtain ⟨τ, hτ⟩ := perm_equiv hit
  have lix : ix.length = nx := by rw [hix.length_eq, List.length_range]
  have lit : it.length = np := by rw [hit.length_eq, List.length_range]
  have lpx : (pickAt 0 ix x).length = nx := by rw [length_pickAt, lix]
  have lpt : (pickAt 0 it t).length = np := by rw [length_pickAt, lit]
  have ex := ofFn_toVec nx x hx
  have et := ofFn_toVec np t ht
  have epx := ofFn_toVec nx _ lpx
  have ept := ofFn_toVec np _ lpt
  obtain ⟨a1, b1⟩ := D₁ (toVec nx x) (toVec np t) (by rw [ex, et]; exact h₁)
  obtain ⟨a2, b2⟩ := D₂ (toVec nx (pickAt 0 ix x)) (toVec np (pickAt 0 it t))
    (by rw [epx, ept]; exact h₂)
  rw [ex, et] at a1 b1
  rw [epx, ept] at a2 b2
  have row : ∀ (x' t' : List ℝ), x'.length = nx → t'.length = np → ∀ i : Fin nx,
      (G₂ (pickAt 0 ix x' ++ pickAt 0 it t')).getD i 0 =
        ∑ k, R i k * (G₁ (x' ++ t')).getD k 0 := by
    intro x' t' hx' ht' i
    have := congrFun (hG x' t' hx' ht') i
    simp only [toVec, Matrix.mulVec, dotProduct] at this
    simp only [List.getD_eq_getElem?_getD]
    exact this
  have hA : A₂ (toVec nx (pickAt 0 ix x)) (toVec np (pickAt 0 it t)) =
      (R * A₁ (toVec nx x) (toVec np t)).submatrix id σ := by
    ext i j
    have e1 := a2 i j
    have e2 : HasDerivAt (fun u => ∑ k, R i k * (G₁ ((x ++ t).set (σ j) u)).getD k 0)
        (∑ k, R i k * A₁ (toVec nx x) (toVec np t) k (σ j)) (toVec nx x (σ j)) :=
      HasDerivAt.fun_sum fun k _ => (a1 k (σ j)).const_mul (R i k)
    have e3 : (fun u => (G₂ ((pickAt 0 ix x ++ pickAt 0 it t).set j u)).getD i 0) =
        fun u => ∑ k, R i k * (G₁ ((x ++ t).set (σ j) u)).getD k 0 := by
      funext u
      rw [List.set_append_left _ _ (by rw [lpx]; exact j.isLt),
        List.set_append_left _ _ (by rw [hx]; exact (σ j).isLt), ← pickAt_set lix hσ x hx j u]
      exact row _ _ (by rw [List.length_set, hx]) ht i
    rw [e3] at e1
    have e4 : toVec nx (pickAt 0 ix x) j = toVec nx x (σ j) := congrFun (toVec_pickAt hσ x) j
    rw [e4] at e1
    rw [e1.unique e2]
    rfl
  have hB : B₂ (toVec nx (pickAt 0 ix x)) (toVec np (pickAt 0 it t)) =
      (R * B₁ (toVec nx x) (toVec np t)).submatrix id τ := by
    ext i j
    have e1 := b2 i j
    have e2 : HasDerivAt (fun u => ∑ k, R i k * (G₁ ((x ++ t).set (nx + τ j) u)).getD k 0)
        (∑ k, R i k * B₁ (toVec nx x) (toVec np t) k (τ j)) (toVec np t (τ j)) :=
      HasDerivAt.fun_sum fun k _ => (b1 k (τ j)).const_mul (R i k)
    have e3 : (fun u => (G₂ ((pickAt 0 ix x ++ pickAt 0 it t).set (nx + j) u)).getD i 0) =
        fun u => ∑ k, R i k * (G₁ ((x ++ t).set (nx + τ j) u)).getD k 0 := by
      funext u
      rw [List.set_append_right _ _ (by rw [lpx]; omega), lpx, Nat.add_sub_cancel_left,
        List.set_append_right _ _ (by rw [hx]; omega), hx, Nat.add_sub_cancel_left,
        ← pickAt_set lit hτ t ht j u]
      exact row _ _ hx (by rw [List.length_set, ht]) i
    rw [e3] at e1
    have e4 : toVec np (pickAt 0 it t) j = toVec np t (τ j) := congrFun (toVec_pickAt hτ t) j
    rw [e4] at e1
    rw [e1.unique e2]
    rfl
  have hu' : IsUnit (A₁ (toVec nx x) (toVec np t)).det := hu
  have hdet : IsUnit (A₂ (toVec nx (pickAt 0 ix x)) (toVec np (pickAt 0 it t))).det := by
    rw [hA, Matrix.det_permute', Matrix.det_mul]
    refine IsUnit.mul ?_ (hR.mul hu')
    rw [isUnit_iff_ne_zero]
    rcases Int.units_eq_one_or (Equiv.Perm.sign σ) with h | h <;> rw [h] <;> simp
  have hsol := (vecJac A₂ B₂).solve_of_isUnit (pickAt 0 ix x) (pickAt 0 it t) (pickAt 0 it h) hdet
  rw [hsol]
  obtain ⟨-, hs2⟩ := (vecJac A₂ B₂).solve_spec _ _ _ _ hsol
  rw [toVec_ofFn] at hs2
  congr 1
  apply toVec_inj nx _ _ (by rw [List.length_ofFn]) (by rw [length_pickAt, lix])
  rw [toVec_ofFn]
  apply mulVec_inj_of_isUnit _ hdet
  refine (eq_neg_of_add_eq_zero_left hs2).trans ?_
  have e5 : (A₂ (toVec nx (pickAt 0 ix x)) (toVec np (pickAt 0 it t))).mulVec
      (toVec nx (pickAt 0 ix d)) = R.mulVec ((A₁ (toVec nx x) (toVec np t)).mulVec (toVec nx d)) := by
    rw [hA, toVec_pickAt hσ, Matrix.submatrix_mulVec_equiv, Matrix.mulVec_mulVec]
    simp [Function.comp_assoc]
  have e6 : (B₂ (toVec nx (pickAt 0 ix x)) (toVec np (pickAt 0 it t))).mulVec
      (toVec np (pickAt 0 it h)) = R.mulVec ((B₁ (toVec nx x) (toVec np t)).mulVec (toVec np h)) := by
    rw [hB, toVec_pickAt hτ, Matrix.submatrix_mulVec_equiv, Matrix.mulVec_mulVec]
    simp [Function.comp_assoc]
  have hs' : (A₁ (toVec nx x) (toVec np t)).mulVec (toVec nx d) =
      -(B₁ (toVec nx x) (toVec np t)).mulVec (toVec np h) := eq_neg_of_add_eq_zero_left hs
  show -(B₂ (toVec nx (pickAt 0 ix x)) (toVec np (pickAt 0 it t))).mulVec (toVec np (pickAt 0 it h)) =
    (A₂ (toVec nx (pickAt 0 ix x)) (toVec np (pickAt 0 it t))).mulVec (toVec nx (pickAt 0 ix d))
  rw [e5, e6, hs', Matrix.mulVec_neg]

/-! ### The values of the equations -/

/-- A point of the model, read by name, does not depend on the order of the objects. -/
theorem flatPoint_pick {N₁ N₂ : List Str} {idx : List Nat} (hN : N₁.Nodup)
    (hidx : idx.Perm (List.range N₁.length)) (hN₂ : N₂ = pickAt [] idx N₁) (flat : List ℝ)
    (hl : flat.length = N₁.length) :
    flatPoint N₂ (pickAt 0 idx flat) = flatPoint N₁ flat := by
  have hlen : idx.length = N₁.length := by rw [hidx.length_eq, List.length_range]
  obtain ⟨σ, hσ⟩ := perm_equiv hidx
  have h2 : ∀ i : Fin N₁.length, N₂[i.val]? = some (N₁[(σ i).val]) := by
    intro i
    rw [hN₂, getElem?_pickAt [] idx N₁ _ _ (hσ i), List.getD_eq_getElem?_getD,
      List.getElem?_eq_getElem (σ i).isLt, Option.getD_some]
  have hlen2 : N₂.length = N₁.length := by rw [hN₂, length_pickAt, hlen]
  have hN2 : N₂.Nodup := by
    rw [List.nodup_iff_getElem?_ne_getElem?]
    intro i j hij hj heq
    have hi' : i < N₁.length := by omega
    have hj' : j < N₁.length := by omega
    rw [h2 ⟨i, hi'⟩, h2 ⟨j, hj'⟩, Option.some.injEq] at heq
    have := (hN.getElem_inj_iff).1 heq
    have := σ.injective (Fin.ext this)
    simp only [Fin.mk.injEq] at this
    omega
  funext a
  by_cases ha : a ∈ N₁
  · obtain ⟨p, hp⟩ := List.getElem?_of_mem ha
    have hpl := (List.getElem?_eq_some_iff.1 hp).1
    have hk : N₂[(σ.symm ⟨p, hpl⟩).val]? = some a := by
      rw [h2, ← hp, List.getElem?_eq_getElem hpl]
      simp only [Equiv.apply_symm_apply]
    rw [flatPoint_at hN flat hp, flatPoint_at hN2 _ hk, List.getD_eq_getElem?_getD,
      getElem?_pickAt 0 idx flat _ _ (hσ _), Equiv.apply_symm_apply, Option.getD_some]
  · have ha2 : a ∉ N₂ := by
      intro h
      obtain ⟨i, hi⟩ := List.getElem?_of_mem h
      have hil := (List.getElem?_eq_some_iff.1 hi).1
      rw [h2 ⟨i, by omega⟩, Option.some.injEq] at hi
      exact ha (hi ▸ List.getElem_mem _)
    unfold flatPoint
    rw [List.idxOf_eq_length ha, List.idxOf_eq_length ha2, List.getD_eq_getElem?_getD,
      List.getD_eq_getElem?_getD, List.getElem?_eq_none (by rw [length_pickAt]; omega),
      List.getElem?_eq_none (by omega)]

theorem scalarNames_blocks (coords : Coords) (objs : List ModelObject) :
    scalarNames coords objs = (objs.map fun o => (product (o.dims.map (labelsOf coords))).map fun ls =>
      joinStr "_".toList (o.name :: ls)).flatten := by
  unfold scalarNames
  rw [List.flatMap_def]

theorem flatPoint_perm {coords : Coords} {l₁ l₂ : List ModelObject} (h : l₂.Perm l₁)
    (hN : (scalarNames coords l₁).Nodup) (d : Dict Str (NDArray ℝ)) (hd : ∀ o ∈ l₁, DataFor coords d o) :
    flatPoint (scalarNames coords l₂) (flatOf d l₂) = flatPoint (scalarNames coords l₁) (flatOf d l₁) := by
  -- one list of positions for names and values
  obtain ⟨idx, h1, h2⟩ := perm_blocks (α := Str × ℝ) (specSize coords) ([], 0) h
  have hlen : ∀ o ∈ l₁, ((dget d o.name).map NDArray.data |>.getD []).length = specSize coords o := by
    intro o ho
    obtain ⟨a, g1, g2, g3⟩ := hd o ho
    rw [g1]
    show a.data.length = _
    rw [g3, g2]
    rfl
  have hnlen : ∀ o : ModelObject, ((product (o.dims.map (labelsOf coords))).map fun ls =>
      joinStr "_".toList (o.name :: ls)).length = specSize coords o := by
    intro o
    have := length_scalarNames coords [o]
    simpa [scalarNames, totalSize] using this
  have e := h2 (fun o => ((product (o.dims.map (labelsOf coords))).map fun ls =>
      joinStr "_".toList (o.name :: ls)).zip ((dget d o.name).map NDArray.data |>.getD []))
    (fun o ho => by rw [List.length_zip, hnlen, hlen o ho, min_self])
  have unz : ∀ l : List ModelObject, (∀ o ∈ l, o ∈ l₁) →
      (l.map fun o => ((product (o.dims.map (labelsOf coords))).map fun ls =>
        joinStr "_".toList (o.name :: ls)).zip ((dget d o.name).map NDArray.data |>.getD [])).flatten =
      (scalarNames coords l).zip (flatOf d l) := by
    intro l hl
    induction l with
    | nil => rfl
    | cons o l ih =>
      have ho := hl o (by simp)
      rw [List.map_cons, List.flatten_cons, ih fun o ho => hl o (by simp [ho]), scalarNames_blocks,
        scalarNames_blocks, List.map_cons, List.flatten_cons]
      unfold flatOf
      rw [List.map_cons, List.flatten_cons, List.zip_append]
      rw [hnlen, hlen o ho]
  rw [unz l₁ fun o ho => ho, unz l₂ fun o ho => h.mem_iff.1 ho] at e
  have ln : ∀ l, (scalarNames coords l).length = totalSize coords l := fun l => length_scalarNames coords l
  have lf1 := (flatOf_spec coords d l₁ hd).1
  have lf2 := (flatOf_spec coords d l₂ fun o ho => hd o (h.mem_iff.1 ho)).1
  have hsz := totalSize_perm (coords := coords) h
  have hlt : ∀ k ∈ idx, k < totalSize coords l₁ := fun k hk => List.mem_range.1 (h1.mem_iff.1 hk)
  have ef : scalarNames coords l₂ = pickAt [] idx (scalarNames coords l₁) := by
    have := congrArg (List.map Prod.fst) e
    rw [List.map_fst_zip (by rw [ln, lf2])] at this
    rw [this]
    unfold pickAt
    rw [List.map_map]
    apply List.map_congr_left
    intro k hk
    have hk' := hlt k hk
    simp only [Function.comp_apply, List.getD_eq_getElem?_getD]
    rw [List.getElem?_eq_getElem (by rw [List.length_zip, ln, lf1]; omega),
      List.getElem?_eq_getElem (by rw [ln]; omega)]
    simp
  have es : flatOf d l₂ = pickAt 0 idx (flatOf d l₁) := by
    have := congrArg (List.map Prod.snd) e
    rw [List.map_snd_zip (by rw [ln, lf2])] at this
    rw [this]
    unfold pickAt
    rw [List.map_map]
    apply List.map_congr_left
    intro k hk
    have hk' := hlt k hk
    simp only [Function.comp_apply, List.getD_eq_getElem?_getD]
    rw [List.getElem?_eq_getElem (by rw [List.length_zip, ln, lf1]; omega),
      List.getElem?_eq_getElem (by rw [lf1]; omega)]
    simp
  rw [es]
  exact flatPoint_pick hN (by rw [ln]; exact h1) ef _ (by rw [lf1, ln])

end Verif
