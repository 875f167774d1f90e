import Verif.Model.Euler
import Verif.Spec.Euler
import Verif.Lemmas.Flat
import Verif.Props.Wrappers

/-! Helper lemmas for the Euler routines: all of them run the same recursion on flat vectors. -/

namespace Verif

variable {K : Type _} [Field K]

/-- The arrays of the objects whose packed data is `v`. -/
def arraysOf {α : Type _} (coords : Coords) (objs : List ModelObject) (v : List α) :
    List (NDArray α) :=
  List.zipWith (fun o b => (⟨specShape coords o, b⟩ : NDArray α)) objs
    (splitBlocks (objs.map (specSize coords)) v)

theorem arraysOf_cons {α : Type _} (coords : Coords) (o : ModelObject) (objs : List ModelObject)
    (v : List α) : arraysOf coords (o :: objs) v
      = ⟨specShape coords o, v.take (specSize coords o)⟩ ::
        arraysOf coords objs (v.drop (specSize coords o)) := rfl

theorem totalSize_cons (coords : Coords) (o : ModelObject) (objs : List ModelObject) :
    totalSize coords (o :: objs) = specSize coords o + totalSize coords objs := by
  simp [totalSize]

theorem length_arraysOf {α : Type _} (coords : Coords) (objs : List ModelObject) (v : List α) :
    (arraysOf coords objs v).length = objs.length := by
  simp [arraysOf, length_splitBlocks]

theorem arraysOf_getElem? {α : Type _} (coords : Coords) (objs : List ModelObject) (v : List α)
    (m : Nat) (o : ModelObject) (ho : objs[m]? = some o) :
    (arraysOf coords objs v)[m]? = some ⟨specShape coords o,
      (v.drop (offsetOf coords objs m)).take (specSize coords o)⟩ := by
  induction objs generalizing v m with
  | nil => simp at ho
  | cons a objs ih =>
    rw [arraysOf_cons]
    cases m with
    | zero =>
      simp only [List.getElem?_cons_zero, Option.some.injEq] at ho
      subst ho
      simp [offsetOf, totalSize]
    | succ m =>
      rw [List.getElem?_cons_succ] at ho ⊢
      rw [ih _ m ho, List.drop_drop]
      have : offsetOf coords (a :: objs) (m + 1) = specSize coords a + offsetOf coords objs m := by
        simp [offsetOf, totalSize]
      rw [this]

theorem arraysOf_append {α : Type _} (coords : Coords) (as bs : List ModelObject) (v w : List α)
    (hv : v.length = totalSize coords as) :
    arraysOf coords (as ++ bs) (v ++ w) = arraysOf coords as v ++ arraysOf coords bs w := by
  induction as generalizing v with
  | nil =>
    have : v = [] := by simpa [totalSize] using hv
    subst this; simp [arraysOf, splitBlocks]
  | cons a as ih =>
    rw [totalSize_cons] at hv
    rw [List.cons_append, arraysOf_cons, arraysOf_cons, List.cons_append,
      List.take_append_of_le_length (by omega), List.drop_append_of_le_length (by omega),
      ih _ (by rw [List.length_drop]; omega)]

theorem flatData_arraysOf (coords : Coords) (objs : List ModelObject) (v : List K)
    (hv : v.length = totalSize coords objs) : flatData (arraysOf coords objs v) = v := by
  induction objs generalizing v with
  | nil =>
    have : v = [] := by simpa [totalSize] using hv
    subst this; rfl
  | cons o objs ih =>
    rw [totalSize_cons] at hv
    have := ih (v.drop (specSize coords o)) (by rw [List.length_drop]; omega)
    unfold flatData at this ⊢
    rw [arraysOf_cons, List.map_cons, List.flatten_cons, this]
    exact List.take_append_drop _ _

theorem azip_arraysOf (f : K → K → K) (coords : Coords) (objs : List ModelObject) (v w : List K) :
    ((arraysOf coords objs v).zip (arraysOf coords objs w)).mapM (fun p => azip f p.1 p.2)
      = .ok (arraysOf coords objs (List.zipWith f v w)) := by
  induction objs generalizing v w with
  | nil => rfl
  | cons o objs ih =>
    rw [arraysOf_cons, arraysOf_cons, arraysOf_cons, List.zip_cons_cons, List.mapM_cons, ih]
    simp only [azip, if_true, bind, Except.bind, pure, Except.pure, List.take_zipWith,
      List.drop_zipWith]

theorem raggedLoop_arraysOf (coords : Coords) (objs : List ModelObject) (v : List K) (c : Nat)
    (hv : c + totalSize coords objs ≤ v.length) :
    raggedLoop v (objs.map (specShape coords)) c = .ok (arraysOf coords objs (v.drop c)) := by
  induction objs generalizing c with
  | nil => rfl
  | cons o objs ih =>
    rw [totalSize_cons] at hv
    have hs : (specShape coords o).prod = specSize coords o := rfl
    simp only [List.map_cons, raggedLoop, hs, slice_eq, bind, Except.bind, pure, Except.pure]
    rw [ih (c + specSize coords o) (by omega)]
    unfold reshape
    rw [if_pos (by rw [List.length_take, List.length_drop, hs]; omega), arraysOf_cons, List.drop_drop]

theorem ragged_arraysOf (coords : Coords) (objs : List ModelObject) (v : List K)
    (hv : v.length = totalSize coords objs) :
    flatTensorToRaggedList v (objs.map (specShape coords)) = .ok (arraysOf coords objs v) := by
  rw [flatTensorToRaggedList, raggedLoop_arraysOf _ _ _ _ (by omega), List.drop_zero]

theorem vzip_ok (f : K → K → K) (a b : List K) (h : a.length = b.length) :
    vzip f a b = .ok (List.zipWith f a b) := by
  rw [vzip, if_pos h]

/-- Correctly shaped data are the arrays of some flat vector. -/
theorem data_arraysOf {α : Type _} (coords : Coords) (d : Dict Str (NDArray α))
    (objs : List ModelObject) (hd : ∀ o ∈ objs, DataFor coords d o) :
    ∃ v : List α, v.length = totalSize coords objs ∧
      objs.mapM (fun o => dgetE d o.name) = .ok (arraysOf coords objs v) ∧
      ravelNamed d objs = .ok ((arraysOf coords objs v).map NDArray.data) ∧
      ((arraysOf coords objs v).map NDArray.data).flatten = v ∧
      ∀ p ∈ (objs.map ModelObject.name).zip (arraysOf coords objs v), p ∈ d := by
  induction objs with
  | nil => exact ⟨[], rfl, rfl, rfl, rfl, by simp⟩
  | cons o objs ih =>
    obtain ⟨v, h1, h2, h3, h4, h5⟩ := ih (fun o h => hd o (by simp [h]))
    obtain ⟨a, ha, hs, hwf⟩ := hd o (by simp)
    have hl : a.data.length = specSize coords o := by rw [hwf, hs]; rfl
    have hA : arraysOf coords (o :: objs) (a.data ++ v) = a :: arraysOf coords objs v := by
      rw [arraysOf_cons, ← hl, List.take_left, List.drop_left, ← hs]
    refine ⟨a.data ++ v, ?_, ?_, ?_, ?_, ?_⟩
    · rw [totalSize_cons, List.length_append]; omega
    · rw [hA, List.mapM_cons, dgetE_of_some ha, h2]; rfl
    · unfold ravelNamed at h3 ⊢
      rw [hA, List.mapM_cons, dgetE_of_some ha, h3]; rfl
    · rw [hA, List.map_cons, List.flatten_cons, h4]
    · rw [hA]
      intro p hp
      rw [List.map_cons, List.zip_cons_cons, List.mem_cons] at hp
      rcases hp with rfl | hp
      · exact mem_of_dget _ ha
      · exact h5 p hp

/-! ## The common recursion -/

/-- The rows after each step, as pairs (variables, parameters). -/
def eulerRows (dx : StepSolve K) (h : List K) : Nat → List K → List K → Res (List (List K × List K))
  | 0, _, _ => .ok []
  | k + 1, x, t =>
      match dx x t h with
      | .error e => .error e
      | .ok d =>
          match eulerRows dx h k (List.zipWith (· + ·) x d) (List.zipWith (· + ·) t h) with
          | .error e => .error e
          | .ok r => .ok ((List.zipWith (· + ·) x d, List.zipWith (· + ·) t h) :: r)

theorem eulerRows_lengths (dx : StepSolve K) (nx np : Nat) (hdx : LenOK dx nx np) (h : List K)
    (hh : h.length = np) (k : Nat) (x t : List K) (hx : x.length = nx) (ht : t.length = np)
    (R : List (List K × List K)) (hR : eulerRows dx h k x t = .ok R) :
    R.length = k ∧ ∀ r ∈ R, r.1.length = nx ∧ r.2.length = np := by
  induction k generalizing x t R with
  | zero =>
    simp only [eulerRows, Except.ok.injEq] at hR
    subst hR; simp
  | succ k ih =>
    unfold eulerRows at hR
    cases hd : dx x t h with
    | error e => rw [hd] at hR; cases hR
    | ok d =>
      rw [hd] at hR
      dsimp only at hR
      have hdl := hdx x t h d hx ht hh hd
      have hx' : (List.zipWith (· + ·) x d).length = nx := by simp [hx, hdl]
      have ht' : (List.zipWith (· + ·) t h).length = np := by simp [ht, hh]
      cases hr : eulerRows dx h k (List.zipWith (· + ·) x d) (List.zipWith (· + ·) t h) with
      | error e => rw [hr] at hR; cases hR
      | ok r =>
        rw [hr] at hR
        simp only [Except.ok.injEq] at hR
        subst hR
        obtain ⟨h1, h2⟩ := ih _ _ hx' ht' r hr
        refine ⟨by simp [h1], ?_⟩
        intro q hq
        rcases List.mem_cons.1 hq with rfl | hq
        · exact ⟨hx', ht'⟩
        · exact h2 q hq

theorem numbaLoop_eq (dx : StepSolve K) (nx np : Nat) (hdx : LenOK dx nx np) (h : List K)
    (hh : h.length = np) (k : Nat) (x t : List K) (hx : x.length = nx) (ht : t.length = np) :
    numbaLoop (numbaStep dx nx) h k (x ++ t)
      = (eulerRows dx h k x t).map (List.map fun r => r.1 ++ r.2) := by
  induction k generalizing x t with
  | zero => rfl
  | succ k ih =>
    have h1 : (x ++ t).take nx = x := by rw [← hx, List.take_left]
    have h2 : (x ++ t).drop nx = t := by rw [← hx, List.drop_left]
    unfold numbaLoop eulerRows numbaStep
    rw [h1, h2]
    cases hd : dx x t h with
    | error e => rfl
    | ok d =>
      have hdl := hdx x t h d hx ht hh hd
      simp only [bind, Except.bind]
      rw [vzip_ok _ _ _ (by simp [hx, ht, hdl, hh]),
        List.zipWith_append (by omega)]
      dsimp only
      have := ih (List.zipWith (· + ·) x d) (List.zipWith (· + ·) t h) (by simp [hx, hdl])
        (by simp [ht, hh])
      unfold numbaStep at this
      rw [this]
      cases eulerRows dx h k (List.zipWith (· + ·) x d) (List.zipWith (· + ·) t h) <;> rfl

/-- The parameter step `(theta_final - theta0) / n`. -/
def stepVec (n : Nat) (tf t0 : List K) : List K := List.zipWith (fun a b => (a - b) / (n : K)) tf t0

theorem numbaEuler_eq (dx : StepSolve K) (nx np : Nat) (hdx : LenOK dx nx np) (n : Nat)
    (x0 t0 tf : List K) (hx : x0.length = nx) (ht : t0.length = np) (hf : tf.length = np) :
    numbaEuler (numbaStep dx nx) x0 t0 tf n
      = (eulerRows dx (stepVec n tf t0) n x0 t0).map
          (fun R => (x0 ++ t0) :: R.map fun r => r.1 ++ r.2) := by
  unfold numbaEuler
  simp only [bind, Except.bind, pure, Except.pure]
  rw [vzip_ok _ _ _ (by omega)]
  dsimp only
  have : (List.zipWith (· - ·) tf t0).map (· / (n : K)) = stepVec n tf t0 := by
    rw [List.map_zipWith]; rfl
  rw [this, numbaLoop_eq dx nx np hdx _ (by simp [stepVec, ht, hf]) n x0 t0 hx ht]
  cases eulerRows dx (stepVec n tf t0) n x0 t0 <;> rfl

/-! ## One step on arrays -/

theorem pytensorEulerStep_eq (dx : StepSolve K) (coords : Coords) (vars params : List ModelObject)
    (hdx : LenOK dx (totalSize coords vars) (totalSize coords params)) (n : Nat)
    (x t t0 tf : List K) (hx : x.length = totalSize coords vars)
    (ht : t.length = totalSize coords params) (ht0 : t0.length = totalSize coords params)
    (htf : tf.length = totalSize coords params) :
    pytensorEulerStep dx (vars.map (specShape coords)) n (arraysOf coords vars x)
        (arraysOf coords params t) (arraysOf coords params t0) (arraysOf coords params tf)
      = (dx x t (stepVec n tf t0)).map fun d => arraysOf coords vars (List.zipWith (· + ·) x d)
          ++ arraysOf coords params (List.zipWith (· + ·) t (stepVec n tf t0)) := by
  have hs : (stepVec n tf t0).length = totalSize coords params := by simp [stepVec, ht0, htf]
  unfold pytensorEulerStep
  simp only [bind, Except.bind, pure, Except.pure, azip_arraysOf]
  rw [show List.zipWith (fun a b => (a - b) / (n : K)) tf t0 = stepVec n tf t0 from rfl,
    flatData_arraysOf _ _ _ hx, flatData_arraysOf _ _ _ ht, flatData_arraysOf _ _ _ hs]
  cases hd : dx x t (stepVec n tf t0) with
  | error e => rfl
  | ok d =>
    have hdl := hdx _ _ _ _ hx ht hs hd
    simp only [ragged_arraysOf _ _ _ hdl, azip_arraysOf, Except.map]

theorem jaxIncrement_len (dx : StepSolve K) (nx np : Nat) (hdx : LenOK dx nx np) (useRk4 : Bool) :
    LenOK (jaxIncrement dx useRk4) nx np := by
  intro x t h d hx ht hh hd
  cases useRk4 with
  | false => exact hdx x t h d hx ht hh hd
  | true =>
    unfold jaxIncrement at hd
    simp only [if_true, bind, Except.bind] at hd
    cases h1 : dx x t h with
    | error e => rw [h1] at hd; cases hd
    | ok d1 =>
      have l1 := hdx _ _ _ _ hx ht hh h1
      rw [h1] at hd
      dsimp only at hd
      rw [vzip_ok _ _ _ (by omega), vzip_ok _ _ _ (by omega)] at hd
      dsimp only at hd
      generalize hx2 : List.zipWith (fun a b => a + 2⁻¹ * b) x d1 = x2 at hd
      generalize ht2 : List.zipWith (fun a b => a + 2⁻¹ * b) t h = t2 at hd
      have lx2 : x2.length = nx := by rw [← hx2]; simp [hx, l1]
      have lt2 : t2.length = np := by rw [← ht2]; simp [ht, hh]
      cases h2 : dx x2 t2 h with
      | error e => rw [h2] at hd; cases hd
      | ok d2 =>
        have l2 := hdx _ _ _ _ lx2 lt2 hh h2
        rw [h2] at hd
        dsimp only at hd
        rw [vzip_ok _ _ _ (by omega)] at hd
        dsimp only at hd
        generalize hx3 : List.zipWith (fun a b => a + 2⁻¹ * b) x d2 = x3 at hd
        have lx3 : x3.length = nx := by rw [← hx3]; simp [hx, l2]
        cases h3 : dx x3 t2 h with
        | error e => rw [h3] at hd; cases hd
        | ok d3 =>
          have l3 := hdx _ _ _ _ lx3 lt2 hh h3
          rw [h3] at hd
          dsimp only at hd
          rw [vzip_ok _ _ _ (by omega), vzip_ok _ _ _ (by omega)] at hd
          dsimp only at hd
          generalize hx4 : List.zipWith (fun a b => a + b) x d3 = x4 at hd
          generalize ht4 : List.zipWith (fun a b => a + b) t h = t4 at hd
          have lx4 : x4.length = nx := by rw [← hx4]; simp [hx, l3]
          have lt4 : t4.length = np := by rw [← ht4]; simp [ht, hh]
          cases h4 : dx x4 t4 h with
          | error e => rw [h4] at hd; cases hd
          | ok d4 =>
            have l4 := hdx _ _ _ _ lx4 lt4 hh h4
            rw [h4] at hd
            simp only [vrk4, bind, Except.bind, pure, Except.pure] at hd
            rw [vzip_ok _ _ _ (by omega)] at hd
            dsimp only at hd
            rw [vzip_ok _ _ _ (by simp [l1, l2, l3])] at hd
            dsimp only at hd
            rw [vzip_ok _ _ _ (by simp [l1, l2, l3, l4])] at hd
            simp only [Except.ok.injEq] at hd
            rw [← hd]
            simp [l1, l2, l3, l4]

theorem jaxEulerStep_eq (dx : StepSolve K) (rk4 : Bool) (coords : Coords)
    (vars params : List ModelObject)
    (hdx : LenOK dx (totalSize coords vars) (totalSize coords params)) (n : Nat)
    (x t t0 tf : List K) (hx : x.length = totalSize coords vars)
    (ht : t.length = totalSize coords params) (ht0 : t0.length = totalSize coords params)
    (htf : tf.length = totalSize coords params) :
    jaxEulerStep dx rk4 (vars.map (specShape coords)) (params.map (specShape coords)) n
        (arraysOf coords vars x) (arraysOf coords params t) (arraysOf coords params t0)
        (arraysOf coords params tf)
      = (jaxIncrement dx rk4 x t (stepVec n tf t0)).map fun d =>
          arraysOf coords vars (List.zipWith (· + ·) x d)
          ++ arraysOf coords params (List.zipWith (· + ·) t (stepVec n tf t0)) := by
  have hs : (stepVec n tf t0).length = totalSize coords params := by simp [stepVec, ht0, htf]
  unfold jaxEulerStep
  simp only [bind, Except.bind, pure, Except.pure]
  rw [flatData_arraysOf _ _ _ hx, flatData_arraysOf _ _ _ ht, flatData_arraysOf _ _ _ ht0,
    flatData_arraysOf _ _ _ htf, vzip_ok _ _ _ (by omega)]
  dsimp only
  rw [show List.zipWith (fun a b => (a - b) / (n : K)) tf t0 = stepVec n tf t0 from rfl]
  cases hd : jaxIncrement dx rk4 x t (stepVec n tf t0) with
  | error e => rfl
  | ok d =>
    have hdl := jaxIncrement_len dx _ _ hdx rk4 _ _ _ _ hx ht hs hd
    dsimp only
    rw [vzip_ok _ _ _ (by omega), vzip_ok _ _ _ (by omega)]
    dsimp only
    rw [ragged_arraysOf _ _ _ (by simp [hx, hdl]), ragged_arraysOf _ _ _ (by simp [ht, hs])]
    rfl

theorem scanStep_eq (dx : StepSolve K) (rk4 : Bool) (coords : Coords)
    (vars params : List ModelObject)
    (hdx : LenOK dx (totalSize coords vars) (totalSize coords params)) (n : Nat)
    (x t t0 tf : List K) (hx : x.length = totalSize coords vars)
    (ht : t.length = totalSize coords params) (ht0 : t0.length = totalSize coords params)
    (htf : tf.length = totalSize coords params) :
    scanStep dx rk4 (vars.map (specShape coords)) (params.map (specShape coords)) n t0 tf
        (arraysOf coords vars x) (arraysOf coords params t)
      = (jaxIncrement dx rk4 x t (stepVec n tf t0)).map fun d =>
          (arraysOf coords vars (List.zipWith (· + ·) x d),
            arraysOf coords params (List.zipWith (· + ·) t (stepVec n tf t0))) := by
  have hs : (stepVec n tf t0).length = totalSize coords params := by simp [stepVec, ht0, htf]
  unfold scanStep
  simp only [bind, Except.bind, pure, Except.pure]
  rw [vzip_ok _ _ _ (by omega)]
  dsimp only
  rw [show List.zipWith (fun a b => (a - b) / (n : K)) tf t0 = stepVec n tf t0 from rfl,
    ragged_arraysOf _ _ _ hs]
  dsimp only
  generalize hh : stepVec n tf t0 = h at hs
  rw [flatData_arraysOf _ _ _ hx, flatData_arraysOf _ _ _ ht]
  cases rk4 with
  | false =>
    simp only [jaxIncrement, Bool.false_eq_true, if_false]
    cases hd : dx x t h with
    | error e => rfl
    | ok d =>
      have hdl := hdx _ _ _ _ hx ht hs hd
      simp only [ragged_arraysOf _ _ _ hdl, azip_arraysOf, Except.map]
  | true =>
    simp only [jaxIncrement, if_true, bind, Except.bind, pure, Except.pure]
    cases h1 : dx x t h with
    | error e => rfl
    | ok d1 =>
      have l1 := hdx _ _ _ _ hx ht hs h1
      dsimp only
      rw [vzip_ok _ x d1 (by omega), vzip_ok _ t h (by omega)]
      simp only [ragged_arraysOf _ _ _ l1, azip_arraysOf]
      rw [flatData_arraysOf _ _ (List.zipWith (fun a b => a + 2⁻¹ * b) x d1) (by simp [hx, l1]),
        flatData_arraysOf _ _ (List.zipWith (fun a b => a + 2⁻¹ * b) t h) (by simp [ht, hs])]
      generalize hx2 : List.zipWith (fun a b => a + 2⁻¹ * b) x d1 = x2
      generalize ht2 : List.zipWith (fun a b => a + 2⁻¹ * b) t h = t2
      have lx2 : x2.length = totalSize coords vars := by rw [← hx2]; simp [hx, l1]
      have lt2 : t2.length = totalSize coords params := by rw [← ht2]; simp [ht, hs]
      cases h2 : dx x2 t2 h with
      | error e => rfl
      | ok d2 =>
        have l2 := hdx _ _ _ _ lx2 lt2 hs h2
        dsimp only
        rw [vzip_ok _ x d2 (by omega)]
        simp only [ragged_arraysOf _ _ _ l2, azip_arraysOf]
        rw [flatData_arraysOf _ _ (List.zipWith (fun a b => a + 2⁻¹ * b) x d2) (by simp [hx, l2])]
        generalize hx3 : List.zipWith (fun a b => a + 2⁻¹ * b) x d2 = x3
        have lx3 : x3.length = totalSize coords vars := by rw [← hx3]; simp [hx, l2]
        cases h3 : dx x3 t2 h with
        | error e => rfl
        | ok d3 =>
          have l3 := hdx _ _ _ _ lx3 lt2 hs h3
          dsimp only
          rw [vzip_ok _ x d3 (by omega), vzip_ok _ t h (by omega)]
          simp only [ragged_arraysOf _ _ _ l3, azip_arraysOf]
          rw [flatData_arraysOf _ _ (List.zipWith (fun a b => a + b) x d3) (by simp [hx, l3]),
            flatData_arraysOf _ _ (List.zipWith (fun a b => a + b) t h) (by simp [ht, hs])]
          generalize hx4 : List.zipWith (fun a b => a + b) x d3 = x4
          generalize ht4 : List.zipWith (fun a b => a + b) t h = t4
          have lx4 : x4.length = totalSize coords vars := by rw [← hx4]; simp [hx, l3]
          have lt4 : t4.length = totalSize coords params := by rw [← ht4]; simp [ht, hs]
          cases h4 : dx x4 t4 h with
          | error e => rfl
          | ok d4 =>
            have l4 := hdx _ _ _ _ lx4 lt4 hs h4
            simp only [vrk4, bind, Except.bind, pure, Except.pure]
            rw [vzip_ok _ d1 d2 (by omega)]
            dsimp only
            rw [vzip_ok _ _ d3 (by simp [l1, l2, l3])]
            dsimp only
            rw [vzip_ok _ _ d4 (by simp [l1, l2, l3, l4])]
            simp only [ragged_arraysOf _ _ _ l4, azip_arraysOf, Except.map, ht4]

/-! ## The scan -/

theorem scanLoop_eq (dx inc : StepSolve K) (coords : Coords) (vars params : List ModelObject)
    (hinc : LenOK inc (totalSize coords vars) (totalSize coords params)) (h : List K)
    (hh : h.length = totalSize coords params)
    (step : List (NDArray K) → List (NDArray K) → Res (List (NDArray K) × List (NDArray K)))
    (hstep : ∀ x t, x.length = totalSize coords vars → t.length = totalSize coords params →
      step (arraysOf coords vars x) (arraysOf coords params t) = (inc x t h).map fun d =>
        (arraysOf coords vars (List.zipWith (· + ·) x d),
          arraysOf coords params (List.zipWith (· + ·) t h)))
    (k : Nat) (x t : List K) (hx : x.length = totalSize coords vars)
    (ht : t.length = totalSize coords params) :
    scanLoop step k (arraysOf coords vars x) (arraysOf coords params t)
      = (eulerRows inc h k x t).map
          (List.map fun r => arraysOf coords (vars ++ params) (r.1 ++ r.2)) := by
  induction k generalizing x t with
  | zero => rfl
  | succ k ih =>
    unfold scanLoop eulerRows
    rw [hstep x t hx ht]
    cases hd : inc x t h with
    | error e => rfl
    | ok d =>
      have hdl := hinc _ _ _ _ hx ht hh hd
      simp only [Except.map, bind, Except.bind]
      rw [ih _ _ (by simp [hx, hdl]) (by simp [ht, hh])]
      cases eulerRows inc h k (List.zipWith (· + ·) x d) (List.zipWith (· + ·) t h) with
      | error e => rfl
      | ok r =>
        simp only [Except.map, pure, Except.pure, List.map_cons]
        rw [arraysOf_append _ _ _ _ _ (by simp [hx, hdl])]

/-! ## Splitting a trajectory -/

/-- The array of each object over the rows of a trajectory. -/
def trajArrays {α : Type _} (coords : Coords) (objs : List ModelObject) (rows : List (List α)) :
    List (NDArray α) :=
  objs.mapIdx fun m o => ⟨rows.length :: specShape coords o,
    (rows.map fun row => (row.drop (offsetOf coords objs m)).take (specSize coords o)).flatten⟩

theorem splitTrajectory_eq {α : Type _} (coords : Coords) (objs : List ModelObject)
    (rows : List (List α)) (hk : ∀ o ∈ objs, KnownDims coords o)
    (hpos : ∀ o ∈ objs, specSize coords o ≠ 0)
    (hrows : ∀ r ∈ rows, r.length = totalSize coords objs) :
    splitTrajectory rows objs coords = .ok (trajArrays coords objs rows) := by
  obtain ⟨out, h1, h2, h3⟩ := splitTrajectoryLoop_ok rows coords objs 0 hpos
    (fun r hr => by rw [hrows r hr]; omega)
  unfold splitTrajectory
  rw [mapM_ok_of_forall _ (specShape coords) _ (fun o h => inferShape_eq (hk o h))]
  simp only [bind, Except.bind]
  rw [h1]
  congr 1
  apply List.ext_getElem?
  intro m
  unfold trajArrays
  rw [List.getElem?_mapIdx]
  cases ho : objs[m]? with
  | none =>
    rw [List.getElem?_eq_none_iff] at ho
    rw [List.getElem?_eq_none (by omega)]; rfl
  | some o => rw [h3 m o ho]; simp

/-! ## The python loop -/

theorem mapM_dgetE_of_mem {α : Type _} (kw : Dict Str α) (hn : (dkeys kw).Nodup) (l : List Str)
    (as : List α) (hl : l.length = as.length) (h : ∀ p ∈ l.zip as, p ∈ kw) :
    l.mapM (dgetE kw) = .ok as := by
  induction l generalizing as with
  | nil =>
    cases as with
    | nil => rfl
    | cons a as => simp at hl
  | cons k l ih =>
    cases as with
    | nil => simp at hl
    | cons a as =>
      rw [List.mapM_cons, dgetE_of_some (dget_of_mem_nodup _ hn (h (k, a) (by simp))),
        ih as (by simpa using hl) (fun p hp => h p (by simp [hp]))]
      rfl

theorem mapM_dgetE_suffix {α : Type _} (kw : Dict Str α) (hn : (dkeys kw).Nodup) (suf : Str)
    (l : List Str) (as : List α) (hl : l.length = as.length)
    (h : ∀ p ∈ l.zip as, (p.1 ++ suf, p.2) ∈ kw) :
    l.mapM (fun k => dgetE kw (k ++ suf)) = .ok as := by
  induction l generalizing as with
  | nil =>
    cases as with
    | nil => rfl
    | cons a as => simp at hl
  | cons k l ih =>
    cases as with
    | nil => simp at hl
    | cons a as =>
      rw [List.mapM_cons, dgetE_of_some (dget_of_mem_nodup _ hn (h (k, a) (by simp))),
        ih as (by simpa using hl) (fun p hp => h p (by simp [hp]))]
      rfl

theorem mapM_ok_mapIdx {α β : Type _} (f : α → Res β) (g : Nat → α → β) (l : List α)
    (h : ∀ (i : Nat) a, l[i]? = some a → f a = .ok (g i a)) : l.mapM f = .ok (l.mapIdx g) := by
  induction l generalizing g with
  | nil => rfl
  | cons a l ih =>
    rw [List.mapM_cons, h 0 a rfl, ih (fun i => g (i + 1)) (fun i b hb => h (i + 1) b (by simpa using hb)),
      List.mapIdx_cons]
    rfl

/-- What a row of results must contain for the state `r`. -/
def RowOK (coords : Coords) (objs : List ModelObject) (row : Dict Str (NDArray K))
    (r : List K × List K) : Prop :=
  ∀ (m : Nat) o, objs[m]? = some o → dget row o.name = some ⟨specShape coords o,
    ((r.1 ++ r.2).drop (offsetOf coords objs m)).take (specSize coords o)⟩

theorem stackResults_eq (coords : Coords) (objs : List ModelObject) (rows : List (Dict Str (NDArray K)))
    (R : List (List K × List K)) (h : List.Forall₂ (RowOK coords objs) rows R) (m : Nat)
    (o : ModelObject) (ho : objs[m]? = some o) :
    stackResults rows o.name (specShape coords o) = .ok ⟨R.length :: specShape coords o,
      ((R.map fun r => r.1 ++ r.2).map fun row =>
        (row.drop (offsetOf coords objs m)).take (specSize coords o)).flatten⟩ := by
  have key : rows.mapM (fun row => do
      let v ← dgetE row o.name
      if v.shape = specShape coords o then return v.data else (.error .valueError : Res (List K)))
      = .ok ((R.map fun r => r.1 ++ r.2).map fun row =>
        (row.drop (offsetOf coords objs m)).take (specSize coords o)) := by
    induction h with
    | nil => rfl
    | cons h1 _ ih =>
      rw [List.mapM_cons, dgetE_of_some (h1 m o ho), ih]
      simp [bind, Except.bind, pure, Except.pure]
  unfold stackResults
  rw [key, h.length_eq]
  rfl

theorem zip_names_arraysOf {α : Type _} (coords : Coords) (objs : List ModelObject) (v : List α) :
    (objs.map ModelObject.name).zip (arraysOf coords objs v) = flatPairs coords objs v := by
  induction objs generalizing v with
  | nil => rfl
  | cons o objs ih =>
    rw [arraysOf_cons, List.map_cons, List.zip_cons_cons, ih]
    rfl

theorem pyEulerLoop_eq (inc : StepSolve K) (coords : Coords) (vars params : List ModelObject)
    (hinc : LenOK inc (totalSize coords vars) (totalSize coords params)) (n : Nat)
    (step : ArrayStep K) (t0 tf : List K)
    (hh : (stepVec n tf t0).length = totalSize coords params)
    (hstep : ∀ x t, x.length = totalSize coords vars → t.length = totalSize coords params →
      step n (arraysOf coords vars x) (arraysOf coords params t) (arraysOf coords params t0)
        (arraysOf coords params tf) = (inc x t (stepVec n tf t0)).map fun d =>
          arraysOf coords vars (List.zipWith (· + ·) x d)
            ++ arraysOf coords params (List.zipWith (· + ·) t (stepVec n tf t0)))
    (dataKeys : List Str) (tfKw tiKw : Dict Str (NDArray K))
    (hkeys : ("n_steps".toList :: (params.map ModelObject.name ++ vars.map ModelObject.name ++
      dkeys tfKw ++ dkeys tiKw)).Nodup)
    (hdk : dataKeys.Perm ((vars ++ params).map ModelObject.name))
    (htf : ∀ p ∈ (params.map ModelObject.name).zip (arraysOf coords params tf),
      (p.1 ++ "_final".toList, p.2) ∈ tfKw)
    (hti : ∀ p ∈ (params.map ModelObject.name).zip (arraysOf coords params t0),
      (p.1 ++ "_initial".toList, p.2) ∈ tiKw)
    (k : Nat) (x t : List K) (hx : x.length = totalSize coords vars)
    (ht : t.length = totalSize coords params) (curVars curParams : Dict Str (NDArray K))
    (hcv : (dkeys curVars).Perm (vars.map ModelObject.name))
    (hcp : (dkeys curParams).Perm (params.map ModelObject.name))
    (hmv : ∀ p ∈ (vars.map ModelObject.name).zip (arraysOf coords vars x), p ∈ curVars)
    (hmp : ∀ p ∈ (params.map ModelObject.name).zip (arraysOf coords params t), p ∈ curParams) :
    match eulerRows inc (stepVec n tf t0) k x t with
    | .error e => pyEulerLoop (callByName step (vars.map ModelObject.name)
        (params.map ModelObject.name) n) (vars.map ModelObject.name) (params.map ModelObject.name)
        dataKeys tfKw tiKw k curVars curParams = .error e
    | .ok R => ∃ rows, pyEulerLoop (callByName step (vars.map ModelObject.name)
        (params.map ModelObject.name) n) (vars.map ModelObject.name) (params.map ModelObject.name)
        dataKeys tfKw tiKw k curVars curParams = .ok rows ∧
        List.Forall₂ (RowOK coords (vars ++ params)) rows R := by
  induction k generalizing x t curVars curParams with
  | zero => exact ⟨[], rfl, .nil⟩
  | succ k ih =>
    -- the merged keywords
    have hperm : ("n_steps".toList :: ([curParams, curVars, tfKw, tiKw].flatten.map Prod.fst)).Perm
        ("n_steps".toList :: (params.map ModelObject.name ++ vars.map ModelObject.name ++
      dkeys tfKw ++ dkeys tiKw)) := by
      apply List.Perm.cons
      simp only [List.flatten_cons, List.flatten_nil, List.append_nil, List.map_append]
      rw [← List.append_assoc, ← List.append_assoc]
      exact (((hcp.append hcv).append_right _).append_right _)
    have hnd := hperm.nodup_iff.2 hkeys
    have hkwn : (dkeys [curParams, curVars, tfKw, tiKw].flatten).Nodup := (List.nodup_cons.1 hnd).2
    have hmerge : mergeKw [curParams, curVars, tfKw, tiKw] = .ok [curParams, curVars, tfKw, tiKw].flatten := by
      rw [mergeKw, if_pos hnd]
    have hlv : (vars.map ModelObject.name).length = (arraysOf coords vars x).length := by
      rw [length_arraysOf, List.length_map]
    have hlp : ∀ v : List K, (params.map ModelObject.name).length = (arraysOf coords params v).length := by
      intro v; rw [length_arraysOf, List.length_map]
    have hcall : callByName step (vars.map ModelObject.name) (params.map ModelObject.name) n
        [curParams, curVars, tfKw, tiKw].flatten = (inc x t (stepVec n tf t0)).map fun d =>
          arraysOf coords vars (List.zipWith (· + ·) x d)
            ++ arraysOf coords params (List.zipWith (· + ·) t (stepVec n tf t0)) := by
      unfold callByName
      rw [mapM_dgetE_of_mem _ hkwn _ _ hlv (fun p hp => by simp [hmv p hp]),
        mapM_dgetE_of_mem _ hkwn _ _ (hlp t) (fun p hp => by simp [hmp p hp]),
        mapM_dgetE_suffix _ hkwn _ _ _ (hlp t0) (fun p hp => by
          have := hti p hp
          simp only [List.flatten_cons, List.flatten_nil, List.append_nil, List.mem_append]
          exact Or.inr (Or.inr (Or.inr this))),
        mapM_dgetE_suffix _ hkwn _ _ _ (hlp tf) (fun p hp => by
          have := htf p hp
          simp only [List.flatten_cons, List.flatten_nil, List.append_nil, List.mem_append]
          exact Or.inr (Or.inr (Or.inl this)))]
      exact hstep x t hx ht
    unfold pyEulerLoop eulerRows
    simp only [hmerge, hcall, bind, Except.bind]
    cases hd : inc x t (stepVec n tf t0) with
    | error e => rfl
    | ok d =>
      have hdl := hinc _ _ _ _ hx ht hh hd
      simp only [Except.map]
      generalize hx' : List.zipWith (fun a b => a + b) x d = x'
      generalize ht' : List.zipWith (fun a b => a + b) t (stepVec n tf t0) = t'
      have lx' : x'.length = totalSize coords vars := by rw [← hx']; simp [hx, hdl]
      have lt' : t'.length = totalSize coords params := by rw [← ht']; simp [ht, hh]
      have hnames : ((vars ++ params).map ModelObject.name).Nodup := by
        have h1 := (List.nodup_cons.1 hkeys).2
        rw [List.append_assoc] at h1
        have h2 := (List.nodup_append.1 h1).1
        rw [List.map_append]
        exact (List.perm_append_comm.nodup_iff).1 h2
      have hnv : (vars.map ModelObject.name).Nodup := by
        rw [List.map_append] at hnames; exact (List.nodup_append.1 hnames).1
      have hnp : (params.map ModelObject.name).Nodup := by
        rw [List.map_append] at hnames; exact (List.nodup_append.1 hnames).2.1
      have htake : (arraysOf coords vars x' ++ arraysOf coords params t').take
          (vars.map ModelObject.name).length = arraysOf coords vars x' := by
        rw [List.length_map, ← length_arraysOf coords vars x', List.take_left]
      have hdrop : (arraysOf coords vars x' ++ arraysOf coords params t').drop
          (vars.map ModelObject.name).length = arraysOf coords params t' := by
        rw [List.length_map, ← length_arraysOf coords vars x', List.drop_left]
      rw [htake, hdrop, zip_names_arraysOf, zip_names_arraysOf,
        dofPairs_of_nodup _ (by rw [map_fst_flatPairs]; exact hnv),
        dofPairs_of_nodup _ (by rw [map_fst_flatPairs]; exact hnp)]
      -- the row that is written
      have hS : flatPairs coords vars x' ++ flatPairs coords params t'
          = flatPairs coords (vars ++ params) (x' ++ t') := by
        rw [← zip_names_arraysOf, ← zip_names_arraysOf, ← zip_names_arraysOf,
          arraysOf_append _ _ _ _ _ lx', List.map_append, List.zip_append]
        rw [length_arraysOf, List.length_map]
      have hSk : dkeys (flatPairs coords (vars ++ params) (x' ++ t'))
          = (vars ++ params).map ModelObject.name := map_fst_flatPairs _ _ _
      have hlook : ∀ key, (if key ∈ vars.map ModelObject.name
            then dgetE (flatPairs coords vars x') key else dgetE (flatPairs coords params t') key)
          = dgetE (flatPairs coords (vars ++ params) (x' ++ t')) key := by
        intro key
        have hkv : dkeys (flatPairs coords vars x') = vars.map ModelObject.name :=
          map_fst_flatPairs _ _ _
        rw [← hS]
        unfold dgetE
        rw [dget_append]
        by_cases hm : key ∈ vars.map ModelObject.name
        · rw [if_pos hm]
          obtain ⟨v, hv⟩ := (mem_dkeys_iff _ _).1 (hkv ▸ hm)
          rw [hv]; rfl
        · have hnone : dget (flatPairs coords vars x') key = none :=
            (dget_eq_none_iff _ _).2 (by rw [hkv]; exact hm)
          rw [if_neg hm, hnone]; rfl
      have hrow : dataKeys.mapM (fun key =>
            if key ∈ vars.map ModelObject.name then
              (dgetE (flatPairs coords vars x') key).bind (fun v => pure (key, v))
            else
              (dgetE (flatPairs coords params t') key).bind (fun v => pure (key, v)))
          = (.ok (dataKeys.map fun key => (key,
              (dget (flatPairs coords (vars ++ params) (x' ++ t')) key).getD ⟨[], []⟩)) :
              Res (List (Str × NDArray K))) := by
        apply mapM_ok_of_forall
        intro key hkey
        have : key ∈ dkeys (flatPairs coords (vars ++ params) (x' ++ t')) := by
          rw [hSk]; exact hdk.mem_iff.1 hkey
        obtain ⟨v, hv⟩ := (mem_dkeys_iff _ _).1 this
        have hl := hlook key
        rw [dgetE_of_some hv] at hl
        rw [hv]
        by_cases hm : key ∈ vars.map ModelObject.name
        · rw [if_pos hm] at hl ⊢
          rw [hl]; rfl
        · rw [if_neg hm] at hl ⊢
          rw [hl]; rfl
      simp only [Except.bind] at hrow
      rw [hrow]
      dsimp only
      have hok : RowOK coords (vars ++ params) (dataKeys.map fun key => (key,
          (dget (flatPairs coords (vars ++ params) (x' ++ t')) key).getD ⟨[], []⟩)) (x', t') := by
        intro m o ho
        have hp := List.mem_of_getElem? (flatPairs_getElem? coords (vars ++ params) (x' ++ t') m o ho)
        have hg := dget_of_mem_nodup _ (by rw [hSk]; exact hnames) hp
        apply dget_of_mem_nodup
        · have : dkeys (dataKeys.map fun key => (key,
            (dget (flatPairs coords (vars ++ params) (x' ++ t')) key).getD ⟨[], []⟩)) = dataKeys := by
            simp [dkeys, Function.comp_def]
          rw [this]
          exact hdk.nodup_iff.2 hnames
        · refine List.mem_map.2 ⟨o.name, ?_, by rw [hg]; rfl⟩
          exact hdk.mem_iff.2 (List.mem_map_of_mem (f := ModelObject.name) (List.mem_of_getElem? ho))
      have ih' := ih x' t' lx' lt' (flatPairs coords vars x') (flatPairs coords params t')
        (by rw [show dkeys (flatPairs coords vars x') = _ from map_fst_flatPairs _ _ _])
        (by rw [show dkeys (flatPairs coords params t') = _ from map_fst_flatPairs _ _ _])
        (fun p hp => by rw [zip_names_arraysOf] at hp; exact hp)
        (fun p hp => by rw [zip_names_arraysOf] at hp; exact hp)
      cases hR : eulerRows inc (stepVec n tf t0) k x' t' with
      | error e =>
        rw [hR] at ih'
        dsimp only at ih' ⊢
        rw [ih']
      | ok R =>
        rw [hR] at ih'
        dsimp only at ih' ⊢
        obtain ⟨rows, h1, h2⟩ := ih'
        rw [h1]
        exact ⟨_, rfl, .cons hok h2⟩

theorem filter_perm (l a b : List Str) (h : l.Perm (a ++ b)) (hn : (a ++ b).Nodup) :
    (l.filter fun k => decide (k ∈ a)).Perm a ∧ (l.filter fun k => decide (k ∈ b)).Perm b := by
  rw [List.nodup_append] at hn
  refine ⟨(h.filter _).trans ?_, (h.filter _).trans ?_⟩
  · rw [List.filter_append, List.filter_eq_self.2 (by simp), List.filter_eq_nil_iff.2, List.append_nil]
    intro k hk hc
    exact hn.2.2 k (by simpa using hc) k hk rfl
  · have hb : b.filter (fun k => decide (k ∈ b)) = b := List.filter_eq_self.2 (by simp)
    have ha : a.filter (fun k => decide (k ∈ b)) = [] := List.filter_eq_nil_iff.2 (by
      intro k hk hc
      exact hn.2.2 k hk k (by simpa using hc) rfl)
    rw [List.filter_append, ha, hb, List.nil_append]

theorem dkeys_filter {α : Type _} (d : Dict Str α) (q : Str → Bool) :
    dkeys (d.filter fun kv => q kv.1) = (dkeys d).filter q := by
  unfold dkeys
  rw [List.filter_map]; rfl

theorem pythonLoopEuler_eq (inc : StepSolve K) (coords : Coords) (vars params : List ModelObject)
    (hinc : LenOK inc (totalSize coords vars) (totalSize coords params)) (n : Nat)
    (step : ArrayStep K) (x0 t0 tf : List K)
    (hstep : ∀ x t, x.length = totalSize coords vars → t.length = totalSize coords params →
      step n (arraysOf coords vars x) (arraysOf coords params t) (arraysOf coords params t0)
        (arraysOf coords params tf) = (inc x t (stepVec n tf t0)).map fun d =>
          arraysOf coords vars (List.zipWith (· + ·) x d)
            ++ arraysOf coords params (List.zipWith (· + ·) t (stepVec n tf t0)))
    (hk : ∀ o ∈ vars ++ params, KnownDims coords o) (hkw : KeywordsOK vars params)
    (data : Dict Str (NDArray K))
    (hdk : (dkeys data).Perm ((vars ++ params).map ModelObject.name))
    (hx : x0.length = totalSize coords vars) (ht : t0.length = totalSize coords params)
    (htf : tf.length = totalSize coords params)
    (hmv : ∀ p ∈ (vars.map ModelObject.name).zip (arraysOf coords vars x0), p ∈ data)
    (hmp : ∀ p ∈ (params.map ModelObject.name).zip (arraysOf coords params t0), p ∈ data) :
    pythonLoopEuler step vars params coords tf n data
      = (eulerRows inc (stepVec n tf t0) n x0 t0).map fun R =>
          trajArrays coords (vars ++ params) (R.map fun r => r.1 ++ r.2) := by
  have hnames : ((vars ++ params).map ModelObject.name).Nodup := by
    have h1 := (List.nodup_cons.1 hkw).2
    rw [List.append_assoc] at h1
    exact (List.nodup_append.1 h1).1
  have hnames' := hnames
  rw [List.map_append] at hnames'
  have hnp : (params.map ModelObject.name).Nodup := (List.nodup_append.1 hnames').2.1
  have hdn : (dkeys data).Nodup := hdk.nodup_iff.2 hnames
  have hdk' := hdk
  rw [List.map_append] at hdk'
  obtain ⟨hpv, hpp⟩ := filter_perm _ _ _ hdk' hnames'
  have hs : (stepVec n tf t0).length = totalSize coords params := by simp [stepVec, ht, htf]
  have hkp : ∀ o ∈ params, KnownDims coords o := fun o h => hk o (by simp [h])
  have htfd : flatArrayToVariableDict tf params coords = .ok (flatPairs coords params tf) := by
    rw [flatArrayToVariableDict, flatToDictLoop_ok _ _ _ hkp _ _ (by omega), List.drop_zero]
    apply congrArg Except.ok
    apply dofPairs_of_nodup
    rw [map_fst_flatPairs]; exact hnp
  -- keys of the two suffixed dicts
  have hsufinj : ∀ suf : Str, ∀ l : List Str, l.Nodup → (l.map fun k => k ++ suf).Nodup := by
    intro suf l hl
    exact List.Nodup.map (fun a b h => List.append_cancel_right h) hl
  have htfk : ((flatPairs coords params tf).map fun kv => (kv.1 ++ "_final".toList, kv.2)).map Prod.fst
      = params.map fun o => o.name ++ "_final".toList := by
    rw [List.map_map]
    have := congrArg (List.map fun k => k ++ "_final".toList) (map_fst_flatPairs coords params tf)
    rw [List.map_map, List.map_map] at this
    exact this
  have htik : (((data.filter fun kv => decide (kv.1 ∈ params.map ModelObject.name)).map fun kv =>
      (kv.1 ++ "_initial".toList, kv.2)).map Prod.fst).Perm
      (params.map fun o => o.name ++ "_initial".toList) := by
    have h1 : (dkeys (data.filter fun kv => decide (kv.1 ∈ params.map ModelObject.name))).Perm
        (params.map ModelObject.name) := by
      rw [dkeys_filter data fun k => decide (k ∈ params.map ModelObject.name)]; exact hpp
    have h2 := h1.map fun k => k ++ "_initial".toList
    rw [List.map_map] at h2
    unfold dkeys at h2
    rw [List.map_map] at h2
    rw [List.map_map]
    exact h2
  have htin : (((data.filter fun kv => decide (kv.1 ∈ params.map ModelObject.name)).map fun kv =>
      (kv.1 ++ "_initial".toList, kv.2)).map Prod.fst).Nodup := by
    rw [htik.nodup_iff]
    have := hsufinj "_initial".toList _ hnp
    rw [List.map_map] at this
    exact this
  have hkeys : ("n_steps".toList :: (params.map ModelObject.name ++ vars.map ModelObject.name ++
      dkeys ((flatPairs coords params tf).map fun kv => (kv.1 ++ "_final".toList, kv.2)) ++
      dkeys ((data.filter fun kv => decide (kv.1 ∈ params.map ModelObject.name)).map fun kv =>
        (kv.1 ++ "_initial".toList, kv.2)))).Nodup := by
    refine (List.Perm.nodup_iff ?_).2 hkw
    apply List.Perm.cons
    refine List.Perm.append (List.Perm.append ?_ ?_) htik
    · rw [List.map_append]; exact List.perm_append_comm
    · unfold dkeys; rw [htfk]
  have hshapes : (vars.map ModelObject.name ++ params.map ModelObject.name).mapM
      (fun k => (dgetE data k).map NDArray.shape) = .ok ((vars ++ params).map (specShape coords)) := by
    rw [← List.map_append, List.mapM_map]
    apply mapM_ok_of_forall
    intro o ho
    have hmem : ∀ (os : List ModelObject) (v : List K), o ∈ os →
        (∀ p ∈ (os.map ModelObject.name).zip (arraysOf coords os v), p ∈ data) →
        ∃ a : NDArray K, (o.name, a) ∈ data ∧ a.shape = specShape coords o := by
      intro os v hos hm
      obtain ⟨m, hm', hmo⟩ := List.getElem_of_mem hos
      have hm'' : os[m]? = some o := by rw [List.getElem?_eq_getElem hm', hmo]
      refine ⟨⟨specShape coords o, (v.drop (offsetOf coords os m)).take (specSize coords o)⟩,
        hm _ ?_, ?_⟩
      · rw [zip_names_arraysOf]
        exact List.mem_of_getElem? (flatPairs_getElem? coords os v m o hm'')
      · rfl
    have : ∃ a : NDArray K, (o.name, a) ∈ data ∧ a.shape = specShape coords o := by
      rcases List.mem_append.1 ho with h | h
      · exact hmem vars x0 h hmv
      · exact hmem params t0 h hmp
    obtain ⟨a, ha, hsh⟩ := this
    simp only [Function.comp]
    rw [dgetE_of_some (dget_of_mem_nodup _ hdn ha)]
    simp [Except.map, hsh]
  have hloop := pyEulerLoop_eq inc coords vars params hinc n step t0 tf hs hstep (dkeys data)
    ((flatPairs coords params tf).map fun kv => (kv.1 ++ "_final".toList, kv.2))
    ((data.filter fun kv => decide (kv.1 ∈ params.map ModelObject.name)).map fun kv =>
        (kv.1 ++ "_initial".toList, kv.2)) hkeys hdk
    (fun p hp => by
      rw [zip_names_arraysOf] at hp
      exact List.mem_map.2 ⟨p, hp, rfl⟩)
    (fun p hp => by
      refine List.mem_map.2 ⟨p, ?_, rfl⟩
      rw [List.mem_filter]
      exact ⟨hmp p hp, by simpa using (List.of_mem_zip hp).1⟩)
    n x0 t0 hx ht (data.filter fun kv => decide (kv.1 ∈ vars.map ModelObject.name))
    (data.filter fun kv => decide (kv.1 ∈ params.map ModelObject.name))
    (by rw [dkeys_filter data fun k => decide (k ∈ vars.map ModelObject.name)]; exact hpv)
    (by rw [dkeys_filter data fun k => decide (k ∈ params.map ModelObject.name)]; exact hpp)
    (fun p hp => by rw [List.mem_filter]; exact ⟨hmv p hp, by simpa using (List.of_mem_zip hp).1⟩)
    (fun p hp => by rw [List.mem_filter]; exact ⟨hmp p hp, by simpa using (List.of_mem_zip hp).1⟩)
  unfold pythonLoopEuler
  simp only [htfd, hshapes, bind, Except.bind]
  rw [dofPairs_of_nodup _ (by rw [htfk]; have := hsufinj "_final".toList _ hnp; rw [List.map_map] at this; exact this),
    dofPairs_of_nodup _ htin]
  cases hR : eulerRows inc (stepVec n tf t0) n x0 t0 with
  | error e =>
    rw [hR] at hloop
    dsimp only at hloop
    rw [hloop]; rfl
  | ok R =>
    rw [hR] at hloop
    dsimp only at hloop
    obtain ⟨rows, h1, h2⟩ := hloop
    rw [h1]
    simp only [Except.map]
    have hz : (vars.map ModelObject.name ++ params.map ModelObject.name).zip
        ((vars ++ params).map (specShape coords))
        = (vars ++ params).map fun o => (o.name, specShape coords o) := by
      rw [← List.map_append, List.zip_map']
    rw [hz, List.mapM_map]
    unfold trajArrays
    apply mapM_ok_mapIdx
    intro m o ho
    rw [List.length_map]
    exact stackResults_eq coords (vars ++ params) rows R h2 m o ho

end Verif
