import Verif.Lemmas.Euler

/-!
# Every Euler back-end computes the rows of the same recursion
-/

namespace Verif

variable {K : Type _} [Field K]

theorem flatOf_of_mapM (d : Dict Str (NDArray K)) (objs : List ModelObject) (as : List (NDArray K))
    (h : objs.mapM (fun o => dgetE d o.name) = .ok as) : flatOf d objs = flatData as := by
  induction objs generalizing as with
  | nil =>
    rw [List.mapM_nil] at h
    injection h with h
    subst h; rfl
  | cons o objs ih =>
    rw [List.mapM_cons] at h
    cases ho : dget d o.name with
    | none => rw [dgetE_of_none ho] at h; cases h
    | some a =>
      rw [dgetE_of_some ho] at h
      simp only [bind, Except.bind] at h
      cases hr : objs.mapM (fun o => dgetE d o.name) with
      | error e => rw [hr] at h; cases h
      | ok r =>
        rw [hr] at h
        injection h with h
        subst h
        have := ih r hr
        simp only [flatOf, flatData] at this ⊢
        rw [List.map_cons, List.flatten_cons, List.map_cons, List.flatten_cons, this, ho]
        rfl

theorem flatOf_append (d : Dict Str (NDArray K)) (as bs : List ModelObject) :
    flatOf d (as ++ bs) = flatOf d as ++ flatOf d bs := by simp [flatOf]

/-- The facts about the initial data that the back-ends use. -/
theorem flatOf_spec (coords : Coords) (d : Dict Str (NDArray K)) (objs : List ModelObject)
    (hd : ∀ o ∈ objs, DataFor coords d o) :
    (flatOf d objs).length = totalSize coords objs ∧
      objs.mapM (fun o => dgetE d o.name) = .ok (arraysOf coords objs (flatOf d objs)) ∧
      ravelNamed d objs = .ok ((arraysOf coords objs (flatOf d objs)).map NDArray.data) ∧
      ((arraysOf coords objs (flatOf d objs)).map NDArray.data).flatten = flatOf d objs ∧
      ∀ p ∈ (objs.map ModelObject.name).zip (arraysOf coords objs (flatOf d objs)), p ∈ d := by
  obtain ⟨v, h1, h2, h3, h4, h5⟩ := data_arraysOf coords d objs hd
  have : flatOf d objs = v := by rw [flatOf_of_mapM d objs _ h2]; exact h4
  rw [this]
  exact ⟨h1, h2, h3, h4, h5⟩

theorem scanEuler_eq (dx : StepSolve K) (rk4 : Bool) (coords : Coords) (vars params : List ModelObject)
    (data : Dict Str (NDArray K)) (tf : List K) (n : Nat)
    (hc : EulerCall coords vars params data tf)
    (hdx : LenOK dx (totalSize coords vars) (totalSize coords params)) :
    scanEuler dx rk4 vars params coords tf n data
      = (eulerRows (jaxIncrement dx rk4) (stepVec n tf (flatOf data params)) n (flatOf data vars)
          (flatOf data params)).map fun R => trajArrays coords (vars ++ params)
            ((flatOf data vars ++ flatOf data params) :: R.map fun r => r.1 ++ r.2) := by
  obtain ⟨lx, hx, -, -, -⟩ := flatOf_spec coords data vars (fun o h => hc.shaped o (by simp [h]))
  obtain ⟨lt, ht, -, htf, -⟩ := flatOf_spec coords data params (fun o h => hc.shaped o (by simp [h]))
  have hsv : vars.mapM (fun o => inferShape o coords) = .ok (vars.map (specShape coords)) :=
    mapM_ok_of_forall _ _ _ (fun o h => inferShape_eq (hc.known o (by simp [h])))
  have hsp : params.mapM (fun o => inferShape o coords) = .ok (params.map (specShape coords)) :=
    mapM_ok_of_forall _ _ _ (fun o h => inferShape_eq (hc.known o (by simp [h])))
  have hs : (stepVec n tf (flatOf data params)).length = totalSize coords params := by
    simp [stepVec, lt, hc.final]
  unfold scanEuler
  simp only [hx, ht, hsv, hsp, bind, Except.bind, pure, Except.pure]
  rw [show flatData (arraysOf coords params (flatOf data params)) = flatOf data params from htf]
  rw [scanLoop_eq dx (jaxIncrement dx rk4) coords vars params (jaxIncrement_len dx _ _ hdx rk4)
    (stepVec n tf (flatOf data params)) hs _
    (fun x t hx' ht' => scanStep_eq dx rk4 coords vars params hdx n x t _ _ hx' ht' lt hc.final)
    n _ _ lx lt]
  cases eulerRows (jaxIncrement dx rk4) (stepVec n tf (flatOf data params)) n (flatOf data vars)
    (flatOf data params) with
  | error e => rfl
  | ok R =>
    simp only [Except.map]
    apply congrArg Except.ok
    rw [← arraysOf_append _ _ _ _ _ lx]
    apply List.ext_getElem?
    intro m
    unfold trajArrays
    rw [List.getElem?_mapIdx, List.getElem?_mapIdx]
    rcases Nat.lt_or_ge m (vars ++ params).length with hm | hm
    · rw [arraysOf_getElem? coords _ _ m _ (List.getElem?_eq_getElem hm), List.getElem?_eq_getElem hm]
      simp only [Option.map_some, stackWithInitial, List.length_map, List.length_cons, List.map_cons,
        List.flatten_cons, List.map_map]
      congr 3
      congr 1
      apply List.map_congr_left
      intro r _
      simp only [Function.comp]
      rw [arraysOf_getElem? coords _ _ m _ (List.getElem?_eq_getElem hm)]
      rfl
    · rw [List.getElem?_eq_none (by rw [length_arraysOf]; exact hm), List.getElem?_eq_none hm]
      rfl

/-- **Every back-end is the recursion `eulerRows`.** -/
theorem runEuler_eq (b : EulerBackend) (dx : StepSolve K) (coords : Coords)
    (vars params : List ModelObject) (data : Dict Str (NDArray K)) (tf : List K) (n : Nat)
    (hc : EulerCall coords vars params data tf)
    (hdx : LenOK dx (totalSize coords vars) (totalSize coords params)) :
    runEuler b dx vars params coords tf n data
      = (eulerRows (jaxIncrement dx b.rk4) (stepVec n tf (flatOf data params)) n (flatOf data vars)
          (flatOf data params)).map fun R => trajArrays coords (vars ++ params)
            ((if b.keepsStart then [flatOf data vars ++ flatOf data params] else []) ++
              R.map fun r => r.1 ++ r.2) := by
  obtain ⟨lx, hx, hrv, hfv, hmv⟩ := flatOf_spec coords data vars (fun o h => hc.shaped o (by simp [h]))
  obtain ⟨lt, ht, hrp, hfp, hmp⟩ :=
    flatOf_spec coords data params (fun o h => hc.shaped o (by simp [h]))
  have hs : (stepVec n tf (flatOf data params)).length = totalSize coords params := by
    simp [stepVec, lt, hc.final]
  have hjf : jaxIncrement dx false = dx := by
    funext x t h; simp [jaxIncrement]
  cases b with
  | numba =>
    simp only [runEuler, EulerBackend.rk4, EulerBackend.keepsStart, hjf, if_true]
    have hpack : variableDictToFlatArray data vars params
        = .ok (flatOf data vars, flatOf data params) := by
      have hne : ∀ os : List ModelObject, os ≠ [] →
          (arraysOf coords os (flatOf data os)).map NDArray.data ≠ [] := by
        intro os ho h
        have := congrArg List.length h
        rw [List.length_map, length_arraysOf] at this
        exact ho (List.eq_nil_of_length_eq_zero this)
      unfold variableDictToFlatArray
      simp only [hrv, hrp, bind, Except.bind, npConcatenate_ok (hne vars hc.someVar),
        npConcatenate_ok (hne params hc.someParam), hfv, hfp]
      rfl
    unfold wrapNumbaEuler
    simp only [hpack, bind, Except.bind]
    rw [numbaEuler_eq dx _ _ hdx n _ _ _ lx lt hc.final]
    cases hR : eulerRows dx (stepVec n tf (flatOf data params)) n (flatOf data vars)
      (flatOf data params) with
    | error e => rfl
    | ok R =>
      simp only [Except.map]
      rw [splitTrajectory_eq coords _ _ hc.known hc.nonempty]
      · rfl
      · intro r hr
        have hR' := (eulerRows_lengths dx _ _ hdx _ hs n _ _ lx lt R hR).2
        rw [totalSize_append]
        rcases List.mem_cons.1 hr with h | h
        · rw [h, List.length_append, lx, lt]
        · obtain ⟨q, hq, rfl⟩ := List.mem_map.1 h
          rw [List.length_append, (hR' q hq).1, (hR' q hq).2]
  | pytensorLoop =>
    simp only [runEuler, EulerBackend.rk4, EulerBackend.keepsStart, hjf, List.nil_append,
      Bool.false_eq_true, if_false]
    exact pythonLoopEuler_eq dx coords vars params hdx n _ _ _ _
      (fun x t hx' ht' => pytensorEulerStep_eq dx coords vars params hdx n x t _ _ hx' ht' lt hc.final)
      hc.known hc.keywords data hc.keys lx lt hc.final hmv hmp
  | jaxLoop rk4 =>
    simp only [runEuler, EulerBackend.rk4, EulerBackend.keepsStart, List.nil_append,
      Bool.false_eq_true, if_false]
    exact pythonLoopEuler_eq (jaxIncrement dx rk4) coords vars params (jaxIncrement_len dx _ _ hdx rk4)
      n _ _ _ _
      (fun x t hx' ht' => jaxEulerStep_eq dx rk4 coords vars params hdx n x t _ _ hx' ht' lt hc.final)
      hc.known hc.keywords data hc.keys lx lt hc.final hmv hmp
  | scan rk4 =>
    simp only [runEuler, EulerBackend.rk4, EulerBackend.keepsStart, if_true]
    exact scanEuler_eq dx rk4 coords vars params data tf n hc hdx

/-! ## Reading rows back -/

theorem flatten_map_slices (coords : Coords) (objs : List ModelObject) (v : List K)
    (hv : v.length = totalSize coords objs) :
    (objs.mapIdx fun m o => (v.drop (offsetOf coords objs m)).take (specSize coords o)).flatten = v := by
  have h := flatData_arraysOf coords objs v hv
  have h2 : (arraysOf coords objs v).map NDArray.data
      = objs.mapIdx fun m o => (v.drop (offsetOf coords objs m)).take (specSize coords o) := by
    apply List.ext_getElem?
    intro m
    rw [List.getElem?_map, List.getElem?_mapIdx]
    rcases Nat.lt_or_ge m objs.length with hm | hm
    · rw [arraysOf_getElem? coords _ _ m _ (List.getElem?_eq_getElem hm), List.getElem?_eq_getElem hm]
      rfl
    · rw [List.getElem?_eq_none (by rw [length_arraysOf]; exact hm), List.getElem?_eq_none hm]
      rfl
  rw [← h2]; exact h

theorem take_drop_flatten_block {α : Type _} (ls : List (List α)) (s : Nat)
    (h : ∀ l ∈ ls, l.length = s) (t : Nat) (l : List α) (ht : ls[t]? = some l) :
    (ls.flatten.drop (t * s)).take s = l := by
  induction ls generalizing t with
  | nil => simp at ht
  | cons a ls ih =>
    have ha := h a (by simp)
    cases t with
    | zero =>
      simp only [List.getElem?_cons_zero, Option.some.injEq] at ht
      subst ht
      rw [Nat.zero_mul, List.drop_zero, List.flatten_cons, ← ha, List.take_left]
    | succ t =>
      rw [List.getElem?_cons_succ] at ht
      rw [List.flatten_cons, Nat.succ_mul, Nat.add_comm, ← ha, ← List.drop_drop, List.drop_left, ha]
      exact ih (fun l hl => h l (by simp [hl])) t ht

theorem stateRow_trajArrays (coords : Coords) (objs : List ModelObject) (rows : List (List K))
    (hr : ∀ r ∈ rows, r.length = totalSize coords objs) (t : Nat) (r : List K)
    (ht : rows[t]? = some r) : stateRow (trajArrays coords objs rows) t = r := by
  have hrl := hr r (List.mem_of_getElem? ht)
  conv_rhs => rw [← flatten_map_slices coords objs r hrl]
  unfold stateRow
  congr 1
  apply List.ext_getElem?
  intro m
  unfold trajArrays
  rw [List.getElem?_map, List.getElem?_mapIdx, List.getElem?_mapIdx]
  rcases Nat.lt_or_ge m objs.length with hm | hm
  · rw [List.getElem?_eq_getElem hm]
    simp only [Option.map_some, rowOf, List.tail_cons]
    have hsz : (specShape coords objs[m]).prod = specSize coords objs[m] := rfl
    rw [hsz]
    congr 1
    apply take_drop_flatten_block
    · intro l hl
      obtain ⟨q, hq, rfl⟩ := List.mem_map.1 hl
      have hql := hr q hq
      rw [List.length_take, List.length_drop, hql]
      have h1 : offsetOf coords objs m + specSize coords objs[m] ≤ totalSize coords objs := by
        have : totalSize coords objs = totalSize coords (objs.take m) + totalSize coords (objs.drop m) := by
          rw [← totalSize_append, List.take_append_drop]
        rw [this, List.drop_eq_getElem_cons hm, totalSize_cons]
        unfold offsetOf
        omega
      omega
    · rw [List.getElem?_map, ht]; rfl
  · rw [List.getElem?_eq_none hm]; rfl

theorem eulerRows_steps (dx : StepSolve K) (h : List K) (k : Nat) (x t : List K)
    (R : List (List K × List K)) (hR : eulerRows dx h k x t = .ok R) (j : Nat) (hj : j < k) :
    ∃ x1 t1 d, ((x, t) :: R)[j]? = some (x1, t1) ∧ dx x1 t1 h = .ok d ∧
      R[j]? = some (List.zipWith (· + ·) x1 d, List.zipWith (· + ·) t1 h) := by
  induction k generalizing x t R j with
  | zero => omega
  | succ k ih =>
    rw [eulerRows] at hR
    cases hd : dx x t h with
    | error e => rw [hd] at hR; cases hR
    | ok d =>
      rw [hd] at hR
      dsimp only at hR
      cases hr : eulerRows dx h k (List.zipWith (· + ·) x d) (List.zipWith (· + ·) t h) with
      | error e => rw [hr] at hR; cases hR
      | ok r =>
        rw [hr] at hR
        injection hR with hR
        subst hR
        cases j with
        | zero => exact ⟨x, t, d, rfl, hd, rfl⟩
        | succ j =>
          obtain ⟨x1, t1, d1, h1, h2, h3⟩ := ih _ _ r hr j (by omega)
          exact ⟨x1, t1, d1, h1, h2, h3⟩

/-- What a caller can read off a successful run. -/
theorem stateAfter_spec (b : EulerBackend) (dx : StepSolve K) (coords : Coords)
    (vars params : List ModelObject) (data : Dict Str (NDArray K)) (tf : List K) (n : Nat)
    (hc : EulerCall coords vars params data tf)
    (hdx : LenOK dx (totalSize coords vars) (totalSize coords params)) (outs : List (NDArray K))
    (h : runEuler b dx vars params coords tf n data = .ok outs) :
    ∃ S : Nat → List K × List K, S 0 = (flatOf data vars, flatOf data params) ∧
      (∀ t, t ≤ n → b.stateAfter vars params data outs t = (S t).1 ++ (S t).2 ∧
        (S t).1.length = totalSize coords vars ∧ (S t).2.length = totalSize coords params) ∧
      ∀ t, t < n → ∃ d, jaxIncrement dx b.rk4 (S t).1 (S t).2 (stepVec n tf (flatOf data params)) = .ok d ∧
        S (t + 1) = (List.zipWith (· + ·) (S t).1 d,
          List.zipWith (· + ·) (S t).2 (stepVec n tf (flatOf data params))) := by
  have lx := (flatOf_spec coords data vars (fun o h => hc.shaped o (by simp [h]))).1
  have lt := (flatOf_spec coords data params (fun o h => hc.shaped o (by simp [h]))).1
  have hs : (stepVec n tf (flatOf data params)).length = totalSize coords params := by
    simp [stepVec, lt, hc.final]
  rw [runEuler_eq b dx coords vars params data tf n hc hdx] at h
  cases hR : eulerRows (jaxIncrement dx b.rk4) (stepVec n tf (flatOf data params)) n (flatOf data vars)
      (flatOf data params) with
  | error e => rw [hR] at h; cases h
  | ok R =>
    rw [hR] at h
    injection h with h
    obtain ⟨hl, hrl⟩ := eulerRows_lengths (jaxIncrement dx b.rk4) _ _
      (jaxIncrement_len dx _ _ hdx b.rk4) _ hs n _ _ lx lt R hR
    have hrow : ∀ r ∈ (if b.keepsStart then [flatOf data vars ++ flatOf data params] else []) ++
              R.map (fun r => r.1 ++ r.2), r.length = totalSize coords (vars ++ params) := by
      intro r hr
      rw [totalSize_append]
      rcases List.mem_append.1 hr with h | h
      · cases hb : b.keepsStart with
        | false => rw [hb] at h; simp at h
        | true =>
          rw [hb] at h
          simp only [if_true, List.mem_singleton] at h
          rw [h, List.length_append, lx, lt]
      · obtain ⟨q, hq, rfl⟩ := List.mem_map.1 h
        rw [List.length_append, (hrl q hq).1, (hrl q hq).2]
    have hSat : ∀ t, t ≤ n → ∃ s, ((flatOf data vars, flatOf data params) :: R)[t]? = some s := by
      intro t ht
      exact ⟨_, List.getElem?_eq_getElem (by rw [List.length_cons, hl]; omega)⟩
    refine ⟨fun t => (((flatOf data vars, flatOf data params) :: R)[t]?).getD ([], []), rfl, ?_, ?_⟩
    · intro t ht
      obtain ⟨s, hst⟩ := hSat t ht
      simp only [hst, Option.getD_some]
      have hslen : s.1.length = totalSize coords vars ∧ s.2.length = totalSize coords params := by
        rcases List.mem_cons.1 (List.mem_of_getElem? hst) with h | h
        · rw [h]; exact ⟨lx, lt⟩
        · exact hrl s h
      refine ⟨?_, hslen⟩
      unfold EulerBackend.stateAfter
      cases hb : b.keepsStart with
      | true =>
        rw [if_pos rfl, ← h]
        apply stateRow_trajArrays _ _ _ hrow
        rw [hb, if_pos rfl, List.singleton_append]
        have := congrArg (Option.map fun r : List K × List K => r.1 ++ r.2) hst
        rw [← List.getElem?_map] at this
        exact this
      | false =>
        rw [if_neg (by simp)]
        cases t with
        | zero =>
          simp only [List.getElem?_cons_zero, Option.some.injEq] at hst
          rw [if_pos rfl, ← hst, flatOf_append]
        | succ t =>
          rw [if_neg (by omega), Nat.add_sub_cancel, ← h]
          apply stateRow_trajArrays _ _ _ hrow
          rw [hb, if_neg (by simp), List.nil_append, List.getElem?_map]
          rw [List.getElem?_cons_succ] at hst
          rw [hst]; rfl
    · intro t ht
      obtain ⟨x1, t1, d, h1, h2, h3⟩ := eulerRows_steps _ _ n _ _ R hR t ht
      refine ⟨d, ?_, ?_⟩
      · simp only [h1, Option.getD_some]; exact h2
      · simp only [h1, Option.getD_some, List.getElem?_cons_succ, h3]

/-- The shapes of the returned arrays. -/
theorem runEuler_shapes (b : EulerBackend) (dx : StepSolve K) (coords : Coords)
    (vars params : List ModelObject) (data : Dict Str (NDArray K)) (tf : List K) (n : Nat)
    (hc : EulerCall coords vars params data tf)
    (hdx : LenOK dx (totalSize coords vars) (totalSize coords params)) (outs : List (NDArray K))
    (h : runEuler b dx vars params coords tf n data = .ok outs) :
    outs.map NDArray.shape = (vars ++ params).map fun o =>
      (if b.keepsStart then n + 1 else n) :: specShape coords o := by
  have lx := (flatOf_spec coords data vars (fun o h => hc.shaped o (by simp [h]))).1
  have lt := (flatOf_spec coords data params (fun o h => hc.shaped o (by simp [h]))).1
  have hs : (stepVec n tf (flatOf data params)).length = totalSize coords params := by
    simp [stepVec, lt, hc.final]
  rw [runEuler_eq b dx coords vars params data tf n hc hdx] at h
  cases hR : eulerRows (jaxIncrement dx b.rk4) (stepVec n tf (flatOf data params)) n (flatOf data vars)
      (flatOf data params) with
  | error e => rw [hR] at h; cases h
  | ok R =>
    rw [hR] at h
    injection h with h
    have hl := (eulerRows_lengths (jaxIncrement dx b.rk4) _ _
      (jaxIncrement_len dx _ _ hdx b.rk4) _ hs n _ _ lx lt R hR).1
    rw [← h]
    unfold trajArrays
    apply List.ext_getElem?
    intro m
    rw [List.getElem?_map, List.getElem?_mapIdx, List.getElem?_map, Option.map_map]
    congr 1
    funext o
    simp only [Function.comp]
    cases hb : b.keepsStart <;> simp [hl]

/-- The run succeeds when the solver succeeds at every state it meets. -/
theorem runEuler_ok_of_rows (b : EulerBackend) (dx : StepSolve K) (coords : Coords)
    (vars params : List ModelObject) (data : Dict Str (NDArray K)) (tf : List K) (n : Nat)
    (hc : EulerCall coords vars params data tf)
    (hdx : LenOK dx (totalSize coords vars) (totalSize coords params))
    (R : List (List K × List K))
    (hR : eulerRows (jaxIncrement dx b.rk4) (stepVec n tf (flatOf data params)) n (flatOf data vars)
      (flatOf data params) = .ok R) : ∃ outs, runEuler b dx vars params coords tf n data = .ok outs := by
  rw [runEuler_eq b dx coords vars params data tf n hc hdx, hR]
  exact ⟨_, rfl⟩

end Verif
