import Verif.Lemmas.EulerVec
import Mathlib.Algebra.Order.Field.Basic
import Mathlib.Algebra.Field.Rat
import Mathlib.Tactic.FieldSimp
import Mathlib.Tactic.Ring
import Mathlib.Tactic.Linarith
import Mathlib.Tactic.NormNum

/-!
# C19–C21, C23: the Euler simulations

`runEuler b` is the Euler function of back-end `b`; `b.stateAfter … t` is what a caller reads off the
returned arrays as the state after `t` steps (variables first, then parameters).
-/

namespace Verif

variable {K : Type _} [Field K]

/-! A concrete call used in the examples below. -/

def exDataQ : Dict Str (NDArray ℚ) :=
  [("X", ⟨[2, 3], [1, 2, 3, 4, 5, 6]⟩), ("alpha", ⟨[2], [7, 8]⟩), ("P", ⟨[], [9]⟩)]

theorem exEulerCall : EulerCall exCoords exVars exParams exDataQ [9, 5] where
  known := by decide
  nonempty := by decide
  someVar := by decide
  someParam := by decide
  keywords := by decide
  keys := by decide
  shaped := by
    intro o ho
    simp only [exVars, exParams, List.cons_append, List.nil_append, List.mem_cons,
      List.not_mem_nil, or_false] at ho
    rcases ho with rfl | rfl | rfl
    · exact ⟨⟨[], [9]⟩, by decide, by decide, rfl⟩
    · exact ⟨⟨[2, 3], [1, 2, 3, 4, 5, 6]⟩, by decide, by decide, rfl⟩
    · exact ⟨⟨[2], [7, 8]⟩, by decide, by decide, rfl⟩
  final := by decide

/-- A solver that returns the right number of entries. -/
def exDx : StepSolve ℚ := fun x _ h => .ok (x.map fun a => a * h.sum)

theorem exDx_lenOK : LenOK exDx 7 2 := by
  intro x t h d hx _ _ hd
  injection hd with hd
  rw [← hd, List.length_map, hx]

/-! ## C19 -/

theorem params_path (n : Nat) (t0 tf : List K) (S : Nat → List K × List K) (h0 : (S 0).2 = t0)
    (hlen : tf.length = t0.length)
    (hstep : ∀ t, t < n → (S (t + 1)).2 = List.zipWith (· + ·) (S t).2 (stepVec n tf t0))
    (t : Nat) (ht : t ≤ n) :
    (S t).2 = List.zipWith (fun a f => a + (t : K) / (n : K) * (f - a)) t0 tf := by
  induction t with
  | zero =>
    rw [h0]
    apply List.ext_getElem
    · simp [hlen]
    · intro i h1 h2
      rw [List.getElem_zipWith]
      simp
  | succ t ih =>
    rw [hstep t (by omega), ih (by omega)]
    apply List.ext_getElem
    · simp [stepVec, hlen]
    · intro i h1 h2
      simp only [stepVec, List.getElem_zipWith]
      push_cast
      ring

/-- **C19.**  Whatever the back-end and the model equations (`dx` is arbitrary), after `t` of `n` steps
the parameters are `theta0 + (t/n)(theta_final - theta0)`. -/
theorem C19_parameter_path (b : EulerBackend) (dx : StepSolve K) (coords : Coords)
    (vars params : List ModelObject) (data : Dict Str (NDArray K)) (tf : List K) (n : Nat)
    (hc : EulerCall coords vars params data tf)
    (hdx : LenOK dx (totalSize coords vars) (totalSize coords params)) (outs : List (NDArray K))
    (h : runEuler b dx vars params coords tf n data = .ok outs) (t : Nat) (ht : t ≤ n) :
    (b.stateAfter vars params data outs t).drop (totalSize coords vars)
      = List.zipWith (fun a f => a + (t : K) / (n : K) * (f - a)) (flatOf data params) tf := by
  obtain ⟨S, h0, hS, hstep⟩ := stateAfter_spec b dx coords vars params data tf n hc hdx outs h
  obtain ⟨h1, h2, -⟩ := hS t ht
  have lt := (flatOf_spec coords data params (fun o h => hc.shaped o (by simp [h]))).1
  rw [h1, ← h2, List.drop_left]
  refine params_path n (flatOf data params) tf S (by rw [h0]) (by rw [hc.final, lt]) ?_ t ht
  intro t ht
  obtain ⟨d, -, hd⟩ := hstep t ht
  rw [hd]

/-- **C19 (arrival).**  After the last step the parameters are exactly `theta_final`. -/
theorem C19_arrives [CharZero K] (b : EulerBackend) (dx : StepSolve K) (coords : Coords)
    (vars params : List ModelObject) (data : Dict Str (NDArray K)) (tf : List K) (n : Nat) (hn : 1 ≤ n)
    (hc : EulerCall coords vars params data tf)
    (hdx : LenOK dx (totalSize coords vars) (totalSize coords params)) (outs : List (NDArray K))
    (h : runEuler b dx vars params coords tf n data = .ok outs) :
    (b.stateAfter vars params data outs n).drop (totalSize coords vars) = tf := by
  have lt := (flatOf_spec coords data params (fun o h => hc.shaped o (by simp [h]))).1
  rw [C19_parameter_path b dx coords vars params data tf n hc hdx outs h n (Nat.le_refl n)]
  have hn' : (n : K) ≠ 0 := Nat.cast_ne_zero.2 (by omega)
  simp only [div_self hn']
  apply List.ext_getElem
  · simp [lt, hc.final]
  · intro i h1 h2
    rw [List.getElem_zipWith]
    ring

/-- **C19 (no overshooting).**  Each intermediate parameter value lies between its endpoints. -/
theorem C19_between {K : Type _} [Field K] [LinearOrder K] [IsStrictOrderedRing K]
    (b : EulerBackend) (dx : StepSolve K) (coords : Coords)
    (vars params : List ModelObject) (data : Dict Str (NDArray K)) (tf : List K) (n : Nat)
    (hc : EulerCall coords vars params data tf)
    (hdx : LenOK dx (totalSize coords vars) (totalSize coords params)) (outs : List (NDArray K))
    (h : runEuler b dx vars params coords tf n data = .ok outs) (t : Nat) (ht : t ≤ n)
    (i : Nat) (a f v : K) (ha : (flatOf data params)[i]? = some a) (hf : tf[i]? = some f)
    (hv : ((b.stateAfter vars params data outs t).drop (totalSize coords vars))[i]? = some v) :
    min a f ≤ v ∧ v ≤ max a f := by
  rw [C19_parameter_path b dx coords vars params data tf n hc hdx outs h t ht,
    List.getElem?_zipWith, ha, hf] at hv
  simp only [Option.some.injEq] at hv
  have hs0 : (0 : K) ≤ (t : K) / (n : K) := div_nonneg (Nat.cast_nonneg _) (Nat.cast_nonneg _)
  have hs1 : (t : K) / (n : K) ≤ 1 := div_le_one_of_le₀ (by exact_mod_cast ht) (Nat.cast_nonneg _)
  generalize (t : K) / (n : K) = s at *
  subst hv
  rcases le_total a f with h' | h'
  · rw [min_eq_left h', max_eq_right h']
    constructor <;> nlinarith
  · rw [min_eq_right h', max_eq_left h']
    constructor <;> nlinarith

/-- The hypotheses are met by a concrete run: two steps from `alpha = [7, 8]` to `[9, 5]`; the third
row of the array of `alpha` is `[9, 5]`. -/
example : ∃ outs, runEuler .numba exDx exVars exParams exCoords [9, 5] 2 exDataQ = .ok outs ∧
    (EulerBackend.numba.stateAfter exVars exParams exDataQ outs 1).drop 7 = [8, 13 / 2] ∧
    (EulerBackend.numba.stateAfter exVars exParams exDataQ outs 2).drop 7 = [9, 5] := by
  obtain ⟨outs, ho⟩ := runEuler_ok_of_rows .numba exDx exCoords exVars exParams exDataQ [9, 5] 2
    exEulerCall exDx_lenOK _ (by simp only [eulerRows, jaxIncrement, EulerBackend.rk4, exDx]; rfl)
  refine ⟨outs, ho, ?_, ?_⟩
  · have := C19_parameter_path .numba exDx exCoords exVars exParams exDataQ [9, 5] 2 exEulerCall
      exDx_lenOK outs ho 1 (by omega)
    refine this.trans ?_
    rw [show flatOf exDataQ exParams = [7, 8] from rfl]
    norm_num
  · exact C19_arrives .numba exDx exCoords exVars exParams exDataQ [9, 5] 2 (by omega) exEulerCall
      exDx_lenOK outs ho

/-! ## C20 -/

/-- **C20 (total differential).**  Every step of a (non Runge-Kutta) Euler simulation solves the total
differential `A dx + B dtheta = 0` with the Jacobians at the state before the step, the Jacobian in the
variables is invertible there, and no other increment solves that equation. -/
theorem C20_total_differential (b : EulerBackend) (hb : b.rk4 = false) (coords : Coords)
    (vars params : List ModelObject) (J : Jacobians K (totalSize coords vars) (totalSize coords params))
    (data : Dict Str (NDArray K)) (tf : List K) (n : Nat)
    (hc : EulerCall coords vars params data tf) (outs : List (NDArray K))
    (h : runEuler b J.solve vars params coords tf n data = .ok outs) (t : Nat) (ht : t < n)
    (s s' : List K) (hs : s = b.stateAfter vars params data outs t)
    (hs' : s' = b.stateAfter vars params data outs (t + 1))
    (A : Matrix (Fin (totalSize coords vars)) (Fin (totalSize coords vars)) K)
    (hA : A = J.A (s.take (totalSize coords vars)) (s.drop (totalSize coords vars)))
    (B : Matrix (Fin (totalSize coords vars)) (Fin (totalSize coords params)) K)
    (hB : B = J.B (s.take (totalSize coords vars)) (s.drop (totalSize coords vars)))
    (dtheta : Fin (totalSize coords params) → K)
    (hdt : dtheta = toVec _ (s'.drop (totalSize coords vars)) - toVec _ (s.drop (totalSize coords vars))) :
    IsUnit A.det ∧
    A.mulVec (toVec _ s' - toVec _ s) + B.mulVec dtheta = 0 ∧
    ∀ d, A.mulVec d + B.mulVec dtheta = 0 → d = toVec _ s' - toVec _ s := by
  obtain ⟨S, h0, hS, hstep⟩ := stateAfter_spec b J.solve coords vars params data tf n hc J.lenOK outs h
  obtain ⟨e1, l1, m1⟩ := hS t (by omega)
  obtain ⟨e2, l2, m2⟩ := hS (t + 1) (by omega)
  obtain ⟨d, hd, hn⟩ := hstep t ht
  have lt := (flatOf_spec coords data params (fun o h => hc.shaped o (by simp [h]))).1
  have hst : (stepVec n tf (flatOf data params)).length = totalSize coords params := by
    simp [stepVec, lt, hc.final]
  rw [hb] at hd
  simp only [jaxIncrement, Bool.false_eq_true, if_false] at hd
  have hdl := J.lenOK _ _ _ _ l1 m1 hst hd
  obtain ⟨hu, hsol⟩ := J.solve_spec _ _ _ _ hd
  have hx' : toVec (totalSize coords vars) s' - toVec (totalSize coords vars) s
      = toVec (totalSize coords vars) d := by
    rw [hs, hs', e1, e2, toVec_append _ _ _ l1, toVec_append _ _ _ l2, hn, toVec_add _ _ _ l1 hdl,
      add_sub_cancel_left]
  have ht' : dtheta = toVec (totalSize coords params) (stepVec n tf (flatOf data params)) := by
    rw [hdt, hs, hs', e1, e2, List.drop_left' l1, List.drop_left' l2, hn,
      toVec_add _ _ _ m1 hst, add_sub_cancel_left]
  have hA' : A = J.A (S t).1 (S t).2 := by
    rw [hA, hs, e1, List.take_left' l1, List.drop_left' l1]
  have hB' : B = J.B (S t).1 (S t).2 := by
    rw [hB, hs, e1, List.take_left' l1, List.drop_left' l1]
  rw [hx', ht', hA', hB']
  refine ⟨hu, hsol, ?_⟩
  intro d' hd'
  apply mulVec_inj_of_isUnit _ hu
  rw [← hsol] at hd'
  exact add_right_cancel hd'

theorem eulerRows_error (dx : StepSolve K) (nx np : Nat) (hdx : LenOK dx nx np) (h : List K)
    (hh : h.length = np) (k : Nat) (x t : List K) (hx : x.length = nx) (ht : t.length = np) (e : PyErr)
    (he : eulerRows dx h k x t = .error e) :
    ∃ x' t', x'.length = nx ∧ t'.length = np ∧ dx x' t' h = .error e := by
  induction k generalizing x t with
  | zero => cases he
  | succ k ih =>
    rw [eulerRows] at he
    cases hd : dx x t h with
    | error e' =>
      rw [hd] at he
      injection he with he
      exact ⟨x, t, hx, ht, by rw [hd, he]⟩
    | ok d =>
      rw [hd] at he
      dsimp only at he
      have hdl := hdx _ _ _ _ hx ht hh hd
      cases hr : eulerRows dx h k (List.zipWith (· + ·) x d) (List.zipWith (· + ·) t h) with
      | error e' =>
        rw [hr] at he
        injection he with he
        subst he
        exact ih _ _ (by simp [hx, hdl]) (by simp [ht, hh]) hr
      | ok r => rw [hr] at he; cases he

theorem jaxIncrement_error (dx : StepSolve K) (nx np : Nat) (hdx : LenOK dx nx np) (rk4 : Bool)
    (x t h : List K) (hx : x.length = nx) (ht : t.length = np) (hh : h.length = np) (e : PyErr)
    (he : jaxIncrement dx rk4 x t h = .error e) :
    ∃ x' t', x'.length = nx ∧ t'.length = np ∧ dx x' t' h = .error e := by
  cases rk4 with
  | false => exact ⟨x, t, hx, ht, by simpa [jaxIncrement] using he⟩
  | true =>
    simp only [jaxIncrement, if_true, bind, Except.bind] at he
    cases h1 : dx x t h with
    | error e' => rw [h1] at he; injection he with he; exact ⟨x, t, hx, ht, by rw [h1, he]⟩
    | ok d1 =>
      have l1 := hdx _ _ _ _ hx ht hh h1
      rw [h1] at he
      dsimp only at he
      rw [vzip_ok _ x d1 (by omega), vzip_ok _ t h (by omega)] at he
      dsimp only at he
      generalize hx2 : List.zipWith (fun a b => a + 2⁻¹ * b) x d1 = x2 at he
      generalize ht2 : List.zipWith (fun a b => a + 2⁻¹ * b) t h = t2 at he
      have lx2 : x2.length = nx := by rw [← hx2]; simp [hx, l1]
      have lt2 : t2.length = np := by rw [← ht2]; simp [ht, hh]
      cases h2 : dx x2 t2 h with
      | error e' => rw [h2] at he; injection he with he; exact ⟨x2, t2, lx2, lt2, by rw [h2, he]⟩
      | ok d2 =>
        have l2 := hdx _ _ _ _ lx2 lt2 hh h2
        rw [h2] at he
        dsimp only at he
        rw [vzip_ok _ x d2 (by omega)] at he
        dsimp only at he
        generalize hx3 : List.zipWith (fun a b => a + 2⁻¹ * b) x d2 = x3 at he
        have lx3 : x3.length = nx := by rw [← hx3]; simp [hx, l2]
        cases h3 : dx x3 t2 h with
        | error e' => rw [h3] at he; injection he with he; exact ⟨x3, t2, lx3, lt2, by rw [h3, he]⟩
        | ok d3 =>
          have l3 := hdx _ _ _ _ lx3 lt2 hh h3
          rw [h3] at he
          dsimp only at he
          rw [vzip_ok _ x d3 (by omega), vzip_ok _ t h (by omega)] at he
          dsimp only at he
          generalize hx4 : List.zipWith (fun a b => a + b) x d3 = x4 at he
          generalize ht4 : List.zipWith (fun a b => a + b) t h = t4 at he
          have lx4 : x4.length = nx := by rw [← hx4]; simp [hx, l3]
          have lt4 : t4.length = np := by rw [← ht4]; simp [ht, hh]
          cases h4 : dx x4 t4 h with
          | error e' => rw [h4] at he; injection he with he; exact ⟨x4, t4, lx4, lt4, by rw [h4, he]⟩
          | ok d4 =>
            have l4 := hdx _ _ _ _ lx4 lt4 hh h4
            rw [h4] at he
            simp only [vrk4, bind, Except.bind] at he
            rw [vzip_ok _ d1 d2 (by omega)] at he
            dsimp only at he
            rw [vzip_ok _ _ d3 (by simp [l1, l2, l3])] at he
            dsimp only at he
            rw [vzip_ok _ _ d4 (by simp [l1, l2, l3, l4])] at he
            cases he

/-- **C20 (when a run fails).**  An Euler simulation of a well formed call raises only because the
Jacobian in the variables is singular at some point it evaluates. -/
theorem C20_fails_only_if_singular (b : EulerBackend) (coords : Coords)
    (vars params : List ModelObject) (J : Jacobians K (totalSize coords vars) (totalSize coords params))
    (data : Dict Str (NDArray K)) (tf : List K) (n : Nat)
    (hc : EulerCall coords vars params data tf) (e : PyErr)
    (h : runEuler b J.solve vars params coords tf n data = .error e) :
    e = .linAlg ∧ ∃ x t, x.length = totalSize coords vars ∧ t.length = totalSize coords params ∧
      ¬ IsUnit (J.A x t).det := by
  have lx := (flatOf_spec coords data vars (fun o h => hc.shaped o (by simp [h]))).1
  have lt := (flatOf_spec coords data params (fun o h => hc.shaped o (by simp [h]))).1
  have hst : (stepVec n tf (flatOf data params)).length = totalSize coords params := by
    simp [stepVec, lt, hc.final]
  rw [runEuler_eq b J.solve coords vars params data tf n hc J.lenOK] at h
  cases hR : eulerRows (jaxIncrement J.solve b.rk4) (stepVec n tf (flatOf data params)) n
      (flatOf data vars) (flatOf data params) with
  | ok R => rw [hR] at h; cases h
  | error e' =>
    rw [hR] at h
    injection h with h
    subst h
    obtain ⟨x1, t1, l1, m1, h1⟩ := eulerRows_error _ _ _ (jaxIncrement_len _ _ _ J.lenOK b.rk4) _ hst n
      _ _ lx lt e' hR
    obtain ⟨x2, t2, l2, m2, h2⟩ := jaxIncrement_error J.solve _ _ J.lenOK b.rk4 x1 t1 _ l1 m1 hst e' h1
    by_cases hu : IsUnit (J.A x2 t2).det
    · rw [J.solve_of_isUnit _ _ _ hu] at h2; cases h2
    · unfold Jacobians.solve at h2
      rw [if_neg hu] at h2
      injection h2 with h2
      exact ⟨h2.symm, x2, t2, l2, m2, hu⟩

theorem jaxIncrement_of_zero (dx : StepSolve K) (rk4 : Bool) (x t h d : List K)
    (hd : dx x t h = .ok d) (hz : ∀ a ∈ d, a = 0) (hh : ∀ a ∈ h, a = 0) (hl : d.length = x.length)
    (hm : h.length = t.length) : jaxIncrement dx rk4 x t h = .ok d := by
  cases rk4 with
  | false => simpa [jaxIncrement] using hd
  | true =>
    have half : ∀ (a b : List K), b.length = a.length → (∀ c ∈ b, c = 0) →
        List.zipWith (fun a b => a + 2⁻¹ * b) a b = a := by
      intro a b hab hb
      apply List.ext_getElem
      · simp [hab]
      · intro i h1 h2
        rw [List.getElem_zipWith, hb _ (List.getElem_mem _), mul_zero, add_zero]
    simp only [jaxIncrement, if_true, bind, Except.bind, hd]
    rw [vzip_ok _ x d (by omega), vzip_ok _ t h (by omega)]
    dsimp only
    rw [half x d hl hz, half t h hm hh, hd]
    dsimp only
    rw [vzip_ok _ x d (by omega)]
    dsimp only
    rw [half x d hl hz, hd]
    dsimp only
    rw [vzip_ok _ x d (by omega), vzip_ok _ t h (by omega)]
    dsimp only
    rw [zipWith_add_zero x d hl hz, zipWith_add_zero t h hm hh, hd]
    simp only [vrk4, bind, Except.bind, pure, Except.pure]
    rw [vzip_ok _ d d rfl]
    dsimp only
    rw [vzip_ok _ _ d (by simp)]
    dsimp only
    rw [vzip_ok _ _ d (by simp)]
    apply congrArg Except.ok
    apply List.ext_getElem
    · simp
    · intro i h1 h2
      have : d[i] = 0 := hz _ (List.getElem_mem _)
      simp [this]

/-- The first evaluation of an increment is at the current state. -/
theorem jaxIncrement_first (dx : StepSolve K) (rk4 : Bool) (x t h d : List K)
    (hd : jaxIncrement dx rk4 x t h = .ok d) : ∃ d', dx x t h = .ok d' := by
  cases h1 : dx x t h with
  | ok d' => exact ⟨d', rfl⟩
  | error e =>
    cases rk4 <;> simp [jaxIncrement, h1, bind, Except.bind] at hd

/-- **C20 (no shock, no movement).**  When `theta_final` is the initial parameter vector, every state
of every trajectory (also with Runge-Kutta increments) is the initial state. -/
theorem C20_zero_shock (b : EulerBackend) (coords : Coords)
    (vars params : List ModelObject) (J : Jacobians K (totalSize coords vars) (totalSize coords params))
    (data : Dict Str (NDArray K)) (n : Nat)
    (hc : EulerCall coords vars params data (flatOf data params)) (outs : List (NDArray K))
    (h : runEuler b J.solve vars params coords (flatOf data params) n data = .ok outs)
    (t : Nat) (ht : t ≤ n) :
    b.stateAfter vars params data outs t = flatOf data (vars ++ params) := by
  obtain ⟨S, h0, hS, hstep⟩ := stateAfter_spec b J.solve coords vars params data _ n hc J.lenOK outs h
  have hz := stepVec_self n (flatOf data params)
  have key : ∀ t, t ≤ n → S t = (flatOf data vars, flatOf data params) := by
    intro t
    induction t with
    | zero => intro _; exact h0
    | succ t ih =>
      intro ht
      obtain ⟨d, hd, hn⟩ := hstep t (by omega)
      obtain ⟨-, l1, m1⟩ := hS t (by omega)
      have hst : (stepVec n (flatOf data params) (flatOf data params)).length
          = totalSize coords params := by simp [stepVec, hc.final]
      obtain ⟨d', hd'⟩ := jaxIncrement_first _ _ _ _ _ _ hd
      have hz' := J.solve_zero _ _ _ hz d' hd'
      have hl' := J.lenOK _ _ _ _ l1 m1 hst hd'
      rw [jaxIncrement_of_zero _ _ _ _ _ d' hd' hz' hz (by omega) (by omega)] at hd
      injection hd with hd
      subst hd
      rw [hn, zipWith_add_zero _ _ (by omega) hz', zipWith_add_zero _ _ (by omega) hz, ← ih (by omega)]
  rw [(hS t ht).1, key t ht, flatOf_append]

/-- **C20 (no shock, it runs).**  With no shock the simulation succeeds as soon as the Jacobian is
invertible at the initial point. -/
theorem C20_zero_shock_runs (b : EulerBackend) (coords : Coords)
    (vars params : List ModelObject) (J : Jacobians K (totalSize coords vars) (totalSize coords params))
    (data : Dict Str (NDArray K)) (n : Nat)
    (hc : EulerCall coords vars params data (flatOf data params))
    (hu : IsUnit (J.A (flatOf data vars) (flatOf data params)).det) :
    ∃ outs, runEuler b J.solve vars params coords (flatOf data params) n data = .ok outs := by
  have lx := (flatOf_spec coords data vars (fun o h => hc.shaped o (by simp [h]))).1
  have lt := (flatOf_spec coords data params (fun o h => hc.shaped o (by simp [h]))).1
  have hst : (stepVec n (flatOf data params) (flatOf data params)).length
      = totalSize coords params := by simp [stepVec, hc.final]
  have hz := stepVec_self n (flatOf data params)
  have hd := J.solve_of_isUnit _ _ (stepVec n (flatOf data params) (flatOf data params)) hu
  generalize hdef : List.ofFn _ = d at hd
  have hz' := J.solve_zero _ _ _ hz d hd
  have hl' := J.lenOK _ _ _ _ lx lt hst hd
  have hinc := jaxIncrement_of_zero _ b.rk4 _ _ _ d hd hz' hz (by omega) (by omega)
  have rows : ∀ k, ∃ R, eulerRows (jaxIncrement J.solve b.rk4)
      (stepVec n (flatOf data params) (flatOf data params)) k (flatOf data vars) (flatOf data params)
      = .ok R := by
    intro k
    induction k with
    | zero => exact ⟨[], rfl⟩
    | succ k ih =>
      obtain ⟨R, hR⟩ := ih
      rw [eulerRows, hinc]
      dsimp only
      rw [zipWith_add_zero _ _ (by omega) hz', zipWith_add_zero _ _ (by omega) hz, hR]
      exact ⟨_, rfl⟩
  obtain ⟨R, hR⟩ := rows n
  exact runEuler_ok_of_rows b J.solve coords vars params data _ n hc J.lenOK R hR

/-- A state-dependent model: `A` is the identity, the entries of `B` depend on the state. -/
def exJac : Jacobians ℚ 7 2 :=
  { A := fun _ _ => 1, B := fun x _ => Matrix.of fun i j => (toVec 7 x i) + j.val }

theorem exJac_runs (b : EulerBackend) (n : Nat) :
    ∃ outs, runEuler b exJac.solve exVars exParams exCoords [9, 5] n exDataQ = .ok outs := by
  cases h : runEuler b exJac.solve exVars exParams exCoords [9, 5] n exDataQ with
  | ok outs => exact ⟨outs, rfl⟩
  | error e =>
    obtain ⟨-, x, t, -, -, hs⟩ := C20_fails_only_if_singular b exCoords exVars exParams exJac exDataQ
      [9, 5] n exEulerCall e h
    exact absurd (show IsUnit (1 : Matrix (Fin 7) (Fin 7) ℚ).det by simp) hs

/-- The hypotheses of `C20_total_differential` are met by this model for every number of steps. -/
example (n : Nat) : ∃ outs,
    runEuler .pytensorLoop exJac.solve exVars exParams exCoords [9, 5] n exDataQ = .ok outs :=
  exJac_runs .pytensorLoop n

/-! ## C21 -/

theorem jaxIncrement_of_const [CharZero K] (dx : StepSolve K) (rk4 : Bool) (nx np : Nat)
    (h d : List K) (hdl : d.length = nx) (hh : h.length = np)
    (hc : ∀ x t, x.length = nx → t.length = np → dx x t h = .ok d)
    (x t : List K) (hx : x.length = nx) (ht : t.length = np) : jaxIncrement dx rk4 x t h = .ok d := by
  cases rk4 with
  | false => simpa [jaxIncrement] using hc x t hx ht
  | true =>
    simp only [jaxIncrement, if_true, bind, Except.bind, hc x t hx ht]
    rw [vzip_ok _ x d (by omega), vzip_ok _ t h (by omega)]
    dsimp only
    rw [hc _ _ (by simp [hx, hdl]) (by simp [ht, hh])]
    dsimp only
    rw [vzip_ok _ x d (by omega)]
    dsimp only
    rw [hc _ _ (by simp [hx, hdl]) (by simp [ht, hh])]
    dsimp only
    rw [vzip_ok _ x d (by omega), vzip_ok _ t h (by omega)]
    dsimp only
    rw [hc _ _ (by simp [hx, hdl]) (by simp [ht, hh])]
    simp only [vrk4, bind, Except.bind, pure, Except.pure]
    rw [vzip_ok _ d d rfl]
    dsimp only
    rw [vzip_ok _ _ d (by simp)]
    dsimp only
    rw [vzip_ok _ _ d (by simp)]
    apply congrArg Except.ok
    apply List.ext_getElem
    · simp
    · intro i h1 h2
      simp only [List.getElem_zipWith]
      have h6 : (6 : K) ≠ 0 := by exact_mod_cast (by decide : (6 : Nat) ≠ 0)
      rw [div_eq_iff h6]
      ring

/-- The Jacobians of the affine model `F(x, theta) = M x + N theta + c`. -/
def affineJac {nx np : Nat} (M : Matrix (Fin nx) (Fin nx) K) (N : Matrix (Fin nx) (Fin np) K) :
    Jacobians K nx np := { A := fun _ _ => M, B := fun _ _ => N }

theorem affine_run [CharZero K] (b : EulerBackend) (coords : Coords) (vars params : List ModelObject)
    (M : Matrix (Fin (totalSize coords vars)) (Fin (totalSize coords vars)) K)
    (N : Matrix (Fin (totalSize coords vars)) (Fin (totalSize coords params)) K) (hu : IsUnit M.det)
    (data : Dict Str (NDArray K)) (tf : List K) (n : Nat)
    (hc : EulerCall coords vars params data tf) (outs : List (NDArray K))
    (h : runEuler b (affineJac M N).solve vars params coords tf n data = .ok outs)
    (t : Nat) (ht : t ≤ n) :
    ∃ x th, b.stateAfter vars params data outs t = x ++ th ∧ x.length = totalSize coords vars ∧
      th.length = totalSize coords params ∧
      M.mulVec (toVec _ x) + N.mulVec (toVec _ th)
        = M.mulVec (toVec _ (flatOf data vars)) + N.mulVec (toVec _ (flatOf data params)) := by
  obtain ⟨S, h0, hS, hstep⟩ :=
    stateAfter_spec b _ coords vars params data tf n hc (affineJac M N).lenOK outs h
  have lt := (flatOf_spec coords data params (fun o h => hc.shaped o (by simp [h]))).1
  have hst : (stepVec n tf (flatOf data params)).length = totalSize coords params := by
    simp [stepVec, lt, hc.final]
  refine ⟨(S t).1, (S t).2, (hS t ht).1, (hS t ht).2.1, (hS t ht).2.2, ?_⟩
  induction t with
  | zero => rw [h0]
  | succ t ih =>
    rw [← ih (by omega)]
    obtain ⟨d, hd, hn⟩ := hstep t (by omega)
    obtain ⟨-, l1, m1⟩ := hS t (by omega)
    rw [jaxIncrement_of_const (affineJac M N).solve b.rk4 _ _ (stepVec n tf (flatOf data params))
      (List.ofFn (-(M⁻¹.mulVec (N.mulVec (toVec _ (stepVec n tf (flatOf data params)))))))
      (by simp) hst (fun x t _ _ => (affineJac M N).solve_of_isUnit x t _ hu) _ _ l1 m1] at hd
    injection hd with hd
    have hsol := ((affineJac M N).solve_spec (S t).1 (S t).2 _ _
      ((affineJac M N).solve_of_isUnit (S t).1 (S t).2 (stepVec n tf (flatOf data params)) hu)).2
    change M.mulVec (toVec _ (List.ofFn (-(M⁻¹.mulVec (N.mulVec (toVec _ (stepVec n tf (flatOf data params)))))))) +
      N.mulVec (toVec _ (stepVec n tf (flatOf data params))) = 0 at hsol
    rw [hd] at hsol
    have hdl : d.length = totalSize coords vars := by rw [← hd]; simp
    rw [hn, toVec_add _ _ _ l1 hdl, toVec_add _ _ _ m1 hst, Matrix.mulVec_add, Matrix.mulVec_add,
      add_add_add_comm, hsol, add_zero]

/-- **C21 (equilibrium is preserved).**  If the model is affine, `M x + N theta + c`, with invertible
`M`, and the initial point is an equilibrium, then every state of the trajectory is an equilibrium at
that step's parameters, for every back-end, with or without Runge-Kutta. -/
theorem C21_trajectory_in_equilibrium [CharZero K] (b : EulerBackend) (coords : Coords)
    (vars params : List ModelObject)
    (M : Matrix (Fin (totalSize coords vars)) (Fin (totalSize coords vars)) K)
    (N : Matrix (Fin (totalSize coords vars)) (Fin (totalSize coords params)) K)
    (c : Fin (totalSize coords vars) → K) (hu : IsUnit M.det)
    (data : Dict Str (NDArray K)) (tf : List K) (n : Nat)
    (hc : EulerCall coords vars params data tf)
    (heq : M.mulVec (toVec _ (flatOf data vars)) + N.mulVec (toVec _ (flatOf data params)) + c = 0)
    (outs : List (NDArray K))
    (h : runEuler b (affineJac M N).solve vars params coords tf n data = .ok outs)
    (t : Nat) (ht : t ≤ n) (s : List K) (hs : s = b.stateAfter vars params data outs t) :
    M.mulVec (toVec _ s) + N.mulVec (toVec _ (s.drop (totalSize coords vars))) + c = 0 := by
  obtain ⟨x, th, h1, h2, h3, h4⟩ := affine_run b coords vars params M N hu data tf n hc outs h t ht
  rw [hs, h1, toVec_append _ _ _ h2, List.drop_left' h2, h4, heq]

/-- **C21 (it runs).** -/
theorem C21_runs [CharZero K] (b : EulerBackend) (coords : Coords) (vars params : List ModelObject)
    (M : Matrix (Fin (totalSize coords vars)) (Fin (totalSize coords vars)) K)
    (N : Matrix (Fin (totalSize coords vars)) (Fin (totalSize coords params)) K) (hu : IsUnit M.det)
    (data : Dict Str (NDArray K)) (tf : List K) (n : Nat)
    (hc : EulerCall coords vars params data tf) :
    ∃ outs, runEuler b (affineJac M N).solve vars params coords tf n data = .ok outs := by
  cases h : runEuler b (affineJac M N).solve vars params coords tf n data with
  | ok outs => exact ⟨outs, rfl⟩
  | error e =>
    obtain ⟨-, x, t, -, -, hs⟩ := C20_fails_only_if_singular b coords vars params _ data tf n hc e h
    exact absurd hu hs

/-- **C21 (end point).**  The end point is the equilibrium at `theta_final`, the only one. -/
theorem C21_end_point [CharZero K] (b : EulerBackend) (coords : Coords) (vars params : List ModelObject)
    (M : Matrix (Fin (totalSize coords vars)) (Fin (totalSize coords vars)) K)
    (N : Matrix (Fin (totalSize coords vars)) (Fin (totalSize coords params)) K)
    (c : Fin (totalSize coords vars) → K) (hu : IsUnit M.det)
    (data : Dict Str (NDArray K)) (tf : List K) (n : Nat) (hn : 1 ≤ n)
    (hc : EulerCall coords vars params data tf)
    (heq : M.mulVec (toVec _ (flatOf data vars)) + N.mulVec (toVec _ (flatOf data params)) + c = 0)
    (outs : List (NDArray K))
    (h : runEuler b (affineJac M N).solve vars params coords tf n data = .ok outs)
    (x : Fin (totalSize coords vars) → K) :
    M.mulVec x + N.mulVec (toVec _ tf) + c = 0 ↔
      x = toVec _ (b.stateAfter vars params data outs n) := by
  have h1 := C21_trajectory_in_equilibrium b coords vars params M N c hu data tf n hc heq outs h n
    (Nat.le_refl n) _ rfl
  rw [C19_arrives b _ coords vars params data tf n hn hc (affineJac M N).lenOK outs h] at h1
  constructor
  · intro h2
    apply mulVec_inj_of_isUnit M hu
    rw [← h1] at h2
    exact add_right_cancel (add_right_cancel h2)
  · rintro rfl
    exact h1

/-- **C21 (independence of the number of steps and of the back-end).**  Any two runs from the same
equilibrium to the same `theta_final`, with any step counts, any back-ends, with or without
Runge-Kutta, end in the same state. -/
theorem C21_end_point_independent [CharZero K] (b b' : EulerBackend) (coords : Coords)
    (vars params : List ModelObject)
    (M : Matrix (Fin (totalSize coords vars)) (Fin (totalSize coords vars)) K)
    (N : Matrix (Fin (totalSize coords vars)) (Fin (totalSize coords params)) K)
    (hu : IsUnit M.det) (data : Dict Str (NDArray K)) (tf : List K) (n n' : Nat) (hn : 1 ≤ n)
    (hn' : 1 ≤ n') (hc : EulerCall coords vars params data tf) (outs outs' : List (NDArray K))
    (h : runEuler b (affineJac M N).solve vars params coords tf n data = .ok outs)
    (h' : runEuler b' (affineJac M N).solve vars params coords tf n' data = .ok outs') :
    b.stateAfter vars params data outs n = b'.stateAfter vars params data outs' n' := by
  obtain ⟨x, th, h1, h2, h3, h4⟩ :=
    affine_run b coords vars params M N hu data tf n hc outs h n (Nat.le_refl n)
  obtain ⟨x', th', h1', h2', h3', h4'⟩ :=
    affine_run b' coords vars params M N hu data tf n' hc outs' h' n' (Nat.le_refl n')
  have e := C19_arrives b _ coords vars params data tf n hn hc (affineJac M N).lenOK outs h
  have e' := C19_arrives b' _ coords vars params data tf n' hn' hc (affineJac M N).lenOK outs' h'
  rw [h1, List.drop_left' h2] at e
  rw [h1', List.drop_left' h2'] at e'
  rw [h1, h1', e, e']
  rw [e, ← h4', e'] at h4
  congr 1
  exact toVec_inj _ _ _ h2 h2' (mulVec_inj_of_isUnit M hu _ _ (add_right_cancel h4))

/-- **C21 (Runge-Kutta).**  On an affine model the whole trajectory is the same for every back-end, with
or without Runge-Kutta. -/
theorem C21_rk4_same_trajectory [CharZero K] (b b' : EulerBackend) (coords : Coords)
    (vars params : List ModelObject)
    (M : Matrix (Fin (totalSize coords vars)) (Fin (totalSize coords vars)) K)
    (N : Matrix (Fin (totalSize coords vars)) (Fin (totalSize coords params)) K)
    (hu : IsUnit M.det) (data : Dict Str (NDArray K)) (tf : List K) (n : Nat)
    (hc : EulerCall coords vars params data tf) (outs outs' : List (NDArray K))
    (h : runEuler b (affineJac M N).solve vars params coords tf n data = .ok outs)
    (h' : runEuler b' (affineJac M N).solve vars params coords tf n data = .ok outs')
    (t : Nat) (ht : t ≤ n) :
    b.stateAfter vars params data outs t = b'.stateAfter vars params data outs' t := by
  obtain ⟨x, th, h1, h2, h3, h4⟩ := affine_run b coords vars params M N hu data tf n hc outs h t ht
  obtain ⟨x', th', h1', h2', h3', h4'⟩ :=
    affine_run b' coords vars params M N hu data tf n hc outs' h' t ht
  have e := C19_parameter_path b _ coords vars params data tf n hc (affineJac M N).lenOK outs h t ht
  have e' := C19_parameter_path b' _ coords vars params data tf n hc (affineJac M N).lenOK outs' h' t ht
  rw [h1, List.drop_left' h2] at e
  rw [h1', List.drop_left' h2'] at e'
  rw [h1, h1', e, e']
  rw [e, ← h4', e'] at h4
  congr 1
  exact toVec_inj _ _ _ h2 h2' (mulVec_inj_of_isUnit M hu _ _ (add_right_cancel h4))

/-- The hypotheses hold for a concrete model: `2 x_i + (i + 1) (theta_0 - theta_1) + c_i`, in
equilibrium at the initial data for the `c` below. -/
example : ∃ (M : Matrix (Fin 7) (Fin 7) ℚ) (N : Matrix (Fin 7) (Fin 2) ℚ) (c : Fin 7 → ℚ),
    IsUnit M.det ∧ N ≠ 0 ∧
    M.mulVec (toVec 7 (flatOf exDataQ exVars)) + N.mulVec (toVec 2 (flatOf exDataQ exParams)) + c = 0 ∧
    ∃ outs, runEuler (.scan true) (affineJac M N).solve exVars exParams exCoords [9, 5] 3 exDataQ
      = .ok outs := by
  have hu : IsUnit ((2 : ℚ) • (1 : Matrix (Fin 7) (Fin 7) ℚ)).det := by
    rw [Matrix.det_smul]; simp
  let N : Matrix (Fin 7) (Fin 2) ℚ := Matrix.of fun i j => (i.val + 1) * (1 - 2 * j.val)
  refine ⟨(2 : ℚ) • (1 : Matrix (Fin 7) (Fin 7) ℚ), N,
    -(((2 : ℚ) • (1 : Matrix (Fin 7) (Fin 7) ℚ)).mulVec (toVec 7 (flatOf exDataQ exVars)) +
      N.mulVec (toVec 2 (flatOf exDataQ exParams))), hu, ?_, add_neg_cancel _, ?_⟩
  · intro h
    have := congrFun (congrFun h 0) 0
    simp [N] at this
  · exact C21_runs (.scan true) exCoords exVars exParams _ N hu exDataQ [9, 5] 3 exEulerCall

/-! ## C23 -/

/-- **C23 (same rows, same exceptions).**  Two back-ends that use the same increment and both return
(or both omit) the initial row are the same function on well formed calls: same arrays, or the same
exception. -/
theorem C23_same_arrays_partial (b b' : EulerBackend) (hr : b.rk4 = b'.rk4)
    (hk : b.keepsStart = b'.keepsStart) (dx : StepSolve K) (coords : Coords)
    (vars params : List ModelObject) (data : Dict Str (NDArray K)) (tf : List K) (n : Nat)
    (hc : EulerCall coords vars params data tf)
    (hdx : LenOK dx (totalSize coords vars) (totalSize coords params)) :
    runEuler b dx vars params coords tf n data = runEuler b' dx vars params coords tf n data := by
  rw [runEuler_eq b dx coords vars params data tf n hc hdx,
    runEuler_eq b' dx coords vars params data tf n hc hdx, hr, hk]

/-- **C23 (same states).**  Any two back-ends with the same increment either raise the same exception,
or both succeed and agree on the state after every number of steps.  Missing for the full property:
the python loops return one row less (`C23_rows_differ`), and names may clash in them
(`C23_keyword_clash`). -/
theorem C23_same_states_partial (b b' : EulerBackend) (hr : b.rk4 = b'.rk4)
    (dx : StepSolve K) (coords : Coords)
    (vars params : List ModelObject) (data : Dict Str (NDArray K)) (tf : List K) (n : Nat)
    (hc : EulerCall coords vars params data tf)
    (hdx : LenOK dx (totalSize coords vars) (totalSize coords params)) :
    (∃ e, runEuler b dx vars params coords tf n data = .error e ∧
      runEuler b' dx vars params coords tf n data = .error e) ∨
    ∃ outs outs', runEuler b dx vars params coords tf n data = .ok outs ∧
      runEuler b' dx vars params coords tf n data = .ok outs' ∧
      ∀ t, t ≤ n → b.stateAfter vars params data outs t = b'.stateAfter vars params data outs' t := by
  cases hR : eulerRows (jaxIncrement dx b.rk4) (stepVec n tf (flatOf data params)) n (flatOf data vars)
      (flatOf data params) with
  | error e =>
    left
    refine ⟨e, ?_, ?_⟩
    · rw [runEuler_eq b dx coords vars params data tf n hc hdx, hR]; rfl
    · rw [runEuler_eq b' dx coords vars params data tf n hc hdx, ← hr, hR]; rfl
  | ok R =>
    right
    obtain ⟨outs, ho⟩ := runEuler_ok_of_rows b dx coords vars params data tf n hc hdx R hR
    obtain ⟨outs', ho'⟩ := runEuler_ok_of_rows b' dx coords vars params data tf n hc hdx R (hr ▸ hR)
    refine ⟨outs, outs', ho, ho', ?_⟩
    obtain ⟨S, h0, hS, hstep⟩ := stateAfter_spec b dx coords vars params data tf n hc hdx outs ho
    obtain ⟨S', h0', hS', hstep'⟩ := stateAfter_spec b' dx coords vars params data tf n hc hdx outs' ho'
    have key : ∀ t, t ≤ n → S t = S' t := by
      intro t
      induction t with
      | zero => intro _; rw [h0, h0']
      | succ t ih =>
        intro ht
        obtain ⟨d, hd, hn⟩ := hstep t (by omega)
        obtain ⟨d', hd', hn'⟩ := hstep' t (by omega)
        rw [← ih (by omega), ← hr, hd] at hd'
        injection hd' with hd'
        rw [hn, hn', ← ih (by omega), hd']
    intro t ht
    rw [(hS t ht).1, (hS' t ht).1, key t ht]

/-- **C23 is false as stated (row counts).**  Whenever a run with `n` steps succeeds, the numba and scan
functions return `n + 1` rows and the python loops `n`, so the returned arrays always differ. -/
theorem C23_rows_differ (b b' : EulerBackend) (hb : b.keepsStart = true) (hb' : b'.keepsStart = false)
    (dx : StepSolve K) (coords : Coords)
    (vars params : List ModelObject) (data : Dict Str (NDArray K)) (tf : List K) (n : Nat)
    (hc : EulerCall coords vars params data tf)
    (hdx : LenOK dx (totalSize coords vars) (totalSize coords params))
    (outs outs' : List (NDArray K))
    (h : runEuler b dx vars params coords tf n data = .ok outs)
    (h' : runEuler b' dx vars params coords tf n data = .ok outs') :
    (∀ a ∈ outs, a.shape.head? = some (n + 1)) ∧ (∀ a ∈ outs', a.shape.head? = some n) ∧
      outs ≠ outs' := by
  have e := runEuler_shapes b dx coords vars params data tf n hc hdx outs h
  have e' := runEuler_shapes b' dx coords vars params data tf n hc hdx outs' h'
  rw [hb, if_pos rfl] at e
  rw [hb', if_neg (by simp)] at e'
  refine ⟨?_, ?_, ?_⟩
  · intro a ha
    have : a.shape ∈ outs.map NDArray.shape := List.mem_map_of_mem ha
    rw [e] at this
    obtain ⟨o, -, ho⟩ := List.mem_map.1 this
    rw [← ho]; rfl
  · intro a ha
    have : a.shape ∈ outs'.map NDArray.shape := List.mem_map_of_mem ha
    rw [e'] at this
    obtain ⟨o, -, ho⟩ := List.mem_map.1 this
    rw [← ho]; rfl
  · rintro rfl
    rw [e] at e'
    cases vars with
    | nil => exact hc.someVar rfl
    | cons v vs => simp at e'

example : ∃ outs outs',
    runEuler .numba exJac.solve exVars exParams exCoords [9, 5] 4 exDataQ = .ok outs ∧
    runEuler .pytensorLoop exJac.solve exVars exParams exCoords [9, 5] 4 exDataQ = .ok outs' ∧
    outs ≠ outs' := by
  obtain ⟨outs, h⟩ := exJac_runs .numba 4
  obtain ⟨outs', h'⟩ := exJac_runs .pytensorLoop 4
  exact ⟨outs, outs', h, h', (C23_rows_differ .numba .pytensorLoop rfl rfl _ exCoords exVars exParams
    exDataQ [9, 5] 4 exEulerCall exJac.lenOK outs outs' h h').2.2⟩

/-- **C23 is false as stated (names).**  With a parameter `a` and a variable `a_final` the numba
function runs while the python loops raise `TypeError`. -/
theorem C23_keyword_clash :
    ∃ (vars params : List ModelObject) (data : Dict Str (NDArray ℚ)) (dx : StepSolve ℚ),
      ((vars ++ params).map ModelObject.name).Nodup ∧
      (∃ outs, runEuler .numba dx vars params [] [2] 1 data = .ok outs) ∧
      runEuler .pytensorLoop dx vars params [] [2] 1 data = .error .typeError ∧
      ∀ rk4, runEuler (.jaxLoop rk4) dx vars params [] [2] 1 data = .error .typeError := by
  refine ⟨[{ name := "a_final" }], [{ name := "a" }], [("a_final", ⟨[], [5]⟩), ("a", ⟨[], [1]⟩)],
    fun _ _ h => .ok h, by decide, ?_, ?_, ?_⟩
  · exact ⟨_, rfl⟩
  · rfl
  · intro rk4; cases rk4 <;> rfl

end Verif
