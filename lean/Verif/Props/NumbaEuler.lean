import Verif.Model.NumbaEuler
import Verif.Props.NumbaCode
import Verif.Lemmas.Jacobian
import Mathlib.Tactic.Linarith

/-!
# C64: the numba Euler step solves the total differential
-/

namespace Verif

open SymExpr

/-- No declared scalar is called like another one with `_0` behind it. -/
def NoZeroClash (names : List Str) : Prop := ∀ a ∈ names, ∀ b ∈ names, a ≠ b ++ "_0".toList

theorem mapAtoms_id' (e : SymExpr Str) : e.mapAtoms (fun y => y) = e := by
  induction e with
  | num q => rfl
  | sym a => rfl
  | add a b iha ihb => rw [mapAtoms, iha, ihb]
  | mul a b iha ihb => rw [mapAtoms, iha, ihb]
  | pow a b iha ihb => rw [mapAtoms, iha, ihb]
  | log a iha => rw [mapAtoms, iha]
  | exp a iha => rw [mapAtoms, iha]

theorem mapAtoms_comp' (f g : Str → Str) (e : SymExpr Str) :
    (e.mapAtoms f).mapAtoms g = e.mapAtoms (fun y => g (f y)) := by
  induction e with
  | num q => rfl
  | sym a => rfl
  | add a b iha ihb => simp only [mapAtoms, iha, ihb]
  | mul a b iha ihb => simp only [mapAtoms, iha, ihb]
  | pow a b iha ihb => simp only [mapAtoms, iha, ihb]
  | log a iha => simp only [mapAtoms, iha]
  | exp a iha => simp only [mapAtoms, iha]

theorem subsInOrder_eq (order : List Str) (e : SymExpr Str) :
    subsInOrder order e =
      e.mapAtoms fun y => order.foldl (fun z x => if z = x then zeroName x else z) y := by
  induction order generalizing e with
  | nil => exact (mapAtoms_id' e).symm
  | cons x order ih =>
    rw [subsInOrder, List.foldl_cons, ← subsInOrder, ih, replaceSym, mapAtoms_comp']
    rfl

theorem rename_fold_zero (names order : List Str) (hc : NoZeroClash names)
    (ho : ∀ b ∈ order, b ∈ names) (b : Str) (hb : b ∈ names) :
    order.foldl (fun z x => if z = x then zeroName x else z) (zeroName b) = zeroName b := by
  induction order with
  | nil => rfl
  | cons x order ih =>
    rw [List.foldl_cons, if_neg fun h => hc x (ho x (by simp)) b hb h.symm]
    exact ih fun c hc' => ho c (by simp [hc'])

theorem rename_fold (names order : List Str) (hc : NoZeroClash names)
    (ho : ∀ b ∈ order, b ∈ names) (a : Str) (ha : a ∈ order) :
    order.foldl (fun z x => if z = x then zeroName x else z) a = zeroName a := by
  induction order with
  | nil => simp at ha
  | cons x order ih =>
    rw [List.foldl_cons]
    by_cases h : a = x
    · subst h
      rw [if_pos rfl]
      exact rename_fold_zero names order hc (fun c hc' => ho c (by simp [hc'])) a (ho a (by simp))
    · rw [if_neg h]
      exact ih (fun c hc' => ho c (by simp [hc'])) (by
        rcases List.mem_cons.1 ha with h' | h'
        · exact absurd h' h
        · exact h')

theorem eval_subsInOrder (names order : List Str) (hc : NoZeroClash names)
    (ho : ∀ b, b ∈ order ↔ b ∈ names) (env point : Str → ℝ)
    (hp : ∀ a ∈ names, env (zeroName a) = point a) (e : SymExpr Str) (he : ∀ a ∈ e.atoms, a ∈ names) :
    (subsInOrder order e).eval env = e.eval point := by
  rw [subsInOrder_eq, eval_mapAtoms]
  apply eval_congr
  intro a ha
  have han := he a ha
  rw [Function.comp, rename_fold names order hc (fun b hb => (ho b).1 hb) a ((ho a).2 han), hp a han]

theorem zeroName_injective : Function.Injective zeroName := fun _ _ h => List.append_cancel_right h

theorem pointNames_eq (vars params : List Str) (hn : (vars ++ params).Nodup) :
    pointNames vars params = (vars ++ params).map zeroName := by
  unfold pointNames
  rw [dofPairs_of_nodup _ (by simpa [List.map_map, Function.comp_def] using hn)]
  simp [dvalues, Function.comp_def]

theorem atoms_diff_subset {α : Type} [DecidableEq α] (x : α) (e : SymExpr α) :
    ∀ a ∈ (diff x e).atoms, a ∈ e.atoms := by
  induction e with
  | num q => simp [diff, atoms]
  | sym a => simp [diff, atoms]
  | add a b iha ihb =>
    intro c hc
    simp only [diff, atoms, List.mem_append] at hc ⊢
    exact hc.imp (iha c) (ihb c)
  | mul a b iha ihb =>
    intro c hc
    simp only [diff, atoms, List.mem_append] at hc ⊢
    have := iha c
    have := ihb c
    tauto
  | pow a b iha ihb =>
    intro c hc
    have h1 := iha c
    have h2 := ihb c
    simp only [diff] at hc
    simp only [atoms, List.mem_append]
    by_cases hb : ∃ q, b = num q
    · obtain ⟨q, rfl⟩ := hb
      simp only [powDiff] at hc
      split at hc <;> simp [atoms] at hc <;> tauto
    · have : powDiff a b (diff x a) (diff x b) =
          mul (pow a b) (add (mul (diff x b) (log a)) (mul (diff x a) (mul b (pow a (num (-1)))))) := by
        cases b <;> first | rfl | exact absurd ⟨_, rfl⟩ hb
      rw [this] at hc
      simp only [atoms, List.mem_append, List.append_nil] at hc
      tauto
  | log a iha =>
    intro c hc
    have := iha c
    simp only [diff, atoms, List.mem_append, List.append_nil] at hc ⊢
    tauto
  | exp a iha =>
    intro c hc
    have := iha c
    simp only [diff, atoms, List.mem_append] at hc ⊢
    tauto

theorem nodup_last {l : List Str} (h : l.Nodup) (k : Nat) (n : Str) (hk : l[k]? = some n) :
    ∀ k' : Nat, k < k' → l[k']? ≠ some n := by
  intro k' hlt hk'
  obtain ⟨h1, e1⟩ := List.getElem?_eq_some_iff.1 hk
  obtain ⟨h2, e2⟩ := List.getElem?_eq_some_iff.1 hk'
  have := (List.Nodup.getElem_inj_iff h).1 (e1.trans e2.symm)
  omega

theorem zipWith_sum_congr (l : List Str) (d : List ℝ) (f : Str → ℝ → ℝ) (g : Str → ℝ → ℝ)
    (h : ∀ a ∈ l, ∀ b, f a b = g a b) : (List.zipWith f l d).sum = (List.zipWith g l d).sum := by
  induction l generalizing d with
  | nil => rfl
  | cons a l ih =>
    cases d with
    | nil => rfl
    | cons b d =>
      simp only [List.zipWith_cons_cons, List.sum_cons]
      rw [h a (by simp), ih d fun c hc => h c (by simp [hc])]

/-- The names a model may use so that the generated functions read the right numbers: words, all
different, none the name of a generated argument, none another one's name with `_0` behind it. -/
structure EulerNames (names : List Str) : Prop where
  nodup : names.Nodup
  word : ∀ n ∈ names, ∀ c ∈ n, isWordChar c = true
  noZero : NoZeroClash names
  noExog : "exog_inputs".toList ∉ names
  noEndog : "endog_inputs".toList ∉ names
  noNumpy : "np".toList ∉ names

/-- What the generated functions bind. -/
theorem euler_locals (vars params : List Str) (stepSize x θ : List ℝ)
    (hn : EulerNames (vars ++ params)) (hs : stepSize.length = params.length)
    (hx : x.length = vars.length) (hθ : θ.length = params.length) :
    ∃ locals, runPrelude params (some (pointNames vars params)) stepSize (x ++ θ) = .ok locals ∧
      hidesNumpy locals = false ∧
      (∀ (k : Nat) p s, params[k]? = some p → stepSize[k]? = some s →
        localValue locals p = s) ∧
      (∀ (k : Nat) a v, (vars ++ params)[k]? = some a → (x ++ θ)[k]? = some v →
        localValue locals (zeroName a) = v) := by
  have hnd := hn.nodup
  have hpn := pointNames_eq vars params hnd
  have hzw : ∀ c ∈ "_0".toList, isWordChar c = true := by decide +kernel
  have hx0 : ∀ b, b ++ "_0".toList ≠ "exog_inputs".toList := by
    intro b h
    have := congrArg List.getLast? h
    rw [List.getLast?_append, show "_0".toList.getLast? = some '0' from rfl, Option.some_or] at this
    exact absurd this (by decide +kernel)
  have hn0 : ∀ b, b ++ "_0".toList ≠ "endog_inputs".toList := by
    intro b h
    have := congrArg List.getLast? h
    rw [List.getLast?_append, show "_0".toList.getLast? = some '0' from rfl, Option.some_or] at this
    exact absurd this (by decide +kernel)
  have hnp : ∀ b, b ++ "_0".toList ≠ "np".toList := by
    intro b h
    have := congrArg List.getLast? h
    rw [List.getLast?_append, show "_0".toList.getLast? = some '0' from rfl, Option.some_or] at this
    exact absurd this (by decide +kernel)
  obtain ⟨env, h1, h2, h3, h4⟩ := C55_binding params (pointNames vars params) stepSize (x ++ θ)
    (by
      intro n hm c hc
      rcases List.mem_append.1 hm with h | h
      · exact hn.word n (by simp [h]) c hc
      · rw [hpn] at h
        obtain ⟨b, hb, rfl⟩ := List.mem_map.1 h
        rcases List.mem_append.1 hc with h' | h'
        · exact hn.word b hb c h'
        · exact hzw c h')
    (by
      intro hm
      rcases List.mem_append.1 hm with h | h
      · exact hn.noExog (by simp only [List.mem_append]; exact .inr h)
      · rw [hpn] at h
        obtain ⟨b, -, hb⟩ := List.mem_map.1 h
        exact hx0 b hb)
    (by
      intro hm
      rcases List.mem_append.1 hm with h | h
      · exact hn.noEndog (by simp only [List.mem_append]; exact .inr h)
      · rw [hpn] at h
        obtain ⟨b, -, hb⟩ := List.mem_map.1 h
        exact hn0 b hb)
    hs (by rw [hpn]; simp [hx, hθ])
  refine ⟨env, h1, ?_, fun k p s hk hsk => ?_, fun k a v hk hv => ?_⟩
  · unfold hidesNumpy
    rw [h4 _ (by
      intro hm
      rcases List.mem_append.1 hm with h | h
      · exact hn.noNumpy (by simp only [List.mem_append]; exact .inr h)
      · rw [hpn] at h
        obtain ⟨b, -, hb⟩ := List.mem_map.1 h
        exact hnp b hb) (by decide +kernel) (by decide +kernel)]
    rfl
  · have := h2 k p s hk hsk (nodup_last (List.nodup_append.1 hnd).2.1 k p hk) (by
      rw [hpn]
      intro hm
      obtain ⟨b, hb, hbe⟩ := List.mem_map.1 hm
      exact hn.noZero p (List.mem_append.2 (.inr (List.mem_of_getElem? hk))) b hb hbe.symm)
    simp [localValue, this]
  · have hk' : (pointNames vars params)[k]? = some (zeroName a) := by
      rw [hpn, List.getElem?_map, hk]; rfl
    have := h3 k (zeroName a) v hk' hv (nodup_last (by
      rw [hpn]; exact hnd.map zeroName_injective) k _ hk')
    simp [localValue, this]

/-- The two arrays of the numba Euler step: the partial derivatives at the current point, and those with
respect to the parameters times the step. -/
theorem numbaSystem_eq (order vars params : List Str) (eqs : List (SymExpr Str))
    (dθ x θ : List ℝ) (point : Str → ℝ)
    (hn : EulerNames (vars ++ params)) (horder : ∀ a, a ∈ order ↔ a ∈ vars ++ params)
    (hdecl : ∀ e ∈ eqs, ∀ a, Mentions a e → a ∈ vars ++ params)
    (hs : dθ.length = params.length)
    (hx : vars.map point = x) (hθ : params.map point = θ) :
    numbaSystem order vars params eqs dθ (x ++ θ) =
      .ok (eqs.map fun e => vars.map fun v => (diff v e).eval point,
        eqs.map fun e => (List.zipWith (fun p s => (diff p e).eval point * s) params dθ).sum) := by
  subst hx hθ
  obtain ⟨locals, hrun, hnp, hpar, hpt⟩ := euler_locals vars params dθ (vars.map point)
    (params.map point) hn hs (by simp) (by simp)
  have hp : ∀ a ∈ vars ++ params, localValue locals (zeroName a) = point a := by
    intro a ha
    obtain ⟨k, hk, hka⟩ := List.mem_iff_getElem.1 ha
    have h1 : (vars ++ params)[k]? = some a := by rw [List.getElem?_eq_getElem hk, hka]
    exact hpt k a _ h1 (by rw [← List.map_append, List.getElem?_map, h1]; rfl)
  have hat : ∀ e ∈ eqs, ∀ a ∈ e.atoms, a ∈ vars ++ params :=
    fun e he a ha => hdecl e he a ((mem_atoms_iff a e).1 ha)
  have hsub : ∀ e ∈ eqs, ∀ v, (subsInOrder order (diff v e)).eval (localValue locals)
      = (diff v e).eval point := fun e he v =>
    eval_subsInOrder _ order hn.noZero horder _ point hp _
      fun a ha => hat e he a (atoms_diff_subset v e a ha)
  unfold numbaSystem
  rw [hrun]
  dsimp only
  rw [hnp, if_neg Bool.false_ne_true]
  congr 2
  · simp only [eulerA, makeJacobian, List.map_map]
    apply List.map_congr_left
    intro e he
    simp only [Function.comp, List.map_map]
    apply List.map_congr_left
    intro v _
    exact hsub e he v
  · simp only [eulerBv, List.map_map]
    apply List.map_congr_left
    intro e he
    simp only [Function.comp, eval_sum, List.map_map]
    congr 1
    apply List.ext_getElem?
    intro k
    rw [List.getElem?_map, List.getElem?_zipWith]
    cases hk : params[k]? with
    | none => simp
    | some p =>
      have hk2 : k < dθ.length := by rw [hs]; exact (List.getElem?_eq_some_iff.1 hk).1
      rw [List.getElem?_eq_getElem hk2]
      simp only [Option.map_some, Function.comp, eval, hsub e he p]
      rw [hpar k p _ hk (List.getElem?_eq_getElem hk2)]

/-- **C64.** For a model whose names do not clash, whatever order sympy replaces the symbols in: any
solution `dx` of the system that the numba Euler step builds at the point `(x, θ)` for the step `dθ`
satisfies the total differential of every equation, `Σ ∂g/∂xⱼ dxⱼ + Σ ∂g/∂θₖ dθₖ = 0`, the partial
derivatives being those at `(x, θ)`. -/
theorem C64_total_differential (order vars params : List Str) (eqs : List (SymExpr Str))
    (dθ x θ : List ℝ) (point : Str → ℝ)
    (hn : EulerNames (vars ++ params)) (horder : ∀ a, a ∈ order ↔ a ∈ vars ++ params)
    (hdecl : ∀ e ∈ eqs, ∀ a, Mentions a e → a ∈ vars ++ params)
    (hs : dθ.length = params.length)
    (hx : vars.map point = x) (hθ : params.map point = θ)
    (hreg : ∀ e ∈ eqs, Regular point e) :
    ∃ A B, numbaSystem order vars params eqs dθ (x ++ θ) = .ok (A, B) ∧
      A.length = eqs.length ∧ B.length = eqs.length ∧ (∀ row ∈ A, row.length = vars.length) ∧
      ∀ dx : List ℝ,
        (∀ (i : Nat) row b, A[i]? = some row → B[i]? = some b →
          (List.zipWith (· * ·) row dx).sum = -b) →
        ∀ e ∈ eqs, ∀ dX dT : Str → ℝ,
          (∀ v ∈ vars, HasPartial (fun env => e.eval env) v (dX v) point) →
          (∀ p ∈ params, HasPartial (fun env => e.eval env) p (dT p) point) →
          (List.zipWith (fun v d => dX v * d) vars dx).sum
            + (List.zipWith (fun p s => dT p * s) params dθ).sum = 0 := by
  refine ⟨_, _, numbaSystem_eq order vars params eqs dθ x θ point hn horder hdecl hs hx hθ, by simp,
    by simp, ?_, ?_⟩
  · intro row hrow
    obtain ⟨e, -, rfl⟩ := List.mem_map.1 hrow
    simp
  · intro dx hdx e he dX dT hX hT
    obtain ⟨i, hi, hie⟩ := List.mem_iff_getElem.1 he
    have hie' : eqs[i]? = some e := by rw [List.getElem?_eq_getElem hi, hie]
    have := hdx i (vars.map fun v => (diff v e).eval point)
      ((List.zipWith (fun p s => (diff p e).eval point * s) params dθ).sum)
      (by rw [List.getElem?_map, hie']; rfl) (by rw [List.getElem?_map, hie']; rfl)
    have uX : ∀ v ∈ vars, dX v = (diff v e).eval point := fun v hv =>
      HasDerivAt.unique (hX v hv) (hasPartial_diff point v e (hreg e he))
    have uT : ∀ v ∈ params, dT v = (diff v e).eval point := fun v hv =>
      HasDerivAt.unique (hT v hv) (hasPartial_diff point v e (hreg e he))
    rw [zipWith_sum_congr vars dx _ (fun v d => (diff v e).eval point * d)
        (fun a ha b => by rw [uX a ha]),
      zipWith_sum_congr params dθ _ (fun v d => (diff v e).eval point * d)
        (fun a ha b => by rw [uT a ha])]
    rw [List.zipWith_map_left] at this
    linarith

/-! ## A concrete model -/

/-- `y - a * x` in the variable `y` with the parameters `a` and `x`. -/
def exEulerEq : SymExpr Str :=
  .add (.sym "y".toList) (.mul (.num (-1)) (.mul (.sym "a".toList) (.sym "x".toList)))

theorem exEulerNames : EulerNames (["y".toList] ++ ["a".toList, "x".toList]) where
  nodup := by decide +kernel
  word := by decide +kernel
  noZero := by
    intro a ha b hb
    revert a b
    decide +kernel
  noExog := by decide +kernel
  noEndog := by decide +kernel
  noNumpy := by decide +kernel

example : ∃ A B, numbaSystem ["a".toList, "x".toList, "y".toList] ["y".toList]
    ["a".toList, "x".toList] [exEulerEq] [1, 0] [6, 2, 3] = .ok (A, B) ∧ A.length = 1 ∧ B.length = 1 := by
  obtain ⟨A, B, h1, h2, h3, -⟩ := C64_total_differential ["a".toList, "x".toList, "y".toList]
    ["y".toList] ["a".toList, "x".toList] [exEulerEq] [1, 0] [6] [2, 3]
    (fun s => if s = "y".toList then 6 else if s = "a".toList then 2 else 3)
    exEulerNames (by intro a; simp; tauto)
    (by
      intro e he a ha
      rw [List.mem_singleton] at he
      subst he
      have := (mem_atoms_iff _ _).2 ha
      simp [exEulerEq, atoms] at this
      simp; tauto)
    rfl (by simp) (by simp) (by
      intro e he
      rw [List.mem_singleton] at he
      subst he
      simp [exEulerEq, Regular])
  exact ⟨A, B, h1, h2, h3⟩

/-! ## Names that clash -/

/-- `a - a_0`, in the variable `a` with the parameter `a_0`; its solution is `a = a_0`. -/
def exClashEq : SymExpr Str := .add (.sym "a".toList) (.mul (.num (-1)) (.sym "a_0".toList))

/-- **C64, counterexample.** The solution of `a - a_0 = 0` moves one for one with `a_0`.  But the name
`a_0` is also the generated name of the current value of `a`, so the compiled function puts the current
value of `a` where the step of the parameter belongs: from any point `(v, w)` and for any step `s` the
system is `1 · da = v`, whatever `s` is. -/
theorem C64_clash_counterexample (order : List Str) (s v w : ℝ) :
    numbaSystem order ["a".toList] ["a_0".toList] [exClashEq] [s] [v, w] = .ok ([[1]], [-v]) := by
  have hrun : runPrelude ["a_0".toList] (some (pointNames ["a".toList] ["a_0".toList])) [s] [v, w] =
      .ok [("exog_inputs".toList, .vec [s]), ("endog_inputs".toList, .vec [v, w]),
        ("a_0".toList, .num v), ("a_0_0".toList, .num w)] := by rfl
  unfold numbaSystem exClashEq
  rw [hrun]
  have hv : localValue [("exog_inputs".toList, .vec [s]), ("endog_inputs".toList, .vec [v, w]),
      ("a_0".toList, .num v), ("a_0_0".toList, .num w)] "a_0".toList = v := by rfl
  have h1 : "a_0".toList ≠ "a".toList := by decide +kernel
  have h2 : "a".toList ≠ "a_0".toList := by decide +kernel
  have hnp : hidesNumpy [("exog_inputs".toList, .vec [s]), ("endog_inputs".toList, .vec [v, w]),
      ("a_0".toList, .num v), ("a_0_0".toList, .num w)] = false := by rfl
  dsimp only
  rw [hnp, if_neg Bool.false_ne_true]
  generalize ([("exog_inputs".toList, .vec [s]), ("endog_inputs".toList, .vec [v, w]),
    ("a_0".toList, .num v), ("a_0_0".toList, .num w)] : Dict Str (LocalVal ℝ)) = env at *
  generalize "a_0".toList = b at *
  generalize "a".toList = a at *
  simp [eulerA, eulerBv, makeJacobian, exClashEq, diff, subsInOrder_eq, mapAtoms, eval, SymExpr.sum,
    h1, h2, hv]

/-- **C64, counterexample.** A model with a parameter called `np` has no Euler steps at all: the name hides
numpy in the generated function, whatever the equations are. -/
theorem C64_np_counterexample (order : List Str) (eqs : List (SymExpr Str)) (s v w : ℝ) :
    numbaSystem order ["a".toList] ["np".toList] eqs [s] [v, w] = .error .attributeError := by
  have hrun : runPrelude ["np".toList] (some (pointNames ["a".toList] ["np".toList])) [s] [v, w] =
      .ok [("exog_inputs".toList, .vec [s]), ("endog_inputs".toList, .vec [v, w]),
        ("np".toList, .num s), ("a_0".toList, .num v), ("np_0".toList, .num w)] := by rfl
  unfold numbaSystem
  rw [hrun]
  rfl

end Verif
