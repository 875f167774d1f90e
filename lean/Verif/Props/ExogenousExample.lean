import Verif.Props.Exogenous
import Verif.Props.RelabelExample

/-!
# C107 applied
-/

namespace Verif

open SymExpr

theorem scalar_side (objs : List ModelObject) (e : RExpr) (h1 : AllPlain [] e) (h2 : e.indexeds = [])
    (h3 : ∀ x ∈ e.syms, ∃ o ∈ objs, o.name = x ∧ o.dims = []) : SideOK [] objs none e := by
  refine ⟨h1, ⟨fun x hx => ?_, fun v hv => by rw [h2] at hv; cases hv⟩, fun o ho => (nomatch ho), fun o ho => (nomatch ho)⟩
  obtain ⟨o, ho, h⟩ := h3 x hx
  exact ⟨o, by simpa using ho, h⟩

/-- A model without coordinates on the numba back-end, without an optimizer. -/
noncomputable def plainEnv (vars params : List ModelObject) (order : List Str) (es : List (SymExpr Str))
    (uv up : Dict Str ModelObject) (K : NumbaFns) : SamEnv ℝ (List (NDArray ℝ)) :=
  ⟨vars, params, [], ["euler".toList],
    .flat (callNumba (dkeys uv) (dkeys up) K.system),
    .flat fun x theta => (callNumba (dkeys uv) (dkeys up) [K.loss] x theta).map fun l => l.headD 0,
    [], fun _ _ _ _ => .error .valueError, fun _ _ _ _ => .error .valueError, fun x0 theta n => runEuler .numba
      (numbaDX order (dkeys uv) (dkeys up) es) vars params [] theta n x0⟩

/-- The Euler function of such a model returns if its matrix is never singular. -/
theorem plain_runs {vars params : List ModelObject} {eqs : List IndexedEq} {es : List (SymExpr Str)} {vn pn : List Str}
    {uv up : Dict Str ModelObject} {K : NumbaFns}
    (hmod : IndexedModel [] vars params none eqs) (hnames : EulerNames (vn ++ pn)) (hem : EulerModel [] vars params)
    (hK : BuiltNumba [] vars params eqs es uv up K)
    (hN : scalarNames [] (vars ++ params) = vn ++ pn) (k1 : dkeys uv = vn) (k2 : dkeys up = pn)
    (hv : vn.length = totalSize [] vars) (hp : pn.length = totalSize [] params) (he : es.length = totalSize [] vars)
    (hdet : ∀ x t, IsUnit (symA (totalSize [] vars) (totalSize [] params) vn pn es x t).det)
    (fl : SimFlags) (add mul : NDArray ℝ → NDArray ℝ → NDArray ℝ) (c : SimCall ℝ)
    (hr : RequestOK [] (solvedVars none vars) params add mul [] c) (h1 : c.useEuler = true)
    (h2 : c.useOptimizer = false) :
    BuiltOn [] vars params none eqs es .numba (fun _ _ _ => .ok []) (plainEnv vars params (vn ++ pn) es uv up K) ∧
    ∃ outs, (plainEnv vars params (vn ++ pn) es uv up K).euler (derefDict [] c.initial)
      (wantedFlat add mul [] c params) c.nIterEuler = .ok outs := by
  have hm : BuiltOn [] vars params none eqs es .numba (fun _ _ _ => .ok [])
      (plainEnv vars params (vn ++ pn) es uv up K) :=
    Or.inr ⟨rfl, rfl, vn ++ pn, hmod, hN ▸ hnames, hem, fun a => by rw [hN], rfl, rfl, rfl, List.cons_ne_nil _ _, uv, up, K,
      hK, rfl⟩
  refine ⟨hm, ?_⟩
  have hcall : EulerCall [] vars params (derefDict [] c.initial) (wantedFlat add mul [] c params) := by
    obtain ⟨-, dx, A, B, -, hs⟩ := hm.stepsFrom (by rw [solvedVars_none]; exact he)
    have hl := hs.lenOK
    have := (euler_setup .numba dx _ hs.steps hs.euler hl hs.coords_eq hs.variables_eq hs.parameters_eq
      hs.compiled fl add mul [] c hr h1 h2).1
    rwa [solvedVars_none] at this
  show ∃ outs, runEuler .numba (numbaDX _ (dkeys uv) (dkeys up) es) vars params [] _ _ _ = _
  rw [k1, k2, runEuler_numbaDX [] vars params _ _ hcall _ _ _ es hnames (fun a => Iff.rfl)
    (by
      intro e he a ha
      have := (hK.values hmod).1 e he a ((mem_atoms_iff a e).2 ha)
      rwa [hN] at this) hv hp he]
  cases hc : runEuler .numba (vecJac (nx := totalSize [] vars) (np := totalSize [] params)
      (symA _ _ vn pn es) (symB _ _ vn pn es)).solve vars params []
      (wantedFlat add mul [] c params) c.nIterEuler (derefDict [] c.initial) with
  | ok outs => exact ⟨outs, rfl⟩
  | error e =>
    obtain ⟨-, x, t, -, -, hs⟩ := C20_fails_only_if_singular _ _ _ _ _ _ _ _ hcall e hc
    exact absurd (hdet _ _) hs

/-! ## A parameter written as a number

`x + y = p`, `x = y + k` with `k = 1`, and `x + y = p`, `x = y + 1`. -/

def lagParam : ModelObject := { name := "k" }
def lagParams : List ModelObject := sqParams ++ [lagParam]

def lagEqs : List IndexedEq :=
  [⟨[.lit "total".toList], .add (.sym "x".toList) (.sym "y".toList), .sym "p".toList⟩,
   ⟨[.lit "gap".toList], .sym "x".toList, .add (.sym "y".toList) (.sym "k".toList)⟩]

def lagNumberEqs : List IndexedEq :=
  [⟨[.lit "total".toList], .add (.sym "x".toList) (.sym "y".toList), .sym "p".toList⟩,
   ⟨[.lit "gap".toList], .sym "x".toList, .add (.sym "y".toList) (.num 1)⟩]

example : lagEqs.map (IndexedEq.withNumber lagParam.name 1) = lagNumberEqs := rfl

def lagEs (k : SymExpr Str) : List (SymExpr Str) :=
  [.add (.add (.sym "x".toList) (.sym "y".toList)) (.mul (.num (-1)) (.sym "p".toList)),
   .add (.sym "x".toList) (.mul (.num (-1)) (.add (.sym "y".toList) k))]

theorem lagModel : IndexedModel [] duoVars lagParams none lagEqs where
  scalar :=
    { known := by decide +kernel
      dims := by decide +kernel
      fresh := by decide +kernel
      labels := by decide +kernel
      names := by decide +kernel
      scalars := by decide +kernel }
  coords_nodup := by decide +kernel
  dim_names := by decide +kernel
  label_names := by intro i ls h; cases h
  numeraire_mem := by rintro o ⟨⟩
  sides := by
    intro q hq
    simp only [lagEqs, List.mem_cons, List.not_mem_nil, or_false] at hq
    rcases hq with rfl | rfl
    · exact ⟨scalar_side _ _ ⟨trivial, trivial⟩ rfl (by decide +kernel), scalar_side _ _ trivial rfl (by decide +kernel)⟩
    · exact ⟨scalar_side _ _ trivial rfl (by decide +kernel), scalar_side _ _ ⟨trivial, trivial⟩ rfl (by decide +kernel)⟩
  clean := by
    intro q hq
    simp only [lagEqs, List.mem_cons, List.not_mem_nil, or_false] at hq
    rcases hq with rfl | rfl <;> decide +kernel
  markers := by decide +kernel
  names := by decide +kernel

theorem lagNumberModel : IndexedModel [] duoVars sqParams none lagNumberEqs where
  scalar :=
    { known := by decide +kernel
      dims := by decide +kernel
      fresh := by decide +kernel
      labels := by decide +kernel
      names := by decide +kernel
      scalars := by decide +kernel }
  coords_nodup := by decide +kernel
  dim_names := by decide +kernel
  label_names := by intro i ls h; cases h
  numeraire_mem := by rintro o ⟨⟩
  sides := by
    intro q hq
    simp only [lagNumberEqs, List.mem_cons, List.not_mem_nil, or_false] at hq
    rcases hq with rfl | rfl
    · exact ⟨scalar_side _ _ ⟨trivial, trivial⟩ rfl (by decide +kernel), scalar_side _ _ trivial rfl (by decide +kernel)⟩
    · exact ⟨scalar_side _ _ trivial rfl (by decide +kernel), scalar_side _ _ ⟨trivial, trivial⟩ rfl (by decide +kernel)⟩
  clean := by
    intro q hq
    simp only [lagNumberEqs, List.mem_cons, List.not_mem_nil, or_false] at hq
    rcases hq with rfl | rfl <;> decide +kernel
  markers := by decide +kernel
  names := by decide +kernel

/-- The hypotheses of `C107_number_solutions`. -/
example (d : Dict Str (NDArray ℝ)) (hd : ∀ o ∈ solvedVars none duoVars ++ lagParams, DataFor [] d o)
    (hk : (dget d "k".toList).map NDArray.data = some [1]) :
    (∀ y ∈ imbalances [] duoVars lagParams none lagEqs (flatOf d (solvedVars none duoVars ++ lagParams)), y = 0) ↔
      ∀ y ∈ imbalances [] duoVars sqParams none lagNumberEqs (flatOf d (solvedVars none duoVars ++ sqParams)), y = 0 :=
  C107_number_solutions (k := lagParam) rfl lagModel 1 d hd (by rw [Rat.cast_one]; exact hk)

theorem lagNumba : ∃ uv up K, BuiltNumba [] duoVars lagParams lagEqs (lagEs (.sym "k".toList)) uv up K ∧
    dkeys uv = ["x".toList, "y".toList] ∧ dkeys up = ["p".toList, "k".toList] :=
  ⟨_, _, _, ⟨id, id, id, id, _, fun _ _ => Iff.rfl, fun _ _ => Iff.rfl, fun _ _ => Iff.rfl, rfl, rfl,
    rfl, rfl, rfl⟩, rfl, rfl⟩

theorem lagNumberNumba : ∃ uv up K, BuiltNumba [] duoVars sqParams lagNumberEqs (lagEs (.num 1)) uv up K ∧
    dkeys uv = ["x".toList, "y".toList] ∧ dkeys up = ["p".toList] :=
  ⟨_, _, _, ⟨id, id, id, id, _, fun _ _ => Iff.rfl, fun _ _ => Iff.rfl, fun _ _ => Iff.rfl, rfl, rfl,
    rfl, rfl, rfl⟩, rfl, rfl⟩

theorem lagNames : EulerNames (["x".toList, "y".toList] ++ ["p".toList, "k".toList]) where
  nodup := by decide +kernel
  word := by decide +kernel
  noZero := by
    intro a ha b hb
    revert a b
    decide +kernel
  noExog := by decide +kernel
  noEndog := by decide +kernel
  noNumpy := by decide +kernel

theorem lagEuler : EulerModel [] duoVars lagParams where
  labelled := ⟨by decide +kernel, by decide +kernel, by decide +kernel, by decide +kernel⟩
  nonempty := by decide +kernel
  someVar := by decide +kernel
  someParam := by decide +kernel
  keywords := by decide +kernel

/-- From `x = 2`, `y = 1`, `p = 3` to `p = 7`, with `k = 1`. -/
def lagCall : SimCall ℝ where
  initial := [("x".toList, .num ⟨[], [2]⟩), ("y".toList, .num ⟨[], [1]⟩), ("p".toList, .num ⟨[], [3]⟩),
    ("k".toList, .num ⟨[], [1]⟩)]
  finalValues := some [("p".toList, .num ⟨[], [7]⟩)]
  useOptimizer := false

def lagNumberCall : SimCall ℝ where
  initial := [("x".toList, .num ⟨[], [2]⟩), ("y".toList, .num ⟨[], [1]⟩), ("p".toList, .num ⟨[], [3]⟩)]
  finalValues := some [("p".toList, .num ⟨[], [7]⟩)]
  useOptimizer := false

theorem lagRequest (add mul : NDArray ℝ → NDArray ℝ → NDArray ℝ) :
    RequestOK [] (solvedVars none duoVars) lagParams add mul [] lagCall where
  nodup := by simp [lagCall, dkeys]
  exact := by intro n; simp [lagCall, dkeys, duoVars, lagParams, sqParams, solvedVars, lagParam]
  distinct := by simp [lagCall, dkeys]
  some_change := by simp [lagCall, dkeys]
  known := by simp [lagCall, dkeys]
  valid := by simp [lagCall, ValidRefs, refsOf]
  unshared := by simp [lagCall, refsOf]
  shaped := by
    intro o ho
    have : o = { name := "x" } ∨ o = { name := "y" } ∨ o = { name := "p" } ∨ o = lagParam := by
      simpa [duoVars, lagParams, sqParams, solvedVars] using ho
    rcases this with rfl | rfl | rfl | rfl
    · exact ⟨⟨[], [2]⟩, rfl, rfl, rfl⟩
    · exact ⟨⟨[], [1]⟩, rfl, rfl, rfl⟩
    · exact ⟨⟨[], [3]⟩, rfl, rfl, rfl⟩
    · exact ⟨⟨[], [1]⟩, rfl, rfl, rfl⟩
  sized := by
    intro o ho
    have : o = { name := "p" } ∨ o = lagParam := by simpa [lagParams, sqParams] using ho
    rcases this with rfl | rfl
    · exact ⟨⟨[], [7]⟩, rfl, rfl⟩
    · exact ⟨⟨[], [1]⟩, rfl, rfl⟩

theorem lagNumberRequest (add mul : NDArray ℝ → NDArray ℝ → NDArray ℝ) :
    RequestOK [] (solvedVars none duoVars) sqParams add mul [] lagNumberCall where
  nodup := by simp [lagNumberCall, dkeys]
  exact := by intro n; simp [lagNumberCall, dkeys, duoVars, sqParams, solvedVars]
  distinct := by simp [lagNumberCall, dkeys]
  some_change := by simp [lagNumberCall, dkeys]
  known := by simp [lagNumberCall, dkeys]
  valid := by simp [lagNumberCall, ValidRefs, refsOf]
  unshared := by simp [lagNumberCall, refsOf]
  shaped := by
    intro o ho
    have : o = { name := "x" } ∨ o = { name := "y" } ∨ o = { name := "p" } := by
      simpa [duoVars, sqParams, solvedVars] using ho
    rcases this with rfl | rfl | rfl
    · exact ⟨⟨[], [2]⟩, rfl, rfl, rfl⟩
    · exact ⟨⟨[], [1]⟩, rfl, rfl, rfl⟩
    · exact ⟨⟨[], [3]⟩, rfl, rfl, rfl⟩
  sized := by
    intro o ho
    have : o = { name := "p" } := by simpa [sqParams] using ho
    subst this
    exact ⟨⟨[], [7]⟩, rfl, rfl⟩

/-- The two models, simulated: `x` and `y` are the same at every step. -/
example (fl : SimFlags) (add mul : NDArray ℝ → NDArray ℝ → NDArray ℝ) :
    ∃ env₁ env₂ outs outs₂ e₁ e₂,
      simulateCompute (simEnvOf env₁ (fun _ => false) fl add mul) [] lagCall = .ok ⟨some e₁, none, none, false⟩ ∧
      simulateCompute (simEnvOf env₂ (fun _ => false) fl add mul) [] lagNumberCall = .ok ⟨some e₂, none, none, false⟩ ∧
      env₁.parameters = lagParams ∧ env₂.parameters = sqParams ∧
      (∀ t, t ≤ 10000 → SameArrays [] (duoVars ++ lagParams) (duoVars ++ sqParams)
        (EulerBackend.numba.stateAfter duoVars lagParams (derefDict [] lagCall.initial) outs t)
        (EulerBackend.numba.stateAfter duoVars sqParams (derefDict [] lagNumberCall.initial) outs₂ t)) ∧
      dget e₂.start "x".toList = dget e₁.start "x".toList := by
  obtain ⟨uv, up, K, hK, k1, k2⟩ := lagNumba
  obtain ⟨uv₂, up₂, K₂, hK₂, k3, k4⟩ := lagNumberNumba
  obtain ⟨hm, outs, hrun⟩ := plain_runs lagModel lagNames lagEuler hK (by decide +kernel) k1 k2 rfl rfl rfl
    (fun x t => by
      show IsUnit (symA 2 2 _ _ _ x t).det
      rw [Matrix.det_fin_two]
      simp [symA, lagEs, diff, SymExpr.eval]
      norm_num) fl add mul lagCall (lagRequest add mul) rfl rfl
  have hm₂ := (plain_runs lagNumberModel (vn := ["x".toList, "y".toList]) (pn := ["p".toList]) duoEulerNames duoEuler hK₂ (by decide +kernel) k3 k4 rfl rfl rfl
    (fun x t => by
      show IsUnit (symA 2 1 _ _ _ x t).det
      rw [Matrix.det_fin_two]
      simp [symA, lagEs, diff, SymExpr.eval]
      norm_num) fl add mul lagNumberCall (lagNumberRequest add mul) rfl rfl).1
  obtain ⟨e₁, e₂, outs₂, g1, g2, -, g4, g5⟩ := C107_number (k := lagParam) (q := 1) rfl hm hm₂ rfl rfl rfl fl add mul [] []
    lagCall lagNumberCall (lagRequest add mul) (lagNumberRequest add mul) rfl rfl rfl rfl (by decide) rfl
    (by simp [lagCall, seen, lagParam, dget, readVal])
    (by
      show some [(1 : ℝ)] = _
      simp)
    (by
      intro o ho
      have : o = { name := "x" } ∨ o = { name := "y" } ∨ o = { name := "p" } := by
        simpa [duoVars, sqParams, solvedVars] using ho
      rcases this with rfl | rfl | rfl <;> rfl)
    (by
      intro o ho
      have : o = { name := "p" } := by simpa [sqParams] using ho
      subst this
      rfl) outs hrun
    (by
      intro t _ s _
      refine ⟨fun e he => ?_, fun _ _ e he => ?_⟩ <;>
      · simp only [lagEs, List.mem_cons, List.not_mem_nil, or_false] at he
        rcases he with rfl | rfl <;> simp [Regular])
  exact ⟨_, _, outs, outs₂, e₁, e₂, g1, g2, rfl, rfl, g4, (g5 { name := "x" } (by decide +kernel)).2⟩

/-! ## A variable fixed at a parameter

`x + y = p`, `x = y`, and `x + y = z`, `x = y`, `z = p`. -/

def linkVar : ModelObject := { name := "z" }
def linkVars : List ModelObject := duoVars ++ [linkVar]
def linkName : Template := [.lit "link".toList]

def linkEqs : List IndexedEq :=
  [⟨[.lit "total".toList], .add (.sym "x".toList) (.sym "y".toList), .sym "z".toList⟩,
   ⟨[.lit "even".toList], .sym "x".toList, .sym "y".toList⟩,
   ⟨[.lit "link".toList], .sym "z".toList, .sym "p".toList⟩]

example : duoEqs.map (IndexedEq.instead "p".toList linkVar.name) ++ [fixedAt linkName linkVar { name := "p" }] = linkEqs :=
  rfl

def linkEs : List (SymExpr Str) :=
  [.add (.add (.sym "x".toList) (.sym "y".toList)) (.mul (.num (-1)) (.sym "z".toList)),
   .add (.sym "x".toList) (.mul (.num (-1)) (.sym "y".toList)),
   .add (.sym "z".toList) (.mul (.num (-1)) (.sym "p".toList))]

theorem linkModel : IndexedModel [] linkVars sqParams none linkEqs where
  scalar :=
    { known := by decide +kernel
      dims := by decide +kernel
      fresh := by decide +kernel
      labels := by decide +kernel
      names := by decide +kernel
      scalars := by decide +kernel }
  coords_nodup := by decide +kernel
  dim_names := by decide +kernel
  label_names := by intro i ls h; cases h
  numeraire_mem := by rintro o ⟨⟩
  sides := by
    intro q hq
    simp only [linkEqs, List.mem_cons, List.not_mem_nil, or_false] at hq
    rcases hq with rfl | rfl | rfl
    · exact ⟨scalar_side _ _ ⟨trivial, trivial⟩ rfl (by decide +kernel), scalar_side _ _ trivial rfl (by decide +kernel)⟩
    · exact ⟨scalar_side _ _ trivial rfl (by decide +kernel), scalar_side _ _ trivial rfl (by decide +kernel)⟩
    · exact ⟨scalar_side _ _ trivial rfl (by decide +kernel), scalar_side _ _ trivial rfl (by decide +kernel)⟩
  clean := by
    intro q hq
    simp only [linkEqs, List.mem_cons, List.not_mem_nil, or_false] at hq
    rcases hq with rfl | rfl | rfl <;> decide +kernel
  markers := by decide +kernel
  names := by decide +kernel

theorem linkNumba : ∃ uv up K, BuiltNumba [] linkVars sqParams linkEqs linkEs uv up K ∧
    dkeys uv = ["x".toList, "y".toList, "z".toList] ∧ dkeys up = ["p".toList] :=
  ⟨_, _, _, ⟨id, id, id, id, _, fun _ _ => Iff.rfl, fun _ _ => Iff.rfl, fun _ _ => Iff.rfl, rfl, rfl,
    rfl, rfl, rfl⟩, rfl, rfl⟩

theorem linkNames : EulerNames (["x".toList, "y".toList, "z".toList] ++ ["p".toList]) where
  nodup := by decide +kernel
  word := by decide +kernel
  noZero := by
    intro a ha b hb
    revert a b
    decide +kernel
  noExog := by decide +kernel
  noEndog := by decide +kernel
  noNumpy := by decide +kernel

theorem linkEuler : EulerModel [] linkVars sqParams where
  labelled := ⟨by decide +kernel, by decide +kernel, by decide +kernel, by decide +kernel⟩
  nonempty := by decide +kernel
  someVar := by decide +kernel
  someParam := by decide +kernel
  keywords := by decide +kernel

/-- As `duoCall`, with `z = p = 2`. -/
def linkCall : SimCall ℝ where
  initial := [("x".toList, .num ⟨[], [1]⟩), ("y".toList, .num ⟨[], [1]⟩), ("z".toList, .num ⟨[], [2]⟩),
    ("p".toList, .num ⟨[], [2]⟩)]
  finalValues := some [("p".toList, .num ⟨[], [6]⟩)]
  useOptimizer := false

theorem linkRequest (add mul : NDArray ℝ → NDArray ℝ → NDArray ℝ) :
    RequestOK [] (solvedVars none linkVars) sqParams add mul [] linkCall where
  nodup := by simp [linkCall, dkeys]
  exact := by intro n; simp [linkCall, dkeys, linkVars, linkVar, duoVars, sqParams, solvedVars]
  distinct := by simp [linkCall, dkeys]
  some_change := by simp [linkCall, dkeys]
  known := by simp [linkCall, dkeys]
  valid := by simp [linkCall, ValidRefs, refsOf]
  unshared := by simp [linkCall, refsOf]
  shaped := by
    intro o ho
    have : o = { name := "x" } ∨ o = { name := "y" } ∨ o = linkVar ∨ o = { name := "p" } := by
      simpa [linkVars, duoVars, sqParams, solvedVars] using ho
    rcases this with rfl | rfl | rfl | rfl
    · exact ⟨⟨[], [1]⟩, rfl, rfl, rfl⟩
    · exact ⟨⟨[], [1]⟩, rfl, rfl, rfl⟩
    · exact ⟨⟨[], [2]⟩, rfl, rfl, rfl⟩
    · exact ⟨⟨[], [2]⟩, rfl, rfl, rfl⟩
  sized := by
    intro o ho
    have : o = { name := "p" } := by simpa [sqParams] using ho
    subst this
    exact ⟨⟨[], [6]⟩, rfl, rfl⟩

/-- The two models, simulated: at every step `x` and `y` are the same, and `z = p`. -/
example (fl : SimFlags) (add mul : NDArray ℝ → NDArray ℝ → NDArray ℝ) :
    ∃ env₁ env₂ outs outs₂ e₁ e₂,
      simulateCompute (simEnvOf env₁ (fun _ => false) fl add mul) [] linkCall = .ok ⟨some e₁, none, none, false⟩ ∧
      simulateCompute (simEnvOf env₂ (fun _ => false) fl add mul) [] duoCall = .ok ⟨some e₂, none, none, false⟩ ∧
      env₁.variables = linkVars ∧ env₂.variables = duoVars ∧
      (∀ t, t ≤ 10000 → ∃ d : Dict Str (NDArray ℝ), (∀ o ∈ linkVars ++ sqParams, DataFor [] d o) ∧
        EulerBackend.numba.stateAfter linkVars sqParams (derefDict [] linkCall.initial) outs t =
          flatOf d (linkVars ++ sqParams) ∧
        EulerBackend.numba.stateAfter duoVars sqParams (derefDict [] duoCall.initial) outs₂ t =
          flatOf d (duoVars ++ sqParams) ∧ dget d "z".toList = dget d "p".toList) ∧
      dget e₂.start "x".toList = dget e₁.start "x".toList := by
  obtain ⟨uv, up, K, hK, k1, k2⟩ := linkNumba
  obtain ⟨uv₂, up₂, K₂, hK₂, k3, k4⟩ := duoNumba
  obtain ⟨hm, outs, hrun⟩ := plain_runs linkModel linkNames linkEuler hK (by decide +kernel) k1 k2 rfl rfl rfl
    (fun x t => by
      show IsUnit (symA 3 1 _ _ _ x t).det
      rw [Matrix.det_fin_three]
      simp [symA, linkEs, diff, SymExpr.eval]
      norm_num) fl add mul linkCall (linkRequest add mul) rfl rfl
  have hm₂ := (plain_runs duoModel (vn := ["x".toList, "y".toList]) (pn := ["p".toList]) duoEulerNames duoEuler hK₂
    (by decide +kernel) k3 k4 rfl rfl rfl (fun x t => duo_regular_matrix x t) fl add mul duoCall (duoRequest add mul) rfl rfl).1
  obtain ⟨e₁, e₂, outs₂, g1, g2, -, g4, g5⟩ := C107_fixed (vars := duoVars) (params := []) (eqs := duoEqs) (z := linkVar)
    (p := { name := "p" }) (name := linkName) rfl (by decide) hm hm₂ rfl rfl rfl fl add mul [] []
    linkCall duoCall (linkRequest add mul) (duoRequest add mul) rfl rfl rfl rfl (by decide) rfl rfl
    (by
      intro o ho
      have : o = { name := "x" } ∨ o = { name := "y" } ∨ o = { name := "p" } := by
        simpa [duoVars, sqParams, solvedVars] using ho
      rcases this with rfl | rfl | rfl <;> rfl)
    (by
      intro o ho
      have : o = { name := "p" } := by simpa [sqParams] using ho
      subst this
      rfl) outs hrun
    (by
      intro t _ s _
      refine ⟨fun e he => ?_, fun _ _ e he => duoRegular _ e (List.mem_append_left _ he)⟩
      simp only [linkEs, List.mem_cons, List.not_mem_nil, or_false] at he
      rcases he with rfl | rfl | rfl <;> simp [Regular])
  exact ⟨_, _, outs, outs₂, e₁, e₂, g1, g2, rfl, rfl, g4, (g5 { name := "x" } (by decide +kernel)).2⟩

/-! ## The same for each sector

`X[i] = w[i]`, `T = Sum(X[i])`, and `X[i] = z[i]`, `T = Sum(X[i])`, `z[i] = w[i]`. -/

def sectorLink : ModelObject := { name := "z", dims := ["i".toList] }
def sectorName : Template := [.lit "link ".toList, .dim "i".toList]

def sectorEqs : List IndexedEq :=
  [⟨[.lit "share ".toList, .dim "i".toList], .indexed "X".toList [.idx "i".toList],
      .indexed "z".toList [.idx "i".toList]⟩,
   ⟨[.lit "total".toList], .sym "T".toList,
      .red .sum (.indexed "X".toList [.idx "i".toList]) [⟨"i".toList, 0, 2⟩]⟩,
   ⟨[.lit "link ".toList, .dim "i".toList], .indexed "z".toList [.idx "i".toList],
      .indexed "w".toList [.idx "i".toList]⟩]

theorem sector_side (e : RExpr) (h1 : AllPlain abCoords e)
    (h2 : ∀ x ∈ e.syms, ∃ o ∈ shareVars ++ [sectorLink] ++ shareParams, o.name = x ∧ o.dims = [])
    (h3 : ∀ v ∈ e.indexeds, ∃ o ∈ shareVars ++ [sectorLink] ++ shareParams,
      o.name = v.1 ∧ o.dims = ["i".toList] ∧ v.2 = [.idx "i".toList]) :
    SideOK abCoords (solvedVars none (shareVars ++ [sectorLink]) ++ shareParams) none e := by
  rw [solvedVars_none]
  refine ⟨h1, ⟨fun x hx => ?_, fun v hv => ?_⟩, fun o ho => (nomatch ho), fun o ho => (nomatch ho)⟩
  · obtain ⟨o, ho, h⟩ := h2 x hx
    exact ⟨o, by simpa using ho, h⟩
  · obtain ⟨o, ho, hn, hd, hv⟩ := h3 v hv
    refine ⟨o, by simpa using ho, hn, by rw [hd]; decide, ?_⟩
    rw [hd, hv]
    exact .cons (.inl ⟨"i".toList, rfl, by decide +kernel, fun l hl => hl⟩) .nil

theorem sectorModel : IndexedModel abCoords (shareVars ++ [sectorLink]) shareParams none sectorEqs where
  scalar :=
    { known := by decide +kernel
      dims := by decide +kernel
      fresh := by decide +kernel
      labels := by decide +kernel
      names := by decide +kernel
      scalars := by decide +kernel }
  coords_nodup := by decide +kernel
  dim_names := by decide +kernel
  label_names := ab_labels _ (.inl rfl)
  numeraire_mem := by rintro o ⟨⟩
  sides := by
    intro q hq
    simp only [sectorEqs, List.mem_cons, List.not_mem_nil, or_false] at hq
    rcases hq with rfl | rfl | rfl
    · exact ⟨sector_side _ trivial (by decide +kernel) (by decide +kernel),
        sector_side _ trivial (by decide +kernel) (by decide +kernel)⟩
    · exact ⟨sector_side _ trivial (by decide +kernel) (by decide +kernel),
        sector_side _ (share_plain _ ["a".toList, "b".toList] rfl (by simp) 2 (by simp))
          (by decide +kernel) (by decide +kernel)⟩
    · exact ⟨sector_side _ trivial (by decide +kernel) (by decide +kernel),
        sector_side _ trivial (by decide +kernel) (by decide +kernel)⟩
  clean := by
    intro q hq
    simp only [sectorEqs, List.mem_cons, List.not_mem_nil, or_false] at hq
    rcases hq with rfl | rfl | rfl <;> decide +kernel
  markers := by decide +kernel
  names := by decide +kernel

/-- The hypotheses of `C107_fixed_solutions`. -/
example (d : Dict Str (NDArray ℝ))
    (hd : ∀ o ∈ solvedVars none (shareVars ++ [sectorLink]) ++ shareParams, DataFor abCoords d o) :
    (∀ y ∈ imbalances abCoords (shareVars ++ [sectorLink]) shareParams none sectorEqs
        (flatOf d (solvedVars none (shareVars ++ [sectorLink]) ++ shareParams)), y = 0) ↔
      (∀ y ∈ imbalances abCoords shareVars shareParams none shareEqs
        (flatOf d (solvedVars none shareVars ++ shareParams)), y = 0) ∧ dget d "z".toList = dget d "w".toList :=
  C107_fixed_solutions (vars := shareVars) (params := []) (eqs := shareEqs) (z := sectorLink)
    (p := { name := "w", dims := ["i".toList] }) (name := sectorName) rfl (by decide) sectorModel shareAB d hd

end Verif
