import Verif.Props.WrittenOut
import Verif.Props.RelabelExample

/-!
# C109 applied: the model of the shares of two sectors, written out
-/

namespace Verif

open SymExpr

def longVars : List ModelObject := [{ name := "T" }, { name := "X_a" }, { name := "X_b" }]
def longParams : List ModelObject := [{ name := "w_a" }, { name := "w_b" }]

/-- `X_a = w_a`, `X_b = w_b` and `T = X_a + X_b`. -/
def longEqs : List IndexedEq :=
  [⟨[.lit "share of a".toList], .sym "X_a".toList, .sym "w_a".toList⟩,
   ⟨[.lit "share of b".toList], .sym "X_b".toList, .sym "w_b".toList⟩,
   ⟨[.lit "total".toList], .sym "T".toList, .add (.sym "X_a".toList) (.sym "X_b".toList)⟩]

theorem long_vars : writtenOut abCoords shareVars = longVars := by decide +kernel
theorem long_params : writtenOut abCoords shareParams = longParams := by decide +kernel
theorem long_all : writtenOut abCoords (shareVars ++ shareParams) = longVars ++ longParams := by decide +kernel

theorem share_long : EqsWrittenOut abCoords none shareEqs longEqs := by
  refine .cons ⟨?_, ?_⟩ (.cons ⟨?_, ?_⟩ (.cons ⟨rfl, ?_⟩ .nil))
  all_goals rfl

theorem no_dims : ∀ o : ModelObject, (none : Option ModelObject) = some o → o.dims = [] := by rintro o ⟨⟩

def longEs : List (SymExpr Str) :=
  [.add (.sym "X_a".toList) (.mul (.num (-1)) (.sym "w_a".toList)),
   .add (.sym "X_b".toList) (.mul (.num (-1)) (.sym "w_b".toList)),
   .add (.sym "T".toList) (.mul (.num (-1)) (.add (.sym "X_a".toList) (.sym "X_b".toList)))]

theorem longModel : IndexedModel [] longVars longParams none longEqs where
  scalar :=
    { known := by decide +kernel
      dims := by decide +kernel
      fresh := by decide +kernel
      labels := by decide +kernel
      names := by decide +kernel
      scalars := by decide +kernel }
  coords_nodup := by decide +kernel
  dim_names := by decide +kernel
  label_names := by intro i ls h; cases h
  numeraire_mem := by rintro o ⟨⟩
  sides := by
    have side : ∀ e : RExpr, AllPlain [] e → e.indexeds = [] →
        (∀ x ∈ e.syms, ∃ o ∈ longVars ++ longParams, o.name = x ∧ o.dims = []) →
        SideOK [] (solvedVars none longVars ++ longParams) none e := by
      intro e h1 h2 h3
      refine ⟨h1, ⟨fun x hx => ?_, fun v hv => (by rw [h2] at hv; cases hv)⟩, fun o ho => (nomatch ho),
        fun o ho => (nomatch ho)⟩
      obtain ⟨o, ho, h⟩ := h3 x hx
      exact ⟨o, by rw [solvedVars_none]; simpa using ho, h⟩
    intro q hq
    simp only [longEqs, List.mem_cons, List.not_mem_nil, or_false] at hq
    rcases hq with rfl | rfl | rfl
    · exact ⟨side _ trivial rfl (by decide +kernel), side _ trivial rfl (by decide +kernel)⟩
    · exact ⟨side _ trivial rfl (by decide +kernel), side _ trivial rfl (by decide +kernel)⟩
    · exact ⟨side _ trivial rfl (by decide +kernel), side _ ⟨trivial, trivial⟩ rfl (by decide +kernel)⟩
  clean := by
    intro q hq
    simp only [longEqs, List.mem_cons, List.not_mem_nil, or_false] at hq
    rcases hq with rfl | rfl | rfl <;> decide +kernel
  markers := by decide +kernel
  names := by decide +kernel

theorem longNumba : ∃ uv up K, BuiltNumba [] longVars longParams longEqs longEs uv up K :=
  ⟨_, _, _, ⟨id, id, id, id, _, fun _ _ => Iff.rfl, fun _ _ => Iff.rfl, fun _ _ => Iff.rfl, rfl, rfl,
    rfl, rfl, rfl⟩⟩

theorem longNames : EulerNames (scalarNames [] (longVars ++ longParams)) where
  nodup := by decide +kernel
  word := by decide +kernel
  noZero := by
    intro a ha b hb
    revert a b
    decide +kernel
  noExog := by decide +kernel
  noEndog := by decide +kernel
  noNumpy := by decide +kernel

theorem longEuler : EulerModel [] longVars longParams where
  labelled := ⟨by decide +kernel, by decide +kernel, by decide +kernel, by decide +kernel⟩
  nonempty := by decide +kernel
  someVar := by decide +kernel
  someParam := by decide +kernel
  keywords := by decide +kernel

/-- The model written out, on the numba back-end without an optimizer. -/
noncomputable def longEnv (uv up : Dict Str ModelObject) (K : NumbaFns) : SamEnv ℝ (List (NDArray ℝ)) :=
  ⟨longVars, longParams, [], ["euler".toList],
    .flat (callNumba (dkeys uv) (dkeys up) K.system),
    .flat fun x theta => (callNumba (dkeys uv) (dkeys up) [K.loss] x theta).map fun l => l.headD 0,
    [], fun _ _ _ _ => .error .valueError, fun _ _ _ _ => .error .valueError, fun x0 theta n => runEuler .numba
      (numbaDX (scalarNames [] (longVars ++ longParams)) (dkeys uv) (dkeys up) longEs) longVars longParams [] theta n x0⟩

/-- `T = u + v`, `X_a = w_a = u`, `X_b = w_b = v`; `w_a` becomes `p`, `w_b` becomes `q`. -/
def longCall (u v p q : ℝ) : SimCall ℝ where
  initial := [("T".toList, .num ⟨[], [u + v]⟩), ("X_a".toList, .num ⟨[], [u]⟩), ("X_b".toList, .num ⟨[], [v]⟩),
    ("w_a".toList, .num ⟨[], [u]⟩), ("w_b".toList, .num ⟨[], [v]⟩)]
  finalValues := some [("w_a".toList, .num ⟨[], [p]⟩), ("w_b".toList, .num ⟨[], [q]⟩)]
  useOptimizer := false

theorem longRequest (u v p q : ℝ) (add mul : NDArray ℝ → NDArray ℝ → NDArray ℝ) :
    RequestOK [] longVars longParams add mul [] (longCall u v p q) where
  nodup := by simp [longCall, dkeys]
  exact := by intro n; simp [longCall, dkeys, longVars, longParams]
  distinct := by simp [longCall, dkeys]
  some_change := by simp [longCall, dkeys]
  known := by simp [longCall, dkeys]
  valid := by simp [longCall, ValidRefs, refsOf]
  unshared := by simp [longCall, refsOf]
  shaped := by
    intro o ho
    have : o = { name := "T" } ∨ o = { name := "X_a" } ∨ o = { name := "X_b" } ∨ o = { name := "w_a" } ∨
        o = { name := "w_b" } := by
      simpa [longVars, longParams] using ho
    rcases this with rfl | rfl | rfl | rfl | rfl
    · exact ⟨⟨[], [u + v]⟩, rfl, rfl, rfl⟩
    · exact ⟨⟨[], [u]⟩, rfl, rfl, rfl⟩
    · exact ⟨⟨[], [v]⟩, rfl, rfl, rfl⟩
    · exact ⟨⟨[], [u]⟩, rfl, rfl, rfl⟩
    · exact ⟨⟨[], [v]⟩, rfl, rfl, rfl⟩
  sized := by
    intro o ho
    have : o = { name := "w_a" } ∨ o = { name := "w_b" } := by simpa [longParams] using ho
    rcases this with rfl | rfl
    · exact ⟨⟨[], [p]⟩, rfl, rfl⟩
    · exact ⟨⟨[], [q]⟩, rfl, rfl⟩

theorem longRegular (v : Str → ℝ) : ∀ e ∈ longEs, Regular v e := by
  intro e he
  simp only [longEs, List.mem_cons, List.not_mem_nil, or_false] at he
  rcases he with rfl | rfl | rfl <;> simp [Regular]

/-- Sector `a` grows from 1 to 5 and sector `b` from 2 to 3, in both models. -/
example (fl : SimFlags) (add mul : NDArray ℝ → NDArray ℝ → NDArray ℝ) :
    ∃ env env₂ e e₂ v w,
      simulateCompute (simEnvOf env (fun _ => false) fl add mul) [] (shareCall 1 2 5 3) =
        .ok ⟨some e, none, none, false⟩ ∧
      simulateCompute (simEnvOf env₂ (fun _ => false) fl add mul) [] (longCall 1 2 5 3) =
        .ok ⟨some e₂, none, none, false⟩ ∧
      env.coords = abCoords ∧ env₂.coords = [] ∧
      dget e.start "X".toList = some ⟨[2], [v, w]⟩ ∧ dget e₂.start "X_a".toList = some ⟨[], [v]⟩ ∧
      dget e₂.start "X_b".toList = some ⟨[], [w]⟩ := by
  obtain ⟨uv, up, K, hK, k1, k2⟩ := shareNumbaAB
  obtain ⟨uv₂, up₂, K₂, hK₂⟩ := longNumba
  have hm₂ : BuiltOn [] (writtenOut abCoords shareVars) (writtenOut abCoords shareParams) none longEqs
      longEs .numba (fun _ _ _ => .ok []) (longEnv uv₂ up₂ K₂) := by
    rw [long_vars, long_params]
    exact Or.inr ⟨rfl, rfl, scalarNames [] (longVars ++ longParams), longModel, longNames, longEuler, fun a => Iff.rfl,
      rfl, rfl, rfl, List.cons_ne_nil _ _, uv₂, up₂, K₂, hK₂, rfl⟩
  obtain ⟨outs, hrun⟩ := share_runs hK k1 k2 1 2 5 3 fl add mul
  obtain ⟨e, e₂, outs₂, g1, g2, -, -, g5⟩ := C109_simulate (shareBuiltAB hK) hm₂ rfl no_dims share_long rfl fl add
    mul [] [] (shareCall 1 2 5 3) (longCall 1 2 5 3) (shareRequest _ (.inl rfl) _ _ _ _ add mul)
    (by rw [solvedVars_none, long_vars, long_params]; exact longRequest _ _ _ _ add mul)
    (by rw [solvedVars_none, long_vars]; rfl) (by rw [long_params]; rfl) (by rw [long_params]; rfl)
    rfl rfl (by decide) rfl rfl rfl outs hrun
    (fun _ _ _ _ => ⟨shareRegular _ _ _, longRegular _⟩)
  obtain ⟨⟨sh, dat⟩, h1, h2, h3⟩ := g5 { name := "X", dims := ["i".toList] } (by decide)
  have hN : scalarNames abCoords [{ name := "X", dims := ["i".toList] }] = ["X_a".toList, "X_b".toList] := by
    decide +kernel
  rw [hN] at h3
  have h2' : sh = [2] := h2
  subst h2'
  obtain ⟨v, w, rfl⟩ : ∃ v w, dat = [v, w] := List.length_eq_two.1 (by
    have := congrArg List.length h3
    simpa using this.symm)
  simp only [List.map_cons, List.map_nil, List.cons.injEq, and_true] at h3
  exact ⟨_, _, e, e₂, v, w, g1, g2, rfl, rfl, h1, h3.1, h3.2⟩

/-- The hypotheses of `C109_equations`. -/
example (s : List ℝ) : imbalances [] longVars longParams none longEqs s =
    imbalances abCoords shareVars shareParams none shareEqs s := by
  have := C109_equations shareAB no_dims share_long s
  rwa [long_vars, long_params] at this

/-- The hypotheses of `C109_objective`. -/
example (vn : List Str) (T u v p q : ℝ) : ∃ F F₂, BuiltFns abCoords shareVars shareParams none shareEqs F ∧
    BuiltFns [] longVars longParams none longEqs F₂ ∧
    wrapForScipy (callGraphs ((longVars ++ longParams).map ModelObject.name) vn [F₂.loss]) longVars longParams []
        [T, u, v] [p, q] =
      wrapForScipy (callGraphs ((shareVars ++ shareParams).map ModelObject.name) vn [F.loss]) shareVars shareParams
        abCoords [T, u, v] [p, q] := by
  have b1 : ∃ F, BuiltFns abCoords shareVars shareParams none shareEqs F :=
    ⟨_, id, id, id, id, _, _, _, shareEs "a".toList "b".toList, fun _ _ => Iff.rfl, fun _ _ => Iff.rfl,
      fun _ _ => Iff.rfl, rfl, rfl, rfl, rfl, rfl⟩
  have b2 : ∃ F, BuiltFns [] longVars longParams none longEqs F :=
    ⟨_, id, id, id, id, _, _, _, longEs, fun _ _ => Iff.rfl, fun _ _ => Iff.rfl,
      fun _ _ => Iff.rfl, rfl, rfl, rfl, rfl, rfl⟩
  obtain ⟨F, hF⟩ := b1
  obtain ⟨F₂, hF₂⟩ := b2
  have := C109_objective hF (F₂ := F₂) (eqs₂ := longEqs) (by rw [long_vars, long_params]; exact hF₂) shareAB
    (by rw [long_vars, long_params]; exact longModel) no_dims share_long vn vn [T, u, v] [p, q] rfl rfl
  rw [solvedVars_none, long_vars, long_params, long_all] at this
  exact ⟨F, F₂, hF, hF₂, this⟩

/-- The hypotheses of `C109_check`. -/
example (T u v p q : ℝ) (tol : ℝ) :
    checkForEquilibrium (fun x t => imbalances abCoords shareVars shareParams none shareEqs (x ++ t)) true
      shareVars shareParams abCoords (shareEqs.flatMap (filledNames abCoords none))
      (.dict [("T".toList, ⟨[], [T]⟩), ("X".toList, ⟨[2], [u, v]⟩), ("w".toList, ⟨[2], [p, q]⟩)]) tol = .ok .found ↔
    checkForEquilibrium (fun x t => imbalances [] longVars longParams none longEqs (x ++ t)) true
      longVars longParams [] (longEqs.flatMap (filledNames [] none))
      (.dict [("T".toList, ⟨[], [T]⟩), ("X_a".toList, ⟨[], [u]⟩), ("X_b".toList, ⟨[], [v]⟩),
        ("w_a".toList, ⟨[], [p]⟩), ("w_b".toList, ⟨[], [q]⟩)]) tol = .ok .found := by
  have hs : ModelState abCoords shareVars shareParams
      [("T".toList, ⟨[], [T]⟩), ("X".toList, ⟨[2], [u, v]⟩), ("w".toList, ⟨[2], [p, q]⟩)] := by
    refine ⟨fun o ho => ?_, fun n hn => ?_⟩
    · have : o = { name := "T" } ∨ o = { name := "X", dims := ["i".toList] } ∨
          o = { name := "w", dims := ["i".toList] } := by
        simpa [shareVars, shareParams] using ho
      rcases this with rfl | rfl | rfl
      · exact ⟨⟨[], [T]⟩, rfl, rfl, rfl⟩
      · exact ⟨⟨[2], [u, v]⟩, rfl, rfl, rfl⟩
      · exact ⟨⟨[2], [p, q]⟩, rfl, rfl, rfl⟩
    · simpa [dkeys, shareVars, shareParams] using hn
  have hs₂ : ModelState [] longVars longParams
      [("T".toList, ⟨[], [T]⟩), ("X_a".toList, ⟨[], [u]⟩), ("X_b".toList, ⟨[], [v]⟩),
        ("w_a".toList, ⟨[], [p]⟩), ("w_b".toList, ⟨[], [q]⟩)] := by
    refine ⟨fun o ho => ?_, fun n hn => ?_⟩
    · have : o = { name := "T" } ∨ o = { name := "X_a" } ∨ o = { name := "X_b" } ∨ o = { name := "w_a" } ∨
          o = { name := "w_b" } := by
        simpa [longVars, longParams] using ho
      rcases this with rfl | rfl | rfl | rfl | rfl
      · exact ⟨⟨[], [T]⟩, rfl, rfl, rfl⟩
      · exact ⟨⟨[], [u]⟩, rfl, rfl, rfl⟩
      · exact ⟨⟨[], [v]⟩, rfl, rfl, rfl⟩
      · exact ⟨⟨[], [p]⟩, rfl, rfl, rfl⟩
      · exact ⟨⟨[], [q]⟩, rfl, rfl, rfl⟩
    · simpa [dkeys, longVars, longParams] using hn
  have key := C109_check (numeraire := none) shareAB (eqs₂ := longEqs) (by rw [long_vars, long_params]; exact longModel)
    no_dims share_long true true (by decide +kernel) (by decide +kernel) (by decide +kernel) (by decide +kernel) _ _
    (by rw [solvedVars_none]; exact hs) (by rw [solvedVars_none, long_vars, long_params]; exact hs₂)
    (by rw [solvedVars_none, long_all]; rfl)
    (.dict [("T".toList, ⟨[], [T]⟩), ("X".toList, ⟨[2], [u, v]⟩), ("w".toList, ⟨[2], [p, q]⟩)])
    (.dict [("T".toList, ⟨[], [T]⟩), ("X_a".toList, ⟨[], [u]⟩), ("X_b".toList, ⟨[], [v]⟩),
        ("w_a".toList, ⟨[], [p]⟩), ("w_b".toList, ⟨[], [q]⟩)]) rfl rfl tol
  rw [solvedVars_none, long_vars, long_params] at key
  rcases key with ⟨h1, h2⟩ | ⟨l, l₂, h1, h2, -⟩ | ⟨h1, h2⟩
  · exact iff_of_true h1 h2
  · exact iff_of_false (fun e => by cases h1.symm.trans e) (fun e => by cases h2.symm.trans e)
  · exact iff_of_false (fun e => by cases h1.symm.trans e) (fun e => by cases h2.symm.trans e)

end Verif
