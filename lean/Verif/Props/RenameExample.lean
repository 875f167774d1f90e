import Verif.Props.Rename
import Verif.Props.RelabelExample
import Mathlib.Logic.Equiv.Basic

/-!
# C105 applied: the model of the shares with other names
-/

namespace Verif

open SymExpr

/-- `T`, `X`, `w` become `my_T`, `my_X`, `my_w`; the dim `i` becomes `si`, and the labels `a`, `b` become `La`, `Lb`. -/
def mine : Renaming where
  object := fun n => "my_".toList ++ n
  dim := fun d => "s".toList ++ d
  label := fun l => "L".toList ++ l
  object_inj := fun _ _ h => List.append_cancel_left h
  dim_inj := fun _ _ h => List.append_cancel_left h
  label_inj := fun _ _ h => List.append_cancel_left h

example : mine.coords abCoords = [("si".toList, ["La".toList, "Lb".toList])] ∧
    shareVars.map mine.obj = [{ name := "my_T" }, { name := "my_X", dims := ["si".toList] }] ∧
    (shareEqs.map mine.equation)[0]? = some ⟨[.lit "share ".toList, .dim "si".toList],
      .indexed "my_X".toList [.idx "si".toList], .indexed "my_w".toList [.idx "si".toList]⟩ := by
  exact ⟨rfl, rfl, rfl⟩

def mineEs : List (SymExpr Str) :=
  [.add (.sym "my_X_La".toList) (.mul (.num (-1)) (.sym "my_w_La".toList)),
   .add (.sym "my_X_Lb".toList) (.mul (.num (-1)) (.sym "my_w_Lb".toList)),
   .add (.sym "my_T".toList) (.mul (.num (-1)) (.add (.add (.num 0) (.sym "my_X_La".toList))
     (.sym "my_X_Lb".toList)))]

theorem mine_labels : ∀ d ls, dget (mine.coords abCoords) d = some ls →
    ∀ (k : Nat) (l : Str), ls[k]? = some l → FitLabel ls.length k l ∧ '<' ∉ l := by
  intro i ls h k l hl
  have hmem := mem_of_dget _ h
  have hl := List.mem_of_getElem? hl
  have e : mine.coords abCoords = [("si".toList, ["La".toList, "Lb".toList])] := rfl
  rw [e] at hmem
  simp only [List.mem_singleton, Prod.mk.injEq] at hmem
  obtain ⟨-, rfl⟩ := hmem
  simp only [List.mem_cons, List.not_mem_nil, or_false] at hl
  rcases hl with rfl | rfl <;> simp [FitLabel, NotNumeral, Char.isDigit]

theorem mine_side (e : RExpr) (h1 : AllPlain (mine.coords abCoords) e)
    (h2 : ∀ x ∈ e.syms, ∃ o ∈ shareVars.map mine.obj ++ shareParams.map mine.obj, o.name = x ∧ o.dims = [])
    (h3 : ∀ v ∈ e.indexeds, ∃ o ∈ shareVars.map mine.obj ++ shareParams.map mine.obj,
      o.name = v.1 ∧ o.dims = ["si".toList] ∧ v.2 = [.idx "si".toList]) :
    SideOK (mine.coords abCoords) (solvedVars none (shareVars.map mine.obj) ++ shareParams.map mine.obj) none e := by
  rw [solvedVars_none]
  refine ⟨h1, ⟨fun x hx => ?_, fun v hv => ?_⟩, fun o ho => (nomatch ho), fun o ho => (nomatch ho)⟩
  · obtain ⟨o, ho, h⟩ := h2 x hx
    exact ⟨o, by simpa using ho, h⟩
  · obtain ⟨o, ho, hn, hd, hv⟩ := h3 v hv
    refine ⟨o, List.mem_append_left _ ho, hn, by rw [hd]; decide, ?_⟩
    rw [hd, hv]
    exact .cons (.inl ⟨"si".toList, rfl, by decide +kernel, fun l hl => hl⟩) .nil

theorem mine_plain :
    PlainReduction (mine.coords abCoords) (.indexed "my_X".toList [.idx "si".toList]) [⟨"si".toList, 0, 2⟩] where
  redFree := trivial
  bounds := by
    intro l h
    rw [List.mem_singleton] at h
    subst h
    exact le_refl 2
  known := by
    intro v hv s hs
    simp only [RExpr.indexeds, List.mem_singleton] at hv
    subst hv
    rw [List.mem_singleton] at hs
    exact ⟨_, ["La".toList, "Lb".toList], hs, rfl, by simp⟩
  consistent := by
    intro v hv w hw _ p i j hi hj _ _
    simp only [RExpr.indexeds, List.mem_singleton] at hv hw
    subst hv hw
    rw [hi] at hj
    cases hj
    rfl

theorem shareMine : IndexedModel (mine.coords abCoords) (shareVars.map mine.obj) (shareParams.map mine.obj) none
    (shareEqs.map mine.equation) where
  scalar :=
    { known := by decide +kernel
      dims := by decide +kernel
      fresh := by decide +kernel
      labels := by decide +kernel
      names := by decide +kernel
      scalars := by decide +kernel }
  coords_nodup := by decide +kernel
  dim_names := by decide +kernel
  label_names := mine_labels
  numeraire_mem := by rintro o ⟨⟩
  sides := by
    intro q hq
    simp only [shareEqs, List.map_cons, List.map_nil, List.mem_cons, List.not_mem_nil, or_false] at hq
    rcases hq with rfl | rfl
    · exact ⟨mine_side _ trivial (by decide +kernel) (by decide +kernel),
        mine_side _ trivial (by decide +kernel) (by decide +kernel)⟩
    · exact ⟨mine_side _ trivial (by decide +kernel) (by decide +kernel),
        mine_side _ mine_plain (by decide +kernel) (by decide +kernel)⟩
  clean := by
    intro q hq
    simp only [shareEqs, List.map_cons, List.map_nil, List.mem_cons, List.not_mem_nil, or_false] at hq
    rcases hq with rfl | rfl <;> decide +kernel
  markers := by decide +kernel
  names := by decide +kernel

theorem shareNumbaMine : ∃ uv up K, BuiltNumba (mine.coords abCoords) (shareVars.map mine.obj)
    (shareParams.map mine.obj) (shareEqs.map mine.equation) mineEs uv up K :=
  ⟨_, _, _, ⟨id, id, id, id, _, fun _ _ => Iff.rfl, fun _ _ => Iff.rfl, fun _ _ => Iff.rfl, rfl, rfl,
    rfl, rfl, rfl⟩⟩

theorem shareNamesMine : EulerNames (scalarNames (mine.coords abCoords)
    (shareVars.map mine.obj ++ shareParams.map mine.obj)) where
  nodup := by decide +kernel
  word := by decide +kernel
  noZero := by
    intro a ha b hb
    revert a b
    decide +kernel
  noExog := by decide +kernel
  noEndog := by decide +kernel
  noNumpy := by decide +kernel

theorem shareEulerMine : EulerModel (mine.coords abCoords) (shareVars.map mine.obj) (shareParams.map mine.obj) where
  labelled := ⟨by decide +kernel, by decide +kernel, by decide +kernel, by decide +kernel⟩
  nonempty := by decide +kernel
  someVar := by decide +kernel
  someParam := by decide +kernel
  keywords := by decide +kernel

/-- The renamed model on the numba back-end without an optimizer. -/
noncomputable def mineEnv (uv up : Dict Str ModelObject) (K : NumbaFns) : SamEnv ℝ (List (NDArray ℝ)) :=
  ⟨shareVars.map mine.obj, shareParams.map mine.obj, mine.coords abCoords, ["euler".toList],
    .flat (callNumba (dkeys uv) (dkeys up) K.system),
    .flat fun x theta => (callNumba (dkeys uv) (dkeys up) [K.loss] x theta).map fun l => l.headD 0,
    [], fun _ _ _ _ => .error .valueError, fun _ _ _ _ => .error .valueError, fun x0 theta n => runEuler .numba
      (numbaDX (scalarNames (mine.coords abCoords) (shareVars.map mine.obj ++ shareParams.map mine.obj)) (dkeys uv)
        (dkeys up) mineEs) (shareVars.map mine.obj) (shareParams.map mine.obj) (mine.coords abCoords) theta n x0⟩

def mineCall (u v p q : ℝ) : SimCall ℝ where
  initial := [("my_T".toList, .num ⟨[], [u + v]⟩), ("my_X".toList, .num ⟨[2], [u, v]⟩),
    ("my_w".toList, .num ⟨[2], [u, v]⟩)]
  finalValues := some [("my_w".toList, .num ⟨[2], [p, q]⟩)]
  useOptimizer := false

theorem mineRequest (u v p q : ℝ) (add mul : NDArray ℝ → NDArray ℝ → NDArray ℝ) :
    RequestOK (mine.coords abCoords) (shareVars.map mine.obj) (shareParams.map mine.obj) add mul []
      (mineCall u v p q) where
  nodup := by simp [mineCall, dkeys]
  exact := by intro n; simp [mineCall, dkeys, shareVars, shareParams, mine, Renaming.obj]
  distinct := by simp [mineCall, dkeys]
  some_change := by simp [mineCall, dkeys]
  known := by simp [mineCall, dkeys]
  valid := by simp [mineCall, ValidRefs, refsOf]
  unshared := by simp [mineCall, refsOf]
  shaped := by
    intro o ho
    have : o = { name := "my_T" } ∨ o = { name := "my_X", dims := ["si".toList] } ∨
        o = { name := "my_w", dims := ["si".toList] } := by
      simpa [shareVars, shareParams, mine, Renaming.obj] using ho
    rcases this with rfl | rfl | rfl
    · exact ⟨⟨[], [u + v]⟩, rfl, rfl, rfl⟩
    · exact ⟨⟨[2], [u, v]⟩, rfl, rfl, rfl⟩
    · exact ⟨⟨[2], [u, v]⟩, rfl, rfl, rfl⟩
  sized := by
    intro o ho
    have : o = { name := "my_w", dims := ["si".toList] } := by simpa [shareParams, mine, Renaming.obj] using ho
    subst this
    exact ⟨⟨[2], [p, q]⟩, rfl, rfl⟩

theorem mineRegular (v : Str → ℝ) : ∀ e ∈ mineEs, Regular v e := by
  intro e he
  simp only [mineEs, List.mem_cons, List.not_mem_nil, or_false] at he
  rcases he with rfl | rfl | rfl <;> simp [Regular]

/-- The share of sector `a` grows from 1 to 5 and that of `b` from 2 to 3, in both models. -/
example (fl : SimFlags) (add mul : NDArray ℝ → NDArray ℝ → NDArray ℝ) :
    ∃ env env₂ e e₂,
      simulateCompute (simEnvOf env (fun _ => false) fl add mul) [] (shareCall 1 2 5 3) =
        .ok ⟨some e, none, none, false⟩ ∧
      simulateCompute (simEnvOf env₂ (fun _ => false) fl add mul) [] (mineCall 1 2 5 3) =
        .ok ⟨some e₂, none, none, false⟩ ∧
      env.coords = abCoords ∧ env₂.coords = [("si".toList, ["La".toList, "Lb".toList])] ∧
      dget e₂.start "my_T".toList = dget e.start "T".toList ∧ dget e₂.start "my_X".toList = dget e.start "X".toList := by
  obtain ⟨uv, up, K, hK, k1, k2⟩ := shareNumbaAB
  obtain ⟨uv₂, up₂, K₂, hK₂⟩ := shareNumbaMine
  have hm₂ : BuiltOn (mine.coords abCoords) (shareVars.map mine.obj) (shareParams.map mine.obj) none
      (shareEqs.map mine.equation) mineEs .numba (fun _ _ _ => .ok []) (mineEnv uv₂ up₂ K₂) :=
    Or.inr ⟨rfl, rfl, scalarNames (mine.coords abCoords) (shareVars.map mine.obj ++ shareParams.map mine.obj), shareMine,
      shareNamesMine, shareEulerMine, fun a => Iff.rfl, rfl, rfl, rfl, List.cons_ne_nil _ _, uv₂, up₂, K₂, hK₂, rfl⟩
  obtain ⟨outs, hrun⟩ := share_runs hK k1 k2 1 2 5 3 fl add mul
  obtain ⟨e, e₂, outs₂, g1, g2, -, -, g5⟩ := C105_simulate mine (shareBuiltAB hK) hm₂ rfl rfl fl add mul [] []
    (shareCall 1 2 5 3) (mineCall 1 2 5 3) (shareRequest _ (.inl rfl) _ _ _ _ add mul)
    (by rw [solvedVars_none]; exact mineRequest _ _ _ _ add mul)
    (by
      intro o ho
      have : o = { name := "T" } ∨ o = { name := "X", dims := ["i".toList] } ∨
          o = { name := "w", dims := ["i".toList] } := by
        simpa [shareVars, shareParams, solvedVars] using ho
      rcases this with rfl | rfl | rfl <;> rfl)
    (by
      intro o ho
      have : o = { name := "w", dims := ["i".toList] } := by simpa [shareParams] using ho
      subst this
      rfl) rfl rfl (by decide) rfl rfl rfl outs hrun
    (fun _ _ _ _ => ⟨shareRegular _ _ _, mineRegular _⟩)
  exact ⟨_, _, e, e₂, g1, g2, rfl, rfl, (g5 { name := "T" } (by decide)).2,
    (g5 { name := "X", dims := ["i".toList] } (by decide)).2⟩

/-- The hypotheses of `C105_equations`. -/
example (s : List ℝ) : imbalances (mine.coords abCoords) (shareVars.map mine.obj) (shareParams.map mine.obj) none
    (shareEqs.map mine.equation) s = imbalances abCoords shareVars shareParams none shareEqs s :=
  C105_equations mine shareAB shareMine s

/-- The hypotheses of `C105_objective`. -/
example (vn : List Str) (T u v : ℝ) : ∃ F F₂, BuiltFns abCoords shareVars shareParams none shareEqs F ∧
    BuiltFns (mine.coords abCoords) (shareVars.map mine.obj) (shareParams.map mine.obj) none
      (shareEqs.map mine.equation) F₂ ∧
    wrapForScipy (callGraphs (((solvedVars none shareVars ++ shareParams).map mine.obj).map ModelObject.name) vn
        [F₂.loss]) ((solvedVars none shareVars).map mine.obj) (shareParams.map mine.obj) (mine.coords abCoords) [T, u, v]
        [u, v] =
      wrapForScipy (callGraphs ((solvedVars none shareVars ++ shareParams).map ModelObject.name) vn [F.loss])
        (solvedVars none shareVars) shareParams abCoords [T, u, v] [u, v] := by
  have b1 : ∃ F, BuiltFns abCoords shareVars shareParams none shareEqs F :=
    ⟨_, id, id, id, id, _, _, _, shareEs "a".toList "b".toList, fun _ _ => Iff.rfl, fun _ _ => Iff.rfl,
      fun _ _ => Iff.rfl, rfl, rfl, rfl, rfl, rfl⟩
  have b2 : ∃ F, BuiltFns (mine.coords abCoords) (shareVars.map mine.obj) (shareParams.map mine.obj) none
      (shareEqs.map mine.equation) F :=
    ⟨_, id, id, id, id, _, _, _, mineEs, fun _ _ => Iff.rfl, fun _ _ => Iff.rfl,
      fun _ _ => Iff.rfl, rfl, rfl, rfl, rfl, rfl⟩
  obtain ⟨F, hF⟩ := b1
  obtain ⟨F₂, hF₂⟩ := b2
  exact ⟨F, F₂, hF, hF₂, C105_objective mine hF hF₂ shareAB shareMine vn vn _ _ rfl rfl⟩

/-- The hypotheses of `C105_check`. -/
example (T u v : ℝ) (tol : ℝ) :
    checkForEquilibrium (fun x t => imbalances abCoords shareVars shareParams none shareEqs (x ++ t)) true
      (solvedVars none shareVars) shareParams abCoords (shareEqs.flatMap (filledNames abCoords none))
      (.dict [("T".toList, ⟨[], [T]⟩), ("X".toList, ⟨[2], [u, v]⟩), ("w".toList, ⟨[2], [u, v]⟩)]) tol = .ok .found ↔
    checkForEquilibrium (fun x t => imbalances (mine.coords abCoords) (shareVars.map mine.obj)
        (shareParams.map mine.obj) none (shareEqs.map mine.equation) (x ++ t)) true
      ((solvedVars none shareVars).map mine.obj) (shareParams.map mine.obj) (mine.coords abCoords)
      ((shareEqs.map mine.equation).flatMap (filledNames (mine.coords abCoords) none))
      (.dict [("my_T".toList, ⟨[], [T]⟩), ("my_X".toList, ⟨[2], [u, v]⟩), ("my_w".toList, ⟨[2], [u, v]⟩)]) tol =
        .ok .found := by
  rcases C105_check mine shareAB shareMine true true (by decide +kernel) (by decide +kernel) _ _
    (by
      refine ⟨fun o ho => ?_, fun n hn => ?_⟩
      · have : o = { name := "T" } ∨ o = { name := "X", dims := ["i".toList] } ∨
            o = { name := "w", dims := ["i".toList] } := by
          simpa [shareVars, shareParams, solvedVars] using ho
        rcases this with rfl | rfl | rfl
        · exact ⟨⟨[], [T]⟩, rfl, rfl, rfl⟩
        · exact ⟨⟨[2], [u, v]⟩, rfl, rfl, rfl⟩
        · exact ⟨⟨[2], [u, v]⟩, rfl, rfl, rfl⟩
      · simpa [dkeys, shareVars, shareParams, solvedVars] using hn)
    (by
      refine ⟨fun o ho => ?_, fun n hn => ?_⟩
      · have : o = { name := "my_T" } ∨ o = { name := "my_X", dims := ["si".toList] } ∨
            o = { name := "my_w", dims := ["si".toList] } := by
          simpa [shareVars, shareParams, solvedVars, mine, Renaming.obj] using ho
        rcases this with rfl | rfl | rfl
        · exact ⟨⟨[], [T]⟩, rfl, rfl, rfl⟩
        · exact ⟨⟨[2], [u, v]⟩, rfl, rfl, rfl⟩
        · exact ⟨⟨[2], [u, v]⟩, rfl, rfl, rfl⟩
      · simpa [dkeys, shareVars, shareParams, solvedVars, mine, Renaming.obj] using hn)
    (by
      intro o ho
      have : o = { name := "T" } ∨ o = { name := "X", dims := ["i".toList] } ∨
          o = { name := "w", dims := ["i".toList] } := by
        simpa [shareVars, shareParams, solvedVars] using ho
      rcases this with rfl | rfl | rfl <;> rfl)
    (.dict [("T".toList, ⟨[], [T]⟩), ("X".toList, ⟨[2], [u, v]⟩), ("w".toList, ⟨[2], [u, v]⟩)])
    (.dict [("my_T".toList, ⟨[], [T]⟩), ("my_X".toList, ⟨[2], [u, v]⟩), ("my_w".toList, ⟨[2], [u, v]⟩)]) rfl rfl tol
    with ⟨h1, h2⟩ | ⟨l, l₂, h1, h2, -⟩ | ⟨h1, h2⟩
  · exact iff_of_true h1 h2
  · exact iff_of_false (fun e => by cases h1.symm.trans e) (fun e => by cases h2.symm.trans e)
  · exact iff_of_false (fun e => by cases h1.symm.trans e) (fun e => by cases h2.symm.trans e)

/-! ### Names that collide -/

/-- `T` becomes `X_a` and nothing else changes. -/
def clash : Renaming where
  object := Equiv.swap "T".toList "X_a".toList
  dim := id
  label := id
  object_inj := (Equiv.swap _ _).injective
  dim_inj := Function.injective_id
  label_inj := Function.injective_id

/-- **Renaming needs the conditions on the new names.**  All objects of the renamed model have different names, but the
scalar `X_a` made from `X` is called like the renamed `T`, one replaces the other, and the model has two scalar variables
instead of three. -/
theorem C105_collision_counterexample :
    ((shareVars ++ shareParams).map clash.obj).map ModelObject.name = ["X_a".toList, "X".toList, "w".toList] ∧
    (∃ uv, unpackGroup id abCoords shareVars = .ok uv ∧
      dkeys uv = ["T".toList, "X_a".toList, "X_b".toList]) ∧
    ∃ uv, unpackGroup id (clash.coords abCoords) (shareVars.map clash.obj) = .ok uv ∧
      dkeys uv = ["X_a".toList, "X_b".toList] :=
  ⟨by decide +kernel, ⟨_, rfl, rfl⟩, ⟨_, rfl, rfl⟩⟩

end Verif
