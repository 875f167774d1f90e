import Verif.Props.Relabel

/-!
# C104 applied: shares of sectors and their total, with the sectors in both orders
-/

namespace Verif

open SymExpr

def abCoords : Coords := [("i".toList, ["a".toList, "b".toList])]
def baCoords : Coords := [("i".toList, ["b".toList, "a".toList])]
def shareVars : List ModelObject := [{ name := "T" }, { name := "X", dims := ["i".toList] }]
def shareParams : List ModelObject := [{ name := "w", dims := ["i".toList] }]

/-- `X[i] = w[i]` and `T = Sum(X[i], (i, 0, 1))`. -/
def shareEqs : List IndexedEq :=
  [⟨[.lit "share ".toList, .dim "i".toList], .indexed "X".toList [.idx "i".toList],
      .indexed "w".toList [.idx "i".toList]⟩,
   ⟨[.lit "total".toList], .sym "T".toList,
      .red .sum (.indexed "X".toList [.idx "i".toList]) [⟨"i".toList, 0, 2⟩]⟩]

/-- The scalar equations when the labels are `l` and `m`. -/
def shareEs (l m : Str) : List (SymExpr Str) :=
  [.add (.sym ("X_".toList ++ l)) (.mul (.num (-1)) (.sym ("w_".toList ++ l))),
   .add (.sym ("X_".toList ++ m)) (.mul (.num (-1)) (.sym ("w_".toList ++ m))),
   .add (.sym "T".toList) (.mul (.num (-1)) (.add (.add (.num 0) (.sym ("X_".toList ++ l)))
     (.sym ("X_".toList ++ m))))]

theorem ab_labels (coords : Coords) (hc : coords = abCoords ∨ coords = baCoords) : ∀ d ls, dget coords d = some ls →
    ∀ (k : Nat) (l : Str), ls[k]? = some l → FitLabel ls.length k l ∧ '<' ∉ l := by
  intro i ls h k l hl
  have hmem := mem_of_dget _ h
  have hl := List.mem_of_getElem? hl
  rcases hc with rfl | rfl
  all_goals
    simp only [abCoords, baCoords, List.mem_singleton, Prod.mk.injEq] at hmem
    obtain ⟨-, rfl⟩ := hmem
    simp only [List.mem_cons, List.not_mem_nil, or_false] at hl
    rcases hl with rfl | rfl <;> simp [FitLabel, NotNumeral, Char.isDigit]

theorem share_side (coords : Coords) (hk : "i".toList ∈ dkeys coords) (e : RExpr) (h1 : AllPlain coords e)
    (h2 : ∀ x ∈ e.syms, ∃ o ∈ solvedVars none shareVars ++ shareParams, o.name = x ∧ o.dims = [])
    (h3 : ∀ v ∈ e.indexeds, ∃ o ∈ solvedVars none shareVars ++ shareParams,
      o.name = v.1 ∧ o.dims = ["i".toList] ∧ v.2 = [.idx "i".toList]) :
    SideOK coords (solvedVars none shareVars ++ shareParams) none e := by
  refine ⟨h1, ⟨fun x hx => ?_, fun v hv => ?_⟩, fun o ho => (nomatch ho), fun o ho => (nomatch ho)⟩
  · obtain ⟨o, ho, h⟩ := h2 x hx
    exact ⟨o, by simpa using ho, h⟩
  · obtain ⟨o, ho, hn, hd, hv⟩ := h3 v hv
    refine ⟨o, by simpa using ho, hn, by rw [hd]; decide, ?_⟩
    rw [hd, hv]
    exact .cons (.inl ⟨"i".toList, rfl, hk, fun l hl => hl⟩) .nil

theorem share_plain (coords : Coords) (ls : List Str) (hc : dget coords "i".toList = some ls) (hl : ls ≠ []) (n : Nat)
    (hn : n ≤ ls.length) :
    PlainReduction coords (.indexed "X".toList [.idx "i".toList]) [⟨"i".toList, 0, n⟩] where
  redFree := trivial
  bounds := by
    intro l h
    rw [List.mem_singleton] at h
    subst h
    rw [hc]
    exact hn
  known := by
    intro v hv s hs
    simp only [RExpr.indexeds, List.mem_singleton] at hv
    subst hv
    rw [List.mem_singleton] at hs
    exact ⟨_, ls, hs, hc, hl⟩
  consistent := by
    intro v hv w hw _ p i j hi hj _ _
    simp only [RExpr.indexeds, List.mem_singleton] at hv hw
    subst hv hw
    rw [hi] at hj
    cases hj
    rfl

theorem shareAB : IndexedModel abCoords shareVars shareParams none shareEqs where
  scalar :=
    { known := by decide +kernel
      dims := by decide +kernel
      fresh := by decide +kernel
      labels := by decide +kernel
      names := by decide +kernel
      scalars := by decide +kernel }
  coords_nodup := by decide +kernel
  dim_names := by decide +kernel
  label_names := ab_labels _ (.inl rfl)
  numeraire_mem := by rintro o ⟨⟩
  sides := by
    intro q hq
    simp only [shareEqs, List.mem_cons, List.not_mem_nil, or_false] at hq
    rcases hq with rfl | rfl
    · exact ⟨share_side _ (by decide +kernel) _ trivial (by decide +kernel) (by decide +kernel),
        share_side _ (by decide +kernel) _ trivial (by decide +kernel) (by decide +kernel)⟩
    · exact ⟨share_side _ (by decide +kernel) _ trivial (by decide +kernel) (by decide +kernel),
        share_side _ (by decide +kernel) _ (share_plain _ ["a".toList, "b".toList] rfl (by simp) 2 (by simp))
          (by decide +kernel) (by decide +kernel)⟩
  clean := by
    intro q hq
    simp only [shareEqs, List.mem_cons, List.not_mem_nil, or_false] at hq
    rcases hq with rfl | rfl <;> decide +kernel
  markers := by decide +kernel
  names := by decide +kernel

theorem shareBA : IndexedModel baCoords shareVars shareParams none shareEqs where
  scalar :=
    { known := by decide +kernel
      dims := by decide +kernel
      fresh := by decide +kernel
      labels := by decide +kernel
      names := by decide +kernel
      scalars := by decide +kernel }
  coords_nodup := by decide +kernel
  dim_names := by decide +kernel
  label_names := ab_labels _ (.inr rfl)
  numeraire_mem := by rintro o ⟨⟩
  sides := by
    intro q hq
    simp only [shareEqs, List.mem_cons, List.not_mem_nil, or_false] at hq
    rcases hq with rfl | rfl
    · exact ⟨share_side _ (by decide +kernel) _ trivial (by decide +kernel) (by decide +kernel),
        share_side _ (by decide +kernel) _ trivial (by decide +kernel) (by decide +kernel)⟩
    · exact ⟨share_side _ (by decide +kernel) _ trivial (by decide +kernel) (by decide +kernel),
        share_side _ (by decide +kernel) _ (share_plain _ ["b".toList, "a".toList] rfl (by simp) 2 (by simp))
          (by decide +kernel) (by decide +kernel)⟩
  clean := by
    intro q hq
    simp only [shareEqs, List.mem_cons, List.not_mem_nil, or_false] at hq
    rcases hq with rfl | rfl <;> decide +kernel
  markers := by decide +kernel
  names := by decide +kernel

theorem ab_same : SameLabels abCoords baCoords where
  dims := List.Perm.refl _
  labels := by
    intro d
    by_cases h : d = "i".toList
    · subst h
      exact List.Perm.swap _ _ _
    · have e : ∀ ls : List Str, labelsOf [("i".toList, ls)] d = [] := by
        intro ls
        simp only [labelsOf, dget, if_neg (Ne.symm h), Option.getD]
      rw [abCoords, baCoords, e, e]

theorem share_whole : ∀ q ∈ shareEqs, WholeRange abCoords q.lhs ∧ WholeRange abCoords q.rhs := by
  intro q hq
  simp only [shareEqs, List.mem_cons, List.not_mem_nil, or_false] at hq
  rcases hq with rfl | rfl
  · exact ⟨trivial, trivial⟩
  · refine ⟨trivial, trivial, fun l hl => ?_⟩
    rw [List.mem_singleton] at hl
    subst hl
    exact ⟨rfl, rfl⟩

theorem shareNumbaAB : ∃ uv up K, BuiltNumba abCoords shareVars shareParams shareEqs (shareEs "a".toList "b".toList) uv
    up K ∧ dkeys uv = ["T".toList, "X_a".toList, "X_b".toList] ∧ dkeys up = ["w_a".toList, "w_b".toList] :=
  ⟨_, _, _, ⟨id, id, id, id, _, fun _ _ => Iff.rfl, fun _ _ => Iff.rfl, fun _ _ => Iff.rfl, rfl, rfl,
    rfl, rfl, rfl⟩, rfl, rfl⟩

theorem shareNumbaBA : ∃ uv up K, BuiltNumba baCoords shareVars shareParams shareEqs (shareEs "b".toList "a".toList) uv
    up K :=
  ⟨_, _, _, ⟨id, id, id, id, _, fun _ _ => Iff.rfl, fun _ _ => Iff.rfl, fun _ _ => Iff.rfl, rfl, rfl,
    rfl, rfl, rfl⟩⟩

/-- The model on the numba back-end without an optimizer. -/
noncomputable def shareEnv (coords : Coords) (es : List (SymExpr Str)) (uv up : Dict Str ModelObject) (K : NumbaFns) :
    SamEnv ℝ (List (NDArray ℝ)) :=
  ⟨shareVars, shareParams, coords, ["euler".toList],
    .flat (callNumba (dkeys uv) (dkeys up) K.system),
    .flat fun x theta => (callNumba (dkeys uv) (dkeys up) [K.loss] x theta).map fun l => l.headD 0,
    [], fun _ _ _ _ => .error .valueError, fun _ _ _ _ => .error .valueError, fun x0 theta n => runEuler .numba
      (numbaDX (scalarNames coords (shareVars ++ shareParams)) (dkeys uv) (dkeys up) es) shareVars shareParams coords
      theta n x0⟩

theorem shareNamesAB : EulerNames (scalarNames abCoords (shareVars ++ shareParams)) where
  nodup := by decide +kernel
  word := by decide +kernel
  noZero := by
    intro a ha b hb
    revert a b
    decide +kernel
  noExog := by decide +kernel
  noEndog := by decide +kernel
  noNumpy := by decide +kernel

theorem shareNamesBA : EulerNames (scalarNames baCoords (shareVars ++ shareParams)) where
  nodup := by decide +kernel
  word := by decide +kernel
  noZero := by
    intro a ha b hb
    revert a b
    decide +kernel
  noExog := by decide +kernel
  noEndog := by decide +kernel
  noNumpy := by decide +kernel

theorem shareEulerAB : EulerModel abCoords shareVars shareParams where
  labelled := ⟨by decide +kernel, by decide +kernel, by decide +kernel, by decide +kernel⟩
  nonempty := by decide +kernel
  someVar := by decide +kernel
  someParam := by decide +kernel
  keywords := by decide +kernel

theorem shareEulerBA : EulerModel baCoords shareVars shareParams where
  labelled := ⟨by decide +kernel, by decide +kernel, by decide +kernel, by decide +kernel⟩
  nonempty := by decide +kernel
  someVar := by decide +kernel
  someParam := by decide +kernel
  keywords := by decide +kernel

/-- `T = u + v`, `X = w = (u, v)`; `w` becomes `(p, q)`. -/
def shareCall (u v p q : ℝ) : SimCall ℝ where
  initial := [("T".toList, .num ⟨[], [u + v]⟩), ("X".toList, .num ⟨[2], [u, v]⟩), ("w".toList, .num ⟨[2], [u, v]⟩)]
  finalValues := some [("w".toList, .num ⟨[2], [p, q]⟩)]
  useOptimizer := false

theorem shareRequest (coords : Coords) (hc : coords = abCoords ∨ coords = baCoords) (u v p q : ℝ)
    (add mul : NDArray ℝ → NDArray ℝ → NDArray ℝ) :
    RequestOK coords (solvedVars none shareVars) shareParams add mul [] (shareCall u v p q) where
  nodup := by simp [shareCall, dkeys]
  exact := by intro n; simp [shareCall, dkeys, shareVars, shareParams, solvedVars]
  distinct := by simp [shareCall, dkeys]
  some_change := by simp [shareCall, dkeys]
  known := by simp [shareCall, dkeys]
  valid := by simp [shareCall, ValidRefs, refsOf]
  unshared := by simp [shareCall, refsOf]
  shaped := by
    intro o ho
    have : o = { name := "T" } ∨ o = { name := "X", dims := ["i".toList] } ∨ o = { name := "w", dims := ["i".toList] } := by
      simpa [shareVars, shareParams, solvedVars] using ho
    rcases hc with rfl | rfl <;> rcases this with rfl | rfl | rfl
    · exact ⟨⟨[], [u + v]⟩, rfl, rfl, rfl⟩
    · exact ⟨⟨[2], [u, v]⟩, rfl, rfl, rfl⟩
    · exact ⟨⟨[2], [u, v]⟩, rfl, rfl, rfl⟩
    · exact ⟨⟨[], [u + v]⟩, rfl, rfl, rfl⟩
    · exact ⟨⟨[2], [u, v]⟩, rfl, rfl, rfl⟩
    · exact ⟨⟨[2], [u, v]⟩, rfl, rfl, rfl⟩
  sized := by
    intro o ho
    have : o = { name := "w", dims := ["i".toList] } := by simpa [shareParams] using ho
    subst this
    rcases hc with rfl | rfl <;> exact ⟨⟨[2], [p, q]⟩, rfl, rfl⟩

theorem shareRegular (l m : Str) (v : Str → ℝ) : ∀ e ∈ shareEs l m, Regular v e := by
  intro e he
  simp only [shareEs, List.mem_cons, List.not_mem_nil, or_false] at he
  rcases he with rfl | rfl | rfl <;> simp [Regular]

theorem share_matrix (x : Fin 3 → ℝ) (t : Fin 2 → ℝ) :
    IsUnit (symA 3 2 ["T".toList, "X_a".toList, "X_b".toList] ["w_a".toList, "w_b".toList]
      (shareEs "a".toList "b".toList) x t).det := by
  rw [Matrix.det_fin_three]
  simp [symA, shareEs, diff, SymExpr.eval]

theorem share_initial (T u v : ℝ) : SameEntries abCoords baCoords (solvedVars none shareVars ++ shareParams)
    [T, u, v, u, v] [T, v, u, v, u] := by
  refine ⟨rfl, rfl, fun o ho ls hls => ?_⟩
  have : o = { name := "T" } ∨ o = { name := "X", dims := ["i".toList] } ∨ o = { name := "w", dims := ["i".toList] } := by
    simpa [shareVars, shareParams, solvedVars] using ho
  have hab : ls ∈ product (o.dims.map (labelsOf abCoords)) := hls
  rcases this with rfl | rfl | rfl
  · have : ls = [] := by simpa [product] using hab
    subst this
    rfl
  · have : ls = ["a".toList] ∨ ls = ["b".toList] := by simpa [product, labelsOf, abCoords, dget] using hab
    rcases this with rfl | rfl <;> rfl
  · have : ls = ["a".toList] ∨ ls = ["b".toList] := by simpa [product, labelsOf, abCoords, dget] using hab
    rcases this with rfl | rfl <;> rfl

theorem share_final (p q : ℝ) : SameEntries abCoords baCoords shareParams [p, q] [q, p] := by
  refine ⟨rfl, rfl, fun o ho ls hls => ?_⟩
  have : o = { name := "w", dims := ["i".toList] } := by simpa [shareParams] using ho
  subst this
  have : ls = ["a".toList] ∨ ls = ["b".toList] := by simpa [product, labelsOf, abCoords, dget] using hls
  rcases this with rfl | rfl <;> rfl

theorem shareBuiltAB {uv up : Dict Str ModelObject} {K : NumbaFns} (hK : BuiltNumba abCoords shareVars shareParams shareEqs
    (shareEs "a".toList "b".toList) uv up K) :
    BuiltOn abCoords shareVars shareParams none shareEqs (shareEs "a".toList "b".toList) .numba
      (fun _ _ _ => .ok []) (shareEnv abCoords (shareEs "a".toList "b".toList) uv up K) :=
  Or.inr ⟨rfl, rfl, scalarNames abCoords (shareVars ++ shareParams), shareAB, shareNamesAB, shareEulerAB,
    fun a => Iff.rfl, rfl, rfl, rfl, List.cons_ne_nil _ _, uv, up, K, hK, rfl⟩

/-- The Euler function of the model returns. -/
theorem share_runs {uv up : Dict Str ModelObject} {K : NumbaFns} (hK : BuiltNumba abCoords shareVars shareParams shareEqs
    (shareEs "a".toList "b".toList) uv up K) (k1 : dkeys uv = ["T".toList, "X_a".toList, "X_b".toList])
    (k2 : dkeys up = ["w_a".toList, "w_b".toList]) (u v p q : ℝ) (fl : SimFlags) (add mul : NDArray ℝ → NDArray ℝ → NDArray ℝ) :
    ∃ outs, (shareEnv abCoords (shareEs "a".toList "b".toList) uv up K).euler
      (derefDict [] (shareCall u v p q).initial) (wantedFlat add mul [] (shareCall u v p q) shareParams)
      (shareCall u v p q).nIterEuler = .ok outs := by
  have hm := shareBuiltAB hK
  have hN : scalarNames abCoords (shareVars ++ shareParams) =
      ["T".toList, "X_a".toList, "X_b".toList] ++ ["w_a".toList, "w_b".toList] := by decide +kernel
  have hcall : EulerCall abCoords shareVars shareParams (derefDict [] (shareCall u v p q).initial)
      (wantedFlat add mul [] (shareCall u v p q) shareParams) := by
    obtain ⟨-, dx, A, B, -, hs⟩ := hm.stepsFrom rfl
    have hl := hs.lenOK
    exact (euler_setup .numba dx _ hs.steps hs.euler hl hs.coords_eq hs.variables_eq hs.parameters_eq
      hs.compiled fl add mul [] (shareCall u v p q) (shareRequest _ (.inl rfl) _ _ _ _ add mul) rfl rfl).1
  show ∃ outs, runEuler .numba (numbaDX _ (dkeys uv) (dkeys up) _) shareVars shareParams abCoords _ _ _ = _
  rw [k1, k2, runEuler_numbaDX abCoords shareVars shareParams _ _ hcall _ _ _ _ (hN ▸ shareNamesAB)
    (by intro a; rw [hN])
    (by
      intro e he a ha
      have := (hK.values shareAB).1 e he a ((mem_atoms_iff a e).2 ha)
      rwa [hN] at this) rfl rfl rfl]
  cases hc : runEuler .numba (vecJac (nx := totalSize abCoords shareVars) (np := totalSize abCoords shareParams)
      (symA _ _ ["T".toList, "X_a".toList, "X_b".toList] ["w_a".toList, "w_b".toList]
        (shareEs "a".toList "b".toList))
      (symB _ _ ["T".toList, "X_a".toList, "X_b".toList] ["w_a".toList, "w_b".toList]
        (shareEs "a".toList "b".toList))).solve shareVars shareParams abCoords
      (wantedFlat add mul [] (shareCall u v p q) shareParams) (shareCall u v p q).nIterEuler
      (derefDict [] (shareCall u v p q).initial) with
  | ok outs => exact ⟨outs, rfl⟩
  | error e =>
    obtain ⟨-, x, t, -, -, hs⟩ := C20_fails_only_if_singular _ _ _ _ _ _ _ _ hcall e hc
    exact absurd (share_matrix _ _) hs

/-- Sector `a` grows from 1 to 5 and sector `b` from 2 to 3, once with the sectors in the order `a`, `b` and once in the
order `b`, `a`. -/
example (fl : SimFlags) (add mul : NDArray ℝ → NDArray ℝ → NDArray ℝ) :
    ∃ env env₂ e e₂,
      simulateCompute (simEnvOf env (fun _ => false) fl add mul) [] (shareCall 1 2 5 3) =
        .ok ⟨some e, none, none, false⟩ ∧
      simulateCompute (simEnvOf env₂ (fun _ => false) fl add mul) [] (shareCall 2 1 3 5) =
        .ok ⟨some e₂, none, none, false⟩ ∧
      env.coords = abCoords ∧ env₂.coords = baCoords ∧
      SameEntries abCoords baCoords (shareVars ++ shareParams) (flatOf e.start (shareVars ++ shareParams))
        (flatOf e₂.start (shareVars ++ shareParams)) := by
  obtain ⟨uv, up, K, hK, k1, k2⟩ := shareNumbaAB
  obtain ⟨uv₂, up₂, K₂, hK₂⟩ := shareNumbaBA
  have hm := shareBuiltAB hK
  have hm₂ : BuiltOn baCoords shareVars shareParams none shareEqs (shareEs "b".toList "a".toList) .numba
      (fun _ _ _ => .ok []) (shareEnv baCoords (shareEs "b".toList "a".toList) uv₂ up₂ K₂) :=
    Or.inr ⟨rfl, rfl, scalarNames baCoords (shareVars ++ shareParams), shareBA, shareNamesBA, shareEulerBA,
      fun a => Iff.rfl, rfl, rfl, rfl, List.cons_ne_nil _ _, uv₂, up₂, K₂, hK₂, rfl⟩
  obtain ⟨outs, hrun⟩ := share_runs hK k1 k2 1 2 5 3 fl add mul
  have hini : SameEntries abCoords baCoords (solvedVars none shareVars ++ shareParams)
      (initialFlat [] (shareCall 1 2 5 3) (solvedVars none shareVars ++ shareParams))
      (initialFlat [] (shareCall 2 1 3 5) (solvedVars none shareVars ++ shareParams)) := by
    have := share_initial (1 + 2) 1 2
    rw [solvedVars_none] at this ⊢
    have e : initialFlat [] (shareCall 2 1 3 5) (shareVars ++ shareParams) = [2 + 1, 2, 1, 2, 1] := rfl
    rw [e, add_comm (2 : ℝ) 1]
    exact this
  obtain ⟨e, e₂, outs₂, g1, g2, -, -, g5⟩ := C104_simulate hm hm₂ rfl rfl ab_same share_whole fl add mul [] []
    (shareCall 1 2 5 3) (shareCall 2 1 3 5) (shareRequest _ (.inl rfl) _ _ _ _ add mul)
    (shareRequest _ (.inr rfl) _ _ _ _ add mul) hini (share_final 5 3) rfl rfl (by decide) rfl rfl rfl outs hrun
    (fun _ _ _ _ e he => by
      rcases List.mem_append.1 he with he | he
      · exact shareRegular _ _ _ e he
      · exact shareRegular _ _ _ e he)
  rw [solvedVars_none] at g5
  exact ⟨_, _, e, e₂, g1, g2, rfl, rfl, g5⟩

/-- The hypotheses of `C104_equations`. -/
example (T u v : ℝ) : (∀ r ∈ imbalances baCoords shareVars shareParams none shareEqs [T, v, u, v, u], r = 0) ↔
    ∀ r ∈ imbalances abCoords shareVars shareParams none shareEqs [T, u, v, u, v], r = 0 :=
  (C104_equations shareAB ab_same share_whole _ _ (share_initial T u v)).2

/-- The hypotheses of `C104_check`: arrays that are no equilibrium are reported in both orders. -/
example (T u v : ℝ) (tol : ℝ) :
    let state : ℝ → ℝ → Dict Str (NDArray ℝ) := fun u v =>
      [("T".toList, ⟨[], [T]⟩), ("X".toList, ⟨[2], [u, v]⟩), ("w".toList, ⟨[2], [u, v]⟩)]
    (checkForEquilibrium (fun x t => imbalances abCoords shareVars shareParams none shareEqs (x ++ t)) true
      (solvedVars none shareVars) shareParams abCoords (shareEqs.flatMap (filledNames abCoords none))
      (.dict (state u v)) tol = .ok .found ↔
    checkForEquilibrium (fun x t => imbalances baCoords shareVars shareParams none shareEqs (x ++ t)) true
      (solvedVars none shareVars) shareParams baCoords (shareEqs.flatMap (filledNames baCoords none))
      (.dict (state v u)) tol = .ok .found) := by
  intro state
  have hstate : ∀ coords, coords = abCoords ∨ coords = baCoords → ∀ u v,
      ModelState coords (solvedVars none shareVars) shareParams (state u v) := by
    intro coords hc u v
    refine ⟨fun o ho => ?_, fun n hn => ?_⟩
    · have : o = { name := "T" } ∨ o = { name := "X", dims := ["i".toList] } ∨
          o = { name := "w", dims := ["i".toList] } := by
        simpa [shareVars, shareParams, solvedVars] using ho
      rcases hc with rfl | rfl <;> rcases this with rfl | rfl | rfl
      · exact ⟨⟨[], [T]⟩, rfl, rfl, rfl⟩
      · exact ⟨⟨[2], [u, v]⟩, rfl, rfl, rfl⟩
      · exact ⟨⟨[2], [u, v]⟩, rfl, rfl, rfl⟩
      · exact ⟨⟨[], [T]⟩, rfl, rfl, rfl⟩
      · exact ⟨⟨[2], [u, v]⟩, rfl, rfl, rfl⟩
      · exact ⟨⟨[2], [u, v]⟩, rfl, rfl, rfl⟩
    · simpa [state, dkeys, shareVars, shareParams, solvedVars] using hn
  rcases C104_check shareAB shareBA ab_same share_whole true true (by decide +kernel) (by decide +kernel) (state u v)
    (state v u) (hstate _ (.inl rfl) u v) (hstate _ (.inr rfl) v u) (share_initial T u v) (.dict (state u v))
    (.dict (state v u)) rfl rfl tol with ⟨h1, h2⟩ | ⟨l, l₂, h1, h2, -⟩ | ⟨h1, h2⟩
  · exact iff_of_true h1 h2
  · rw [h1, h2]; simp
  · rw [h1, h2]

/-- The hypotheses of `C104_objective`. -/
example (vn : List Str) (T u v : ℝ) : ∃ F F₂, BuiltFns abCoords shareVars shareParams none shareEqs F ∧
    BuiltFns baCoords shareVars shareParams none shareEqs F₂ ∧
    wrapForScipy (callGraphs ((shareVars ++ shareParams).map ModelObject.name) vn [F₂.loss]) shareVars shareParams
        baCoords [T, v, u] [v, u] =
      wrapForScipy (callGraphs ((shareVars ++ shareParams).map ModelObject.name) vn [F.loss]) shareVars shareParams
        abCoords [T, u, v] [u, v] := by
  have b1 : ∃ F, BuiltFns abCoords shareVars shareParams none shareEqs F :=
    ⟨_, id, id, id, id, _, _, _, shareEs "a".toList "b".toList, fun _ _ => Iff.rfl, fun _ _ => Iff.rfl,
      fun _ _ => Iff.rfl, rfl, rfl, rfl, rfl, rfl⟩
  have b2 : ∃ F, BuiltFns baCoords shareVars shareParams none shareEqs F :=
    ⟨_, id, id, id, id, _, _, _, shareEs "b".toList "a".toList, fun _ _ => Iff.rfl, fun _ _ => Iff.rfl,
      fun _ _ => Iff.rfl, rfl, rfl, rfl, rfl, rfl⟩
  obtain ⟨F, hF⟩ := b1
  obtain ⟨F₂, hF₂⟩ := b2
  have := C104_objective hF hF₂ shareAB shareBA ab_same share_whole vn vn [T, u, v] [u, v] [T, v, u] [v, u] rfl rfl
    (share_initial T u v)
  rw [solvedVars_none] at this
  exact ⟨F, F₂, hF, hF₂, this⟩

/-! ### Sums over some of the labels -/

/-- `T = Sum(w[i], (i, 0, 0))`, the first sector only. -/
def headEqs : List IndexedEq :=
  [⟨[.lit "total".toList], .sym "T".toList,
      .red .sum (.indexed "w".toList [.idx "i".toList]) [⟨"i".toList, 0, 1⟩]⟩]

def headVars : List ModelObject := [{ name := "T" }]

theorem head_plain (coords : Coords) (ls : List Str) (hc : dget coords "i".toList = some ls) (hl : ls ≠ []) :
    PlainReduction coords (.indexed "w".toList [.idx "i".toList]) [⟨"i".toList, 0, 1⟩] where
  redFree := trivial
  bounds := by
    intro l h
    rw [List.mem_singleton] at h
    subst h
    rw [hc]
    exact List.length_pos_of_ne_nil hl
  known := by
    intro v hv s hs
    simp only [RExpr.indexeds, List.mem_singleton] at hv
    subst hv
    rw [List.mem_singleton] at hs
    exact ⟨_, ls, hs, hc, hl⟩
  consistent := by
    intro v hv w hw _ p i j hi hj _ _
    simp only [RExpr.indexeds, List.mem_singleton] at hv hw
    subst hv hw
    rw [hi] at hj
    cases hj
    rfl

theorem head_side (coords : Coords) (hk : "i".toList ∈ dkeys coords) (e : RExpr) (h1 : AllPlain coords e)
    (h2 : ∀ x ∈ e.syms, ∃ o ∈ solvedVars none headVars ++ shareParams, o.name = x ∧ o.dims = [])
    (h3 : ∀ v ∈ e.indexeds, ∃ o ∈ solvedVars none headVars ++ shareParams,
      o.name = v.1 ∧ o.dims = ["i".toList] ∧ v.2 = [.idx "i".toList]) :
    SideOK coords (solvedVars none headVars ++ shareParams) none e := by
  refine ⟨h1, ⟨fun x hx => ?_, fun v hv => ?_⟩, fun o ho => (nomatch ho), fun o ho => (nomatch ho)⟩
  · obtain ⟨o, ho, h⟩ := h2 x hx
    exact ⟨o, by simpa using ho, h⟩
  · obtain ⟨o, ho, hn, hd, hv⟩ := h3 v hv
    refine ⟨o, by simpa using ho, hn, by rw [hd]; decide, ?_⟩
    rw [hd, hv]
    exact .cons (.inl ⟨"i".toList, rfl, hk, fun l hl => hl⟩) .nil

theorem headAB : IndexedModel abCoords headVars shareParams none headEqs where
  scalar :=
    { known := by decide +kernel
      dims := by decide +kernel
      fresh := by decide +kernel
      labels := by decide +kernel
      names := by decide +kernel
      scalars := by decide +kernel }
  coords_nodup := by decide +kernel
  dim_names := by decide +kernel
  label_names := ab_labels _ (.inl rfl)
  numeraire_mem := by rintro o ⟨⟩
  sides := by
    intro q hq
    simp only [headEqs, List.mem_singleton] at hq
    subst hq
    exact ⟨head_side _ (by decide +kernel) _ trivial (by decide +kernel) (by decide +kernel),
      head_side _ (by decide +kernel) _ (head_plain _ ["a".toList, "b".toList] rfl (by simp))
        (by decide +kernel) (by decide +kernel)⟩
  clean := by
    intro q hq
    simp only [headEqs, List.mem_singleton] at hq
    subst hq
    decide +kernel
  markers := by decide +kernel
  names := by decide +kernel

theorem headBA : IndexedModel baCoords headVars shareParams none headEqs where
  scalar :=
    { known := by decide +kernel
      dims := by decide +kernel
      fresh := by decide +kernel
      labels := by decide +kernel
      names := by decide +kernel
      scalars := by decide +kernel }
  coords_nodup := by decide +kernel
  dim_names := by decide +kernel
  label_names := ab_labels _ (.inr rfl)
  numeraire_mem := by rintro o ⟨⟩
  sides := by
    intro q hq
    simp only [headEqs, List.mem_singleton] at hq
    subst hq
    exact ⟨head_side _ (by decide +kernel) _ trivial (by decide +kernel) (by decide +kernel),
      head_side _ (by decide +kernel) _ (head_plain _ ["b".toList, "a".toList] rfl (by simp))
        (by decide +kernel) (by decide +kernel)⟩
  clean := by
    intro q hq
    simp only [headEqs, List.mem_singleton] at hq
    subst hq
    decide +kernel
  markers := by decide +kernel
  names := by decide +kernel

theorem head_entries (T u v : ℝ) : SameEntries abCoords baCoords (headVars ++ shareParams) [T, u, v] [T, v, u] := by
  refine ⟨rfl, rfl, fun o ho ls hls => ?_⟩
  have : o = { name := "T" } ∨ o = { name := "w", dims := ["i".toList] } := by
    simpa [headVars, shareParams] using ho
  have hab : ls ∈ product (o.dims.map (labelsOf abCoords)) := hls
  rcases this with rfl | rfl
  · have : ls = [] := by simpa [product] using hab
    subst this
    rfl
  · have : ls = ["a".toList] ∨ ls = ["b".toList] := by simpa [product, labelsOf, abCoords, dget] using hab
    rcases this with rfl | rfl <;> rfl

/-- **C104 fails for sums over some of the labels.**  `T = Sum(w[i], (i, 0, 0))` reads the first label, whichever it
is: with `w` equal to one for `a` and two for `b`, `T = 1` solves the model whose labels are `a`, `b`; in the model whose
labels are `b`, `a` the equation is off by one. -/
theorem C104_part_counterexample (vn : List Str) : SameLabels abCoords baCoords ∧
    SameEntries abCoords baCoords (headVars ++ shareParams) [1, 1, 2] [1, 2, 1] ∧
    ∃ F F₂, BuiltFns abCoords headVars shareParams none headEqs F ∧
      BuiltFns baCoords headVars shareParams none headEqs F₂ ∧
      wrapForScipy (callGraphs ((headVars ++ shareParams).map ModelObject.name) vn F.system) headVars shareParams
        abCoords [1] [1, 2] = .ok [(0 : ℝ)] ∧
      wrapForScipy (callGraphs ((headVars ++ shareParams).map ModelObject.name) vn F₂.system) headVars shareParams
        baCoords [1] [2, 1] = .ok [(-1 : ℝ)] := by
  have b1 : ∃ F, BuiltFns abCoords headVars shareParams none headEqs F :=
    ⟨_, id, id, id, id, _, _, _, [.add (.sym "T".toList) (.mul (.num (-1)) (.add (.num 0) (.sym "w_a".toList)))],
      fun _ _ => Iff.rfl, fun _ _ => Iff.rfl, fun _ _ => Iff.rfl, rfl, rfl, rfl, rfl, rfl⟩
  have b2 : ∃ F, BuiltFns baCoords headVars shareParams none headEqs F :=
    ⟨_, id, id, id, id, _, _, _, [.add (.sym "T".toList) (.mul (.num (-1)) (.add (.num 0) (.sym "w_b".toList)))],
      fun _ _ => Iff.rfl, fun _ _ => Iff.rfl, fun _ _ => Iff.rfl, rfl, rfl, rfl, rfl, rfl⟩
  obtain ⟨F, hF⟩ := b1
  obtain ⟨F₂, hF₂⟩ := b2
  have h1 := hF.system headAB vn [1] [1, 2] rfl rfl
  have h2 := hF₂.system headBA vn [1] [2, 1] rfl rfl
  rw [solvedVars_none] at h1 h2
  have e1 : imbalances abCoords headVars shareParams none headEqs ([1] ++ [1, 2]) = [1 - (1 + 0)] := rfl
  have e2 : imbalances baCoords headVars shareParams none headEqs ([1] ++ [2, 1]) = [1 - (2 + 0)] := rfl
  refine ⟨ab_same, head_entries 1 1 2, F, F₂, hF, hF₂, ?_, ?_⟩
  · rw [h1, e1]; norm_num
  · rw [h2, e2]; norm_num

end Verif
