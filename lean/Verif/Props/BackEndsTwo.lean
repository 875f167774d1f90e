import Verif.Props.BackEnds

/-!
# C76: equations of the two-dimensional kind

The equations of `tests/utilities/models.py:233-300` in which the two texts differ: a price index over the
inputs of a sector, the demand for inputs, a Cobb-Douglas utility and the market clearing conditions.
-/

namespace Verif

/-- Sectors `a` and `b`, as sellers `i` and as buyers `j`. -/
def bcCoords : Coords := [("i".toList, ["a".toList, "b".toList]), ("j".toList, ["a".toList, "b".toList])]

def bcX : ModelObject := { name := "X", dims := ["i".toList, "j".toList] }
def bcVC : ModelObject := { name := "VC", dims := ["i".toList] }
def bcP : ModelObject := { name := "P", dims := ["i".toList] }
def bcC : ModelObject := { name := "C", dims := ["i".toList] }
def bcU : ModelObject := { name := "U" }
def bcR : ModelObject := { name := "resid" }
def bcPsi : ModelObject := { name := "psi_X", dims := ["i".toList, "j".toList] }
def bcG : ModelObject := { name := "gamma", dims := ["i".toList] }
def bcL : ModelObject := { name := "L_s" }

def bcVars : List ModelObject := [bcX, bcVC, bcP, bcC, bcU, bcR]

def bcParams : List ModelObject := [bcPsi, bcG, bcL]

def bcEqs : List TextEq :=
  [⟨[.lit "production of ".toList, .dim "i".toList], "VC * P".toList,
      "(P[:, None] * X).sum(axis=0).ravel()".toList, "VC * P".toList,
      "Sum(P.subs({i:j}) * X.subs([(i,k), (j,i), (k,j)]), (j, 0, 1))".toList⟩,
   ⟨[.lit "demand ".toList, .dim "i".toList, .dim "j".toList], "X".toList, "psi_X * VC[None]".toList,
      "X".toList, "psi_X * VC.subs({i:j})".toList⟩,
   ⟨[.lit "utility".toList], "U".toList, "(C**gamma).prod()".toList, "U".toList,
      "Product(C**gamma, (i, 0, 1))".toList⟩,
   ⟨[.lit "clearing ".toList, .dim "i".toList], "VC".toList, "C + X.sum(axis=1)".toList, "VC".toList,
      "C + Sum(X, (j, 0, 1))".toList⟩,
   ⟨[.lit "labor".toList], "L_s".toList, "C.sum() + resid".toList, "L_s".toList,
      "resid + Sum(C, (i, 0, 1))".toList⟩]

theorem bcModel : ArrayModel bcCoords bcVars bcParams bcEqs where
  scalar :=
    { known := by decide +kernel
      dims := by decide +kernel
      fresh := by decide +kernel
      labels := by decide +kernel
      names := by decide +kernel
      scalars := by decide +kernel }
  coords_nodup := by decide +kernel
  dim_names := by decide +kernel
  label_names := by
    intro d ls h
    have hm := mem_of_dget _ h
    simp only [bcCoords, List.mem_cons, Prod.mk.injEq, List.not_mem_nil, or_false] at hm
    rcases hm with ⟨-, rfl⟩ | ⟨-, rfl⟩ <;>
    · intro k l hl
      have hl := List.mem_of_getElem? hl
      simp only [List.mem_cons, List.not_mem_nil, or_false] at hl
      rcases hl with rfl | rfl <;> exact ⟨.inl (by unfold NotNumeral; decide +kernel), by decide +kernel⟩
  labels := by decide +kernel
  names := by decide +kernel
  nonempty := by simp [bcEqs]
  sides := by
    have hX : bcX ∈ bcVars ++ bcParams := by simp [bcVars]
    have hVC : bcVC ∈ bcVars ++ bcParams := by simp [bcVars]
    have hP : bcP ∈ bcVars ++ bcParams := by simp [bcVars]
    have hC : bcC ∈ bcVars ++ bcParams := by simp [bcVars]
    have hU : bcU ∈ bcVars ++ bcParams := by simp [bcVars]
    have hR : bcR ∈ bcVars ++ bcParams := by simp [bcVars]
    have hPsi : bcPsi ∈ bcVars ++ bcParams := by simp [bcParams]
    have hG : bcG ∈ bcVars ++ bcParams := by simp [bcParams]
    have hL : bcL ∈ bcVars ++ bcParams := by simp [bcParams]
    have hij : RenamesAxes bcCoords (bcVars ++ bcParams) [("i".toList, "j".toList)] [some "i".toList] :=
      ⟨by decide +kernel, by simp; decide +kernel, by simp; decide +kernel⟩
    have hswap : RenamesAxes bcCoords (bcVars ++ bcParams)
        [("i".toList, "k".toList), ("j".toList, "i".toList), ("k".toList, "j".toList)]
        [some "i".toList, some "j".toList] :=
      ⟨by decide +kernel, by
        intro d hd
        simp only [List.mem_cons, Option.some.injEq, List.not_mem_nil, or_false] at hd
        rcases hd with rfl | rfl <;> decide +kernel, by
        intro d hd
        simp only [List.mem_cons, Option.some.injEq, List.not_mem_nil, or_false] at hd
        rcases hd with rfl | rfl <;> decide +kernel⟩
    intro q hq
    simp only [bcEqs, List.mem_cons, List.not_mem_nil, or_false] at hq
    rcases hq with rfl | rfl | rfl | rfl | rfl
    · refine ⟨.mul (.var "VC".toList) (.var "P".toList),
        .post (.post (.mul (.post (.var "P".toList) .newAxis1) (.var "X".toList)) (.sumAxis "0".toList))
          (.call "ravel".toList), .mul (.var "VC".toList) (.var "P".toList),
        .sumOver (.mul (.post (.var "P".toList) (.subs "i".toList "j".toList)) (.post (.var "X".toList)
          (.subsList [("i".toList, "k".toList), ("j".toList, "i".toList), ("k".toList, "j".toList)])))
          "j".toList "0".toList "1".toList, ["i".toList], ⟨_, rfl, 30, rfl⟩, ⟨_, rfl, 30, rfl⟩,
        ⟨_, rfl, 30, rfl⟩, ⟨_, rfl, 30, rfl⟩, onlyAxisEquals_of_none (by decide +kernel), ?_,
        by decide +kernel, by decide +kernel, rfl⟩
      have h1 : Twins bcCoords (bcVars ++ bcParams) false (.post (.var "P".toList) .newAxis1)
          (.post (.var "P".toList) (.subs "i".toList "j".toList)) [some "j".toList, none] :=
        .newAxis1 (.subs (.var hP) hij)
      have h2 : Twins bcCoords (bcVars ++ bcParams) false (.var "X".toList) (.post (.var "X".toList)
          (.subsList [("i".toList, "k".toList), ("j".toList, "i".toList), ("k".toList, "j".toList)]))
          [some "j".toList, some "i".toList] := .subsList (.var hX) hswap
      have hfit : AxesFit [some "j".toList, none] [some "j".toList, some "i".toList]
          [some "j".toList, some "i".toList] := .cons .left (.cons .same .left)
      have h3 : Twins bcCoords (bcVars ++ bcParams) true _ _ [some "i".toList] :=
        .sumAxis (k := "0".toList) (d := "j".toList) (lo := "0".toList) (hi := "1".toList)
          (.mul h1 h2 hfit) (by decide +kernel) rfl (by decide +kernel) ⟨rfl, rfl⟩
      exact ⟨[some "i".toList], [some "i".toList], .mul (.var hVC) (.var hP) (.cons .same .left), .ravel h3,
        .cons .same .left⟩
    · refine ⟨.var "X".toList, .mul (.var "psi_X".toList) (.post (.var "VC".toList) .newAxis0),
        .var "X".toList, .mul (.var "psi_X".toList) (.post (.var "VC".toList) (.subs "i".toList "j".toList)),
        ["i".toList, "j".toList], ⟨_, rfl, 30, rfl⟩, ⟨_, rfl, 30, rfl⟩,
        ⟨_, rfl, 30, rfl⟩, ⟨_, rfl, 30, rfl⟩, onlyAxisEquals_of_none (by decide +kernel), ?_,
        by decide +kernel, by decide +kernel, rfl⟩
      have h1 : Twins bcCoords (bcVars ++ bcParams) false (.post (.var "VC".toList) .newAxis0)
          (.post (.var "VC".toList) (.subs "i".toList "j".toList)) [none, some "j".toList] :=
        .newAxis0 (.subs (.var hVC) hij) (by simp)
      exact ⟨[some "i".toList, some "j".toList], [some "i".toList, some "j".toList], .var hX,
        .free (.mul (.var hPsi) h1 (.cons .same (.cons .right .left))), .cons .same (.cons .same .left)⟩
    · refine ⟨.var "U".toList, .post (.pow (.var "C".toList) (.var "gamma".toList)) (.call "prod".toList),
        .var "U".toList, .prodOver (.pow (.var "C".toList) (.var "gamma".toList)) "i".toList "0".toList "1".toList,
        [], ⟨_, rfl, 30, rfl⟩, ⟨_, rfl, 30, rfl⟩,
        ⟨_, rfl, 30, rfl⟩, ⟨_, rfl, 30, rfl⟩, onlyAxisEquals_of_none (by decide +kernel), ?_,
        by decide +kernel, by decide +kernel, rfl⟩
      exact ⟨[], [], .var hU, .reduce (op := .prod) (ds := ["i".toList])
        (.pow (.var hC) (.var hG) (.cons .same .left)) (by simp) (by simp) (.cons .nil ⟨rfl, rfl⟩), .left⟩
    · refine ⟨.var "VC".toList, .add (.var "C".toList) (.post (.var "X".toList) (.sumAxis "1".toList)),
        .var "VC".toList, .add (.var "C".toList) (.sumOver (.var "X".toList) "j".toList "0".toList "1".toList),
        ["i".toList], ⟨_, rfl, 30, rfl⟩, ⟨_, rfl, 30, rfl⟩,
        ⟨_, rfl, 30, rfl⟩, ⟨_, rfl, 30, rfl⟩, onlyAxisEquals_of_none (by decide +kernel), ?_,
        by decide +kernel, by decide +kernel, rfl⟩
      have h3 : Twins bcCoords (bcVars ++ bcParams) true _ _ [some "i".toList] :=
        .sumAxis (k := "1".toList) (d := "j".toList) (lo := "0".toList) (hi := "1".toList)
          (.var hX) (by decide +kernel) rfl (by decide +kernel) ⟨rfl, rfl⟩
      exact ⟨[some "i".toList], [some "i".toList], .var hVC, .add (.var hC) h3 (.cons .same .left),
        .cons .same .left⟩
    · refine ⟨.var "L_s".toList, .add (.post (.var "C".toList) (.call "sum".toList)) (.var "resid".toList),
        .var "L_s".toList, .add (.var "resid".toList) (.sumOver (.var "C".toList) "i".toList "0".toList "1".toList),
        [], ⟨_, rfl, 30, rfl⟩, ⟨_, rfl, 30, rfl⟩,
        ⟨_, rfl, 30, rfl⟩, ⟨_, rfl, 30, rfl⟩, onlyAxisEquals_of_none (by decide +kernel), ?_,
        by decide +kernel, by decide +kernel, rfl⟩
      exact ⟨[], [], .var hL, .addSwap (.reduce (op := .sum) (ds := ["i".toList]) (.var hC) (by simp) (by simp)
        (.cons .nil ⟨rfl, rfl⟩)) (.var hR) .left, .left⟩
  used := by
    have key : ∀ x ∈ ["X".toList, "VC".toList, "P".toList, "C".toList, "U".toList, "resid".toList,
        "psi_X".toList, "gamma".toList, "L_s".toList], ∃ q ∈ bcEqs, ∃ l r, Reads q.arrLhs l ∧
        Reads q.arrRhs r ∧ (l.Names x ∨ r.Names x) := by
      have e0 := fun x => (show ∀ (h : PExpr.Names x (.mul (.var "VC".toList) (.var "P".toList)) ∨
          PExpr.Names x (.post (.post (.mul (.post (.var "P".toList) .newAxis1) (.var "X".toList))
            (.sumAxis "0".toList)) (.call "ravel".toList))), ∃ q ∈ bcEqs, ∃ l r, Reads q.arrLhs l ∧
          Reads q.arrRhs r ∧ (l.Names x ∨ r.Names x) from fun h =>
        ⟨_, List.mem_cons_self, _, _, ⟨_, rfl, 30, rfl⟩, ⟨_, rfl, 30, rfl⟩, h⟩)
      have e1 := fun x => (show ∀ (h : PExpr.Names x (.var "X".toList) ∨ PExpr.Names x
          (.mul (.var "psi_X".toList) (.post (.var "VC".toList) .newAxis0))), ∃ q ∈ bcEqs, ∃ l r,
          Reads q.arrLhs l ∧ Reads q.arrRhs r ∧ (l.Names x ∨ r.Names x) from fun h =>
        ⟨_, List.mem_cons_of_mem _ List.mem_cons_self, _, _, ⟨_, rfl, 30, rfl⟩, ⟨_, rfl, 30, rfl⟩, h⟩)
      have e2 := fun x => (show ∀ (h : PExpr.Names x (.var "U".toList) ∨ PExpr.Names x
          (.post (.pow (.var "C".toList) (.var "gamma".toList)) (.call "prod".toList))), ∃ q ∈ bcEqs, ∃ l r,
          Reads q.arrLhs l ∧ Reads q.arrRhs r ∧ (l.Names x ∨ r.Names x) from fun h =>
        ⟨_, List.mem_cons_of_mem _ (List.mem_cons_of_mem _ List.mem_cons_self), _, _, ⟨_, rfl, 30, rfl⟩,
          ⟨_, rfl, 30, rfl⟩, h⟩)
      have e4 := fun x => (show ∀ (h : PExpr.Names x (.var "L_s".toList) ∨ PExpr.Names x
          (.add (.post (.var "C".toList) (.call "sum".toList)) (.var "resid".toList))), ∃ q ∈ bcEqs, ∃ l r,
          Reads q.arrLhs l ∧ Reads q.arrRhs r ∧ (l.Names x ∨ r.Names x) from fun h =>
        ⟨_, List.mem_cons_of_mem _ (List.mem_cons_of_mem _ (List.mem_cons_of_mem _ (List.mem_cons_of_mem _
          List.mem_cons_self))), _, _, ⟨_, rfl, 30, rfl⟩, ⟨_, rfl, 30, rfl⟩, h⟩)
      intro x hx
      simp only [List.mem_cons, List.not_mem_nil, or_false] at hx
      rcases hx with rfl | rfl | rfl | rfl | rfl | rfl | rfl | rfl | rfl
      · exact e1 _ (.inl rfl)
      · exact e0 _ (.inl (.inl rfl))
      · exact e0 _ (.inl (.inr rfl))
      · exact e2 _ (.inr (.inl rfl))
      · exact e2 _ (.inl rfl)
      · exact e4 _ (.inr (.inr rfl))
      · exact e1 _ (.inr (.inl rfl))
      · exact e2 _ (.inr (.inr rfl))
      · exact e4 _ (.inl rfl)
    intro o ho
    apply key
    revert o
    decide +kernel
  distinct := by decide +kernel

/-- The parsed equations of the example. -/
def bcParsed : List ParsedEq :=
  [⟨"production of <dim:i>".toList, .mul (.indexed "VC".toList [.idx "i".toList]) (.indexed "P".toList [.idx "i".toList]),
      .red .sum (.mul (.indexed "P".toList [.idx "j".toList]) (.indexed "X".toList [.idx "j".toList, .idx "i".toList]))
        [⟨"j".toList, 0, 2⟩]⟩,
   ⟨"demand <dim:i><dim:j>".toList, .indexed "X".toList [.idx "i".toList, .idx "j".toList],
      .mul (.indexed "psi_X".toList [.idx "i".toList, .idx "j".toList]) (.indexed "VC".toList [.idx "j".toList])⟩,
   ⟨"utility".toList, .sym "U".toList, .red .prod (.pow (.indexed "C".toList [.idx "i".toList])
      (.indexed "gamma".toList [.idx "i".toList])) [⟨"i".toList, 0, 2⟩]⟩,
   ⟨"clearing <dim:i>".toList, .indexed "VC".toList [.idx "i".toList], .add (.indexed "C".toList [.idx "i".toList])
      (.red .sum (.indexed "X".toList [.idx "i".toList, .idx "j".toList]) [⟨"j".toList, 0, 2⟩])⟩,
   ⟨"labor".toList, .sym "L_s".toList, .add (.sym "resid".toList)
      (.red .sum (.indexed "C".toList [.idx "i".toList]) [⟨"i".toList, 0, 2⟩])⟩]

/-- `X.subs([(i,k), (j,i), (k,j)])` is the transposed matrix. -/
theorem bcParses : List.Forall₂ (ParsesTo bcCoords (bcVars ++ bcParams)) bcEqs bcParsed :=
  .cons ⟨_, _, ⟨_, rfl, 30, rfl⟩, ⟨_, rfl, 30, rfl⟩, rfl⟩
    (.cons ⟨_, _, ⟨_, rfl, 30, rfl⟩, ⟨_, rfl, 30, rfl⟩, rfl⟩
    (.cons ⟨_, _, ⟨_, rfl, 30, rfl⟩, ⟨_, rfl, 30, rfl⟩, rfl⟩
    (.cons ⟨_, _, ⟨_, rfl, 30, rfl⟩, ⟨_, rfl, 30, rfl⟩, rfl⟩
    (.cons ⟨_, _, ⟨_, rfl, 30, rfl⟩, ⟨_, rfl, 30, rfl⟩, rfl⟩ .nil))))

/-- The residuals of the example: spending of buyer `a` is the column of `X`, demand uses the buyer's `VC`. -/
example (x0 x1 x2 x3 v0 v1 p0 p1 c0 c1 u e y0 y1 y2 y3 g0 g1 l : ℝ) :
    (List.zipWith indexedEq bcEqs bcParsed).flatMap
      (demanded bcCoords [] (bcVars ++ bcParams)
        ([x0, x1, x2, x3, v0, v1, p0, p1, c0, c1, u, e] ++ [y0, y1, y2, y3, g0, g1, l])) =
      [v0 * p0 - (p0 * x0 + p1 * x2), v1 * p1 - (p0 * x1 + p1 * x3),
       x0 - y0 * v0, x1 - y1 * v1, x2 - y2 * v0, x3 - y3 * v1,
       u - c0 ^ g0 * c1 ^ g1,
       v0 - (c0 + (x0 + x1)), v1 - (c1 + (x2 + x3)), l - (e + (c0 + c1))] := by
  have h : (List.zipWith indexedEq bcEqs bcParsed).flatMap
      (demanded bcCoords [] (bcVars ++ bcParams)
        ([x0, x1, x2, x3, v0, v1, p0, p1, c0, c1, u, e] ++ [y0, y1, y2, y3, g0, g1, l])) =
      [v0 * p0 - (p0 * x0 + (p1 * x2 + 0)), v1 * p1 - (p0 * x1 + (p1 * x3 + 0)),
       x0 - y0 * v0, x1 - y1 * v1, x2 - y2 * v0, x3 - y3 * v1,
       u - c0 ^ g0 * (c1 ^ g1 * 1),
       v0 - (c0 + (x0 + (x1 + 0))), v1 - (c1 + (x2 + (x3 + 0))), l - (e + (c0 + (c1 + 0)))] := rfl
  rw [h]
  simp only [add_zero, mul_one]

/-- Both back-ends give these residuals. -/
example (x theta : List ℝ) (hx : x.length = 12) (ht : theta.length = 7) : ∃ es G,
    List.Forall₂ (fun q e => Reads (normalizeEq (TextEq.arrText q)) e) bcEqs es ∧
    compileText bcCoords (bcVars ++ bcParams) (bcEqs.map fun q => q.name.text) es = .ok G ∧
    wrapForScipy G bcVars bcParams bcCoords x theta = .ok ((List.zipWith indexedEq bcEqs bcParsed).flatMap
      (demanded bcCoords [] (bcVars ++ bcParams) (x ++ theta))) := by
  obtain ⟨⟨es, hes⟩, -⟩ := C76_texts_parse_partial bcModel
  obtain ⟨G, hG, h⟩ := C76_array_residuals_partial bcModel hes bcParses
  exact ⟨es, G, hes, hG, h x theta (hx.trans (by decide +kernel)) (ht.trans (by decide +kernel))⟩

end Verif
