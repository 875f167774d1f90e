import Verif.Lemmas.Reduce
import Mathlib.Tactic.NormNum

/-!
# C35: sums and products over an index

In the theorems `setList` is the (undefined) order in which the interpreter lists the set of operators
it found, and `order` the order in which sympy applies the entries of a substitution dictionary.
-/

namespace Verif

open RExpr

/-- **C35 (partial: plain reductions).**  If every `Sum`/`Product` in the equation is plain (nothing
nested, see `PlainReduction`) and every label fits its position (`FitLabel`: it is no numeral, or the number of
its position, or a number that is no position), `substitute_reduce_ops` returns an expression without reduction operators that has, for every assignment of the symbols and of the
remaining indices, the value of the original: the sum (product) of the body over the labels.

Missing from the full property: nested reductions and labels that are the number of another position, for
which it is false (below). -/
theorem C35_expansion_partial (setList : List RExpr → List RExpr)
    (hset : ∀ l x, x ∈ setList l ↔ x ∈ l)
    (order : Dict (List SIdx) (List SIdx) → List (List SIdx × List SIdx))
    (horder : ∀ d e, e ∈ order d ↔ e ∈ d) (coords : Coords)
    (hlab : FitLabels coords)
    (eq : RExpr) (hplain : AllPlain coords eq) :
    ∃ r, substituteReduceOps setList order eq coords = .ok r ∧ RedFree r ∧
      ∀ (σ : Str → ℝ) (A : Str → List SIdx → ℝ) (η : Str → SIdx),
        r.value σ A coords η = eq.value σ A coords η := by
  obtain ⟨e1, h1, p1, v1, f1⟩ := foldlM_substituteOp order horder coords hlab
    (setList (findOps .sum eq)) eq hplain
    (fun x hx => findOps_plain coords .sum eq hplain x ((hset _ _).mp hx))
  obtain ⟨e2, h2, p2, v2, f2⟩ := foldlM_substituteOp order horder coords hlab
    (setList (findOps .prod e1)) e1 p1
    (fun x hx => findOps_plain coords .prod e1 p1 x ((hset _ _).mp hx))
  refine ⟨e2, ?_, ?_, fun σ A η => by rw [v2, v1]⟩
  · rw [substituteReduceOps, h1]; exact h2
  · apply redFree_of_findOps coords e2 p2
    intro o
    apply List.eq_nil_iff_forall_not_mem.mpr
    intro x hx
    obtain ⟨g1, g2⟩ := f2 o x hx
    cases o with
    | sum =>
      obtain ⟨k1, k2⟩ := f1 _ x g1
      exact k2 ((hset _ _).mpr k1)
    | prod => exact g2 ((hset _ _).mpr g1)

/-- **C35 (all labels).**  A sum (product) with bounds `0 … n-1`, `n` the number of labels, ranges over
every label: this is what the value in `C35_expansion_partial` means for one index. -/
theorem C35_ranges_over_all_labels (op : RedOp) (body : RExpr) (i : Str) (coords : Coords)
    (labels : List Str) (hl : dget coords i = some labels) (σ : Str → ℝ)
    (A : Str → List SIdx → ℝ) (η : Str → SIdx) :
    (RExpr.red op body [⟨i, 0, labels.length⟩]).value σ A coords η =
      match op with
      | .sum => (labels.map fun l => body.value σ A coords (setEnv η i (sympifyLabel l))).sum
      | .prod => (labels.map fun l => body.value σ A coords (setEnv η i (sympifyLabel l))).prod := by
  simp only [RExpr.value, overLims, limLabels, hl, Option.getD_some, List.drop_zero, Nat.sub_zero,
    List.take_length, List.map_map, Function.comp_def]
  cases op <;> rfl

/-- Labels `a`, `b` for `i` and `c`, `d`, `e` for `j` (for examples). -/
def redCoords : Coords :=
  [("i".toList, ["a".toList, "b".toList]), ("j".toList, ["c".toList, "d".toList, "e".toList])]

theorem redCoords_labels : FitLabels redCoords := by
  intro i ls h k l hl
  left
  have hmem := mem_of_dget _ h
  have hl := List.mem_of_getElem? hl
  simp only [redCoords, List.mem_cons, Prod.mk.injEq, List.not_mem_nil, or_false] at hmem
  rcases hmem with ⟨-, rfl⟩ | ⟨-, rfl⟩
  · simp only [List.mem_cons, List.not_mem_nil, or_false] at hl
    rcases hl with rfl | rfl <;> simp [NotNumeral, Char.isDigit]
  · simp only [List.mem_cons, List.not_mem_nil, or_false] at hl
    rcases hl with rfl | rfl | rfl <;> simp [NotNumeral, Char.isDigit]

/-- `z + Sum(x[i, j] * y[i], (i, 0, 1))`: the index `j` stays free. -/
def exSum : RExpr :=
  .add (.sym "z".toList) (.red .sum
    (.mul (.indexed "x".toList [.idx "i".toList, .idx "j".toList])
      (.indexed "y".toList [.idx "i".toList])) [⟨"i".toList, 0, 2⟩])

theorem exSum_plain : AllPlain redCoords exSum := by
  refine ⟨trivial, ⟨trivial, trivial⟩, ?_, ?_, ?_⟩
  · intro l hl
    rw [List.mem_singleton] at hl; subst hl; decide
  · intro v hv s hs
    simp only [indexeds, List.mem_append, List.mem_singleton] at hv
    rcases hv with rfl | rfl
    · simp only [List.mem_cons, List.not_mem_nil, or_false] at hs
      rcases hs with rfl | rfl
      · exact ⟨"i".toList, _, rfl, rfl, by simp⟩
      · exact ⟨"j".toList, _, rfl, rfl, by simp⟩
    · simp only [List.mem_cons, List.not_mem_nil, or_false] at hs
      subst hs
      exact ⟨"i".toList, _, rfl, rfl, by simp⟩
  · intro v _ w _ _ p i j _ _ hi hj
    simp only [List.map_cons, List.map_nil, List.mem_singleton] at hi hj
    rw [hi, hj]

example : ∃ r, substituteReduceOps id id exSum redCoords = .ok r ∧ RedFree r ∧
    ∀ (σ : Str → ℝ) (A : Str → List SIdx → ℝ) (η : Str → SIdx),
      r.value σ A redCoords η = exSum.value σ A redCoords η :=
  C35_expansion_partial id (fun _ _ => Iff.rfl) id (fun _ _ => Iff.rfl) redCoords redCoords_labels
    exSum exSum_plain

example (A : Str → List SIdx → ℝ) (η : Str → SIdx) :
    (RExpr.red .sum (.indexed "y".toList [.idx "i".toList]) [⟨"i".toList, 0, 2⟩]).value
      (fun _ => 0) A redCoords η = A "y".toList [.lab "a".toList] + A "y".toList [.lab "b".toList] := by
  rw [show (2 : Nat) = (["a".toList, "b".toList] : List Str).length from rfl,
    C35_ranges_over_all_labels .sum _ _ redCoords ["a".toList, "b".toList] rfl]
  have ha : sympifyLabel ("a".toList) = .lab "a".toList := by decide
  have hb : sympifyLabel ("b".toList) = .lab "b".toList := by decide
  simp only [RExpr.value, bindIdx, setEnv, List.map_cons, List.map_nil, List.sum_cons, List.sum_nil, ha, hb,
    if_true, add_zero]

/-- Labels that are numerals: the positions themselves (as in tests/utilities/models.py:123), and years. -/
def numeralCoords : Coords :=
  [("i".toList, ["0".toList, "1".toList]), ("j".toList, ["2020".toList, "2025".toList, "2030".toList])]

theorem numeralCoords_labels : FitLabels numeralCoords := by
  intro i ls h k l hl
  have hmem := mem_of_dget _ h
  simp only [numeralCoords, List.mem_cons, Prod.mk.injEq, List.not_mem_nil, or_false] at hmem
  rcases hmem with ⟨-, rfl⟩ | ⟨-, rfl⟩
  · match k, hl with
    | 0, hl => cases hl; exact Or.inr ⟨0, by decide, Or.inl rfl⟩
    | 1, hl => cases hl; exact Or.inr ⟨1, by decide, Or.inl rfl⟩
    | k + 2, hl => simp at hl
  · match k, hl with
    | 0, hl => cases hl; exact Or.inr ⟨2020, by decide, Or.inr (by simp)⟩
    | 1, hl => cases hl; exact Or.inr ⟨2025, by decide, Or.inr (by simp)⟩
    | 2, hl => cases hl; exact Or.inr ⟨2030, by decide, Or.inr (by simp)⟩
    | k + 3, hl => simp at hl

theorem exSum_plain_numerals : AllPlain numeralCoords exSum := by
  refine ⟨trivial, ⟨trivial, trivial⟩, ?_, ?_, ?_⟩
  · intro l hl
    rw [List.mem_singleton] at hl; subst hl; decide
  · intro v hv s hs
    simp only [indexeds, List.mem_append, List.mem_singleton] at hv
    rcases hv with rfl | rfl
    · simp only [List.mem_cons, List.not_mem_nil, or_false] at hs
      rcases hs with rfl | rfl
      · exact ⟨"i".toList, _, rfl, rfl, by simp⟩
      · exact ⟨"j".toList, _, rfl, rfl, by simp⟩
    · simp only [List.mem_cons, List.not_mem_nil, or_false] at hs
      subst hs
      exact ⟨"i".toList, _, rfl, rfl, by simp⟩
  · intro v _ w _ _ p i j _ _ hi hj
    simp only [List.map_cons, List.map_nil, List.mem_singleton] at hi hj
    rw [hi, hj]

example : ∃ r, substituteReduceOps id id exSum numeralCoords = .ok r ∧ RedFree r ∧
    ∀ (σ : Str → ℝ) (A : Str → List SIdx → ℝ) (η : Str → SIdx),
      r.value σ A numeralCoords η = exSum.value σ A numeralCoords η :=
  C35_expansion_partial id (fun _ _ => Iff.rfl) id (fun _ _ => Iff.rfl) numeralCoords numeralCoords_labels
    exSum exSum_plain_numerals

/-- `Sum(y[i] * Sum(x[i, j], (j, 0, 2)), (i, 0, 1))`. -/
def exNested : RExpr :=
  .red .sum (.mul (.indexed "y".toList [.idx "i".toList])
    (.red .sum (.indexed "x".toList [.idx "i".toList, .idx "j".toList]) [⟨"j".toList, 0, 3⟩]))
    [⟨"i".toList, 0, 2⟩]

/-- `y[l] * (0 + x[k, 0] + x[k, 1] + x[k, 2])`. -/
def exNestedTerm (l : Str) (k : Nat) : RExpr :=
  .mul (.indexed "y".toList [.lab l])
    (.add (.add (.add (.num 0) (.indexed "x".toList [.num k, .num 0]))
      (.indexed "x".toList [.num k, .num 1])) (.indexed "x".toList [.num k, .num 2]))

/-- **C35 is false for nested reductions.**  If the outer sum is listed first, integers remain where
labels should be (the entry `x[0, 0]` exists in no model, so it is never replaced by a variable); if the
inner sum is listed first, the outer one is never expanded.  Both orders are possible since the
operators are in a set. -/
theorem C35_nested_counterexample :
    (∃ r, substituteReduceOps id id exNested redCoords = .ok r ∧
      ∃ (σ : Str → ℝ) (A : Str → List SIdx → ℝ) (η : Str → SIdx),
        r.value σ A redCoords η ≠ exNested.value σ A redCoords η) ∧
    ∃ r, substituteReduceOps List.reverse id exNested redCoords = .ok r ∧ ¬ RedFree r := by
  constructor
  · refine ⟨.add (.add (.num 0) (exNestedTerm "a".toList 0)) (exNestedTerm "b".toList 1), rfl,
      fun _ => 0, fun b ix => if b = "y".toList ∨ SIdx.num 0 ∈ ix then 1 else 0, SIdx.idx, ?_⟩
    simp only [exNestedTerm, exNested, RExpr.value, overLims, limLabels, redCoords, dget, bindIdx,
      setEnv, reduceVals]
    norm_num
    simp [bindIdx, setEnv, sympifyLabel]
    norm_num
  · exact ⟨_, rfl, fun h => h⟩

/-- **C35 is false for labels that are the number of another position.**  With labels `"1"`, `"0"` the entries of the
substitution dictionary feed each other: `Sum(x[i], (i, 0, 1))` becomes `x[0] + x[0]` (or, in the other
order, `x[1] + x[1]`), so one of the two labels is lost whatever the order. -/
theorem C35_numeral_labels_counterexample :
    let coords : Coords := [("i".toList, ["1".toList, "0".toList])]
    let e : RExpr := .red .sum (.indexed "x".toList [.idx "i".toList]) [⟨"i".toList, 0, 2⟩]
    let x (k : Nat) : RExpr := .indexed "x".toList [.num k]
    sympifyLabel "1".toList = .num 1 ∧ sympifyLabel "0".toList = .num 0 ∧
    substituteReduceOps id id e coords = .ok (.add (.add (.num 0) (x 0)) (x 0)) ∧
    substituteReduceOps id List.reverse e coords = .ok (.add (.add (.num 0) (x 1)) (x 1)) := by
  refine ⟨by decide, by decide, ?_, ?_⟩ <;> rfl

/-- **C35 is false for a product of a sum.**  `Product(Sum(x[i, j], (j, 0, 2)), (i, 0, 1))` raises
`KeyError`: when the product is expanded the labels inserted for `j` are looked up as dims. -/
theorem C35_product_of_sum_raises :
    substituteReduceOps id id
      (.red .prod (.red .sum (.indexed "x".toList [.idx "i".toList, .idx "j".toList])
        [⟨"j".toList, 0, 3⟩]) [⟨"i".toList, 0, 2⟩]) redCoords = .error .keyError := rfl

end Verif
