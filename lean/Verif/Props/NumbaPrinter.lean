import Verif.Model.NumbaPrinter
import Verif.Spec.PyConditional
import Mathlib.Analysis.Calculus.Deriv.Basic
import Mathlib.Analysis.Calculus.Deriv.Add

/-!
# C86: conditional expressions on the numba back-end

Equations may contain `Max`, `Piecewise` and `log`.  The numba back-end prints them with
`NumbaFriendlyNumPyPrinter`.
-/

namespace Verif

variable {σ : Type}

/-- What the inherited methods of the printer give for a piece with a number in it, and for its condition. -/
structure PieceOk (num : Str → (σ → ℝ) → Prop) (cond : Str → (σ → Prop) → Prop) (p : PwPiece)
    (v : (σ → ℝ) × (σ → Prop)) : Prop where
  expr : ∃ t, p.expr = .number t ∧ num t v.1
  cond : cond p.cond v.2

/-- The text of a piece with a number. -/
def PieceExpr.text : PieceExpr → Str
  | .number t => t
  | .formula t => t

/-- The strings that one piece adds to the list. -/
def PwPiece.chunk (p : PwPiece) : List Str :=
  ["(".toList, p.expr.text, ")".toList, " if ".toList, p.cond, " else ".toList]

theorem piecewiseLoop_ok (ps : List PwPiece) (h : ∀ p ∈ ps, ∃ t, p.expr = .number t) (i : Nat) (hi : i ≠ 0)
    (res : List Str) : piecewiseLoop i res ps = .ok (res ++ ps.flatMap PwPiece.chunk) := by
  induction ps generalizing i res with
  | nil => simp [piecewiseLoop]
  | cons p ps ih =>
    obtain ⟨t, ht⟩ := h p (by simp)
    rw [piecewiseLoop, ht]
    simp only [PieceExpr.printFloat]
    rw [ih (fun q hq => h q (by simp [hq])) (i + 1) (by omega), if_neg hi]
    simp [PwPiece.chunk, ht, PieceExpr.text]

theorem piecewiseLoop_error (ps : List PwPiece) (h : ∃ p ∈ ps, ∃ t, p.expr = .formula t) (i : Nat)
    (res : List Str) : piecewiseLoop i res ps = .error .typeError := by
  induction ps generalizing i res with
  | nil => simp at h
  | cons p ps ih =>
    rw [piecewiseLoop]
    match hp : p.expr with
    | .formula t => simp [PieceExpr.printFloat]
    | .number t =>
      simp only [PieceExpr.printFloat]
      apply ih
      obtain ⟨q, hq, t', ht'⟩ := h
      rcases List.mem_cons.1 hq with rfl | hq
      · rw [hp] at ht'; cases ht'
      · exact ⟨q, hq, t', ht'⟩

/-- The text between the outer parentheses. -/
def piecesText : List PwPiece → PwPiece → Str
  | [], p => if p.cond = "True".toList then "(".toList ++ p.expr.text ++ ")".toList
      else "(".toList ++ p.expr.text ++ ")".toList ++ " if ".toList ++ p.cond ++ " else ".toList ++ "None".toList
  | q :: ps, p => "(".toList ++ q.expr.text ++ ")".toList ++ " if ".toList ++ q.cond ++ " else ".toList ++
      piecesText ps p

theorem flatten_chunks (ps : List PwPiece) (p : PwPiece) :
    (ps.flatMap PwPiece.chunk ++ (if p.cond = "True".toList then ["(".toList, p.expr.text, ")".toList]
      else ["(".toList, p.expr.text, ")".toList, " if ".toList, p.cond, " else None".toList])).flatten =
    piecesText ps p := by
  induction ps with
  | nil =>
    unfold piecesText
    split
    · simp
    · simp
  | cons q ps ih =>
    rw [List.flatMap_cons, List.append_assoc, List.flatten_append, ih, piecesText]
    simp [PwPiece.chunk]

theorem printPiecewise_ok (ps : List PwPiece) (p : PwPiece) (h : ∀ q ∈ ps ++ [p], ∃ t, q.expr = .number t) :
    printPiecewise (ps ++ [p]) = .ok ("(".toList ++ piecesText ps p ++ ")".toList) := by
  have hloop : piecewiseLoop 0 [] (ps ++ [p]) =
      .ok ("(".toList :: (ps.flatMap PwPiece.chunk ++ p.chunk)) := by
    match ps, h with
    | [], h =>
      obtain ⟨t, ht⟩ := h p (by simp)
      simp [piecewiseLoop, ht, PieceExpr.printFloat, PwPiece.chunk, PieceExpr.text]
    | q :: ps, h =>
      obtain ⟨t, ht⟩ := h q (by simp)
      rw [List.cons_append, piecewiseLoop, ht]
      simp only [PieceExpr.printFloat]
      rw [piecewiseLoop_ok (ps ++ [p]) (fun r hr => h r (by simp_all)) 1 (by omega)]
      simp [PwPiece.chunk, ht, PieceExpr.text]
  have hdrop : ("(".toList :: (ps.flatMap PwPiece.chunk ++ p.chunk)).dropLast =
      ("(".toList :: ps.flatMap PwPiece.chunk) ++
        ["(".toList, p.expr.text, ")".toList, " if ".toList] ++ [p.cond] := by
    have : "(".toList :: (ps.flatMap PwPiece.chunk ++ p.chunk) =
      (("(".toList :: ps.flatMap PwPiece.chunk) ++
        ["(".toList, p.expr.text, ")".toList, " if ".toList] ++ [p.cond]) ++ [" else ".toList] := by
      simp [PwPiece.chunk]
    rw [this, List.dropLast_concat]
  unfold printPiecewise
  rw [hloop]
  simp only
  rw [hdrop]
  simp only [List.getLast?_append, List.getLast?_singleton, Option.some_or]
  rw [← flatten_chunks]
  split
  · rw [List.dropLast_concat]
    have : ("(".toList :: ps.flatMap PwPiece.chunk) ++ ["(".toList, p.expr.text, ")".toList, " if ".toList] =
        ("(".toList :: ps.flatMap PwPiece.chunk) ++ ["(".toList, p.expr.text, ")".toList] ++ [" if ".toList] := by
      simp
    rw [this, List.dropLast_concat]
    simp
  · simp

open Classical in
theorem reads_pieces (num : Str → (σ → ℝ) → Prop) (cond : Str → (σ → Prop) → Prop)
    (htrue : ∀ C, cond "True".toList C → ∀ x, C x) (ps : List PwPiece) (p : PwPiece)
    (vs : List ((σ → ℝ) × (σ → Prop))) (v : (σ → ℝ) × (σ → Prop))
    (hps : List.Forall₂ (PieceOk num cond) ps vs) (hp : PieceOk num cond p v) :
    ∃ l, PyReads num cond l (piecesText ps p) fun x => .ok (firstPiece (vs ++ [v]) x) := by
  have atomOf : ∀ {q : PwPiece} {w}, PieceOk num cond q w →
      PyReads num cond true ("(".toList ++ q.expr.text ++ ")".toList) fun x => .ok (some (w.1 x)) := by
    rintro q w ⟨⟨t, ht, hn⟩, -⟩
    rw [ht]
    exact .paren (.num hn)
  induction hps with
  | nil =>
    unfold piecesText
    split
    · rename_i h
      refine ⟨true, ?_⟩
      have hv := htrue v.2 (h ▸ hp.cond)
      have := atomOf hp
      simpa [firstPiece, hv] using this
    · refine ⟨false, ?_⟩
      have := PyReads.ite (atomOf hp) hp.cond (PyReads.none (num := num) (cond := cond))
      convert this using 2 with x
      simp only [List.nil_append, firstPiece]
      split <;> rfl
  | cons hq _ ih =>
    rename_i q w qs ws _
    obtain ⟨l, hl⟩ := ih
    refine ⟨false, ?_⟩
    unfold piecesText
    have := PyReads.ite (atomOf hq) hq.cond hl
    convert this using 2 with x
    simp only [List.cons_append, firstPiece]
    split <;> rfl

theorem forall₂_concat {α β : Type} {R : α → β → Prop} {xs : List α} {x : α} {ys : List β}
    (h : List.Forall₂ R (xs ++ [x]) ys) : ∃ zs y, ys = zs ++ [y] ∧ List.Forall₂ R xs zs ∧ R x y := by
  induction xs generalizing ys with
  | nil =>
    match ys, h with
    | [y], .cons h .nil => exact ⟨[], y, rfl, .nil, h⟩
  | cons a xs ih =>
    match ys, h with
    | b :: ys, .cons hab h =>
      obtain ⟨zs, y, rfl, h1, h2⟩ := ih h
      exact ⟨b :: zs, y, rfl, .cons hab h1, h2⟩

/-- **C86 (`Piecewise`, `_partial`: pieces with numbers only).**  The text that is printed for a piecewise expression
whose pieces are numbers is read by python as the value of the first piece whose condition holds. -/
theorem C86_piecewise_partial (num : Str → (σ → ℝ) → Prop) (cond : Str → (σ → Prop) → Prop)
    (htrue : ∀ C, cond "True".toList C → ∀ x, C x)
    (ps : List PwPiece) (vs : List ((σ → ℝ) × (σ → Prop))) (hne : ps ≠ [])
    (h : List.Forall₂ (PieceOk num cond) ps vs) :
    ∃ text, printPiecewise ps = .ok text ∧
      PyReads num cond true text fun x => .ok (firstPiece vs x) := by
  obtain ⟨qs, p, rfl⟩ : ∃ qs p, ps = qs ++ [p] := ⟨ps.dropLast, ps.getLast hne, (List.dropLast_append_getLast hne).symm⟩
  obtain ⟨ws, v, rfl, hws, hp⟩ := forall₂_concat h
  refine ⟨_, printPiecewise_ok qs p ?_, ?_⟩
  · intro q hq
    obtain ⟨i, hi, rfl⟩ := List.getElem_of_mem hq
    have := h.get hi (by rw [← h.length_eq]; exact hi)
    obtain ⟨t, ht, -⟩ := this.expr
    exact ⟨t, by simpa using ht⟩
  · obtain ⟨l, hl⟩ := reads_pieces num cond htrue qs p ws v hws hp
    exact .paren hl

/-- C86 is false of pieces that are formulas: printing a piecewise expression raises exactly when a piece contains
a symbol, and then it raises `TypeError`. -/
theorem C86_piecewise_formula (ps : List PwPiece) (hne : ps ≠ []) :
    ((∃ p ∈ ps, ∃ t, p.expr = .formula t) → printPiecewise ps = .error .typeError) ∧
    ((∀ p ∈ ps, ∃ t, p.expr = .number t) → ∃ text, printPiecewise ps = .ok text) := by
  constructor
  · intro h
    unfold printPiecewise
    rw [piecewiseLoop_error ps h]
  · intro h
    obtain ⟨qs, p, rfl⟩ : ∃ qs p, ps = qs ++ [p] := ⟨ps.dropLast, ps.getLast hne, (List.dropLast_append_getLast hne).symm⟩
    exact ⟨_, printPiecewise_ok qs p h⟩

theorem intercalate_eq_joinStr (sep : Str) (xs : List Str) : sep.intercalate xs = joinStr sep xs := by
  induction xs with
  | nil => simp [joinStr]
  | cons x xs ih =>
    match xs with
    | [] => simp [joinStr]
    | y :: ys => rw [List.intercalate_cons_cons, ih]; simp [joinStr]

/-- **C86 (`Max`, `_partial`: two arguments).**  The text printed for `Max` of two expressions is read by python as
the larger one. -/
theorem C86_max_partial (num : Str → (σ → ℝ) → Prop) (cond : Str → (σ → Prop) → Prop)
    (s t : Str) (v w : σ → ℝ) (hs : num s v) (ht : num t w) :
    PyReads num cond true (printMax [s, t]) fun x => .ok (some (max (v x) (w x))) := by
  have h := PyReads.call (num := num) (cond := cond) (f := "numpy.maximum".toList) (F := npMaximum)
    (args := [(s, v), (t, w)]) (by simp [npCall]) (by simp [hs, ht])
  rw [intercalate_eq_joinStr] at h
  exact h

/-- C86 is false of `Max` of three or more expressions: the third one stands where numpy expects the array for the
result, and the call raises `TypeError`. -/
theorem C86_max_many (num : Str → (σ → ℝ) → Prop) (cond : Str → (σ → Prop) → Prop)
    (args : List (Str × (σ → ℝ))) (h : ∀ a ∈ args, num a.1 a.2) (h3 : 3 ≤ args.length) :
    PyReads num cond true (printMax (args.map (·.1))) fun _ => .error .typeError := by
  have hc := PyReads.call (num := num) (cond := cond) (f := "numpy.maximum".toList) (F := npMaximum)
    (args := args) (by simp [npCall]) h
  rw [intercalate_eq_joinStr] at hc
  have he : (fun x : σ => (npMaximum (args.map fun a => a.2 x)).map some) = fun _ => .error .typeError := by
    funext x
    match args, h3 with
    | a :: b :: c :: d, _ => rfl
  rw [he] at hc
  exact hc

/-- **C86 (`log`).** -/
theorem C86_log (num : Str → (σ → ℝ) → Prop) (cond : Str → (σ → Prop) → Prop) (s : Str) (v : σ → ℝ) (hs : num s v) :
    PyReads num cond true (printLog [s]) fun x => .ok (some (Real.log (v x))) := by
  have h := PyReads.call (num := num) (cond := cond) (f := "numpy.log".toList) (F := npLog)
    (args := [(s, v)]) (by simp [npCall]) (by simp [hs])
  rw [intercalate_eq_joinStr] at h
  exact h

/-- **C86 (`DiracDelta`).**  The text printed for `DiracDelta(x - a)`, which sympy writes for the second derivative of
`Max(x, a)` with respect to `x`, is read as that derivative at every point other than `a`. -/
theorem C86_dirac (num : Str → (ℝ → ℝ) → Prop) (cond : Str → (ℝ → Prop) → Prop)
    (h0 : num "0.0".toList fun _ => 0) (args : List Str) (a : ℝ) :
    ∃ v : ℝ → ℝ, PyReads num cond false (printDiracDelta args) (fun x => .ok (some (v x))) ∧
      ∀ x ≠ a, HasDerivAt (deriv fun z => max z a) (v x) x := by
  refine ⟨fun _ => 0, .num h0, fun x hx => ?_⟩
  rcases lt_or_gt_of_ne hx with hlt | hgt
  · have h1 : ∀ y < a, deriv (fun z => max z a) y = 0 := by
      intro y hy
      have : (fun z => max z a) =ᶠ[nhds y] fun _ => a := by
        filter_upwards [Iio_mem_nhds hy] with z hz
        exact max_eq_right (le_of_lt hz)
      rw [this.deriv_eq, deriv_const]
    refine (hasDerivAt_const x (0 : ℝ)).congr_of_eventuallyEq ?_
    filter_upwards [Iio_mem_nhds hlt] with z hz
    exact h1 z hz
  · have h1 : ∀ y, a < y → deriv (fun z => max z a) y = 1 := by
      intro y hy
      have : (fun z => max z a) =ᶠ[nhds y] fun z => z := by
        filter_upwards [Ioi_mem_nhds hy] with z hz
        exact max_eq_left (le_of_lt hz)
      rw [this.deriv_eq, deriv_id'']
    refine (hasDerivAt_const x (1 : ℝ)).congr_of_eventuallyEq ?_
    filter_upwards [Ioi_mem_nhds hgt] with z hz
    exact h1 z hz

/-- `Piecewise((1, x < 2), (3, True))` is printed as python's conditional expression. -/
example : printPiecewise [⟨.number "1.0".toList, "x < 2".toList⟩, ⟨.number "3.0".toList, "True".toList⟩] =
    .ok "((1.0) if x < 2 else (3.0))".toList := by decide

/-- Without a last piece for all other cases python's `None` is the value there. -/
example : printPiecewise [⟨.number "1.0".toList, "x < 2".toList⟩, ⟨.number "3.0".toList, "x > 4".toList⟩] =
    .ok "((1.0) if x < 2 else (3.0) if x > 4 else None)".toList := by decide

/-- `Piecewise((x, x > 0), (0, True))` is refused. -/
example : printPiecewise [⟨.formula "x".toList, "x > 0".toList⟩, ⟨.number "0".toList, "True".toList⟩] =
    .error .typeError := by decide

/-- `C86_piecewise_partial` applies to a state with one number `x`, with the texts read as they stand. -/
example : ∃ text, printPiecewise [⟨.number "1.0".toList, "x < 2".toList⟩, ⟨.number "3.0".toList, "True".toList⟩] =
      .ok text ∧
    PyReads (σ := ℝ) (fun s v => (s = "1.0".toList ∧ v = fun _ => 1) ∨ (s = "3.0".toList ∧ v = fun _ => 3))
      (fun s C => (s = "x < 2".toList ∧ C = fun x => x < 2) ∨ (s = "True".toList ∧ C = fun _ => True)) true text
      fun x => .ok (firstPiece [(fun _ => 1, fun x => x < 2), (fun _ => 3, fun _ => True)] x) :=
  C86_piecewise_partial _ _ (by rintro C (⟨h, -⟩ | ⟨-, rfl⟩) x <;> simp_all) _ _ (by simp)
    (.cons ⟨⟨_, rfl, .inl ⟨rfl, rfl⟩⟩, .inl ⟨rfl, rfl⟩⟩
      (.cons ⟨⟨_, rfl, .inr ⟨rfl, rfl⟩⟩, .inr ⟨rfl, rfl⟩⟩ .nil))

end Verif
