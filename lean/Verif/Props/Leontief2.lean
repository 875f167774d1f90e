import Verif.Lemmas.ArrayText

/-!
# C69: Leontief production with two dimensions

`leontief(…, dims=[i, j], …)` is documented to describe a matrix `X` of inputs (first dimension: inputs, second
dimension: outputs), the zero-profit condition `Y_j P_j = Σ_i P_i X_ij` and the demands
`X_ij = φ_ij Y_j`.
-/

namespace Verif

open scoped BigOperators

/-- The arguments are names. -/
structure Names2 (F p Y PY φ i j : Str) : Prop where
  hF : isIdent F = true
  hp : isIdent p = true
  hY : isIdent Y = true
  hPY : isIdent PY = true
  hφ : isIdent φ = true
  hi : isIdent i = true
  hj : isIdent j = true
  ne : i ≠ j

/-! ## Texts -/

def zpNumba (F p Y PY i j : Str) (n : Nat) (b : Bool) : Str :=
  (if b then swapaxesStr Y i j else Y) ++ (" = Sum(".toList ++ (p ++ (" * ".toList ++ (F ++ (", (".toList ++
    (i ++ (", 0, ".toList ++ (decStr (n - 1) ++ (")) / ".toList ++
      (if b then swapaxesStr PY i j else PY))))))))))

def zpPytensor (F p Y PY : Str) (axis : Nat) (b : Bool) : Str :=
  Y ++ (" = (".toList ++ (p ++ ((if b then "[:, None]".toList else []) ++ (" * ".toList ++ (F ++
    (").sum(axis=".toList ++ (decStr axis ++ (").ravel() / (".toList ++ (PY ++ ")".toList)))))))))

theorem leontief_numba (F p Y PY φ i j : Str) (coords : Dict Str (List Str))
    (li lj : List Str) (hi : dget coords i = some li) (hj : dget coords j = some lj) (b1 b2 : Bool) :
    leontief (.str F) (.str p) Y PY (.str φ) (.list [i, j]) coords (some i) b1 b2 .numba =
      .ok [zpNumba F p Y PY i j li.length b2, F ++ (" = ".toList ++ (φ ++ (" * ".toList ++ Y)))] := by
  have h1 : [i, j].idxOf i = 0 := by simp
  unfold leontief
  rw [show checkLengths (.str F) (.str p) (.str φ) = .ok () from rfl]
  simp only [StrArg.atLeastList, StrArg.single, List.length_cons, List.length_nil]
  unfold leontief2d
  simp only [List.mem_cons, true_or, if_true, h1, List.eraseIdx_zero, List.tail_cons,
    List.getElem?_cons_zero, hi, hj]
  unfold zpNumba
  simp only [List.append_assoc]
  rfl

theorem leontief_pytensor (F p Y PY φ i j : Str) (coords : Dict Str (List Str)) (sd : Option Str)
    (d : Str) (hsd : sd.getD j = d) (hd : d ∈ [i, j]) (b1 b2 : Bool) :
    leontief (.str F) (.str p) Y PY (.str φ) (.list [i, j]) coords sd b1 b2 .pytensor =
      .ok [zpPytensor F p Y PY ([i, j].idxOf d) b1,
        F ++ (" = ".toList ++ (φ ++ (" * ".toList ++ (Y ++ "[None]".toList))))] := by
  unfold leontief
  rw [show checkLengths (.str F) (.str p) (.str φ) = .ok () from rfl]
  simp only [StrArg.atLeastList, StrArg.single, List.length_cons, List.length_nil]
  unfold leontief2d
  unfold zpPytensor
  cases sd with
  | none =>
    rw [Option.getD_none] at hsd
    subst hsd
    simp only [hd, if_true, List.getLast?_cons_cons, List.getLast?_singleton, List.append_assoc]
    rfl
  | some d' =>
    rw [Option.getD_some] at hsd
    subst hsd
    simp only [hd, if_true, List.append_assoc]
    rfl

theorem read_demand (F φ Y : Str) (hF : isIdent F = true) (hφ : isIdent φ = true) (hY : isIdent Y = true) :
    readArrEq (F ++ (" = ".toList ++ (φ ++ (" * ".toList ++ Y)))) =
      some (.var F, .mul (.var φ) (.var Y)) := by
  have h1 : tokens (" * ".toList ++ Y) = some ([.star] ++ _) := tk_lit rfl (tokens_ident Y hY)
  have h2 := tk_name hφ h1 rfl
  have h3 : tokens (" = ".toList ++ _) = some ([.eq] ++ _) := tk_lit rfl h2
  have h4 := tk_name hF h3 rfl
  unfold readArrEq
  rw [h4]
  rfl

theorem read_demand_row (F φ Y : Str) (hF : isIdent F = true) (hφ : isIdent φ = true)
    (hY : isIdent Y = true) :
    readArrEq (F ++ (" = ".toList ++ (φ ++ (" * ".toList ++ (Y ++ "[None]".toList))))) =
      some (.var F, .mul (.var φ) (.post (.var Y) .newAxis0)) := by
  have h0 : tokens (Y ++ "[None]".toList) = some (.name Y :: [.lbrack, .name "None".toList, .rbrack]) :=
    tk_name hY rfl rfl
  have h1 : tokens (" * ".toList ++ _) = some ([.star] ++ _) := tk_lit rfl h0
  have h2 := tk_name hφ h1 rfl
  have h3 : tokens (" = ".toList ++ _) = some ([.eq] ++ _) := tk_lit rfl h2
  have h4 := tk_name hF h3 rfl
  unfold readArrEq
  rw [h4]
  rfl

theorem read_zpNumba {F p Y PY φ i j : Str} (h : Names2 F p Y PY φ i j) (n : Nat) (b : Bool) :
    readArrEq (zpNumba F p Y PY i j n b) =
      some (if b then .post (.var Y) (.subs i j) else .var Y,
        .div (.sumOver (.mul (.var p) (.var F)) i "0".toList (decStr (n - 1)))
          (if b then .post (.var PY) (.subs i j) else .var PY)) := by
  unfold zpNumba
  have mid : ∀ (e : Str) (us : List Token), tokens e = some us →
      tokens (" = Sum(".toList ++ (p ++ (" * ".toList ++ (F ++ (", (".toList ++
        (i ++ (", 0, ".toList ++ (decStr (n - 1) ++ (")) / ".toList ++ e))))))))) =
      some (.eq :: .name "Sum".toList :: .lpar :: .name p :: .star :: .name F :: .comma :: .lpar ::
        .name i :: .comma :: .num "0".toList :: .comma :: .num (decStr (n - 1)) :: .rpar :: .rpar ::
          .slash :: us) := by
    intro e us he
    have h1 : tokens (")) / ".toList ++ e) = some ([.rpar, .rpar, .slash] ++ us) := tk_lit rfl he
    have h2 := tk_num (n - 1) h1 rfl
    have h3 : tokens (", 0, ".toList ++ _) = some ([.comma, .num "0".toList, .comma] ++ _) := tk_lit rfl h2
    have h4 := tk_name h.hi h3 rfl
    have h5 : tokens (", (".toList ++ _) = some ([.comma, .lpar] ++ _) := tk_lit rfl h4
    have h6 := tk_name h.hF h5 rfl
    have h7 : tokens (" * ".toList ++ _) = some ([.star] ++ _) := tk_lit rfl h6
    have h8 := tk_name h.hp h7 rfl
    exact tk_lit (l := " = Sum(".toList) (ts := [.eq, .name "Sum".toList, .lpar]) rfl h8
  cases b with
  | false =>
    have h1 := tk_name h.hY (mid _ _ (tokens_ident PY h.hPY)) rfl
    simp only [Bool.false_eq_true, if_false]
    unfold readArrEq
    rw [h1]
    rfl
  | true =>
    have h0 := tk_subs h.hPY h.hi h.hj tk_nil
    rw [List.append_nil] at h0
    have h1 := tk_subs h.hY h.hi h.hj (mid _ _ h0)
    simp only [if_true]
    unfold readArrEq
    rw [h1]
    rfl

theorem read_zpPytensor {F p Y PY φ i j : Str} (h : Names2 F p Y PY φ i j) (a : Nat) (b : Bool) :
    readArrEq (zpPytensor F p Y PY a b) =
      some (.var Y, .div (.post (.post (.mul (if b then .post (.var p) .newAxis1 else .var p) (.var F))
        (.sumAxis (decStr a))) (.call "ravel".toList)) (.var PY)) := by
  unfold zpPytensor
  have h1 := tk_name h.hPY (b := ")".toList) (us := [.rpar]) rfl rfl
  have h2 : tokens (").ravel() / (".toList ++ _) = some ([.rpar, .dot, .name "ravel".toList, .lpar, .rpar,
    .slash, .lpar] ++ _) := tk_lit rfl h1
  have h3 := tk_num a h2 rfl
  have h4 : tokens (").sum(axis=".toList ++ _) = some ([.rpar, .dot, .name "sum".toList, .lpar,
    .name "axis".toList, .eq] ++ _) := tk_lit rfl h3
  have h5 := tk_name h.hF h4 rfl
  have h6 : tokens (" * ".toList ++ _) = some ([.star] ++ _) := tk_lit rfl h5
  cases b with
  | false =>
    have h7 := tk_name h.hp h6 rfl
    have h8 : tokens (" = (".toList ++ _) = some ([.eq, .lpar] ++ _) := tk_lit rfl h7
    have h9 := tk_name h.hY h8 rfl
    simp only [Bool.false_eq_true, if_false, List.nil_append]
    unfold readArrEq
    rw [h9]
    rfl
  | true =>
    have h6' : tokens ("[:, None]".toList ++ _) = some ([.lbrack, .colon, .comma, .name "None".toList,
      .rbrack] ++ _) := tk_lit rfl h6
    have h7 := tk_name h.hp h6' rfl
    have h8 : tokens (" = (".toList ++ _) = some ([.eq, .lpar] ++ _) := tk_lit rfl h7
    have h9 := tk_name h.hY h8 rfl
    simp only [if_true]
    unfold readArrEq
    rw [h9]
    rfl

/-! ## Values -/

theorem sym_sum (dims : Str → List Str) (arr : Str → List Nat → ℝ) (p F i : Str) (n : Nat) (hn : n ≠ 0)
    (idx : Str → Nat) :
    (AExpr.sumOver (.mul (.var p) (.var F)) i "0".toList (decStr (n - 1))).sym dims arr idx =
      some (∑ k ∈ Finset.range n, arr p ((dims p).map (Function.update idx i k)) *
        arr F ((dims F).map (Function.update idx i k))) := by
  have h0 : digitsVal "0".toList = 0 := by decide
  have h1 : n - 1 + 1 - 0 = n := by omega
  simp only [AExpr.sym, digitsVal_decStr, h0, h1, Nat.zero_add, mapM_some_eq, Option.map_some]
  rw [sum_list_range]

/-- Index values with two of them given. -/
def idx2 (i j : Str) (s t : Nat) : Str → Nat := Function.update (Function.update (fun _ => 0) i s) j t

theorem idx2_i {i j : Str} (h : i ≠ j) (s t : Nat) : idx2 i j s t i = s := by
  unfold idx2; rw [Function.update_of_ne h, Function.update_self]

theorem idx2_j (i j : Str) (s t : Nat) : idx2 i j s t j = t := by
  unfold idx2; rw [Function.update_self]

/-- An equation both sides of which have a value depending on the two indices only. -/
theorem symHolds_iff {dims : Str → List Str} {arr : Str → List Nat → ℝ} {i j : Str} {n m : Nat} {s : Str}
    {l r : AExpr} (h : readArrEq s = some (l, r)) (hij : i ≠ j) (L R : Nat → Nat → ℝ)
    (hl : ∀ idx : Str → Nat, l.sym dims arr idx = some (L (idx i) (idx j)))
    (hr : ∀ idx : Str → Nat, r.sym dims arr idx = some (R (idx i) (idx j))) :
    SymHolds dims arr i j n m s ↔ ∀ a < n, ∀ b < m, L a b = R a b := by
  constructor
  · rintro ⟨l', r', h1, h2⟩ a ha b hb
    rw [h] at h1
    cases h1
    obtain ⟨v, g1, g2⟩ := h2 (idx2 i j a b) (by rw [idx2_i hij]; exact ha) (by rw [idx2_j]; exact hb)
    rw [hl, idx2_i hij, idx2_j] at g1
    rw [hr, idx2_i hij, idx2_j] at g2
    exact (Option.some.inj g1).trans (Option.some.inj g2).symm
  · intro h'
    refine ⟨l, r, h, fun idx ha hb => ⟨_, hl idx, ?_⟩⟩
    rw [hr, h' _ ha _ hb]

/-- The price of input `s` in the production of `t`: a vector over the inputs, or a matrix. -/
def priceAt (vec : Bool) (P : List Nat → ℝ) (s t : Nat) : ℝ := if vec then P [s] else P [s, t]

/-- **C69**, numba backend, inputs summed over the first dimension (`sum_dim=dims[0]`), outputs declared
over the second: the two equations are zero profit and the demands. -/
theorem C69_numba_partial {F p Y PY φ i j : Str} (h : Names2 F p Y PY φ i j)
    (coords : Dict Str (List Str)) (li lj : List Str) (hi : dget coords i = some li)
    (hj : dget coords j = some lj) (hne : li ≠ []) (expand transpose vec : Bool)
    (dims : Str → List Str) (arr : Str → List Nat → ℝ)
    (dF : dims F = [i, j]) (dφ : dims φ = [i, j]) (dp : dims p = if vec then [i] else [i, j])
    (dY : dims Y = [j]) (dPY : dims PY = [j]) (hPY : ∀ t < lj.length, arr PY [t] ≠ 0) :
    ∃ zp dem,
      leontief (.str F) (.str p) Y PY (.str φ) (.list [i, j]) coords (some i) expand transpose .numba =
        .ok [zp, dem] ∧
      (SymHolds dims arr i j li.length lj.length zp ↔
        ZeroProfit2 li.length lj.length (priceAt vec (arr p)) (fun s t => arr F [s, t])
          (fun t => arr Y [t]) (fun t => arr PY [t])) ∧
      (SymHolds dims arr i j li.length lj.length dem ↔
        LeontiefDemand2 li.length lj.length (fun s t => arr φ [s, t]) (fun s t => arr F [s, t])
          (fun t => arr Y [t])) := by
  have hn : li.length ≠ 0 := by simpa using hne
  refine ⟨_, _, leontief_numba F p Y PY φ i j coords li lj hi hj expand transpose, ?_, ?_⟩
  · rw [symHolds_iff (read_zpNumba h li.length transpose) h.ne (fun _ t => arr Y [t])
      (fun _ t => (∑ s ∈ Finset.range li.length, priceAt vec (arr p) s t * arr F [s, t]) / arr PY [t])
      ?_ ?_]
    · unfold ZeroProfit2
      constructor
      · intro g t ht
        have := g 0 (by omega) t ht
        dsimp only at this ⊢
        rw [this, div_mul_cancel₀ _ (hPY t ht)]
      · intro g _ _ t ht
        have := g t ht
        dsimp only at this ⊢
        rw [← this, mul_div_cancel_right₀ _ (hPY t ht)]
    · intro idx
      cases transpose <;> simp [AExpr.sym, dY, Function.update_of_ne (Ne.symm h.ne)]
    · intro idx
      have hs := sym_sum dims arr p F i li.length hn idx
      have e : (∑ k ∈ Finset.range li.length, arr p ((dims p).map (Function.update idx i k)) *
          arr F ((dims F).map (Function.update idx i k))) =
          ∑ s ∈ Finset.range li.length, priceAt vec (arr p) s (idx j) * arr F [s, idx j] := by
        apply Finset.sum_congr rfl
        intro k _
        cases vec <;> simp [dp, dF, priceAt, Function.update_of_ne (Ne.symm h.ne)]
      rw [AExpr.sym, hs, e]
      cases transpose <;> simp [AExpr.sym, dPY, Function.update_of_ne (Ne.symm h.ne)]
  · rw [symHolds_iff (read_demand F φ Y h.hF h.hφ h.hY) h.ne (fun s t => arr F [s, t])
      (fun s t => arr φ [s, t] * arr Y [t]) ?_ ?_]
    · rfl
    · intro idx; simp [AExpr.sym, dF]
    · intro idx; simp [AExpr.sym, dφ, dY]

/-- **C69**, outputs declared over the *first* dimension and `transpose_output`: the first equation is zero
profit for the outputs, but the second has the output of the input's index. -/
theorem C69_numba_first_dim {F p Y PY φ i j : Str} (h : Names2 F p Y PY φ i j)
    (coords : Dict Str (List Str)) (li lj : List Str) (hi : dget coords i = some li)
    (hj : dget coords j = some lj) (hne : li ≠ []) (expand vec : Bool)
    (dims : Str → List Str) (arr : Str → List Nat → ℝ)
    (dF : dims F = [i, j]) (dφ : dims φ = [i, j]) (dp : dims p = if vec then [i] else [i, j])
    (dY : dims Y = [i]) (dPY : dims PY = [i]) (hPY : ∀ t < lj.length, arr PY [t] ≠ 0) :
    ∃ zp dem,
      leontief (.str F) (.str p) Y PY (.str φ) (.list [i, j]) coords (some i) expand true .numba =
        .ok [zp, dem] ∧
      (SymHolds dims arr i j li.length lj.length zp ↔
        ZeroProfit2 li.length lj.length (priceAt vec (arr p)) (fun s t => arr F [s, t])
          (fun t => arr Y [t]) (fun t => arr PY [t])) ∧
      (SymHolds dims arr i j li.length lj.length dem ↔
        ∀ s < li.length, ∀ t < lj.length, arr F [s, t] = arr φ [s, t] * arr Y [s]) := by
  have hn : li.length ≠ 0 := by simpa using hne
  refine ⟨_, _, leontief_numba F p Y PY φ i j coords li lj hi hj expand true, ?_, ?_⟩
  · rw [symHolds_iff (read_zpNumba h li.length true) h.ne (fun _ t => arr Y [t])
      (fun _ t => (∑ s ∈ Finset.range li.length, priceAt vec (arr p) s t * arr F [s, t]) / arr PY [t])
      ?_ ?_]
    · unfold ZeroProfit2
      constructor
      · intro g t ht
        have := g 0 (by omega) t ht
        dsimp only at this ⊢
        rw [this, div_mul_cancel₀ _ (hPY t ht)]
      · intro g _ _ t ht
        have := g t ht
        dsimp only at this ⊢
        rw [← this, mul_div_cancel_right₀ _ (hPY t ht)]
    · intro idx
      simp [AExpr.sym, dY]
    · intro idx
      have hs := sym_sum dims arr p F i li.length hn idx
      have e : (∑ k ∈ Finset.range li.length, arr p ((dims p).map (Function.update idx i k)) *
          arr F ((dims F).map (Function.update idx i k))) =
          ∑ s ∈ Finset.range li.length, priceAt vec (arr p) s (idx j) * arr F [s, idx j] := by
        apply Finset.sum_congr rfl
        intro k _
        cases vec <;> simp [dp, dF, priceAt, Function.update_of_ne (Ne.symm h.ne)]
      rw [AExpr.sym, hs, e]
      simp [AExpr.sym, dPY]
  · rw [symHolds_iff (read_demand F φ Y h.hF h.hφ h.hY) h.ne (fun s t => arr F [s, t])
      (fun s t => arr φ [s, t] * arr Y [s]) ?_ ?_]
    · intro idx; simp [AExpr.sym, dF]
    · intro idx; simp [AExpr.sym, dφ, dY]

/-! ## Arrays -/

/-- An equation between two arrays of the same shape. -/
theorem arrHolds_vec {env : Str → Arr} {s : Str} {l r : AExpr} (h : readArrEq s = some (l, r)) (m : Nat)
    (g k : List Nat → ℝ) (hl : l.arr env = some ⟨[m], g⟩) (hr : r.arr env = some ⟨[m], k⟩) :
    ArrHolds env s ↔ ∀ t < m, g [t] = k [t] := by
  obtain ⟨d, hd, hv⟩ := Arr.op_vec (· - ·) m g k
  constructor
  · rintro ⟨l', r', a, b, d', h1, h2, h3, h4, h5⟩ t ht
    rw [h] at h1; cases h1
    rw [hl] at h2; cases h2
    rw [hr] at h3; cases h3
    rw [hd] at h4; cases h4
    have := h5 [t] (.cons ht .nil)
    dsimp only at this
    rw [hv t ht] at this
    exact sub_eq_zero.1 this
  · intro h'
    refine ⟨l, r, _, _, _, h, hl, hr, hd, ?_⟩
    rw [forall₂_one]
    intro t ht
    dsimp only
    rw [hv t ht]
    exact sub_eq_zero.2 (h' t ht)

theorem arrHolds_mat {env : Str → Arr} {s : Str} {l r : AExpr} (h : readArrEq s = some (l, r)) (n m : Nat)
    (g k : List Nat → ℝ) (hl : l.arr env = some ⟨[n, m], g⟩) (hr : r.arr env = some ⟨[n, m], k⟩) :
    ArrHolds env s ↔ ∀ u < n, ∀ t < m, g [u, t] = k [u, t] := by
  obtain ⟨d, hd, hv⟩ := Arr.op_mat (· - ·) n m g k
  constructor
  · rintro ⟨l', r', a, b, d', h1, h2, h3, h4, h5⟩ u hu t ht
    rw [h] at h1; cases h1
    rw [hl] at h2; cases h2
    rw [hr] at h3; cases h3
    rw [hd] at h4; cases h4
    have := h5 [u, t] (.cons hu (.cons ht .nil))
    dsimp only at this
    rw [hv u hu t ht] at this
    exact sub_eq_zero.1 this
  · intro h'
    refine ⟨l, r, _, _, _, h, hl, hr, hd, ?_⟩
    rw [forall₂_two]
    intro u hu t ht
    dsimp only
    rw [hv u hu t ht]
    exact sub_eq_zero.2 (h' u hu t ht)

theorem arr_eta {a : Arr} {s : List Nat} (h : a.shape = s) : a = ⟨s, a.get⟩ := by
  cases a; cases h; rfl

/-- **C69**, pytensor backend, inputs summed over the first dimension.  `expand_price_dim` says that the
prices are a vector over the inputs (rather than a matrix). -/
theorem C69_pytensor_partial {F p Y PY φ i j : Str} (h : Names2 F p Y PY φ i j)
    (coords : Dict Str (List Str)) (n m : Nat) (expand transpose : Bool) (env : Str → Arr)
    (sF : (env F).shape = [n, m]) (sφ : (env φ).shape = [n, m])
    (sp : (env p).shape = if expand then [n] else [n, m])
    (sY : (env Y).shape = [m]) (sPY : (env PY).shape = [m]) (hPY : ∀ t < m, (env PY).get [t] ≠ 0) :
    ∃ zp dem,
      leontief (.str F) (.str p) Y PY (.str φ) (.list [i, j]) coords (some i) expand transpose .pytensor =
        .ok [zp, dem] ∧
      (ArrHolds env zp ↔
        ZeroProfit2 n m (priceAt expand (env p).get) (fun s t => (env F).get [s, t])
          (fun t => (env Y).get [t]) (fun t => (env PY).get [t])) ∧
      (ArrHolds env dem ↔
        LeontiefDemand2 n m (fun s t => (env φ).get [s, t]) (fun s t => (env F).get [s, t])
          (fun t => (env Y).get [t])) := by
  refine ⟨_, _, leontief_pytensor F p Y PY φ i j coords (some i) i rfl (by simp) expand transpose, ?_, ?_⟩
  · have h0 : [i, j].idxOf i = 0 := by simp
    rw [h0]
    obtain ⟨k, hk, hv⟩ : ∃ k, (AExpr.mul (if expand then .post (.var p) .newAxis1 else .var p)
        (.var F)).arr env = some ⟨[n, m], k⟩ ∧
        ∀ s < n, ∀ t < m, k [s, t] = priceAt expand (env p).get s t * (env F).get [s, t] := by
      cases expand with
      | true =>
        obtain ⟨k, hk, hv⟩ := Arr.op_col (· * ·) n m (fun idx => (env p).get (idx.headD 0 :: idx.drop 2))
          (env F).get
        refine ⟨k, ?_, ?_⟩
        · rw [if_pos rfl] at sp
          simp only [if_true, AExpr.arr, Arr.newAxis1, sp]
          rw [← hk, ← arr_eta sF]
        · intro s hs t ht
          rw [hv s hs t ht]
          simp [priceAt]
      | false =>
        obtain ⟨k, hk, hv⟩ := Arr.op_mat (· * ·) n m (env p).get (env F).get
        refine ⟨k, ?_, ?_⟩
        · simp only [Bool.false_eq_true, if_false] at sp ⊢
          simp only [AExpr.arr]
          rw [← hk, ← arr_eta sF, ← arr_eta sp]
        · intro s hs t ht
          rw [hv s hs t ht]
          simp [priceAt]
    obtain ⟨k', hk', hv'⟩ := Arr.op_vec (· / ·) m
      (fun idx => ∑ s ∈ Finset.range n, k [s, idx.headD 0]) (env PY).get
    rw [arrHolds_vec (read_zpPytensor h 0 expand) m (env Y).get k' (by rw [AExpr.arr, ← arr_eta sY]) ?_]
    · unfold ZeroProfit2
      have e : ∀ t < m, k' [t] = (∑ s ∈ Finset.range n, priceAt expand (env p).get s t *
          (env F).get [s, t]) / (env PY).get [t] := by
        intro t ht
        rw [hv' t ht]
        congr 1
        apply Finset.sum_congr rfl
        intro s hs
        exact hv s (Finset.mem_range.1 hs) t ht
      constructor
      · intro g t ht
        dsimp only
        rw [g t ht, e t ht, div_mul_cancel₀ _ (hPY t ht)]
      · intro g t ht
        have := g t ht
        dsimp only at this
        rw [e t ht, ← this, mul_div_cancel_right₀ _ (hPY t ht)]
    · simp only [AExpr.arr] at hk ⊢
      rw [hk]
      simp only [digitsVal_decStr, Arr.sumAxis_zero, if_true, Arr.ravel_vec]
      rw [← hk', ← arr_eta sPY]
  · obtain ⟨k, hk, hv⟩ := Arr.op_row (· * ·) n m (env φ).get (fun idx => (env Y).get idx.tail)
    rw [arrHolds_mat (read_demand_row F φ Y h.hF h.hφ h.hY) n m (env F).get k
      (by rw [AExpr.arr, ← arr_eta sF]) ?_]
    · unfold LeontiefDemand2
      constructor
      · intro g s hs t ht
        dsimp only
        rw [g s hs t ht, hv s hs t ht]
        rfl
      · intro g s hs t ht
        rw [hv s hs t ht]
        exact g s hs t ht
    · simp only [AExpr.arr, Arr.newAxis0, sY]
      rw [← hk, ← arr_eta sφ]

/-- **C69**: the equations of the two backends hold for the same economies. -/
theorem C69_backends_agree {F p Y PY φ i j : Str} (h : Names2 F p Y PY φ i j)
    (coords : Dict Str (List Str)) (li lj : List Str) (hi : dget coords i = some li)
    (hj : dget coords j = some lj) (hne : li ≠ []) (expand transpose : Bool)
    (dims : Str → List Str) (env : Str → Arr)
    (dF : dims F = [i, j]) (dφ : dims φ = [i, j]) (dp : dims p = if expand then [i] else [i, j])
    (dY : dims Y = [j]) (dPY : dims PY = [j])
    (sF : (env F).shape = [li.length, lj.length]) (sφ : (env φ).shape = [li.length, lj.length])
    (sp : (env p).shape = if expand then [li.length] else [li.length, lj.length])
    (sY : (env Y).shape = [lj.length]) (sPY : (env PY).shape = [lj.length])
    (hPY : ∀ t < lj.length, (env PY).get [t] ≠ 0) :
    ∃ eqs eqs',
      leontief (.str F) (.str p) Y PY (.str φ) (.list [i, j]) coords (some i) expand transpose .numba =
        .ok eqs ∧
      leontief (.str F) (.str p) Y PY (.str φ) (.list [i, j]) coords (some i) expand transpose .pytensor =
        .ok eqs' ∧
      List.Forall₂ (fun e e' => SymHolds dims (fun x => (env x).get) i j li.length lj.length e ↔
        ArrHolds env e') eqs eqs' := by
  obtain ⟨zp, dem, h1, h2, h3⟩ := C69_numba_partial h coords li lj hi hj hne expand transpose expand dims
    (fun x => (env x).get) dF dφ dp dY dPY hPY
  obtain ⟨zp', dem', h1', h2', h3'⟩ := C69_pytensor_partial h coords li.length lj.length
    expand transpose env sF sφ sp sY sPY hPY
  exact ⟨_, _, h1, h1', .cons (h2.trans h2'.symm) (.cons (h3.trans h3'.symm) .nil)⟩

/-! ## Where the code and the documentation differ -/

/-- Two sectors: `X = φ = [[1, 2], [3, 4]]`, all outputs and input prices one, output prices 4 and 6. -/
noncomputable def ex2Env (x : Str) : Arr :=
  if x = "X".toList ∨ x = "phi".toList then ⟨[2, 2], fun l => 1 + 2 * l.headD 0 + l.getLastD 0⟩
  else if x = "PY".toList then ⟨[2], fun l => 4 + 2 * l.headD 0⟩
  else ⟨[2], fun _ => 1⟩

def ex2Dims (x : Str) : List Str :=
  if x = "X".toList ∨ x = "phi".toList then ["i".toList, "j".toList]
  else if x = "P".toList then ["i".toList]
  else ["j".toList]

def ex2Coords : Dict Str (List Str) :=
  [("i".toList, ["a".toList, "b".toList]), ("j".toList, ["a".toList, "b".toList])]

theorem ex2_env : ex2Env "X".toList = ⟨[2, 2], fun l => 1 + 2 * l.headD 0 + l.getLastD 0⟩ ∧
    ex2Env "phi".toList = ⟨[2, 2], fun l => 1 + 2 * l.headD 0 + l.getLastD 0⟩ ∧
    ex2Env "PY".toList = ⟨[2], fun l => 4 + 2 * l.headD 0⟩ ∧
    ex2Env "P".toList = ⟨[2], fun _ => 1⟩ ∧ ex2Env "Y".toList = ⟨[2], fun _ => 1⟩ := by
  unfold ex2Env
  refine ⟨?_, ?_, ?_, ?_, ?_⟩
  · rw [if_pos (by decide)]
  · rw [if_pos (by decide)]
  · rw [if_neg (by decide), if_pos (by decide)]
  · rw [if_neg (by decide), if_neg (by decide)]
  · rw [if_neg (by decide), if_neg (by decide)]

theorem ex2_names : Names2 "X".toList "P".toList "Y".toList "PY".toList "phi".toList "i".toList "j".toList where
  hF := rfl
  hp := rfl
  hY := rfl
  hPY := rfl
  hφ := rfl
  hi := rfl
  hj := rfl
  ne := by decide

/-- The economy satisfies the documented equations. -/
theorem ex2_documented :
    ZeroProfit2 2 2 (priceAt true (ex2Env "P".toList).get) (fun s t => (ex2Env "X".toList).get [s, t])
      (fun t => (ex2Env "Y".toList).get [t]) (fun t => (ex2Env "PY".toList).get [t]) ∧
    LeontiefDemand2 2 2 (fun s t => (ex2Env "phi".toList).get [s, t])
      (fun s t => (ex2Env "X".toList).get [s, t]) (fun t => (ex2Env "Y".toList).get [t]) := by
  obtain ⟨h1, h2, h3, h4, h5⟩ := ex2_env
  constructor
  · intro t ht
    rw [h1, h3, h4, h5]
    have : t = 0 ∨ t = 1 := by omega
    rcases this with rfl | rfl <;> simp [priceAt, Finset.sum_range_succ] <;> norm_num
  · intro s hs t ht
    rw [h1, h2, h5]
    simp

/-- The hypotheses of the theorems above are met, and the equations hold. -/
example : ∃ zp dem,
    leontief (.str "X".toList) (.str "P".toList) "Y".toList "PY".toList (.str "phi".toList)
      (.list ["i".toList, "j".toList]) ex2Coords (some "i".toList) true true .pytensor = .ok [zp, dem] ∧
    ArrHolds ex2Env zp ∧ ArrHolds ex2Env dem := by
  obtain ⟨h1, h2, h3, h4, h5⟩ := ex2_env
  obtain ⟨zp, dem, g1, g2, g3⟩ := C69_pytensor_partial ex2_names ex2Coords 2 2 true true ex2Env
    (by rw [h1]) (by rw [h2]) (by rw [h4]; rfl) (by rw [h5]) (by rw [h3])
    (by intro t _; rw [h3]; dsimp only; positivity)
  exact ⟨zp, dem, g1, g2.2 ex2_documented.1, g3.2 ex2_documented.2⟩

example : ∃ zp dem,
    leontief (.str "X".toList) (.str "P".toList) "Y".toList "PY".toList (.str "phi".toList)
      (.list ["i".toList, "j".toList]) ex2Coords (some "i".toList) true true .numba = .ok [zp, dem] ∧
    SymHolds ex2Dims (fun x => (ex2Env x).get) "i".toList "j".toList 2 2 zp ∧
    SymHolds ex2Dims (fun x => (ex2Env x).get) "i".toList "j".toList 2 2 dem := by
  obtain ⟨h1, h2, h3, h4, h5⟩ := ex2_env
  obtain ⟨zp, dem, g1, g2, g3⟩ := C69_numba_partial ex2_names ex2Coords ["a".toList, "b".toList]
    ["a".toList, "b".toList] rfl rfl (by simp) true true true ex2Dims (fun x => (ex2Env x).get)
    rfl rfl rfl rfl rfl (by intro t _; rw [h3]; dsimp only; positivity)
  exact ⟨zp, dem, g1, g2.2 ex2_documented.1, g3.2 ex2_documented.2⟩

/-- Without `sum_dim` the *last* dimension is summed: for an economy that satisfies the documented
equations, the zero-profit equations of both backends fail. -/
theorem C69_default_counterexample : ∃ zp dem zp' dem',
    leontief (.str "X".toList) (.str "P".toList) "Y".toList "PY".toList (.str "phi".toList)
      (.list ["i".toList, "j".toList]) ex2Coords none true true .numba = .ok [zp, dem] ∧
    ¬ SymHolds ex2Dims (fun x => (ex2Env x).get) "i".toList "j".toList 2 2 zp ∧
    leontief (.str "X".toList) (.str "P".toList) "Y".toList "PY".toList (.str "phi".toList)
      (.list ["i".toList, "j".toList]) ex2Coords none true true .pytensor = .ok [zp', dem'] ∧
    ¬ ArrHolds ex2Env zp' := by
  obtain ⟨h1, h2, h3, h4, h5⟩ := ex2_env
  refine ⟨"Y.subs({j:i}) = Sum(P * X, (j, 0, 1)) / PY.subs({j:i})".toList, "X = phi * Y".toList,
    "Y = (P[:, None] * X).sum(axis=1).ravel() / (PY)".toList, "X = phi * Y[None]".toList,
    by decide +kernel, ?_, by decide +kernel, ?_⟩
  · rintro ⟨l, r, g1, g2⟩
    have e : readArrEq "Y.subs({j:i}) = Sum(P * X, (j, 0, 1)) / PY.subs({j:i})".toList =
      some (.post (.var "Y".toList) (.subs "j".toList "i".toList),
        .div (.sumOver (.mul (.var "P".toList) (.var "X".toList)) "j".toList "0".toList "1".toList)
          (.post (.var "PY".toList) (.subs "j".toList "i".toList))) := by decide +kernel
    rw [e] at g1
    cases g1
    obtain ⟨v, g3, g4⟩ := g2 (fun _ => 0) (by norm_num) (by norm_num)
    have d1 : ex2Dims "Y".toList = ["j".toList] := rfl
    have d2 : ex2Dims "PY".toList = ["j".toList] := rfl
    have d3 : ex2Dims "P".toList = ["i".toList] := rfl
    have d4 : ex2Dims "X".toList = ["i".toList, "j".toList] := rfl
    have hr : List.range (digitsVal "1".toList + 1 - 0) = [0, 1] := by decide
    have h0 : digitsVal "0".toList = 0 := by decide
    have hij : "i".toList ≠ "j".toList := by decide
    simp only [AExpr.sym, d1, h5, Option.some.injEq] at g3
    subst g3
    simp only [AExpr.sym, h0, hr, d2, d3, d4, h1, h3, h4, mapM_some_eq] at g4
    generalize "i".toList = i at *
    generalize "j".toList = j at *
    simp [Function.update_of_ne hij] at g4
    norm_num at g4
  · rintro ⟨l, r, a, b, d, g1, g2, g3, g4, g5⟩
    have e : readArrEq "Y = (P[:, None] * X).sum(axis=1).ravel() / (PY)".toList =
      some (.var "Y".toList, .div (.post (.post (.mul (.post (.var "P".toList) .newAxis1) (.var "X".toList))
        (.sumAxis "1".toList)) (.call "ravel".toList)) (.var "PY".toList)) := by decide +kernel
    rw [e] at g1
    cases g1
    have hd : digitsVal "1".toList = 1 := by decide
    simp only [AExpr.arr, h1, h3, h4, h5, hd] at g2 g3
    simp [Arr.newAxis1, Arr.op, Arr.broadcastRev, Arr.sumAxis, Arr.ravel] at g2 g3
    subst g2 g3
    simp [Arr.op, Arr.broadcastRev] at g4
    subst g4
    have := g5 [0] (.cons (by norm_num) .nil)
    simp [Arr.bget, Arr.unravel, Finset.sum_range_succ] at this
    norm_num at this

/-- One sector, one input: every name is one, except `q = 2` and `t = 1/2`. -/
noncomputable def ex1Env (sh : Str → List Nat) (x : Str) : Arr :=
  ⟨sh x, fun _ => if x = "q".toList then 2 else if x = "t".toList then 1 / 2 else 1⟩

def ex1Coords : Dict Str (List Str) := [("i".toList, ["a".toList]), ("j".toList, ["b".toList])]

/-- The numba equation does not put the output price in parentheses: with the price `q * t` (say, net of
a tax) the total is divided by `q` and then multiplied by `t`.  The pytensor equation of the same call is
right. -/
theorem C69_output_price_counterexample :
    let env := ex1Env fun x => if x = "X".toList ∨ x = "phi".toList then [1, 1] else [1]
    let dims : Str → List Str := fun x =>
      if x = "X".toList ∨ x = "phi".toList then ["i".toList, "j".toList]
      else if x = "P".toList then ["i".toList] else ["j".toList]
    ZeroProfit2 1 1 (priceAt true (env "P".toList).get) (fun s t => (env "X".toList).get [s, t])
      (fun t => (env "Y".toList).get [t])
      (fun t => (env "q".toList).get [t] * (env "t".toList).get [t]) ∧
    ∃ zp dem zp' dem',
      leontief (.str "X".toList) (.str "P".toList) "Y".toList "q * t".toList (.str "phi".toList)
        (.list ["i".toList, "j".toList]) ex1Coords (some "i".toList) true false .numba = .ok [zp, dem] ∧
      ¬ SymHolds dims (fun x => (env x).get) "i".toList "j".toList 1 1 zp ∧
      leontief (.str "X".toList) (.str "P".toList) "Y".toList "q * t".toList (.str "phi".toList)
        (.list ["i".toList, "j".toList]) ex1Coords (some "i".toList) true false .pytensor = .ok [zp', dem'] ∧
      ArrHolds env zp' := by
  intro env dims
  have hv : ∀ x l, (env x).get l = if x = "q".toList then 2 else if x = "t".toList then 1 / 2 else 1 :=
    fun _ _ => rfl
  have v1 : ∀ l, (env "P".toList).get l = 1 := fun _ => by
    rw [hv, if_neg (by decide), if_neg (by decide)]
  have v2 : ∀ l, (env "X".toList).get l = 1 := fun _ => by
    rw [hv, if_neg (by decide), if_neg (by decide)]
  have v3 : ∀ l, (env "Y".toList).get l = 1 := fun _ => by
    rw [hv, if_neg (by decide), if_neg (by decide)]
  have v4 : ∀ l, (env "q".toList).get l = 2 := fun _ => by
    rw [hv, if_pos (by decide)]
  have v5 : ∀ l, (env "t".toList).get l = 1 / 2 := fun _ => by
    rw [hv, if_neg (by decide), if_pos (by decide)]
  refine ⟨?_, "Y = Sum(P * X, (i, 0, 0)) / q * t".toList, "X = phi * Y".toList,
    "Y = (P[:, None] * X).sum(axis=0).ravel() / (q * t)".toList, "X = phi * Y[None]".toList,
    by decide +kernel, ?_, by decide +kernel, ?_⟩
  · intro t ht
    simp only [priceAt, v1, v2, v3, v4, v5, if_true]
    norm_num
  · rintro ⟨l, r, g1, g2⟩
    have e : readArrEq "Y = Sum(P * X, (i, 0, 0)) / q * t".toList =
      some (.var "Y".toList,
        .mul (.div (.sumOver (.mul (.var "P".toList) (.var "X".toList)) "i".toList "0".toList "0".toList)
          (.var "q".toList)) (.var "t".toList)) := by decide +kernel
    rw [e] at g1
    cases g1
    obtain ⟨v, g3, g4⟩ := g2 (fun _ => 0) (by norm_num) (by norm_num)
    have h0 : digitsVal "0".toList = 0 := by decide
    simp only [AExpr.sym, v3, Option.some.injEq] at g3
    subst g3
    simp only [AExpr.sym, h0, v1, v2, v4, v5, mapM_some_eq] at g4
    simp at g4
    norm_num at g4
  · have e : readArrEq "Y = (P[:, None] * X).sum(axis=0).ravel() / (q * t)".toList =
      some (.var "Y".toList, .div (.post (.post (.mul (.post (.var "P".toList) .newAxis1) (.var "X".toList))
        (.sumAxis "0".toList)) (.call "ravel".toList)) (.mul (.var "q".toList) (.var "t".toList))) := by
      decide +kernel
    have hd : digitsVal "0".toList = 0 := by decide
    have s1 : env "P".toList = ⟨[1], fun _ => 1⟩ := by rw [← funext v1]; rfl
    have s2 : env "X".toList = ⟨[1, 1], fun _ => 1⟩ := by rw [← funext v2]; rfl
    have s3 : env "Y".toList = ⟨[1], fun _ => 1⟩ := by rw [← funext v3]; rfl
    have s4 : env "q".toList = ⟨[1], fun _ => 2⟩ := by rw [← funext v4]; rfl
    have s5 : env "t".toList = ⟨[1], fun _ => 1 / 2⟩ := by rw [← funext v5]; rfl
    rw [arrHolds_vec e 1 (fun _ => 1) (fun _ => 1) (by rw [AExpr.arr, s3]) ?_]
    · intro _ _; rfl
    · simp only [AExpr.arr, s1, s2, s4, s5, hd]
      simp [Arr.newAxis1, Arr.op, Arr.broadcastRev, Arr.sumAxis, Arr.ravel, Arr.bget]

/-- The slice `[:, None]` binds tighter than a product: with the input price `q * t` the pytensor equation
multiplies every `q` with every `t`.  Two inputs, two outputs; all numbers one except the vector `q`,
which is 1 for the first input and 2 for the second, and the price of the outputs, 3. -/
theorem C69_input_price_counterexample :
    ∃ env : Str → Arr,
      (env "q".toList).shape = [2] ∧ (env "t".toList).shape = [2] ∧
      ZeroProfit2 2 2 (fun s _ => (env "q".toList).get [s] * (env "t".toList).get [s])
        (fun s t => (env "X".toList).get [s, t]) (fun t => (env "Y".toList).get [t])
        (fun t => (env "PY".toList).get [t]) ∧
      ∃ zp dem,
        leontief (.str "X".toList) (.str "q * t".toList) "Y".toList "PY".toList (.str "phi".toList)
          (.list ["i".toList, "j".toList]) ex2Coords (some "i".toList) true true .pytensor = .ok [zp, dem] ∧
        ¬ ArrHolds env zp := by
  obtain ⟨env, henv⟩ : ∃ env : Str → Arr, env = fun x =>
      if x = "X".toList then ⟨[2, 2], fun _ => 1⟩
      else if x = "PY".toList then ⟨[2], fun _ => 3⟩
      else if x = "q".toList then ⟨[2], fun l => 1 + l.headD 0⟩
      else ⟨[2], fun _ => 1⟩ := ⟨_, rfl⟩
  have s1 : env "X".toList = ⟨[2, 2], fun _ => 1⟩ := by rw [henv]; dsimp only; rw [if_pos (by decide)]
  have s2 : env "PY".toList = ⟨[2], fun _ => 3⟩ := by
    rw [henv]; dsimp only; rw [if_neg (by decide), if_pos (by decide)]
  have s3 : env "q".toList = ⟨[2], fun l => 1 + l.headD 0⟩ := by
    rw [henv]; dsimp only; rw [if_neg (by decide), if_neg (by decide), if_pos (by decide)]
  have s4 : env "t".toList = ⟨[2], fun _ => 1⟩ := by
    rw [henv]; dsimp only; rw [if_neg (by decide), if_neg (by decide), if_neg (by decide)]
  have s5 : env "Y".toList = ⟨[2], fun _ => 1⟩ := by
    rw [henv]; dsimp only; rw [if_neg (by decide), if_neg (by decide), if_neg (by decide)]
  refine ⟨env, by rw [s3], by rw [s4], ?_, "Y = (q * t[:, None] * X).sum(axis=0).ravel() / (PY)".toList,
    "X = phi * Y[None]".toList, by decide +kernel, ?_⟩
  · intro t ht
    simp only [s1, s2, s3, s4, s5]
    simp [Finset.sum_range_succ]
    norm_num
  · rintro ⟨l, r, a, b, d, g1, g2, g3, g4, g5⟩
    have e : readArrEq "Y = (q * t[:, None] * X).sum(axis=0).ravel() / (PY)".toList =
      some (.var "Y".toList, .div (.post (.post (.mul (.mul (.var "q".toList)
        (.post (.var "t".toList) .newAxis1)) (.var "X".toList))
        (.sumAxis "0".toList)) (.call "ravel".toList)) (.var "PY".toList)) := by decide +kernel
    rw [e] at g1
    cases g1
    have hd : digitsVal "0".toList = 0 := by decide
    simp only [AExpr.arr, s1, s2, s3, s4, s5, hd] at g2 g3
    simp [Arr.newAxis1, Arr.op, Arr.broadcastRev, Arr.sumAxis, Arr.ravel] at g2 g3
    subst g2 g3
    simp [Arr.op, Arr.broadcastRev] at g4
    subst g4
    have := g5 [0] (.cons (by norm_num) .nil)
    simp [Arr.bget, Arr.unravel] at this
    norm_num at this

/-- **C69**: a dimension to sum over that is not one of the two is a `ValueError`; with the numba backend a
dimension without labels is a `KeyError`. -/
theorem C69_bad_dims (F p Y PY φ i j : Str) (coords : Dict Str (List Str)) (d : Str) (b1 b2 : Bool) :
    (d ∉ [i, j] → ∀ bk, leontief (.str F) (.str p) Y PY (.str φ) (.list [i, j]) coords (some d) b1 b2 bk =
      .error .valueError) ∧
    (i ∉ dkeys coords ∨ j ∉ dkeys coords → i ≠ j → d ∈ [i, j] →
      leontief (.str F) (.str p) Y PY (.str φ) (.list [i, j]) coords (some d) b1 b2 .numba =
        .error .keyError) := by
  have e : ∀ bk, leontief (.str F) (.str p) Y PY (.str φ) (.list [i, j]) coords (some d) b1 b2 bk =
      leontief2d F p Y PY φ [i, j] coords (some d) b1 b2 bk := fun _ => rfl
  constructor
  · intro hd bk
    rw [e]
    unfold leontief2d
    dsimp only
    rw [if_neg hd]
  · intro hk hne hd
    rw [e]
    unfold leontief2d
    dsimp only
    rw [if_pos hd]
    have hcase : (d = i ∧ ([i, j].eraseIdx ([i, j].idxOf d))[0]? = some j) ∨
        (d = j ∧ ([i, j].eraseIdx ([i, j].idxOf d))[0]? = some i) := by
      simp only [List.mem_cons, List.not_mem_nil, or_false] at hd
      rcases hd with rfl | rfl
      · left; simp
      · right
        have : [i, d].idxOf d = 1 := by simp [hne]
        rw [this]
        exact ⟨rfl, rfl⟩
    have main : ∀ core : Str, (core ∉ dkeys coords ∨ d ∉ dkeys coords) →
        ([i, j].eraseIdx ([i, j].idxOf d))[0]? = some core →
        (match (([i, j].eraseIdx ([i, j].idxOf d))[0]? : Option Str) with
          | none => (.error .indexError : Res (List Str))
          | some core =>
              match dget coords core with
              | none => .error .keyError
              | some _ =>
                  match dget coords d with
                  | none => .error .keyError
                  | some batchLabels =>
                      .ok [(if b2 then swapaxesStr Y d core else Y) ++ " = Sum(".toList ++ p ++ " * ".toList ++
                            F ++ ", (".toList ++ d ++ ", 0, ".toList ++ decStr (batchLabels.length - 1) ++
                            ")) / ".toList ++ (if b2 then swapaxesStr PY d core else PY),
                           F ++ " = ".toList ++ φ ++ " * ".toList ++ Y]) = .error .keyError := by
      intro core hcd hcore
      rw [hcore]
      dsimp only
      rcases hcd with h | h
      · rw [(dget_eq_none_iff _ _).2 h]
      · cases dget coords core with
        | none => rfl
        | some _ => dsimp only; rw [(dget_eq_none_iff _ _).2 h]
    rcases hcase with ⟨rfl, hc⟩ | ⟨rfl, hc⟩
    · exact main _ hk.symm hc
    · exact main _ hk hc

end Verif
