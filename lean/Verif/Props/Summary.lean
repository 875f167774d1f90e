import Verif.Model.Summary
import Verif.Lemmas.Expand
import Verif.Props.NumbaCode
import Verif.Props.Plots

/-!
# C65: the summary table
-/

namespace Verif

/-! ## Dim markers in descriptions -/

/-- A piece of a description: plain text, or the marker of a dim. -/
inductive DescPiece where
  | plain (s : Str)
  | dim (d : Str)

/-- The text as the user writes it. -/
def descText : List DescPiece → Str
  | [] => []
  | .plain s :: l => s ++ descText l
  | .dim d :: l => "<dim:".toList ++ d ++ ">".toList ++ descText l

/-- The text as it should be shown. -/
def descShown : List DescPiece → Str
  | [] => []
  | .plain s :: l => s ++ descShown l
  | .dim d :: l => d ++ descShown l

/-- Plain text without `<`; dims with a name, in which there is neither `>` nor a line break. -/
def DescOk (l : List DescPiece) : Prop :=
  ∀ p ∈ l, match p with
    | .plain s => '<' ∉ s
    | .dim d => d ≠ [] ∧ '>' ∉ d ∧ '\n' ∉ d

theorem stripFlagsGo_skip (a s : Str) : stripFlagsGo a.length (a ++ s) = stripFlagsGo 0 s := by
  induction a with
  | nil => rfl
  | cons c a ih => simpa [stripFlagsGo] using ih

theorem matchDimFlag_plain (c : Char) (s : Str) (h : c ≠ '<') : matchDimFlag (c :: s) = none := by
  unfold matchDimFlag
  rw [if_neg]
  intro h'
  have : "<dim:".toList.isPrefixOf (c :: s) = ('<' == c && "dim:".toList.isPrefixOf s) := rfl
  rw [this, Bool.and_eq_true] at h'
  exact h (beq_iff_eq.1 h'.1).symm

theorem matchDimFlag_dim (d s : Str) (h : d ≠ []) (h1 : '>' ∉ d) (h2 : '\n' ∉ d) :
    matchDimFlag ("<dim:".toList ++ d ++ ">".toList ++ s) = some d := by
  cases d with
  | nil => exact absurd rfl h
  | cons c d =>
    have hp : ∀ x ∈ d, (x != '>' && x != '\n') = true := by
      intro x hx
      have a1 : x ≠ '>' := fun e => h1 (List.mem_cons_of_mem _ (e ▸ hx))
      have a2 : x ≠ '\n' := fun e => h2 (List.mem_cons_of_mem _ (e ▸ hx))
      simp [a1, a2]
    have hc : c ≠ '\n' := fun e => h2 (by rw [e]; exact List.mem_cons_self)
    have e1 : "<dim:".toList ++ (c :: d) ++ ">".toList ++ s = "<dim:".toList ++ (c :: (d ++ '>' :: s)) := by
      simp
    rw [e1]
    unfold matchDimFlag
    have e2 : "<dim:".toList.isPrefixOf ("<dim:".toList ++ (c :: (d ++ '>' :: s))) = true :=
      List.isPrefixOf_iff_prefix.2 (List.prefix_append _ _)
    have e3 : ("<dim:".toList ++ (c :: (d ++ '>' :: s))).drop 5 = c :: (d ++ '>' :: s) := rfl
    rw [if_pos e2, e3]
    dsimp only
    rw [if_neg hc, dropWhile_stop hp (by decide), takeWhile_stop hp (by decide)]
    rfl

theorem stripFlagsGo_plain (s r : Str) (h : '<' ∉ s) :
    stripFlagsGo 0 (s ++ r) = s ++ stripFlagsGo 0 r := by
  induction s with
  | nil => rfl
  | cons c s ih =>
    have hc : c ≠ '<' := fun e => h (by rw [e]; exact List.mem_cons_self)
    rw [List.cons_append, stripFlagsGo, matchDimFlag_plain c _ hc]
    dsimp only
    rw [ih (fun h' => h (by simp [h']))]
    rfl

/-- **C65**, descriptions: the markers are replaced by the names of their dims, the rest is unchanged. -/
theorem C65_descriptions (l : List DescPiece) (h : DescOk l) :
    stripFlags (descText l) = descShown l := by
  unfold stripFlags
  induction l with
  | nil => rfl
  | cons p l ih =>
    have ih' := ih fun q hq => h q (by simp [hq])
    have hp := h p (by simp)
    cases p with
    | plain s => rw [descText, descShown, stripFlagsGo_plain s _ hp, ih']
    | dim d =>
      obtain ⟨h0, h1, h2⟩ := hp
      rw [descText, descShown]
      have hm := matchDimFlag_dim d (descText l) h0 h1 h2
      have e : "<dim:".toList ++ d ++ ">".toList ++ descText l =
          '<' :: (("dim:".toList ++ d ++ ">".toList) ++ descText l) := by simp
      rw [e] at hm ⊢
      rw [stripFlagsGo, hm]
      dsimp only
      have hl : d.length + 5 = ("dim:".toList ++ d ++ ">".toList).length := by simp
      rw [hl, stripFlagsGo_skip, ih']

example : stripFlags "Demand of <dim:i> for <dim:j>".toList = "Demand of i for j".toList := by
  decide +kernel

/-! ## The table -/

theorem forall₂_at {α β : Type} {P : α → β → Prop} {l : List α} {r : List β}
    (h : List.Forall₂ P l r) (k : Nat) (a : α) (ha : l[k]? = some a) : ∃ b, r[k]? = some b ∧ P a b := by
  induction h generalizing k with
  | nil => simp at ha
  | cons hp _ ih =>
    cases k with
    | zero => exact ⟨_, rfl, by simp at ha; exact ha ▸ hp⟩
    | succ k => simpa using ih k (by simpa using ha)

/-- Column `c` holds, row by row, the initial and fitted values that the frame has under the names. -/
def ColumnOf {α : Type} (names : List Str) (frame : Dict Str (α × α)) (c : SummaryCol α) : Prop :=
  ∃ a b, c = .values a b ∧ a.length = names.length ∧ b.length = names.length ∧
    ∀ (k : Nat) n, names[k]? = some n → ∃ p, dget frame n = some p ∧ a[k]? = some p.1 ∧ b[k]? = some p.2

theorem addResults_spec {α : Type} (names : List Str) (rs : List (NamedResult α)) :
    ∀ info : Dict Str (SummaryCol α), (rs.map (·.name)).Nodup →
      (∀ r ∈ rs, r.name ∉ dkeys info) →
      (∀ r ∈ rs, ∀ n ∈ names, ∃ p, dget r.frame n = some p) →
      ∃ info', addResults names info rs = .ok info' ∧
        dkeys info' = dkeys info ++ rs.map (·.name) ∧
        (∀ k ∈ dkeys info, dget info' k = dget info k) ∧
        ∀ r ∈ rs, ∃ c, dget info' r.name = some c ∧ ColumnOf names r.frame c := by
  induction rs with
  | nil => intro info _ _ _; exact ⟨info, rfl, by simp, fun _ _ => rfl, by simp⟩
  | cons r rs ih =>
    intro info hnd hnew hfr
    obtain ⟨rows, hrows, hall⟩ := mapM_exists (locRow r.frame)
      (fun n p => dget r.frame n = some p) names (by
        intro n hn
        obtain ⟨p, hp⟩ := hfr r (by simp) n hn
        exact ⟨p, by simp [locRow, hp], hp⟩)
    rw [List.map_cons, List.nodup_cons] at hnd
    have hkeys : dkeys (dset info r.name (.values (rows.map (·.1)) (rows.map (·.2)))) =
        dkeys info ++ [r.name] := by
      rw [dset_of_not_mem _ _ _ (hnew r (by simp))]
      simp [dkeys]
    obtain ⟨info', h1, h2, h3, h4⟩ := ih (dset info r.name (.values (rows.map (·.1)) (rows.map (·.2))))
      hnd.2 (by
        intro r' hr' hm
        rw [hkeys, List.mem_append, List.mem_singleton] at hm
        rcases hm with hm | hm
        · exact hnew r' (by simp [hr']) hm
        · exact hnd.1 (hm ▸ List.mem_map_of_mem (f := fun x : NamedResult α => x.name) hr'))
      (fun r' hr' => hfr r' (by simp [hr']))
    refine ⟨info', ?_, ?_, ?_, ?_⟩
    · rw [addResults, hrows]; exact h1
    · rw [h2, hkeys]; simp
    · intro k hk
      rw [h3 k (by rw [hkeys]; simp [hk]), dget_dset_ne _ _ (show r.name ≠ k from fun e => hnew r (by simp) (e ▸ hk))]
    · intro r' hr'
      rcases List.mem_cons.1 hr' with rfl | hr'
      · refine ⟨.values (rows.map (·.1)) (rows.map (·.2)), ?_, _, _, rfl, ?_, ?_, ?_⟩
        · rw [h3 _ (by rw [hkeys]; simp), dget_dset_self _ _ _]
        · simp [hall.length_eq]
        · simp [hall.length_eq]
        · intro k n hn
          obtain ⟨p, hp, hpp⟩ := forall₂_at hall k n hn
          exact ⟨p, hpp, by simp [hp], by simp [hp]⟩
      · exact h4 r' hr'

/-- The object the summary shows for a name: the parameter of that name if there is one. -/
def itemOf (m : SummaryModel) (n : Str) : SummaryItem :=
  if (dget m.parDescr n).isSome then .parameterObj n else .variableObj n

/-- The description that belongs to it. -/
def describes (m : SummaryModel) (n d : Str) : Prop :=
  dget m.parDescr n = some d ∨ (dget m.parDescr n = none ∧ dget m.varDescr n = some d)

/-- **C65** (partial: results with different names, none called like the first two columns, and with a row
for every name asked for).  The table has a row per name asked for, in that order; the first two columns
hold the object and its description with dim markers replaced; every result has its column, which holds the
result's initial and fitted values of the names. -/
theorem C65_table_partial {α : Type} (m : SummaryModel) (arg : SummaryArg)
    (results : List (NamedResult α))
    (hknown : ∀ n ∈ summaryNames m arg, n ∈ dkeys m.varDescr ∨ n ∈ dkeys m.parDescr)
    (hnd : (results.map (·.name)).Nodup)
    (hcol : ∀ r ∈ results, r.name ≠ "Symbol".toList ∧ r.name ≠ "Description".toList)
    (hrows : ∀ r ∈ results, ∀ n ∈ summaryNames m arg, ∃ p, dget r.frame n = some p) :
    ∃ info descr, summary m arg results = .ok info ∧
      dkeys info = ["Symbol".toList, "Description".toList] ++ results.map (·.name) ∧
      dget info "Symbol".toList = some (.symbols ((summaryNames m arg).map (itemOf m))) ∧
      dget info "Description".toList = some (.descriptions (descr.map stripFlags)) ∧
      List.Forall₂ (describes m) (summaryNames m arg) descr ∧
      ∀ r ∈ results, ∃ c, dget info r.name = some c ∧ ColumnOf (summaryNames m arg) r.frame c := by
  obtain ⟨rows, h1, h2⟩ := mapM_exists (summaryRow m)
    (fun n q => q.1 = itemOf m n ∧ describes m n q.2) (summaryNames m arg) (by
      intro n hn
      unfold summaryRow itemOf describes
      cases hp : dget m.parDescr n with
      | some d => exact ⟨_, rfl, by simp⟩
      | none =>
        cases hv : dget m.varDescr n with
        | some d => exact ⟨_, rfl, by simp⟩
        | none =>
          exfalso
          rcases hknown n hn with h | h
          · obtain ⟨v, h⟩ := (mem_dkeys_iff _ _).1 h
            rw [hv] at h; cases h
          · obtain ⟨v, h⟩ := (mem_dkeys_iff _ _).1 h
            rw [hp] at h; cases h)
  have hne : "Symbol".toList ≠ "Description".toList := by decide +kernel
  generalize hS : "Symbol".toList = S at *
  generalize hD : "Description".toList = D at *
  obtain ⟨info, h3, h4, h5, h6⟩ := addResults_spec (summaryNames m arg) results
    [(S, .symbols (rows.map (·.1))), (D, .descriptions (rows.map fun r => stripFlags r.2))]
    hnd (by
      intro r hr hm
      simp only [dkeys, List.map_cons, List.map_nil, List.mem_cons, List.not_mem_nil, or_false] at hm
      exact hm.elim (hcol r hr).1 (hcol r hr).2) hrows
  refine ⟨info, rows.map (·.2), ?_, ?_, ?_, ?_, ?_, h6⟩
  · unfold summary
    rw [h1, hS, hD]
    exact h3
  · rw [h4]; rfl
  · rw [h5 S (by simp [dkeys])]
    have : rows.map (·.1) = (summaryNames m arg).map (itemOf m) := by
      clear h1 h3 h4 h5 h6 hrows hknown
      generalize summaryNames m arg = names at h2
      induction h2 with
      | nil => rfl
      | cons hp _ ih => simp [hp.1, ih]
    simp [dget, this]
  · rw [h5 D (by simp [dkeys])]
    simp [dget, hne, List.map_map, Function.comp_def]
  · rw [List.forall₂_map_right_iff]
    exact h2.imp fun _ _ h => h.2

/-- A model with two variables and a parameter. -/
def exSummaryModel : SummaryModel :=
  ⟨[("Y".toList, "Output of <dim:i>".toList), ("P".toList, "Price".toList)],
   [("alpha".toList, "Share".toList)]⟩

example : summary exSummaryModel (.text "all".toList)
    [⟨"base".toList, [("alpha".toList, ((1 : Int), (1 : Int))), ("P".toList, (2, 3)), ("Y".toList, (4, 5))]⟩] =
    .ok [("Symbol".toList, .symbols [.variableObj "Y".toList, .variableObj "P".toList,
          .parameterObj "alpha".toList]),
      ("Description".toList, .descriptions ["Output of i".toList, "Price".toList, "Share".toList]),
      ("base".toList, .values [4, 2, 1] [5, 3, 1])] := by
  decide +kernel

/-- A name that is neither variable nor parameter is refused. -/
theorem C65_unknown_raises {α : Type} (m : SummaryModel) (l : List Str) (results : List (NamedResult α))
    (n : Str) (hn : n ∈ l) (h1 : n ∉ dkeys m.varDescr) (h2 : n ∉ dkeys m.parDescr) :
    ∃ e, summary m (.names l) results = .error e := by
  have hrow : summaryRow m n = .error .valueError := by
    unfold summaryRow
    rw [(dget_eq_none_iff _ _).2 h2, (dget_eq_none_iff _ _).2 h1]
  have : ∃ e, l.mapM (summaryRow m) = .error e := by
    induction l with
    | nil => simp at hn
    | cons a l ih =>
      rw [List.mapM_cons]
      rcases List.mem_cons.1 hn with rfl | hn
      · rw [hrow]; exact ⟨_, rfl⟩
      · obtain ⟨e, he⟩ := ih hn
        cases summaryRow m a with
        | error e' => exact ⟨e', rfl⟩
        | ok b => rw [he]; exact ⟨e, rfl⟩
  obtain ⟨e, he⟩ := this
  exact ⟨e, by unfold summary summaryNames; rw [he]⟩

/-- **C65, counterexample.** Two results with the same name, as two calls of `calibrate` with the default
name give them: the first one's values are not in the table at all. -/
theorem C65_same_name_counterexample {α : Type} (a a' b b' : α) :
    summary exSummaryModel (.names ["P".toList])
      [⟨"initial_calibration".toList, [("P".toList, (a, b))]⟩,
       ⟨"initial_calibration".toList, [("P".toList, (a', b'))]⟩] =
    .ok [("Symbol".toList, .symbols [.variableObj "P".toList]),
      ("Description".toList, .descriptions ["Price".toList]),
      ("initial_calibration".toList, .values [a'] [b'])] := by
  rfl

/-- **C65, counterexample.** A result lists scalars; for a variable with dims, whose scalars have other
names, a table with results cannot be made. -/
theorem C65_dims_counterexample {α : Type} (m : SummaryModel) (l : List Str) (r : NamedResult α)
    (rs : List (NamedResult α)) (n : Str) (hn : n ∈ l) (h : n ∉ dkeys r.frame) :
    ∃ e, summary m (.names l) (r :: rs) = .error e := by
  have hrow : locRow r.frame n = .error .keyError := by
    unfold locRow
    rw [(dget_eq_none_iff _ _).2 h]
  have : ∃ e, l.mapM (locRow r.frame) = .error e := by
    induction l with
    | nil => simp at hn
    | cons a l ih =>
      rw [List.mapM_cons]
      rcases List.mem_cons.1 hn with rfl | hn
      · rw [hrow]; exact ⟨_, rfl⟩
      · obtain ⟨e, he⟩ := ih hn
        cases locRow r.frame a with
        | error e' => exact ⟨e', rfl⟩
        | ok b => rw [he]; exact ⟨e, rfl⟩
  obtain ⟨e, he⟩ := this
  unfold summary
  cases (summaryNames m (.names l)).mapM (summaryRow m) with
  | error e' => exact ⟨e', rfl⟩
  | ok rows =>
    dsimp only
    refine ⟨e, ?_⟩
    rw [addResults]
    simp only [summaryNames, he]

end Verif
