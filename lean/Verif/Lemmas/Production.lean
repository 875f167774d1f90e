import Verif.Lemmas.Template2
import Verif.Spec.Production

/-! The texts of the generated equations and how they are read. -/

namespace Verif

/-! ## Texts -/

theorem cobbDemand_text (f p s o op tfp : Str) :
    cobbDemand f p s o op tfp = f ++ (" = (".toList ++ (s ++ (") * ".toList ++ (o ++ (" * (".toList ++
      (op ++ (") / (".toList ++ (p ++ ")".toList)))))))) :=
  safeSubst_render _ [.ph "factor".toList, .lit " = (".toList, .ph "factor_share".toList,
    .lit ") * ".toList, .ph "output".toList, .lit " * (".toList, .ph "output_price".toList,
    .lit ") / (".toList, .ph "factor_price".toList, .lit ")".toList] rfl

theorem valueEquation_text (ps fs : List Str) (o op : Str) :
    valueEquation ps fs o op = o ++ (" * ".toList ++ (op ++ (" = ".toList ++
      (totalFactorValue ps fs ++ [])))) :=
  safeSubst_render _ [.ph "output".toList, .lit " * ".toList, .ph "output_price".toList,
    .lit " = ".toList, .ph "total_factor_value".toList] rfl

theorem cobbInner_text (f s : Str) :
    safeSubst "$factor ** ($factor_share)".toList [("factor".toList, f), ("factor_share".toList, s)] =
      f ++ (" ** (".toList ++ (s ++ ")".toList)) :=
  safeSubst_render _ [.ph "factor".toList, .lit " ** (".toList, .ph "factor_share".toList,
    .lit ")".toList] rfl

theorem cesInner_text (f s e : Str) :
    safeSubst "($factor_shares) * $factor ** (($epsilon - 1) / $epsilon)".toList
        [("factor".toList, f), ("factor_shares".toList, s), ("epsilon".toList, e)] =
      "(".toList ++ (s ++ (") * ".toList ++ (f ++ (" ** ((".toList ++ (e ++ (" - 1) / ".toList ++
        (e ++ ")".toList))))))) :=
  safeSubst_render _ [.lit "(".toList, .ph "factor_shares".toList, .lit ") * ".toList,
    .ph "factor".toList, .lit " ** ((".toList, .ph "epsilon".toList, .lit " - 1) / ".toList,
    .ph "epsilon".toList, .lit ")".toList] rfl

theorem cesDemand_text (f p s o op tfp e : Str) :
    cesDemand f p s o op tfp e = f ++ (" = ".toList ++ (o ++ (" / ".toList ++ (tfp ++ (" * ((".toList ++
      (s ++ (") * ".toList ++ (op ++ (" * ".toList ++ (tfp ++ (" / (".toList ++ (p ++
        (")) ** ".toList ++ (e ++ [])))))))))))))) :=
  safeSubst_render _ [.ph "factor".toList, .lit " = ".toList, .ph "output".toList, .lit " / ".toList,
    .ph "TFP".toList, .lit " * ((".toList, .ph "factor_share".toList, .lit ") * ".toList,
    .ph "output_price".toList, .lit " * ".toList, .ph "TFP".toList, .lit " / (".toList,
    .ph "factor_price".toList, .lit ")) ** ".toList, .ph "epsilon".toList] rfl

theorem cobbProduction_text (fs ss : List Str) (o tfp : Str)
    (h : '$' ∉ joinStr " * ".toList ((fs.zip ss).map fun x => x.1 ++ (" ** (".toList ++ (x.2 ++ ")".toList)))) :
    cobbProduction fs ss o tfp = o ++ (" = ".toList ++ (tfp ++ (" * ".toList ++
      joinStr " * ".toList ((fs.zip ss).map fun x => x.1 ++ (" ** (".toList ++ (x.2 ++ ")".toList)))))) := by
  unfold cobbProduction
  simp only [cobbInner_text]
  rw [safeSubst_append_plain _ _ _ rfl h]
  have : safeSubst "$output = $TFP * ".toList [("output".toList, o), ("TFP".toList, tfp)] =
      o ++ (" = ".toList ++ (tfp ++ " * ".toList)) :=
    safeSubst_render _ [.ph "output".toList, .lit " = ".toList, .ph "TFP".toList, .lit " * ".toList] rfl
  rw [this]
  simp only [List.append_assoc]

theorem cesProduction_text (fs ss : List Str) (o tfp e : Str) :
    cesProduction fs ss o tfp e = o ++ (" = ".toList ++ (tfp ++ (" * (".toList ++
      (joinStr " + ".toList ((fs.zip ss).map fun x => "(".toList ++ (x.2 ++ (") * ".toList ++ (x.1 ++
        (" ** ((".toList ++ (e ++ (" - 1) / ".toList ++ (e ++ ")".toList)))))))) ++
      (") ** (".toList ++ (e ++ (" / (".toList ++ (e ++ " - 1))".toList)))))))) := by
  unfold cesProduction
  simp only [cesInner_text]
  exact safeSubst_render _ [.ph "output".toList, .lit " = ".toList, .ph "TFP".toList, .lit " * (".toList,
    .ph "inner".toList, .lit ") ** (".toList, .ph "epsilon".toList, .lit " / (".toList,
    .ph "epsilon".toList, .lit " - 1))".toList] rfl

/-! ## Joined lists -/

theorem phrase_mulAll (l : List (Str × PExpr)) (s : Str) (a : PExpr) (hs : Phrase .term s a)
    (h : ∀ x ∈ l, Phrase .factor x.1 x.2) :
    Phrase .term (s ++ l.flatMap fun x => " * ".toList ++ x.1) (l.foldl (fun e x => .mul e x.2) a) := by
  induction l generalizing s a with
  | nil => simpa using hs
  | cons x l ih =>
    rw [List.flatMap_cons, ← List.append_assoc, ← List.append_assoc, List.foldl_cons]
    exact ih _ _ (hs.mul (h x List.mem_cons_self)) (fun y hy => h y (List.mem_cons_of_mem _ hy))

theorem phrase_addAll (l : List (Str × PExpr)) (s : Str) (a : PExpr) (hs : Phrase .sum s a)
    (h : ∀ x ∈ l, Phrase .term x.1 x.2) :
    Phrase .sum (s ++ l.flatMap fun x => " + ".toList ++ x.1) (l.foldl (fun e x => .add e x.2) a) := by
  induction l generalizing s a with
  | nil => simpa using hs
  | cons x l ih =>
    rw [List.flatMap_cons, ← List.append_assoc, ← List.append_assoc, List.foldl_cons]
    exact ih _ _ (hs.add (h x List.mem_cons_self)) (fun y hy => h y (List.mem_cons_of_mem _ hy))

/-- `" + ".join` of a non-empty list of terms. -/
theorem phrase_joinAdd (l : List (Str × PExpr)) (hne : l ≠ []) (h : ∀ x ∈ l, Phrase .term x.1 x.2) :
    ∃ e, Phrase .sum (joinStr " + ".toList (l.map Prod.fst)) e ∧
      ∀ (ι : Type) [Fintype ι] (env : Str → ι → ℝ) (i : ι),
        e.value env i = (l.map fun x => x.2.value env i).sum := by
  cases l with
  | nil => exact absurd rfl hne
  | cons x l =>
    refine ⟨l.foldl (fun e x => .add e x.2) x.2, ?_, ?_⟩
    · rw [List.map_cons, joinStr_cons, List.flatMap_map]
      exact phrase_addAll l _ _ (h x List.mem_cons_self).sum (fun y hy => h y (List.mem_cons_of_mem _ hy))
    · intro ι _ env i
      have key : ∀ (l : List (Str × PExpr)) (a : PExpr),
          (l.foldl (fun e x => PExpr.add e x.2) a).value env i =
            a.value env i + (l.map fun x => x.2.value env i).sum := by
        intro l
        induction l with
        | nil => intro a; simp
        | cons y l ih =>
          intro a
          rw [List.foldl_cons, ih, List.map_cons, List.sum_cons, PExpr.value, add_assoc]
      rw [key, List.map_cons, List.sum_cons]

theorem value_mulAll {ι : Type} [Fintype ι] (env : Str → ι → ℝ) (i : ι) (l : List (Str × PExpr)) (a : PExpr) :
    (l.foldl (fun e x => PExpr.mul e x.2) a).value env i =
      a.value env i * (l.map fun x => x.2.value env i).prod := by
  induction l generalizing a with
  | nil => simp
  | cons y l ih => rw [List.foldl_cons, ih, List.map_cons, List.prod_cons, PExpr.value, mul_assoc]

/-! ## Phrases of the generators -/

theorem one_value {ι : Type} [Fintype ι] (env : Str → ι → ℝ) (i : ι) :
    (PExpr.num "1".toList).value env i = 1 := numVal_one

theorem Phrase.noDollar {k : Kind} {s : Str} {e : PExpr} (h : Phrase k s e) : '$' ∉ s := by
  obtain ⟨ts, h1, -⟩ := h
  exact no_dollar_of_tokens s ts h1

/-- An atom serves wherever a larger phrase is expected. -/
theorem Phrase.f {s : Str} {e : PExpr} (h : Phrase .atom s e) : Phrase .factor s e := h.primary.power.factor

theorem Phrase.t {s : Str} {e : PExpr} (h : Phrase .atom s e) : Phrase .term s e := h.f.term

theorem Phrase.s {s : Str} {e : PExpr} (h : Phrase .atom s e) : Phrase .sum s e := h.t.sum

theorem phrase_cobbInner {f s : Str} {X a : PExpr} (hf : Phrase .atom f X) (hs : Phrase .sum s a) :
    Phrase .factor (f ++ (" ** (".toList ++ (s ++ ")".toList))) (.pow X a) := by
  have h := (hf.primary.pow hs.paren.f).factor
  have e : " ** (".toList = " ** ".toList ++ "(".toList := rfl
  rw [e]
  simpa only [List.append_assoc] using h

theorem phrase_epsMinus {e : Str} {E : PExpr} (he : Phrase .atom e E) :
    Phrase .atom ("(".toList ++ (e ++ " - 1)".toList)) (.sub E (.num "1".toList)) := by
  have h := (he.s.sub Phrase.one.t).paren
  have e1 : " - 1)".toList = " - ".toList ++ ("1".toList ++ ")".toList) := rfl
  rw [e1]
  simpa only [List.append_assoc] using h

theorem phrase_cesExp {e : Str} {E : PExpr} (he : Phrase .atom e E) :
    Phrase .atom ("((".toList ++ (e ++ (" - 1) / ".toList ++ (e ++ ")".toList))))
      (.div (.sub E (.num "1".toList)) E) := by
  have h := ((phrase_epsMinus he).t.div he.f).sum.paren
  have e1 : "((".toList = "(".toList ++ "(".toList := rfl
  have e2 : " - 1) / ".toList = " - 1)".toList ++ " / ".toList := rfl
  rw [e1, e2]
  simpa only [List.append_assoc] using h

theorem phrase_cesOuter {e : Str} {E : PExpr} (he : Phrase .atom e E) :
    Phrase .atom ("(".toList ++ (e ++ (" / (".toList ++ (e ++ " - 1))".toList))))
      (.div E (.sub E (.num "1".toList))) := by
  have h := (he.t.div (phrase_epsMinus he).f).sum.paren
  have e1 : " / (".toList = " / ".toList ++ "(".toList := rfl
  have e2 : " - 1))".toList = " - 1)".toList ++ ")".toList := rfl
  rw [e1, e2]
  simpa only [List.append_assoc] using h

theorem phrase_cesInner {f s e : Str} {X a E : PExpr} (hf : Phrase .atom f X) (hs : Phrase .sum s a)
    (he : Phrase .atom e E) :
    Phrase .term ("(".toList ++ (s ++ (") * ".toList ++ (f ++ (" ** ((".toList ++ (e ++ (" - 1) / ".toList ++
        (e ++ ")".toList))))))))
      (.mul a (.pow X (.div (.sub E (.num "1".toList)) E))) := by
  have h := hs.paren.t.mul (hf.primary.pow (phrase_cesExp he).f).factor
  have e1 : ") * ".toList = ")".toList ++ " * ".toList := rfl
  have e2 : " ** ((".toList = " ** ".toList ++ "((".toList := rfl
  rw [e1, e2]
  simpa only [List.append_assoc] using h

/-- In a template `$$` is an escaped dollar sign. -/
theorem safeSubst_escaped (s : Str) (d : Dict Str Str) :
    safeSubst ('$' :: '$' :: s) d = '$' :: safeSubst s d := by
  have : phStart '$' = false := by decide
  simp [safeSubst, substRun, substStep, this]

/-- A dollar sign that no name follows stays. -/
theorem safeSubst_bare (c : Char) (s : Str) (d : Dict Str Str) (h : phStart c = false) (hc : c ≠ '$') :
    safeSubst ('$' :: c :: s) d = '$' :: c :: safeSubst s d := by
  simp [safeSubst, substRun, substStep, h, hc]

end Verif
