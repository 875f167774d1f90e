import Verif.Props.ReorderModels
import Verif.Lemmas.ArrayModel

/-!
# C83: sums and products may be written in any of the usual ways

The equations are those of cge_modeling/base/cge.py:71-200, the sums and products those that
cge_modeling/tools/sympy_tools.py:substitute_reduce_ops writes out.
-/

namespace Verif

/-- Two expressions of which the one comes from the other by the rules for sums and products: limits in another order,
a sum of sums joined into one, a sum of two terms split, a product of two factors split, a factor without the summation
index taken out. -/
inductive SumRules : RExpr → RExpr → Prop
  | refl (e : RExpr) : SumRules e e
  | symm {a b : RExpr} : SumRules a b → SumRules b a
  | trans {a b c : RExpr} : SumRules a b → SumRules b c → SumRules a c
  | add {a a' b b' : RExpr} : SumRules a a' → SumRules b b' → SumRules (.add a b) (.add a' b')
  | mul {a a' b b' : RExpr} : SumRules a a' → SumRules b b' → SumRules (.mul a b) (.mul a' b')
  | pow {a a' b b' : RExpr} : SumRules a a' → SumRules b b' → SumRules (.pow a b) (.pow a' b')
  | log {a a' : RExpr} : SumRules a a' → SumRules (.log a) (.log a')
  | exp {a a' : RExpr} : SumRules a a' → SumRules (.exp a) (.exp a')
  | red {a a' : RExpr} (op : RedOp) (lims : List Lim) : SumRules a a' → SumRules (.red op a lims) (.red op a' lims)
  | limits (op : RedOp) (a : RExpr) {lims lims₂ : List Lim} : lims₂.Perm lims → (lims.map Lim.i).Nodup →
      SumRules (.red op a lims) (.red op a lims₂)
  | joined (op : RedOp) (a : RExpr) (lims lims₂ : List Lim) :
      SumRules (.red op (.red op a lims) lims₂) (.red op a (lims ++ lims₂))
  | sum_add (a b : RExpr) (lims : List Lim) :
      SumRules (.red .sum (.add a b) lims) (.add (.red .sum a lims) (.red .sum b lims))
  | prod_mul (a b : RExpr) (lims : List Lim) :
      SumRules (.red .prod (.mul a b) lims) (.mul (.red .prod a lims) (.red .prod b lims))
  | factor (c a : RExpr) (lims : List Lim) : RedFree c → (∀ v ∈ c.indexeds, ∀ l ∈ lims, SIdx.idx l.i ∉ v.2) →
      (∀ l ∈ lims, l.lo < l.stop) → SumRules (.red .sum (.mul c a) lims) (.mul c (.red .sum a lims))

theorem setEnv_comm (η : Str → SIdx) {i j : Str} (h : i ≠ j) (s t : SIdx) :
    setEnv (setEnv η i s) j t = setEnv (setEnv η j t) i s := by
  funext k
  simp only [setEnv]
  split <;> split <;> simp_all

theorem overLims_add (vals : Lim → List SIdx) (lims : List Lim) (F G : (Str → SIdx) → ℝ) (η : Str → SIdx) :
    overLims vals .sum lims (fun η => F η + G η) η = overLims vals .sum lims F η + overLims vals .sum lims G η := by
  induction lims generalizing F G with
  | nil => rfl
  | cons l ls ih =>
    simp only [overLims, reduceVals]
    rw [← ih]
    congr 1
    funext η
    exact List.sum_map_add

theorem overLims_mul (vals : Lim → List SIdx) (lims : List Lim) (F G : (Str → SIdx) → ℝ) (η : Str → SIdx) :
    overLims vals .prod lims (fun η => F η * G η) η = overLims vals .prod lims F η * overLims vals .prod lims G η := by
  induction lims generalizing F G with
  | nil => rfl
  | cons l ls ih =>
    simp only [overLims, reduceVals]
    rw [← ih]
    congr 1
    funext η
    exact List.prod_map_mul

theorem overLims_factor (vals : Lim → List SIdx) (lims : List Lim) (C F : (Str → SIdx) → ℝ) (η : Str → SIdx)
    (hC : ∀ l ∈ lims, ∀ η s, C (setEnv η l.i s) = C η) :
    overLims vals .sum lims (fun η => C η * F η) η = C η * overLims vals .sum lims F η := by
  induction lims generalizing F with
  | nil => rfl
  | cons l ls ih =>
    simp only [overLims, reduceVals]
    rw [← ih _ fun l hl => hC l (List.mem_cons_of_mem _ hl)]
    congr 1
    funext η
    simp only [hC l List.mem_cons_self]
    exact List.sum_map_mul_left _ _ _

theorem sum_swap {α β : Type _} (f : α → β → ℝ) (l : List α) (m : List β) :
    (l.map fun a => (m.map fun b => f a b).sum).sum = (m.map fun b => (l.map fun a => f a b).sum).sum := by
  induction l with
  | nil => simp
  | cons a l ih =>
    simp only [List.map_cons, List.sum_cons, ih]
    rw [← List.sum_map_add]

theorem prod_swap {α β : Type _} (f : α → β → ℝ) (l : List α) (m : List β) :
    (l.map fun a => (m.map fun b => f a b).prod).prod = (m.map fun b => (l.map fun a => f a b).prod).prod := by
  induction l with
  | nil => simp
  | cons a l ih =>
    simp only [List.map_cons, List.prod_cons, ih]
    rw [← List.prod_map_mul]

theorem overLims_perm (vals : Lim → List SIdx) (op : RedOp) {lims lims₂ : List Lim} (h : lims₂.Perm lims) :
    (lims.map Lim.i).Nodup → ∀ (F : (Str → SIdx) → ℝ) (η : Str → SIdx),
      overLims vals op lims₂ F η = overLims vals op lims F η := by
  induction h with
  | nil => intro _ F η; rfl
  | cons l p ih =>
    intro hn F η
    simp only [overLims]
    exact ih (List.nodup_cons.1 hn).2 _ _
  | swap l m ls =>
    intro hn F η
    have hne : l.i ≠ m.i := by
      have := (List.nodup_cons.1 hn).1
      intro e
      exact this (by simp [e])
    simp only [overLims]
    congr 1
    funext η
    cases op
    · simp only [reduceVals]
      rw [sum_swap]
      simp only [setEnv_comm η hne]
    · simp only [reduceVals]
      rw [prod_swap]
      simp only [setEnv_comm η hne]
  | trans p q ih1 ih2 =>
    intro hn F η
    rw [ih1 ((q.map Lim.i).nodup_iff.2 hn), ih2 hn]

theorem value_setEnv (S : Str → ℝ) (V : Str → List SIdx → ℝ) (coords : Coords) (c : RExpr) (hc : RedFree c) (i : Str)
    (h : ∀ v ∈ c.indexeds, SIdx.idx i ∉ v.2) (η : Str → SIdx) (s : SIdx) :
    c.value S V coords (setEnv η i s) = c.value S V coords η := by
  induction c with
  | num q => rfl
  | sym x => rfl
  | indexed b ix =>
    have h := h (b, ix) (by simp [RExpr.indexeds])
    simp only [RExpr.value]
    congr 1
    refine List.map_congr_left fun t ht => ?_
    cases t with
    | idx j =>
      have : j ≠ i := by rintro rfl; exact h ht
      simp [bindIdx, setEnv, this]
    | _ => rfl
  | add a b iha ihb | mul a b iha ihb | pow a b iha ihb =>
    simp only [RExpr.indexeds, List.mem_append] at h
    simp only [RExpr.value]
    rw [iha hc.1 fun v hv => h v (.inl hv), ihb hc.2 fun v hv => h v (.inr hv)]
  | log a ih | exp a ih =>
    simp only [RExpr.value]
    rw [ih hc h]
  | red op body lims ih => exact hc.elim

theorem hasFree_indexeds (fixed : List Str) (d : Str) (c : RExpr) (hc : RedFree c) (h : hasFree fixed d c = true) :
    ∃ v ∈ c.indexeds, SIdx.idx d ∈ v.2 := by
  induction c with
  | num q => cases h
  | sym x => cases h
  | indexed b ix =>
    simp only [hasFree, Bool.and_eq_true] at h
    exact ⟨(b, ix), by simp [RExpr.indexeds], by simpa using h.2⟩
  | add a b iha ihb | mul a b iha ihb | pow a b iha ihb =>
    simp only [hasFree, Bool.or_eq_true] at h
    simp only [RExpr.indexeds, List.mem_append]
    rcases h with h | h
    · obtain ⟨v, hv, g⟩ := iha hc.1 h; exact ⟨v, .inl hv, g⟩
    · obtain ⟨v, hv, g⟩ := ihb hc.2 h; exact ⟨v, .inr hv, g⟩
  | log a ih | exp a ih => exact ih hc h
  | red op body lims ih => exact hc.elim

theorem SumRules.value {coords : Coords} {a b : RExpr} (h : SumRules a b) (S : Str → ℝ) (V : Str → List SIdx → ℝ) :
    b.value S V coords = a.value S V coords := by
  induction h with
  | refl e => rfl
  | symm _ ih => exact ih.symm
  | trans _ _ ih1 ih2 => exact ih2.trans ih1
  | add _ _ ih1 ih2 | mul _ _ ih1 ih2 | pow _ _ ih1 ih2 => funext η; simp only [RExpr.value, ih1, ih2]
  | log _ ih | exp _ ih => funext η; simp only [RExpr.value, ih]
  | red op lims _ ih => funext η; simp only [RExpr.value, ih]
  | limits op a p hn => funext η; exact overLims_perm _ op p hn _ _
  | joined op a lims lims₂ =>
    funext η
    simp only [RExpr.value]
    rw [overLims_append]
  | sum_add a b lims => funext η; exact (overLims_add _ lims _ _ η).symm
  | prod_mul a b lims => funext η; exact (overLims_mul _ lims _ _ η).symm
  | factor c a lims hc hi hl =>
    funext η
    exact (overLims_factor _ lims (c.value S V coords) _ η fun l hl η s =>
      value_setEnv S V coords c hc l.i (fun v hv => hi v hv l hl) η s).symm

theorem SumRules.free {a b : RExpr} (h : SumRules a b) (fixed : List Str) (d : Str) :
    hasFree fixed d b = hasFree fixed d a := by
  induction h with
  | refl e => rfl
  | symm _ ih => exact ih.symm
  | trans _ _ ih1 ih2 => exact ih2.trans ih1
  | add _ _ ih1 ih2 | mul _ _ ih1 ih2 | pow _ _ ih1 ih2 => simp only [hasFree, ih1, ih2]
  | log _ ih | exp _ ih => simp only [hasFree, ih]
  | red op lims _ ih => simp only [hasFree, ih]
  | limits op a p hn => simp only [hasFree]; rw [p.all_eq]
  | joined op a lims lims₂ => simp only [hasFree, List.all_append, Bool.and_assoc]
  | sum_add a b lims | prod_mul a b lims => simp only [hasFree, Bool.and_or_distrib_right]
  | factor c a lims hc hi hl =>
    simp only [hasFree, Bool.and_or_distrib_right]
    congr 1
    cases hf : hasFree fixed d c with
    | false => rfl
    | true =>
      obtain ⟨v, hv, g⟩ := hasFree_indexeds fixed d c hc hf
      symm
      rw [Bool.true_and, List.all_eq_true]
      intro l hm
      have : l.i ≠ d := by rintro rfl; exact hi v hv l hm g
      simp [this, hl l hm]

/-- **C83 (sums and products).**  An equation whose sides are changed by the rules for sums and products is the same
equation: it asks for the same labels and is off by the same amount, whatever the values.  So `C83_rewritten`,
`C83_solutions` hold for models of which any equations are changed in this way. -/
theorem C83_sums (coords : Coords) (numeraire : Option ModelObject) (q q₂ : IndexedEq) (hl : SumRules q.lhs q₂.lhs)
    (hr : SumRules q.rhs q₂.rhs) :
    Rewritten coords numeraire q q₂ ∧
      ∀ fixed objs flat, demanded coords fixed objs flat q₂ = demanded coords fixed objs flat q := by
  have hf : ∀ fixed, freeDims coords fixed q₂.lhs q₂.rhs = freeDims coords fixed q.lhs q.rhs := by
    intro fixed
    unfold freeDims
    exact List.filter_congr fun d _ => by rw [hl.free, hr.free]
  refine ⟨⟨hf _, 1, one_ne_zero, fun S V ρ => ?_⟩, fun fixed objs flat => ?_⟩
  · rw [hl.value, hr.value, one_mul]
  · unfold demanded
    rw [hf]
    simp only [hl.value, hr.value]

/-- **C83 (models with sums and products written differently)**: all equations are off by the same amounts, in order. -/
theorem C83_sums_imbalances (coords : Coords) (vars params : List ModelObject) (numeraire : Option ModelObject)
    (eqs eqs₂ : List IndexedEq)
    (h : List.Forall₂ (fun q q₂ => SumRules q.lhs q₂.lhs ∧ SumRules q.rhs q₂.rhs) eqs eqs₂) (s : List ℝ) :
    imbalances coords vars params numeraire eqs₂ s = imbalances coords vars params numeraire eqs s := by
  unfold imbalances
  induction h with
  | nil => rfl
  | cons hq _ ih => rw [List.flatMap_cons, List.flatMap_cons, ih, (C83_sums coords none _ _ hq.1 hq.2).2]

/-- `P * Sum(X[i]) + P * Sum(Y[i])` for `Sum(P * X[i] + P * Y[i])`, and the limits of a double sum swapped. -/
example (coords : Coords) (n m : Nat) (hn : 0 < n) :
    let X : RExpr := .indexed "X".toList [.idx "i".toList]
    let Y : RExpr := .indexed "Y".toList [.idx "i".toList]
    let Z : RExpr := .indexed "Z".toList [.idx "i".toList, .idx "j".toList]
    let P : RExpr := .sym "P".toList
    let i : Lim := ⟨"i".toList, 0, n⟩
    let j : Lim := ⟨"j".toList, 0, m⟩
    Rewritten coords none
      ⟨[], .red .sum (.add (.mul P X) (.mul P Y)) [i], .red .sum Z [i, j]⟩
      ⟨[], .add (.mul P (.red .sum X [i])) (.mul P (.red .sum Y [i])), .red .sum Z [j, i]⟩ := by
  intro X Y Z P i j
  refine (C83_sums coords none _ _ ?_ (.limits _ _ (List.Perm.swap _ _ _) (by simp [i, j]))).1
  have fac : ∀ e, SumRules (.red .sum (.mul P e) [i]) (.mul P (.red .sum e [i])) := fun e =>
    .factor P e [i] trivial (by simp [P, RExpr.indexeds]) (by simp [i, hn])
  exact .trans (.sum_add _ _ _) (.add (fac X) (fac Y))

/-- The hypotheses of `C83_sums_imbalances`: one double sum with its limits swapped, at any values. -/
example (coords : Coords) (vars params : List ModelObject) (s : List ℝ) (n m : Nat) :
    let Z : RExpr := .indexed "Z".toList [.idx "i".toList, .idx "j".toList]
    imbalances coords vars params none [⟨[], .sym "T".toList, .red .sum Z [⟨"j".toList, 0, m⟩, ⟨"i".toList, 0, n⟩]⟩] s =
      imbalances coords vars params none [⟨[], .sym "T".toList, .red .sum Z [⟨"i".toList, 0, n⟩, ⟨"j".toList, 0, m⟩]⟩]
        s := by
  intro Z
  refine C83_sums_imbalances coords vars params none _ _ (.cons ⟨SumRules.refl (.sym "T".toList), ?_⟩ .nil) s
  refine SumRules.limits .sum Z ?_ ?_
  · exact List.Perm.swap _ _ _
  · simp

/-- Models with sums and products written differently have the same equations in the sense of `C83_rewritten` and
`C83_solutions`. -/
theorem SameEquations.of_sums {coords : Coords} {numeraire : Option ModelObject} {eqs eqs₂ : List IndexedEq}
    (h : List.Forall₂ (fun q q₂ => SumRules q.lhs q₂.lhs ∧ SumRules q.rhs q₂.rhs) eqs eqs₂) :
    SameEquations coords numeraire eqs eqs₂ :=
  ⟨eqs, List.Perm.refl _, h.imp fun q q₂ hq => (C83_sums coords numeraire q q₂ hq.1 hq.2).1⟩

/-- **The index names have to be distinct**: `Sum(X[i], (i, 0, 0), (i, 0, 1))` binds `i` in the inner sum; it is twice
the first element, and with its limits swapped the sum of both elements. -/
theorem C83_limits_counterexample : ∃ (coords : Coords) (S : Str → ℝ) (V : Str → List SIdx → ℝ) (ρ : Str → SIdx)
    (a : RExpr) (l m : Lim), RExpr.value S V coords (.red .sum a [l, m]) ρ ≠
      RExpr.value S V coords (.red .sum a [m, l]) ρ := by
  refine ⟨[("i".toList, ["a".toList, "b".toList])], fun _ => 0,
    fun _ ix => if ix = [sympifyLabel "a".toList] then 1 else 0, SIdx.idx, .indexed "X".toList [.idx "i".toList],
    ⟨"i".toList, 0, 1⟩, ⟨"i".toList, 0, 2⟩, ?_⟩
  have hab : sympifyLabel "b".toList ≠ sympifyLabel "a".toList := by decide +kernel
  simp [RExpr.value, overLims, limLabels, dget, reduceVals, bindIdx, setEnv]
  exact hab

end Verif
