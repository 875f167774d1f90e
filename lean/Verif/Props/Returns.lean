import Verif.Lemmas.Returns
import Verif.Props.ProductionValue

/-!
# C81, C82: returns to scale, homogeneity in prices, substitution

The equations are the texts the generators return, read by Python's grammar (as in C40).
-/

namespace Verif

open scoped BigOperators

/-! ## C81 -/

/-- At the point `i`, the state `env'` has the quantities of `env` times `c` and its prices times `m`, with the
same shares and the same other parameters. -/
structure Rescaled {ι : Type} [Fintype ι] (xs : List FactorArg) (Y P : PExpr) (others : List PExpr) (c m : ℝ)
    (env env' : Str → ι → ℝ) (i : ι) : Prop where
  quantities : ∀ f ∈ xs, f.X.value env' i = c * f.X.value env i
  prices : ∀ f ∈ xs, f.p.value env' i = m * f.p.value env i
  shares : ∀ f ∈ xs, f.a.value env' i = f.a.value env i
  output : Y.value env' i = c * Y.value env i
  outputPrice : P.value env' i = m * P.value env i
  others : ∀ e ∈ others, e.value env' i = e.value env i

theorem Rescaled.val {ι : Type} [Fintype ι] {xs : List FactorArg} {Y P : PExpr} {others : List PExpr}
    {c m : ℝ} {env env' : Str → ι → ℝ} {i : ι} (h : Rescaled xs Y P others c m env env' i) (f : FactorArg)
    (hf : f ∈ xs) : f.val env' i = (f.val env i).scaled c m := by
  unfold FactorArg.val FactorVal.scaled
  rw [h.quantities f hf, h.prices f hf, h.shares f hf]

theorem Rescaled.vals {ι : Type} [Fintype ι] {xs : List FactorArg} {Y P : PExpr} {others : List PExpr}
    {c m : ℝ} {env env' : Str → ι → ℝ} {i : ι} (h : Rescaled xs Y P others c m env env' i) :
    xs.map (·.val env' i) = (xs.map (·.val env i)).map (FactorVal.scaled c m) := by
  rw [List.map_map]
  exact List.map_congr_left fun f hf => h.val f hf

theorem holdsAll_cons {ι : Type} [Fintype ι] (s : Str) (l : List Str) (env : Str → ι → ℝ) (i : ι) :
    HoldsAll (s :: l) env i ↔ HoldsAt s env i ∧ HoldsAll l env i := by
  unfold HoldsAll
  simp

/-- **C81 (Cobb-Douglas).**  Scaling all quantities by one positive number and all prices by another leads from
solutions of the generated equations to solutions, and only from solutions to solutions; for the production
function (not for the value definition) provided the shares add up to one. -/
theorem C81_cobb_douglass (xs : List FactorArg) (hne : xs ≠ []) (hok : ∀ f ∈ xs, f.Ok)
    (o op tfp : Str) (Y P A : PExpr) (hY : Phrase .atom o Y) (hP : Phrase .atom op P)
    (hA : Phrase .atom tfp A) (v : Bool) :
    ∃ eqs, (cobbDouglass (.list (xs.map (·.name))) (.list (xs.map (·.price))) o op
        (.list (xs.map (·.share))) tfp v).eqs = .ok eqs ∧
      ∀ (ι : Type) [Fintype ι] (env env' : Str → ι → ℝ) (i : ι) (c m : ℝ), 0 < c → 0 < m →
        Rescaled xs Y P [A] c m env env' i →
        (v = false → (∀ f ∈ xs, 0 ≤ f.X.value env i) ∧ (xs.map fun f => f.a.value env i).sum = 1) →
        (HoldsAll eqs env' i ↔ HoldsAll eqs env i) := by
  refine ⟨_, cobb_lists xs o op tfp v, ?_⟩
  intro ι _ env env' i c m hc hm hr hv
  rw [holdsAll_cons, holdsAll_cons]
  refine and_congr ?_ ?_
  · cases v with
    | true =>
      rw [if_pos rfl, (says_value xs hne hok o op Y P hY hP).holdsAt_iff env' i,
        (says_value xs hne hok o op Y P hY hP).holdsAt_iff env i, hr.vals, hr.output, hr.outputPrice]
      exact value_scaled c m hc hm _ _ _
    | false =>
      rw [if_neg (by decide), (says_cobbProduction xs hne hok o tfp Y A hY hA).holdsAt_iff env' i,
        (says_cobbProduction xs hne hok o tfp Y A hY hA).holdsAt_iff env i, hr.vals, hr.output,
        hr.others A (by simp)]
      obtain ⟨h1, h2⟩ := hv rfl
      refine cobb_production_scaled c hc m _ _ _ ?_ ?_
      · intro g hg
        obtain ⟨f, hf, rfl⟩ := List.mem_map.1 hg
        exact h1 f hf
      · rw [List.map_map]; exact h2
  · unfold HoldsAll
    simp only [List.forall_mem_map]
    refine forall₂_congr fun f hf => ?_
    rw [(says_cobbDemand f (hok f hf) o op tfp Y P hY hP.s).holdsAt_iff env' i,
      (says_cobbDemand f (hok f hf) o op tfp Y P hY hP.s).holdsAt_iff env i, hr.val f hf, hr.output,
      hr.outputPrice]
    exact cobb_demand_scaled c m hc hm _ _ _

/-- Without that proviso C81 is false of the Cobb-Douglas production function: at positive quantities and
technology it goes over to a multiple `c ≠ 1` exactly when the shares add up to one. -/
theorem C81_cobb_douglass_shares (xs : List FactorArg) (hne : xs ≠ []) (hok : ∀ f ∈ xs, f.Ok)
    (o op tfp : Str) (Y P A : PExpr) (hY : Phrase .atom o Y) (hA : Phrase .atom tfp A) :
    ∃ prod demands, (cobbDouglass (.list (xs.map (·.name))) (.list (xs.map (·.price))) o op
        (.list (xs.map (·.share))) tfp false).eqs = .ok (prod :: demands) ∧
      ∀ (ι : Type) [Fintype ι] (env env' : Str → ι → ℝ) (i : ι) (c m : ℝ), 0 < c → c ≠ 1 →
        Rescaled xs Y P [A] c m env env' i → (∀ f ∈ xs, 0 < f.X.value env i) → 0 < A.value env i →
        HoldsAt prod env i →
        (HoldsAt prod env' i ↔ (xs.map fun f => f.a.value env i).sum = 1) := by
  refine ⟨_, _, cobb_lists xs o op tfp false, ?_⟩
  intro ι _ env env' i c m hc hc1 hr hX hA' h
  rw [if_neg (by decide), (says_cobbProduction xs hne hok o tfp Y A hY hA).holdsAt_iff] at h ⊢
  rw [hr.vals, hr.output, hr.others A (by simp)]
  unfold CobbDouglasProduction at h ⊢
  rw [cobb_prod_scaled c hc m _ (by
    intro g hg
    obtain ⟨f, hf, rfl⟩ := List.mem_map.1 hg
    exact (hX f hf).le), h, mul_left_comm, mul_left_comm (A.value env i), ← mul_assoc, ← mul_assoc]
  have hpos : 0 < ((xs.map (·.val env i)).map fun f => f.X ^ f.a).prod := by
    apply List.prod_pos
    intro x hx
    obtain ⟨g, hg, rfl⟩ := List.mem_map.1 hx
    obtain ⟨f, hf, rfl⟩ := List.mem_map.1 hg
    exact Real.rpow_pos_of_pos (hX f hf) _
  have hs : ((xs.map (·.val env i)).map (·.a)).sum = (xs.map fun f => f.a.value env i).sum := by
    rw [List.map_map]; rfl
  rw [hs]
  generalize (xs.map fun f => f.a.value env i).sum = s
  have hne0 := (mul_pos hA' hpos).ne'
  constructor
  · intro e
    have e2 : c = c ^ s := by
      have : c * (A.value env i * ((xs.map (·.val env i)).map fun f => f.X ^ f.a).prod) =
          c ^ s * (A.value env i * ((xs.map (·.val env i)).map fun f => f.X ^ f.a).prod) := by
        linarith
      exact mul_right_cancel₀ hne0 this
    have e3 := congrArg Real.log e2
    rw [Real.log_rpow hc] at e3
    have hl : Real.log c ≠ 0 := Real.log_ne_zero_of_pos_of_ne_one hc hc1
    have : (1 : ℝ) * Real.log c = s * Real.log c := by rw [one_mul]; exact e3
    exact (mul_right_cancel₀ hl this).symm
  · rintro rfl
    rw [Real.rpow_one]
    ring

/-- **C81 (CES).**  The same for `CES`, with the production function or the value definition. -/
theorem C81_ces (xs : List FactorArg) (hne : xs ≠ []) (hok : ∀ f ∈ xs, f.Ok)
    (o op tfp e : Str) (Y P A E : PExpr) (hY : Phrase .atom o Y) (hP : Phrase .atom op P)
    (hA : Phrase .atom tfp A) (hE : Phrase .atom e E) (v : Bool) :
    ∃ eqs, (ces (.list (xs.map (·.name))) (.list (xs.map (·.price))) o op tfp
        (.list (xs.map (·.share))) e .no v).eqs = .ok eqs ∧
      ∀ (ι : Type) [Fintype ι] (env env' : Str → ι → ℝ) (i : ι) (c m : ℝ), 0 < c → 0 < m →
        Rescaled xs Y P [A, E] c m env env' i →
        (v = false → E.value env i ≠ 0 ∧ E.value env i ≠ 1 ∧
          ∀ f ∈ xs, 0 ≤ f.X.value env i ∧ 0 ≤ f.a.value env i) →
        (HoldsAll eqs env' i ↔ HoldsAll eqs env i) := by
  have hlists : (ces (.list (xs.map (·.name))) (.list (xs.map (·.price))) o op tfp
        (.list (xs.map (·.share))) e .no v).eqs =
      .ok ((if v then valueEquation (xs.map (·.price)) (xs.map (·.name)) o op
          else cesProduction (xs.map (·.name)) (xs.map (·.share)) o tfp e) ::
        xs.map fun f => cesDemand f.name f.price f.share o op tfp e) := by
    unfold ces
    dsimp only
    rw [addSecondAlpha_same _ _ (by simp)]
    dsimp only
    rw [checkLengths_same _ _ _ (by simp) (by simp)]
    simp only [reduceCtorEq, or_self, if_false, StrArg.iter, zip3_map, List.map_map, Function.comp_def]
  refine ⟨_, hlists, ?_⟩
  intro ι _ env env' i c m hc hm hr hv
  rw [holdsAll_cons, holdsAll_cons]
  refine and_congr ?_ ?_
  · cases v with
    | true =>
      rw [if_pos rfl, (says_value xs hne hok o op Y P hY hP).holdsAt_iff env' i,
        (says_value xs hne hok o op Y P hY hP).holdsAt_iff env i, hr.vals, hr.output, hr.outputPrice]
      exact value_scaled c m hc hm _ _ _
    | false =>
      rw [if_neg (by decide), (says_cesProduction xs hne hok o tfp e Y A E hY hA hE).holdsAt_iff env' i,
        (says_cesProduction xs hne hok o tfp e Y A E hY hA hE).holdsAt_iff env i, hr.vals, hr.output,
        hr.others A (by simp), hr.others E (by simp)]
      obtain ⟨h1, h2, h3⟩ := hv rfl
      refine ces_production_scaled c hc m _ _ _ h1 h2 _ ?_
      intro g hg
      obtain ⟨f, hf, rfl⟩ := List.mem_map.1 hg
      exact h3 f hf
  · unfold HoldsAll
    simp only [List.forall_mem_map]
    refine forall₂_congr fun f hf => ?_
    rw [(says_cesDemand f (hok f hf) o op tfp e Y P A E hY hP hA hE).holdsAt_iff env' i,
      (says_cesDemand f (hok f hf) o op tfp e Y P A E hY hP hA hE).holdsAt_iff env i, hr.val f hf, hr.output,
      hr.outputPrice, hr.others A (by simp), hr.others E (by simp)]
    exact ces_demand_scaled c m hc hm _ _ _ _ _

/-- The hypotheses of `C81_ces` are met: two factors with share `a = 1/2` and elasticity 2, where all equations
hold, and the state with three times the quantities at five times the prices. -/
example :
    let n : Str → PExpr := .var
    let xs : List FactorArg := [⟨"L".toList, "w".toList, "a".toList, n "L".toList, n "w".toList, n "a".toList⟩,
      ⟨"K".toList, "r".toList, "a".toList, n "K".toList, n "r".toList, n "a".toList⟩]
    let env : Str → Unit → ℝ := fun x _ => if x = "P".toList then 2 else if x = "a".toList then 1 / 2 else
      if x = "e".toList then 2 else 1
    let env' : Str → Unit → ℝ := fun x _ => if x = "P".toList then 10 else if x = "a".toList then 1 / 2 else
      if x = "e".toList then 2 else if x = "A".toList then 1 else
      if x = "w".toList ∨ x = "r".toList then 5 else 3
    xs ≠ [] ∧ (∀ f ∈ xs, f.Ok) ∧
    Rescaled xs (n "Y".toList) (n "P".toList) [n "A".toList, n "e".toList] 3 5 env env' () ∧
    CESProduction ((n "Y".toList).value env ()) ((n "A".toList).value env ()) ((n "e".toList).value env ())
      (xs.map (·.val env ())) ∧
    ∀ f ∈ xs, CESDemand ((n "Y".toList).value env ()) ((n "A".toList).value env ())
      ((n "P".toList).value env ()) ((n "e".toList).value env ()) (f.val env ()) := by
  have hn : ∀ x : Str, isIdent x = true → Phrase .atom x (.var x) := fun x h => Phrase.name h
  refine ⟨by simp, ?_, ?_, ?_, ?_⟩
  · intro f hf
    simp only [List.mem_cons, List.not_mem_nil, or_false] at hf
    rcases hf with rfl | rfl
    · exact ⟨hn _ rfl, (hn _ rfl).t, (hn _ rfl).s⟩
    · exact ⟨hn _ rfl, (hn _ rfl).t, (hn _ rfl).s⟩
  · constructor <;> simp [PExpr.value] <;> norm_num
  · simp [CESProduction, FactorArg.val, PExpr.value]
    norm_num
  · intro f hf
    simp only [List.mem_cons, List.not_mem_nil, or_false] at hf
    rcases hf with rfl | rfl <;> simp [CESDemand, FactorArg.val, PExpr.value]

/-- **C81 (Leontief).**  The same for `leontief` with at least two inputs. -/
theorem C81_leontief (xs : List FactorArg) (hlen : 2 ≤ xs.length) (hok : ∀ f ∈ xs, f.Ok)
    (hsh : ∀ f ∈ xs, Phrase .factor f.share f.a)
    (o op d : Str) (coords : Dict Str (List Str)) (sd : Option Str) (b1 b2 : Bool) (bk : Backend)
    (Y P : PExpr) (hY : Phrase .atom o Y) (hP : Phrase .sum op P) :
    ∃ eqs, leontief (.list (xs.map (·.name))) (.list (xs.map (·.price))) o op (.list (xs.map (·.share)))
        (.str d) coords sd b1 b2 bk = .ok eqs ∧
      ∀ (ι : Type) [Fintype ι] (env env' : Str → ι → ℝ) (i : ι) (c m : ℝ), 0 < c → 0 < m →
        Rescaled xs Y P [] c m env env' i → (HoldsAll eqs env' i ↔ HoldsAll eqs env i) := by
  obtain ⟨zp, demands, h1, h2, h3, h4⟩ := C40_leontief xs hlen hok hsh o op d coords sd b1 b2 bk Y P hY hP
  refine ⟨_, h1, ?_⟩
  intro ι _ env env' i c m hc hm hr
  rw [holdsAll_cons, holdsAll_cons]
  refine and_congr ?_ ?_
  · rw [h2.holdsAt_iff env' i, h2.holdsAt_iff env i, hr.vals, hr.output, hr.outputPrice]
    have h : (((xs.map (·.val env i)).map (FactorVal.scaled c m)).map fun f => f.p * f.X).sum =
        (m * c) * ((xs.map (·.val env i)).map fun f => f.p * f.X).sum := by
      rw [← list_sum_map_mul, List.map_map]
      congr 1
      apply list_map_congr
      intro f _
      simp only [Function.comp_apply, FactorVal.scaled]
      ring
    rw [h, mul_assoc, mul_div_mul_left _ _ hm.ne', mul_div_assoc]
    exact mul_right_inj' hc.ne'
  · have key : ∀ (j : Nat) (t : Str), demands[j]? = some t → (HoldsAt t env' i ↔ HoldsAt t env i) := by
      intro j t ht
      have hj : j < xs.length := by
        rw [← h3]; exact (List.getElem?_eq_some_iff.1 ht).1
      obtain ⟨t', ht', hs⟩ := h4 j xs[j] (List.getElem?_eq_getElem hj)
      rw [ht] at ht'
      cases ht'
      rw [hs.holdsAt_iff env' i, hs.holdsAt_iff env i, hr.val _ (List.getElem_mem hj), hr.output]
      exact leontief_demand_scaled c m hc _ _
    unfold HoldsAll
    refine forall₂_congr fun t ht => ?_
    obtain ⟨j, hj⟩ := List.getElem?_of_mem ht
    exact key j t hj

/-- The same relation for the arguments of `dixit_stiglitz`, whose factor has one value per label. -/
structure RescaledDS {ι : Type} [Fintype ι] (a : DSArgs) (A S : Option PExpr) (c m : ℝ)
    (env env' : Str → ι → ℝ) : Prop where
  quantities : ∀ j, a.X.value env' j = c * a.X.value env j
  prices : ∀ j, a.P.value env' j = m * a.P.value env j
  shares : ∀ j, optVal S env' j = optVal S env j
  output : ∀ j, a.Y.value env' j = c * a.Y.value env j
  outputPrice : ∀ j, a.Q.value env' j = m * a.Q.value env j
  technology : ∀ j, optVal A env' j = optVal A env j
  elasticity : ∀ j, a.E.value env' j = a.E.value env j

/-- **C81 (Dixit-Stiglitz).**  The same for `dixit_stiglitz`, on both back-ends and with all options. -/
theorem C81_dixit_stiglitz (a : DSArgs) (ha : a.Ok) (coords : Dict Str (List Str)) (labels : List Str)
    (hc : dget coords a.d = some labels) (b : Backend) (v : Bool) (t s : Option Str) (A S : Option PExpr)
    (ht : OptArg t A) (hs : OptArg s S) :
    ∃ eqs, dixitStiglitz (.str a.f) (.str a.p) a.o a.op a.e a.d coords b t (s.map .str) v = .ok eqs ∧
      ∀ (ι : Type) [Fintype ι] (env env' : Str → ι → ℝ) (c m : ℝ), 0 < c → 0 < m →
        RescaledDS a A S c m env env' →
        (v = false → ∃ ε : ℝ, ε ≠ 0 ∧ ε ≠ 1 ∧ ∀ j, a.E.value env j = ε ∧ 0 ≤ a.X.value env j ∧
          0 ≤ optVal S env j) →
        ∀ i, HoldsAll eqs env' i ↔ HoldsAll eqs env i := by
  refine ⟨_, ds_eqs a coords labels hc b t s v, ?_⟩
  intro ι _ env env' c m hc hm hr hv i
  obtain ⟨g1, g2, g3, g4, g5, g6⟩ := ha
  rw [holdsAll_cons, holdsAll_cons, holdsAll_cons, holdsAll_cons]
  refine and_congr ?_ (and_congr ?_ (by simp [HoldsAll]))
  · unfold dsFirst
    cases v with
    | true =>
      rw [if_pos rfl, (says_dsValue a.f a.p a.o a.op a.X a.P a.Y a.Q g1 g2 g3 g4).holdsAt_iff env' i,
        (says_dsValue a.f a.p a.o a.op a.X a.P a.Y a.Q g1 g2 g3 g4).holdsAt_iff env i, hr.output, hr.outputPrice]
      have h : ∑ j, a.P.value env' j * a.X.value env' j = (m * c) * ∑ j, a.P.value env j * a.X.value env j := by
        rw [Finset.mul_sum]
        refine Finset.sum_congr rfl fun j _ => ?_
        rw [hr.prices, hr.quantities]; ring
      rw [h, mul_assoc, mul_div_mul_left _ _ hm.ne', mul_div_assoc]
      exact mul_right_inj' hc.ne'
    | false =>
      obtain ⟨ε, h0, h1, hall⟩ := hv rfl
      rw [if_neg (by decide),
        (says_dsProduction a.f a.o a.e a.d _ a.X a.Y a.E g1 g3 g5 g6 (decStr_tokens _) t s A S ht hs
          b).holdsAt_iff env' i,
        (says_dsProduction a.f a.o a.e a.d _ a.X a.Y a.E g1 g3 g5 g6 (decStr_tokens _) t s A S ht hs
          b).holdsAt_iff env i, hr.output, hr.technology, hr.elasticity, (hall i).1]
      have h : ∑ j, optVal S env' j * a.X.value env' j ^ ((a.E.value env' j - 1) / a.E.value env' j) =
          c ^ ((ε - 1) / ε) *
            ∑ j, optVal S env j * a.X.value env j ^ ((a.E.value env j - 1) / a.E.value env j) := by
        rw [Finset.mul_sum]
        refine Finset.sum_congr rfl fun j _ => ?_
        rw [hr.shares, hr.quantities, hr.elasticity, (hall j).1, Real.mul_rpow hc.le (hall j).2.1]
        ring
      have hS : 0 ≤ ∑ j, optVal S env j * a.X.value env j ^ ((a.E.value env j - 1) / a.E.value env j) :=
        Finset.sum_nonneg fun j _ => mul_nonneg (hall j).2.2 (Real.rpow_nonneg (hall j).2.1 _)
      have hne : ε - 1 ≠ 0 := sub_ne_zero.2 h1
      have hk : (ε - 1) / ε * (ε / (ε - 1)) = 1 := by field_simp
      rw [h, Real.mul_rpow (Real.rpow_nonneg hc.le _) hS, ← Real.rpow_mul hc.le, hk, Real.rpow_one,
        mul_left_comm]
      exact mul_right_inj' hc.ne'
  · match t, A, ht with
    | none, none, _ =>
      rw [(says_dsDemand_none a.f a.p a.o a.op a.e _ _ _ _ _ g1 g2 g3 g4 g5 s S hs).holdsAt_iff env' i,
        (says_dsDemand_none a.f a.p a.o a.op a.e _ _ _ _ _ g1 g2 g3 g4 g5 s S hs).holdsAt_iff env i,
        hr.quantities, hr.output, hr.shares, hr.outputPrice, hr.prices, hr.elasticity, mul_left_comm,
        mul_div_mul_left _ _ hm.ne', mul_div_assoc]
      exact mul_right_inj' hc.ne'
    | some t, some A, ht =>
      have hA := hr.technology i
      change A.value env' i = A.value env i at hA
      rw [(says_dsDemand_some a.f a.p a.o a.op a.e t _ _ _ _ _ A g1 g2 g3 g4 g5 ht s S hs).holdsAt_iff env' i,
        (says_dsDemand_some a.f a.p a.o a.op a.e t _ _ _ _ _ A g1 g2 g3 g4 g5 ht s S hs).holdsAt_iff env i,
        hr.quantities, hr.output, hr.shares, hr.outputPrice, hr.prices, hr.elasticity, hA]
      exact ces_demand_scaled c m hc hm _ _ _ _ ⟨_, _, _⟩

/-! ## C82 -/

/-- From one state to another, the ratio of the quantities `x` and `y` moves `σ` times as much, in logarithms,
as the ratio of their prices `p` and `q` moves the other way: `σ` is the elasticity of substitution. -/
def Substitution (σ x y p q x' y' p' q' : ℝ) : Prop :=
  Real.log (x' / y') - Real.log (x / y) = σ * (Real.log (q' / p') - Real.log (q / p))

/-- **C82 (CES).**  Between any two states that satisfy the demands generated by `CES` for the same elasticity
and shares, every two factors are substituted with elasticity `epsilon`. -/
theorem C82_ces (xs : List FactorArg) (hok : ∀ f ∈ xs, f.Ok)
    (o op tfp e : Str) (Y P A E : PExpr) (hY : Phrase .atom o Y) (hP : Phrase .atom op P)
    (hA : Phrase .atom tfp A) (hE : Phrase .atom e E) (v : Bool) :
    ∃ eqs, (ces (.list (xs.map (·.name))) (.list (xs.map (·.price))) o op tfp
        (.list (xs.map (·.share))) e .no v).eqs = .ok eqs ∧
      ∀ (ι : Type) [Fintype ι] (env env' : Str → ι → ℝ) (i : ι), HoldsAll eqs env i → HoldsAll eqs env' i →
        (∀ ev ∈ [env, env'], 0 < Y.value ev i ∧ 0 < A.value ev i ∧ 0 < P.value ev i ∧
          ∀ f ∈ xs, 0 < f.p.value ev i ∧ 0 < f.a.value ev i) →
        E.value env' i = E.value env i → (∀ f ∈ xs, f.a.value env' i = f.a.value env i) →
        ∀ f ∈ xs, ∀ g ∈ xs, Substitution (E.value env i)
          (f.X.value env i) (g.X.value env i) (f.p.value env i) (g.p.value env i)
          (f.X.value env' i) (g.X.value env' i) (f.p.value env' i) (g.p.value env' i) := by
  have hlists : (ces (.list (xs.map (·.name))) (.list (xs.map (·.price))) o op tfp
        (.list (xs.map (·.share))) e .no v).eqs =
      .ok ((if v then valueEquation (xs.map (·.price)) (xs.map (·.name)) o op
          else cesProduction (xs.map (·.name)) (xs.map (·.share)) o tfp e) ::
        xs.map fun f => cesDemand f.name f.price f.share o op tfp e) := by
    unfold ces
    dsimp only
    rw [addSecondAlpha_same _ _ (by simp)]
    dsimp only
    rw [checkLengths_same _ _ _ (by simp) (by simp)]
    simp only [reduceCtorEq, or_self, if_false, StrArg.iter, zip3_map, List.map_map, Function.comp_def]
  refine ⟨_, hlists, ?_⟩
  intro ι _ env env' i h h' hpos hE' hsh f hf g hg
  have dem : ∀ ev, HoldsAll ((if v then valueEquation (xs.map (·.price)) (xs.map (·.name)) o op
          else cesProduction (xs.map (·.name)) (xs.map (·.share)) o tfp e) ::
        xs.map fun f => cesDemand f.name f.price f.share o op tfp e) ev i → ∀ x ∈ xs,
      CESDemand (Y.value ev i) (A.value ev i) (P.value ev i) (E.value ev i) (x.val ev i) := by
    intro ev hev x hx
    exact ((says_cesDemand x (hok x hx) o op tfp e Y P A E hY hP hA hE).holdsAt_iff ev i).1
      (hev _ (List.mem_cons_of_mem _ (List.mem_map.2 ⟨x, hx, rfl⟩)))
  obtain ⟨p1, p2, p3, p4⟩ := hpos env (by simp)
  obtain ⟨q1, q2, q3, q4⟩ := hpos env' (by simp)
  have r := ces_ratio _ _ _ _ p1 p2 p3 (f.val env i) (g.val env i) (p4 f hf) (p4 g hg) (dem env h f hf) (dem env h g hg)
  have r' := ces_ratio _ _ _ _ q1 q2 q3 (f.val env' i) (g.val env' i) (q4 f hf) (q4 g hg) (dem env' h' f hf) (dem env' h' g hg)
  unfold Substitution
  simp only [FactorArg.val] at r r'
  rw [r, r', hE', hsh f hf, hsh g hg]
  ring

/-- **C82 (Cobb-Douglas).**  The elasticity is one, and the cost of a factor is its share of the revenue. -/
theorem C82_cobb_douglass (xs : List FactorArg) (hok : ∀ f ∈ xs, f.Ok)
    (o op tfp : Str) (Y P : PExpr) (hY : Phrase .atom o Y) (hP : Phrase .atom op P) (v : Bool) :
    ∃ eqs, (cobbDouglass (.list (xs.map (·.name))) (.list (xs.map (·.price))) o op
        (.list (xs.map (·.share))) tfp v).eqs = .ok eqs ∧
      ∀ (ι : Type) [Fintype ι] (env env' : Str → ι → ℝ) (i : ι), HoldsAll eqs env i → HoldsAll eqs env' i →
        (∀ ev ∈ [env, env'], 0 < Y.value ev i ∧ 0 < P.value ev i ∧
          ∀ f ∈ xs, 0 < f.p.value ev i ∧ 0 < f.a.value ev i) →
        (∀ f ∈ xs, f.a.value env' i = f.a.value env i) →
        ∀ f ∈ xs, f.p.value env i * f.X.value env i = f.a.value env i * (Y.value env i * P.value env i) ∧
          ∀ g ∈ xs, Substitution 1
          (f.X.value env i) (g.X.value env i) (f.p.value env i) (g.p.value env i)
          (f.X.value env' i) (g.X.value env' i) (f.p.value env' i) (g.p.value env' i) := by
  refine ⟨_, cobb_lists xs o op tfp v, ?_⟩
  intro ι _ env env' i h h' hpos hsh f hf
  have dem : ∀ ev, HoldsAll ((if v then valueEquation (xs.map (·.price)) (xs.map (·.name)) o op
          else cobbProduction (xs.map (·.name)) (xs.map (·.share)) o tfp) ::
        xs.map fun f => cobbDemand f.name f.price f.share o op tfp) ev i → ∀ x ∈ xs,
      CobbDouglasDemand (Y.value ev i) (P.value ev i) (x.val ev i) := by
    intro ev hev x hx
    exact ((says_cobbDemand x (hok x hx) o op tfp Y P hY hP.s).holdsAt_iff ev i).1
      (hev _ (List.mem_cons_of_mem _ (List.mem_map.2 ⟨x, hx, rfl⟩)))
  obtain ⟨p1, p2, p3⟩ := hpos env (by simp)
  obtain ⟨q1, q2, q3⟩ := hpos env' (by simp)
  refine ⟨?_, ?_⟩
  · have d := dem env h f hf
    simp only [CobbDouglasDemand, FactorArg.val] at d
    have := (p3 f hf).1.ne'
    rw [d]
    field_simp
  · intro g hg
    have r := cobb_ratio _ _ p1 p2 (f.val env i) (g.val env i) (p3 f hf) (p3 g hg) (dem env h f hf) (dem env h g hg)
    have r' := cobb_ratio _ _ q1 q2 (f.val env' i) (g.val env' i) (q3 f hf) (q3 g hg) (dem env' h' f hf) (dem env' h' g hg)
    unfold Substitution
    simp only [FactorArg.val] at r r'
    rw [r, r', hsh f hf, hsh g hg]
    ring

/-- **C82 (Leontief).**  There is no substitution: the elasticity is zero. -/
theorem C82_leontief (xs : List FactorArg) (hlen : 2 ≤ xs.length) (hok : ∀ f ∈ xs, f.Ok)
    (hsh : ∀ f ∈ xs, Phrase .factor f.share f.a)
    (o op d : Str) (coords : Dict Str (List Str)) (sd : Option Str) (b1 b2 : Bool) (bk : Backend)
    (Y P : PExpr) (hY : Phrase .atom o Y) (hP : Phrase .sum op P) :
    ∃ eqs, leontief (.list (xs.map (·.name))) (.list (xs.map (·.price))) o op (.list (xs.map (·.share)))
        (.str d) coords sd b1 b2 bk = .ok eqs ∧
      ∀ (ι : Type) [Fintype ι] (env env' : Str → ι → ℝ) (i : ι), HoldsAll eqs env i → HoldsAll eqs env' i →
        Y.value env i ≠ 0 → Y.value env' i ≠ 0 → (∀ f ∈ xs, f.a.value env' i = f.a.value env i) →
        ∀ f ∈ xs, ∀ g ∈ xs, Substitution 0
          (f.X.value env i) (g.X.value env i) (f.p.value env i) (g.p.value env i)
          (f.X.value env' i) (g.X.value env' i) (f.p.value env' i) (g.p.value env' i) := by
  obtain ⟨zp, demands, h1, h2, h3, h4⟩ := C40_leontief xs hlen hok hsh o op d coords sd b1 b2 bk Y P hY hP
  refine ⟨_, h1, ?_⟩
  intro ι _ env env' i h h' y1 y2 ha f hf g hg
  have dem : ∀ ev, HoldsAll (zp :: demands) ev i → ∀ x ∈ xs,
      x.X.value ev i = x.a.value ev i * Y.value ev i := by
    intro ev hev x hx
    obtain ⟨j, hj⟩ := List.getElem?_of_mem hx
    obtain ⟨t, ht, hs⟩ := h4 j x hj
    exact (hs.holdsAt_iff ev i).1 (hev t (List.mem_cons_of_mem _ (List.mem_of_getElem? ht)))
  unfold Substitution
  rw [dem env h f hf, dem env h g hg, dem env' h' f hf, dem env' h' g hg, ha f hf, ha g hg,
    mul_div_mul_right _ _ y1, mul_div_mul_right _ _ y2]
  ring

/-- Two states of a Dixit-Stiglitz block: positive values, output, output price, technology and elasticity
without dims, the same elasticity and shares in both. -/
structure ComparableDS {ι : Type} [Fintype ι] (a : DSArgs) (A S : Option PExpr) (ε : ℝ)
    (env env' : Str → ι → ℝ) : Prop where
  positive : ∀ ev ∈ [env, env'], ∀ j, 0 < a.Y.value ev j ∧ 0 < a.Q.value ev j ∧ 0 < a.P.value ev j ∧
    0 < optVal A ev j ∧ 0 < optVal S ev j
  scalars : ∀ ev ∈ [env, env'], ∀ j k, a.Y.value ev j = a.Y.value ev k ∧ a.Q.value ev j = a.Q.value ev k ∧
    optVal A ev j = optVal A ev k
  elasticity : ∀ ev ∈ [env, env'], ∀ j, a.E.value ev j = ε
  shares : ∀ j, optVal S env' j = optVal S env j

/-- **C82 (Dixit-Stiglitz with TFP).**  The varieties are substituted with elasticity `epsilon`. -/
theorem C82_dixit_stiglitz_partial (a : DSArgs) (ha : a.Ok) (coords : Dict Str (List Str)) (labels : List Str)
    (hc : dget coords a.d = some labels) (b : Backend) (v : Bool) (t : Str) (s : Option Str) (A : PExpr)
    (S : Option PExpr) (ht : Phrase .atom t A) (hs : OptArg s S) :
    ∃ eqs, dixitStiglitz (.str a.f) (.str a.p) a.o a.op a.e a.d coords b (some t) (s.map .str) v = .ok eqs ∧
      ∀ (ι : Type) [Fintype ι] (env env' : Str → ι → ℝ) (ε : ℝ), ComparableDS a (some A) S ε env env' →
        (∀ i, HoldsAll eqs env i) → (∀ i, HoldsAll eqs env' i) →
        ∀ j k, Substitution ε
          (a.X.value env j) (a.X.value env k) (a.P.value env j) (a.P.value env k)
          (a.X.value env' j) (a.X.value env' k) (a.P.value env' j) (a.P.value env' k) := by
  refine ⟨_, ds_eqs a coords labels hc b (some t) s v, ?_⟩
  intro ι _ env env' ε hcmp h h' j k
  obtain ⟨g1, g2, g3, g4, g5, g6⟩ := ha
  have dem : ∀ ev ∈ [env, env'], (∀ i, HoldsAll [dsFirst a labels b (some t) s v,
      dsDemand a.f a.p a.o a.op a.e (some t) s] ev i) → ∀ i l,
      CESDemand (a.Y.value ev i) (A.value ev i) (a.Q.value ev i) ε
        ⟨a.X.value ev l, a.P.value ev l, optVal S ev l⟩ := by
    intro ev hev hh i l
    have := ((says_dsDemand_some a.f a.p a.o a.op a.e t _ _ _ _ _ A g1 g2 g3 g4 g5 ht s S hs).holdsAt_iff ev
      l).1 (hh l _ (by simp))
    rw [hcmp.elasticity ev hev] at this
    obtain ⟨s1, s2, s3⟩ := hcmp.scalars ev hev l i
    change A.value ev l = A.value ev i at s3
    rwa [s1, s2, s3] at this
  have ratio : ∀ ev ∈ [env, env'], (∀ i, HoldsAll [dsFirst a labels b (some t) s v,
      dsDemand a.f a.p a.o a.op a.e (some t) s] ev i) →
      Real.log (a.X.value ev j / a.X.value ev k) = ε * (Real.log (a.P.value ev k / a.P.value ev j) +
        Real.log (optVal S ev j / optVal S ev k)) := by
    intro ev hev hh
    obtain ⟨u1, u2, u3, u4, u5⟩ := hcmp.positive ev hev j
    obtain ⟨w1, w2, w3, w4, w5⟩ := hcmp.positive ev hev k
    exact ces_ratio _ _ _ _ u1 u4 u2 ⟨_, _, _⟩ ⟨_, _, _⟩ ⟨u3, u5⟩ ⟨w3, w5⟩ (dem ev hev hh j j) (dem ev hev hh j k)
  unfold Substitution
  rw [ratio env (by simp) h, ratio env' (by simp) h', hcmp.shares, hcmp.shares]
  ring

/-- C82 is false of `dixit_stiglitz` without TFP: the varieties are substituted with elasticity `-epsilon`, more
is bought of what has become dearer. -/
theorem C82_dixit_stiglitz_inverted (a : DSArgs) (ha : a.Ok) (coords : Dict Str (List Str))
    (labels : List Str) (hc : dget coords a.d = some labels) (b : Backend) (v : Bool) (s : Option Str)
    (S : Option PExpr) (hs : OptArg s S) :
    ∃ eqs, dixitStiglitz (.str a.f) (.str a.p) a.o a.op a.e a.d coords b none (s.map .str) v = .ok eqs ∧
      ∀ (ι : Type) [Fintype ι] (env env' : Str → ι → ℝ) (ε : ℝ), ComparableDS a none S ε env env' →
        (∀ i, HoldsAll eqs env i) → (∀ i, HoldsAll eqs env' i) →
        ∀ j k, Substitution (-ε)
            (a.X.value env j) (a.X.value env k) (a.P.value env j) (a.P.value env k)
            (a.X.value env' j) (a.X.value env' k) (a.P.value env' j) (a.P.value env' k) ∧
          (ε ≠ 0 → a.P.value env' k / a.P.value env' j ≠ a.P.value env k / a.P.value env j →
            ¬ Substitution ε
            (a.X.value env j) (a.X.value env k) (a.P.value env j) (a.P.value env k)
            (a.X.value env' j) (a.X.value env' k) (a.P.value env' j) (a.P.value env' k)) := by
  refine ⟨_, ds_eqs a coords labels hc b none s v, ?_⟩
  intro ι _ env env' ε hcmp h h' j k
  obtain ⟨g1, g2, g3, g4, g5, g6⟩ := ha
  have dem : ∀ ev ∈ [env, env'], (∀ i, HoldsAll [dsFirst a labels b none s v,
      dsDemand a.f a.p a.o a.op a.e none s] ev i) → ∀ i l,
      CESDemand (a.Y.value ev i) 1 (a.Q.value ev i) (-ε) ⟨a.X.value ev l, a.P.value ev l, optVal S ev l⟩ := by
    intro ev hev hh i l
    have := ((says_dsDemand_none a.f a.p a.o a.op a.e _ _ _ _ _ g1 g2 g3 g4 g5 s S hs).holdsAt_iff ev
      l).1 (hh l _ (by simp))
    rw [hcmp.elasticity ev hev] at this
    obtain ⟨s1, s2, s3⟩ := hcmp.scalars ev hev l i
    rw [s1, s2] at this
    obtain ⟨u1, u2, u3, u4, u5⟩ := hcmp.positive ev hev l
    obtain ⟨-, w2, -, -, -⟩ := hcmp.positive ev hev i
    have hu : 0 ≤ optVal S ev l * a.Q.value ev i / a.P.value ev l := by positivity
    unfold CESDemand
    dsimp only
    rw [mul_one, div_one, Real.rpow_neg hu, this, div_eq_mul_inv]
  have ratio : ∀ ev ∈ [env, env'], (∀ i, HoldsAll [dsFirst a labels b none s v,
      dsDemand a.f a.p a.o a.op a.e none s] ev i) →
      Real.log (a.X.value ev j / a.X.value ev k) = (-ε) * (Real.log (a.P.value ev k / a.P.value ev j) +
        Real.log (optVal S ev j / optVal S ev k)) := by
    intro ev hev hh
    obtain ⟨u1, u2, u3, u4, u5⟩ := hcmp.positive ev hev j
    obtain ⟨w1, w2, w3, w4, w5⟩ := hcmp.positive ev hev k
    exact ces_ratio _ _ _ _ u1 one_pos u2 ⟨_, _, _⟩ ⟨_, _, _⟩ ⟨u3, u5⟩ ⟨w3, w5⟩ (dem ev hev hh j j)
      (dem ev hev hh j k)
  have hsub : Substitution (-ε)
            (a.X.value env j) (a.X.value env k) (a.P.value env j) (a.P.value env k)
            (a.X.value env' j) (a.X.value env' k) (a.P.value env' j) (a.P.value env' k) := by
    unfold Substitution
    rw [ratio env (by simp) h, ratio env' (by simp) h', hcmp.shares, hcmp.shares]
    ring
  refine ⟨hsub, fun hε hne hno => ?_⟩
  unfold Substitution at hsub hno
  rw [hsub] at hno
  have h2 : (2 * ε) * (Real.log (a.P.value env' k / a.P.value env' j) -
      Real.log (a.P.value env k / a.P.value env j)) = 0 := by linarith
  rcases mul_eq_zero.1 h2 with h3 | h3
  · exact hε (by linarith)
  · apply hne
    obtain ⟨-, -, u3, -, -⟩ := hcmp.positive env (by simp) j
    obtain ⟨-, -, u3', -, -⟩ := hcmp.positive env (by simp) k
    obtain ⟨-, -, w3, -, -⟩ := hcmp.positive env' (by simp) j
    obtain ⟨-, -, w3', -, -⟩ := hcmp.positive env' (by simp) k
    exact Real.log_injOn_pos (div_pos w3' w3) (div_pos u3' u3) (by linarith)

/-- The hypotheses of `C82_dixit_stiglitz_inverted` are met: two varieties, elasticity 2; from one state to the
other the price of the first variety doubles, and four times as much of it is bought. -/
example :
    let n : Str → PExpr := .var
    let a : DSArgs := ⟨"X".toList, "p".toList, "Y".toList, "Q".toList, "e".toList, "i".toList, n "X".toList,
      n "p".toList, n "Y".toList, n "Q".toList, n "e".toList⟩
    let env : Str → Bool → ℝ := fun x _ => if x = "e".toList then 2 else if x = "Q".toList then 2 else
      if x = "X".toList then 1 / 4 else if x = "Y".toList then 1 else 1
    let env' : Str → Bool → ℝ := fun x j => if x = "e".toList then 2 else if x = "Q".toList then 2 else
      if x = "X".toList then (if j then 1 else 1 / 4) else if x = "Y".toList then 1 else if j then 2 else 1
    a.Ok ∧ ComparableDS a none none 2 env env' ∧
    (∀ j, HoldsAt (dsDemand a.f a.p a.o a.op a.e none none) env j) ∧
    ∀ j, HoldsAt (dsDemand a.f a.p a.o a.op a.e none none) env' j := by
  have hn : ∀ x : Str, isIdent x = true → Phrase .atom x (.var x) := fun x h => Phrase.name h
  refine ⟨⟨hn _ rfl, hn _ rfl, hn _ rfl, hn _ rfl, hn _ rfl, rfl⟩, ?_, ?_, ?_⟩
  · constructor <;> simp [PExpr.value, optVal]
  · intro j
    rw [(says_dsDemand_none _ _ _ _ _ _ _ _ _ _ (hn _ rfl) (hn _ rfl) (hn _ rfl) (hn _ rfl) (hn _ rfl) none none
      trivial).holdsAt_iff]
    simp [PExpr.value, optVal]
    norm_num
  · intro j
    rw [(says_dsDemand_none _ _ _ _ _ _ _ _ _ _ (hn _ rfl) (hn _ rfl) (hn _ rfl) (hn _ rfl) (hn _ rfl) none none
      trivial).holdsAt_iff]
    cases j <;> simp [PExpr.value, optVal] <;> norm_num

end Verif
