import Verif.Lemmas.Optimum
import Verif.Props.Returns

/-!
# C84: the generated equations are those of a producer who maximises profits

The equations are the texts the generators return, read by Python's grammar (as in C40).
-/

namespace Verif

open scoped BigOperators

theorem ces_lists (xs : List FactorArg) (o op tfp e : Str) (v : Bool) :
    (ces (.list (xs.map (·.name))) (.list (xs.map (·.price))) o op tfp
        (.list (xs.map (·.share))) e .no v).eqs =
      .ok ((if v then valueEquation (xs.map (·.price)) (xs.map (·.name)) o op
          else cesProduction (xs.map (·.name)) (xs.map (·.share)) o tfp e) ::
        xs.map fun f => cesDemand f.name f.price f.share o op tfp e) := by
  unfold ces
  dsimp only
  rw [addSecondAlpha_same _ _ (by simp)]
  dsimp only
  rw [checkLengths_same _ _ _ (by simp) (by simp)]
  simp only [reduceCtorEq, or_self, if_false, StrArg.iter, zip3_map, List.map_map, Function.comp_def]

/-- The values of the factors, their prices and shares at a point are positive. -/
def PositiveAt {ι : Type} [Fintype ι] (xs : List FactorArg) (env : Str → ι → ℝ) (i : ι) : Prop :=
  ∀ f ∈ xs, 0 < f.X.value env i ∧ 0 < f.p.value env i ∧ 0 < f.a.value env i

theorem PositiveAt.vals {ι : Type} [Fintype ι] {xs : List FactorArg} {env : Str → ι → ℝ} {i : ι}
    (h : PositiveAt xs env i) : ∀ g ∈ xs.map (·.val env i), g.Pos ∧ 0 < g.X := by
  intro g hg
  obtain ⟨f, hf, rfl⟩ := List.mem_map.1 hg
  obtain ⟨h1, h2, h3⟩ := h f hf
  exact ⟨⟨h2, h3⟩, h1⟩

/-- **C84 (Cobb-Douglas).**  At positive values with shares adding up to at most one, the equations generated by
`cobb_douglass` hold exactly when the bundle of factors and the output maximise profits at the given prices,
among all bundles of positive amounts and what `A ∏ X_i ^ α_i` gives for them. -/
theorem C84_cobb_douglass (xs : List FactorArg) (hne : xs ≠ []) (hok : ∀ f ∈ xs, f.Ok)
    (o op tfp : Str) (Y P A : PExpr) (hY : Phrase .atom o Y) (hP : Phrase .atom op P)
    (hA : Phrase .atom tfp A) :
    ∃ eqs, (cobbDouglass (.list (xs.map (·.name))) (.list (xs.map (·.price))) o op
        (.list (xs.map (·.share))) tfp false).eqs = .ok eqs ∧
      ∀ (ι : Type) [Fintype ι] (env : Str → ι → ℝ) (i : ι), PositiveAt xs env i →
        0 < Y.value env i → 0 < P.value env i → (xs.map fun f => f.a.value env i).sum ≤ 1 →
        (HoldsAll eqs env i ↔
          ProfitMaximum (fun y gs => CobbDouglasProduction y (A.value env i) gs) (Y.value env i) (P.value env i)
            (xs.map (·.val env i))) := by
  refine ⟨_, cobb_lists xs o op tfp false, ?_⟩
  intro ι _ env i hpos hYp hPp hsum
  rw [holdsAll_cons, if_neg (by decide), (says_cobbProduction xs hne hok o tfp Y A hY hA).holdsAt_iff env i,
    ← cobb_optimum hYp hPp hpos.vals (by rw [List.map_map]; exact hsum)]
  refine and_congr Iff.rfl ?_
  unfold HoldsAll
  simp only [List.forall_mem_map]
  exact forall₂_congr fun f hf => (says_cobbDemand f (hok f hf) o op tfp Y P hY hP.s).holdsAt_iff env i

/-- The restriction on the shares is needed: with shares adding up to more than one there is no profit maximum at
which anything is produced, so the equations, wherever they hold, do not describe one. -/
theorem C84_cobb_douglass_shares (xs : List FactorArg) (hne : xs ≠ []) (hok : ∀ f ∈ xs, f.Ok)
    (o op tfp : Str) (Y P A : PExpr) (hY : Phrase .atom o Y) (hA : Phrase .atom tfp A) :
    ∃ eqs, (cobbDouglass (.list (xs.map (·.name))) (.list (xs.map (·.price))) o op
        (.list (xs.map (·.share))) tfp false).eqs = .ok eqs ∧
      ∀ (ι : Type) [Fintype ι] (env : Str → ι → ℝ) (i : ι), PositiveAt xs env i →
        0 < Y.value env i → 0 < P.value env i → 1 < (xs.map fun f => f.a.value env i).sum →
        HoldsAll eqs env i →
          ¬ ProfitMaximum (fun y gs => CobbDouglasProduction y (A.value env i) gs) (Y.value env i)
            (P.value env i) (xs.map (·.val env i)) := by
  refine ⟨_, cobb_lists xs o op tfp false, ?_⟩
  intro ι _ env i hpos hYp hPp hsum hh
  rw [holdsAll_cons, if_neg (by decide),
    (says_cobbProduction xs hne hok o tfp Y A hY hA).holdsAt_iff env i] at hh
  exact cobb_no_optimum hYp hPp hpos.vals (by rw [List.map_map]; exact hsum) hh.1

/-- The generated equations of a CES block, with the production function or the value definition, are the
production function and the demands. -/
theorem ces_holds_iff (xs : List FactorArg) (hne : xs ≠ []) (hok : ∀ f ∈ xs, f.Ok)
    (o op tfp e : Str) (Y P A E : PExpr) (hY : Phrase .atom o Y) (hP : Phrase .atom op P)
    (hA : Phrase .atom tfp A) (hE : Phrase .atom e E) (v : Bool) {ι : Type} [Fintype ι] (env : Str → ι → ℝ) (i : ι)
    (hpos : PositiveAt xs env i) (hYp : 0 < Y.value env i) (hPp : 0 < P.value env i) (hAp : 0 < A.value env i)
    (hE0 : E.value env i ≠ 0) (hE1 : E.value env i ≠ 1) :
    HoldsAll ((if v then valueEquation (xs.map (·.price)) (xs.map (·.name)) o op
          else cesProduction (xs.map (·.name)) (xs.map (·.share)) o tfp e) ::
        xs.map fun f => cesDemand f.name f.price f.share o op tfp e) env i ↔
      CESProduction (Y.value env i) (A.value env i) (E.value env i) (xs.map (·.val env i)) ∧
      ∀ g ∈ xs.map (·.val env i), CESDemand (Y.value env i) (A.value env i) (P.value env i) (E.value env i) g := by
  have hdem : HoldsAll (xs.map fun f => cesDemand f.name f.price f.share o op tfp e) env i ↔
      ∀ g ∈ xs.map (·.val env i),
        CESDemand (Y.value env i) (A.value env i) (P.value env i) (E.value env i) g := by
    unfold HoldsAll
    simp only [List.forall_mem_map]
    exact forall₂_congr fun f hf => (says_cesDemand f (hok f hf) o op tfp e Y P A E hY hP hA hE).holdsAt_iff env i
  rw [holdsAll_cons, hdem]
  cases v with
  | false =>
    rw [if_neg (by decide), (says_cesProduction xs hne hok o tfp e Y A E hY hA hE).holdsAt_iff env i]
  | true =>
    rw [if_pos rfl, (says_value xs hne hok o op Y P hY hP).holdsAt_iff env i]
    refine and_congr_left fun hd => ?_
    have hp : ∀ g ∈ xs.map (·.val env i), g.Pos := fun g hg => (hpos.vals g hg).1
    rw [ces_production_iff _ _ _ _ hYp hAp hPp hE0 hE1 _ hp hd, ces_value_iff _ _ _ _ hYp hAp hPp _ hp hd]

/-- **C84 (CES).**  At positive values with an elasticity other than one, the equations generated by `CES`, with
the production function or the value definition, hold exactly when the bundle of factors and the output
maximise profits at the given prices. -/
theorem C84_ces (xs : List FactorArg) (hne : xs ≠ []) (hok : ∀ f ∈ xs, f.Ok)
    (o op tfp e : Str) (Y P A E : PExpr) (hY : Phrase .atom o Y) (hP : Phrase .atom op P)
    (hA : Phrase .atom tfp A) (hE : Phrase .atom e E) (v : Bool) :
    ∃ eqs, (ces (.list (xs.map (·.name))) (.list (xs.map (·.price))) o op tfp
        (.list (xs.map (·.share))) e .no v).eqs = .ok eqs ∧
      ∀ (ι : Type) [Fintype ι] (env : Str → ι → ℝ) (i : ι), PositiveAt xs env i →
        0 < Y.value env i → 0 < P.value env i → 0 < A.value env i → 0 < E.value env i → E.value env i ≠ 1 →
        (HoldsAll eqs env i ↔
          ProfitMaximum (fun y gs => CESProduction y (A.value env i) (E.value env i) gs) (Y.value env i)
            (P.value env i) (xs.map (·.val env i))) := by
  refine ⟨_, ces_lists xs o op tfp e v, ?_⟩
  intro ι _ env i hpos hYp hPp hAp hE0 hE1
  rw [ces_holds_iff xs hne hok o op tfp e Y P A E hY hP hA hE v env i hpos hYp hPp hAp hE0.ne' hE1]
  exact ces_optimum hYp hAp hPp hE0 hE1 (by simpa using hne) hpos.vals

/-- **C84 (CES with a negative elasticity, that is, constant elasticity of transformation).**  The equations hold
exactly when the producer, who buys `output` and sells the factors, maximises profits. -/
theorem C84_cet (xs : List FactorArg) (hne : xs ≠ []) (hok : ∀ f ∈ xs, f.Ok)
    (o op tfp e : Str) (Y P A E : PExpr) (hY : Phrase .atom o Y) (hP : Phrase .atom op P)
    (hA : Phrase .atom tfp A) (hE : Phrase .atom e E) (v : Bool) :
    ∃ eqs, (ces (.list (xs.map (·.name))) (.list (xs.map (·.price))) o op tfp
        (.list (xs.map (·.share))) e .no v).eqs = .ok eqs ∧
      ∀ (ι : Type) [Fintype ι] (env : Str → ι → ℝ) (i : ι), PositiveAt xs env i →
        0 < Y.value env i → 0 < P.value env i → 0 < A.value env i → E.value env i < 0 →
        (HoldsAll eqs env i ↔
          RevenueMaximum (fun y gs => CESProduction y (A.value env i) (E.value env i) gs) (Y.value env i)
            (P.value env i) (xs.map (·.val env i))) := by
  refine ⟨_, ces_lists xs o op tfp e v, ?_⟩
  intro ι _ env i hpos hYp hPp hAp hE0
  rw [ces_holds_iff xs hne hok o op tfp e Y P A E hY hP hA hE v env i hpos hYp hPp hAp hE0.ne (by linarith)]
  exact cet_optimum hYp hAp hPp hE0 (by simpa using hne) hpos.vals

/-- **C84 (Leontief).**  The equations generated by `leontief` hold exactly when the bundle and the output
maximise profits among all bundles and outputs for which there is enough of every factor. -/
theorem C84_leontief (xs : List FactorArg) (hlen : 2 ≤ xs.length) (hok : ∀ f ∈ xs, f.Ok)
    (hsh : ∀ f ∈ xs, Phrase .factor f.share f.a)
    (o op d : Str) (coords : Dict Str (List Str)) (sd : Option Str) (b1 b2 : Bool) (bk : Backend)
    (Y P : PExpr) (hY : Phrase .atom o Y) (hP : Phrase .sum op P) :
    ∃ eqs, leontief (.list (xs.map (·.name))) (.list (xs.map (·.price))) o op (.list (xs.map (·.share)))
        (.str d) coords sd b1 b2 bk = .ok eqs ∧
      ∀ (ι : Type) [Fintype ι] (env : Str → ι → ℝ) (i : ι), PositiveAt xs env i →
        0 < Y.value env i → 0 < P.value env i →
        (HoldsAll eqs env i ↔
          ProfitMaximum LeontiefFeasible (Y.value env i) (P.value env i) (xs.map (·.val env i))) := by
  obtain ⟨zp, demands, h1, h2, h3, h4⟩ := C40_leontief xs hlen hok hsh o op d coords sd b1 b2 bk Y P hY hP
  refine ⟨_, h1, ?_⟩
  intro ι _ env i hpos hYp hPp
  rw [holdsAll_cons, ← leontief_optimum hYp hPp hpos.vals, h2.holdsAt_iff env i]
  refine and_congr Iff.rfl ?_
  constructor
  · intro hh g hg
    obtain ⟨f, hf, rfl⟩ := List.mem_map.1 hg
    obtain ⟨j, hj⟩ := List.getElem?_of_mem hf
    obtain ⟨t, ht, hs⟩ := h4 j f hj
    exact (hs.holdsAt_iff env i).1 (hh t (List.mem_of_getElem? ht))
  · intro hh t ht
    obtain ⟨j, hj⟩ := List.getElem?_of_mem ht
    have hjl : j < xs.length := by rw [← h3]; exact (List.getElem?_eq_some_iff.1 hj).1
    obtain ⟨t', ht', hs⟩ := h4 j xs[j] (List.getElem?_eq_getElem hjl)
    rw [hj] at ht'
    cases ht'
    exact (hs.holdsAt_iff env i).2 (hh _ (List.mem_map.2 ⟨_, List.getElem_mem hjl, rfl⟩))

/-! ## Dixit-Stiglitz -/

/-- A state of a Dixit-Stiglitz block: output `y`, output price `q`, technology `t` and elasticity `ε` are single
numbers, and everything is positive. -/
structure DSState {ι : Type} [Fintype ι] (a : DSArgs) (A S : Option PExpr) (env : Str → ι → ℝ) (y q t ε : ℝ) :
    Prop where
  scalars : ∀ j, a.Y.value env j = y ∧ a.Q.value env j = q ∧ optVal A env j = t ∧ a.E.value env j = ε
  positive : 0 < y ∧ 0 < q ∧ 0 < t
  varieties : ∀ j, 0 < a.X.value env j ∧ 0 < a.P.value env j ∧ 0 < optVal S env j

/-- The varieties with their prices and shares. -/
noncomputable def DSArgs.vals {ι : Type} [Fintype ι] (a : DSArgs) (S : Option PExpr) (env : Str → ι → ℝ) :
    List FactorVal :=
  Finset.univ.toList.map fun j => ⟨a.X.value env j, a.P.value env j, optVal S env j⟩

theorem DSArgs.sum_vals {ι : Type} [Fintype ι] (a : DSArgs) (S : Option PExpr) (env : Str → ι → ℝ)
    (g : FactorVal → ℝ) :
    ((a.vals S env).map g).sum = ∑ j, g ⟨a.X.value env j, a.P.value env j, optVal S env j⟩ := by
  unfold DSArgs.vals
  rw [List.map_map, ← Finset.sum_map_toList]
  rfl

theorem DSArgs.forall_vals {ι : Type} [Fintype ι] (a : DSArgs) (S : Option PExpr) (env : Str → ι → ℝ)
    (Q : FactorVal → Prop) :
    (∀ g ∈ a.vals S env, Q g) ↔ ∀ j, Q ⟨a.X.value env j, a.P.value env j, optVal S env j⟩ := by
  unfold DSArgs.vals
  simp

theorem DSState.vals_pos {ι : Type} [Fintype ι] {a : DSArgs} {A S : Option PExpr} {env : Str → ι → ℝ}
    {y q t ε : ℝ} (h : DSState a A S env y q t ε) : ∀ g ∈ a.vals S env, g.Pos ∧ 0 < g.X := by
  rw [DSArgs.forall_vals]
  intro j
  obtain ⟨h1, h2, h3⟩ := h.varieties j
  exact ⟨⟨h2, h3⟩, h1⟩

theorem DSArgs.vals_ne {ι : Type} [Fintype ι] [Nonempty ι] (a : DSArgs) (S : Option PExpr) (env : Str → ι → ℝ) :
    a.vals S env ≠ [] := by
  unfold DSArgs.vals
  simp [Finset.univ_eq_empty_iff]

/-- The first equation of the block. -/
theorem ds_first_holds {ι : Type} [Fintype ι] [Nonempty ι] (a : DSArgs) (ha : a.Ok) (labels : List Str)
    (b : Backend) (v : Bool) (t s : Option Str) (A S : Option PExpr) (ht : OptArg t A) (hs : OptArg s S)
    {env : Str → ι → ℝ} {y q r ε : ℝ} (hst : DSState a A S env y q r ε) :
    (∀ i, HoldsAt (dsFirst a labels b t s v) env i) ↔
      if v then ValueDefinition y q (a.vals S env) else CESProduction y r ε (a.vals S env) := by
  obtain ⟨g1, g2, g3, g4, g5, g6⟩ := ha
  have hq := hst.positive.2.1
  unfold dsFirst
  cases v with
  | true =>
    simp only [if_true]
    have : ∀ i, HoldsAt (dsValue a.f a.p a.o a.op) env i ↔ ValueDefinition y q (a.vals S env) := by
      intro i
      obtain ⟨s1, s2, s3, s4⟩ := hst.scalars i
      rw [(says_dsValue a.f a.p a.o a.op a.X a.P a.Y a.Q g1 g2 g3 g4).holdsAt_iff env i, s1, s2]
      unfold ValueDefinition
      rw [DSArgs.sum_vals, eq_div_iff hq.ne']
    simp only [this]
    exact forall_const _
  | false =>
    simp only [if_false, Bool.false_eq_true]
    have : ∀ i, HoldsAt (dsProduction (dsKernel a.f a.e s) a.o a.e a.d (decStr (labels.length - 1)) t b) env i ↔
        CESProduction y r ε (a.vals S env) := by
      intro i
      obtain ⟨s1, s2, s3, s4⟩ := hst.scalars i
      rw [(says_dsProduction a.f a.o a.e a.d _ a.X a.Y a.E g1 g3 g5 g6 (decStr_tokens _) t s A S ht hs
          b).holdsAt_iff env i, s1, s3, s4]
      unfold CESProduction
      rw [DSArgs.sum_vals]
      simp only [fun j => (hst.scalars j).2.2.2]
    simp only [this]
    exact forall_const _

/-- **C84 (Dixit-Stiglitz with TFP).**  The equations generated by `dixit_stiglitz` with a technology parameter
hold exactly when the bundle of varieties and the output maximise profits. -/
theorem C84_dixit_stiglitz_partial (a : DSArgs) (ha : a.Ok) (coords : Dict Str (List Str)) (labels : List Str)
    (hc : dget coords a.d = some labels) (b : Backend) (v : Bool) (t : Str) (s : Option Str) (A : PExpr)
    (S : Option PExpr) (ht : Phrase .atom t A) (hs : OptArg s S) :
    ∃ eqs, dixitStiglitz (.str a.f) (.str a.p) a.o a.op a.e a.d coords b (some t) (s.map .str) v = .ok eqs ∧
      ∀ (ι : Type) [Fintype ι] [Nonempty ι] (env : Str → ι → ℝ) (y q r ε : ℝ),
        DSState a (some A) S env y q r ε → 0 < ε → ε ≠ 1 →
        ((∀ i, HoldsAll eqs env i) ↔
          ProfitMaximum (fun y gs => CESProduction y r ε gs) y q (a.vals S env)) := by
  refine ⟨_, ds_eqs a coords labels hc b (some t) s v, ?_⟩
  intro ι _ _ env y q r ε hst hε hε1
  obtain ⟨hy, hq, hr⟩ := hst.positive
  have hdem : (∀ i, HoldsAt (dsDemand a.f a.p a.o a.op a.e (some t) s) env i) ↔
      ∀ g ∈ a.vals S env, CESDemand y r q ε g := by
    rw [DSArgs.forall_vals]
    obtain ⟨g1, g2, g3, g4, g5, g6⟩ := ha
    refine forall_congr' fun i => ?_
    obtain ⟨s1, s2, s3, s4⟩ := hst.scalars i
    change A.value env i = r at s3
    rw [(says_dsDemand_some a.f a.p a.o a.op a.e t _ _ _ _ _ A g1 g2 g3 g4 g5 ht s S hs).holdsAt_iff env i,
      s1, s2, s3, s4]
  have hfirst := ds_first_holds a ha labels b v (some t) s (some A) S ht hs hst
  have hall : (∀ i, HoldsAll [dsFirst a labels b (some t) s v, dsDemand a.f a.p a.o a.op a.e (some t) s] env i) ↔
      (∀ i, HoldsAt (dsFirst a labels b (some t) s v) env i) ∧
        ∀ i, HoldsAt (dsDemand a.f a.p a.o a.op a.e (some t) s) env i := by
    rw [← forall_and]
    exact forall_congr' fun i => by simp [HoldsAll]
  rw [hall, hfirst, hdem, ← ces_optimum hy hr hq hε hε1 (a.vals_ne S env) hst.vals_pos]
  refine and_congr_left fun hd => ?_
  cases v with
  | false => rfl
  | true =>
    have hp : ∀ g ∈ a.vals S env, g.Pos := fun g hg => (hst.vals_pos g hg).1
    rw [if_pos rfl, ces_production_iff _ _ _ _ hy hr hq hε.ne' hε1 _ hp hd, ces_value_iff _ _ _ _ hy hr hq _ hp hd]

/-- C84 is false of `dixit_stiglitz` without TFP (`None`, which is its default): wherever the equations hold, the
bundle does not maximise profits unless the price of every variety happens to be its share times the output
price. -/
theorem C84_dixit_stiglitz_inverted (a : DSArgs) (ha : a.Ok) (coords : Dict Str (List Str))
    (labels : List Str) (hc : dget coords a.d = some labels) (b : Backend) (v : Bool) (s : Option Str)
    (S : Option PExpr) (hs : OptArg s S) :
    ∃ eqs, dixitStiglitz (.str a.f) (.str a.p) a.o a.op a.e a.d coords b none (s.map .str) v = .ok eqs ∧
      ∀ (ι : Type) [Fintype ι] [Nonempty ι] (env : Str → ι → ℝ) (y q r ε : ℝ),
        DSState a none S env y q r ε → 0 < ε → ε ≠ 1 → (∀ i, HoldsAll eqs env i) →
        ∀ j, a.P.value env j ≠ optVal S env j * q →
          ¬ ProfitMaximum (fun y gs => CESProduction y 1 ε gs) y q (a.vals S env) := by
  refine ⟨_, ds_eqs a coords labels hc b none s v, ?_⟩
  intro ι _ _ env y q r ε hst hε hε1 hh j hj hmax
  obtain ⟨hy, hq, -⟩ := hst.positive
  have hd := ((ces_optimum hy one_pos hq hε hε1 (a.vals_ne S env) hst.vals_pos).2 hmax).2
  rw [DSArgs.forall_vals] at hd
  have h1 := hd j
  obtain ⟨g1, g2, g3, g4, g5, g6⟩ := ha
  obtain ⟨s1, s2, s3, s4⟩ := hst.scalars j
  have h2 := ((says_dsDemand_none a.f a.p a.o a.op a.e _ _ _ _ _ g1 g2 g3 g4 g5 s S hs).holdsAt_iff env j).1
    (hh j _ (by simp))
  rw [s1, s2, s4] at h2
  unfold CESDemand at h1
  dsimp only at h1
  rw [mul_one, div_one, h2] at h1
  obtain ⟨-, hP, hS⟩ := hst.varieties j
  have hu : 0 < optVal S env j * q / a.P.value env j := by positivity
  have hz : 0 < (optVal S env j * q / a.P.value env j) ^ ε := Real.rpow_pos_of_pos hu _
  have h3 : (optVal S env j * q / a.P.value env j) ^ ε = 1 := by
    generalize (optVal S env j * q / a.P.value env j) ^ ε = z at *
    rw [div_eq_iff hz.ne'] at h1
    have h4 : y * (z * z) = y * 1 := by linarith
    have h5 := mul_left_cancel₀ hy.ne' h4
    nlinarith
  have h4 : optVal S env j * q / a.P.value env j = 1 := by
    have := Real.rpow_rpow_inv hu.le hε.ne'
    rw [h3, Real.one_rpow] at this
    exact this.symm
  rw [div_eq_one_iff_eq hP.ne'] at h4
  exact hj h4.symm

/-! ## Examples -/

/-- The hypotheses of `C84_cobb_douglass` are met and the equations hold: two factors with share `1/2`. -/
example :
    let n : Str → PExpr := .var
    let xs : List FactorArg := [⟨"L".toList, "w".toList, "a".toList, n "L".toList, n "w".toList, n "a".toList⟩,
      ⟨"K".toList, "r".toList, "a".toList, n "K".toList, n "r".toList, n "a".toList⟩]
    let env : Str → Unit → ℝ := fun x _ => if x = "P".toList then 4 else if x = "a".toList then 1 / 2 else
      if x = "L".toList then 4 else if x = "r".toList then 4 else if x = "Y".toList then 2 else 1
    xs ≠ [] ∧ (∀ f ∈ xs, f.Ok) ∧ PositiveAt xs env () ∧ (xs.map fun f => f.a.value env ()).sum ≤ 1 ∧
    CobbDouglasProduction ((n "Y".toList).value env ()) ((n "A".toList).value env ()) (xs.map (·.val env ())) ∧
    ∀ f ∈ xs, CobbDouglasDemand ((n "Y".toList).value env ()) ((n "P".toList).value env ()) (f.val env ()) := by
  have hn : ∀ x : Str, isIdent x = true → Phrase .atom x (.var x) := fun x h => Phrase.name h
  refine ⟨by simp, ?_, ?_, ?_, ?_, ?_⟩
  · intro f hf
    simp only [List.mem_cons, List.not_mem_nil, or_false] at hf
    rcases hf with rfl | rfl
    · exact ⟨hn _ rfl, (hn _ rfl).t, (hn _ rfl).s⟩
    · exact ⟨hn _ rfl, (hn _ rfl).t, (hn _ rfl).s⟩
  · intro f hf
    simp only [List.mem_cons, List.not_mem_nil, or_false] at hf
    rcases hf with rfl | rfl <;> simp [PExpr.value]
  · simp [PExpr.value]
    norm_num
  · have h4 : (4 : ℝ) ^ (2⁻¹ : ℝ) = 2 := by
      rw [← one_div, ← Real.sqrt_eq_rpow, show (4 : ℝ) = 2 ^ 2 by norm_num, Real.sqrt_sq (by norm_num)]
    simp [CobbDouglasProduction, FactorArg.val, PExpr.value, h4]
  · intro f hf
    simp only [List.mem_cons, List.not_mem_nil, or_false] at hf
    rcases hf with rfl | rfl <;> simp [CobbDouglasDemand, FactorArg.val, PExpr.value] <;> norm_num

/-- The hypotheses of `C84_ces` are met and the equations hold (elasticity 2, as in the example for C81); and those
of `C84_cet` with elasticity `-1`. -/
example :
    let fs : List FactorVal := [⟨1, 1, 1 / 2⟩, ⟨1, 1, 1 / 2⟩]
    (∀ f ∈ fs, f.Pos ∧ 0 < f.X) ∧ (CESProduction 1 1 2 fs ∧ ∀ f ∈ fs, CESDemand 1 1 2 2 f) ∧
      (CESProduction 1 1 (-1) fs ∧ ∀ f ∈ fs, CESDemand 1 1 2 (-1) f) := by
  refine ⟨?_, ⟨?_, ?_⟩, ?_, ?_⟩
  · simp [FactorVal.Pos]
  · simp [CESProduction]
    norm_num
  · simp [CESDemand]
  · simp [CESProduction]
    norm_num
  · simp [CESDemand]

/-- The hypotheses of `C84_leontief` are met: two units of labour and one of capital for each unit of output. -/
example :
    let fs : List FactorVal := [⟨4, 1, 2⟩, ⟨2, 3, 1⟩]
    (∀ f ∈ fs, f.Pos ∧ 0 < f.X) ∧ (2 : ℝ) = factorCost fs / 5 ∧ ∀ f ∈ fs, LeontiefDemand 2 f := by
  refine ⟨?_, ?_, ?_⟩
  · simp [FactorVal.Pos]
  · simp [factorCost]
    norm_num
  · simp [LeontiefDemand]
    norm_num

/-- Where `C84_dixit_stiglitz_inverted` applies: eight varieties at price 1, output price 2, elasticity 2 and
shares 1, where the generated equations (with the value definition) hold. -/
example :
    let n : Str → PExpr := .var
    let a : DSArgs := ⟨"X".toList, "p".toList, "Y".toList, "Q".toList, "e".toList, "i".toList, n "X".toList,
      n "p".toList, n "Y".toList, n "Q".toList, n "e".toList⟩
    let env : Str → Fin 8 → ℝ := fun x _ => if x = "e".toList then 2 else if x = "Q".toList then 2 else
      if x = "X".toList then 1 / 4 else if x = "Y".toList then 1 else 1
    a.Ok ∧ DSState a none none env 1 2 1 2 ∧
    (∀ j, HoldsAt (dsValue a.f a.p a.o a.op) env j) ∧ (∀ j, HoldsAt (dsDemand a.f a.p a.o a.op a.e none none) env j) ∧
    ∀ j, a.P.value env j ≠ optVal (none : Option PExpr) env j * 2 := by
  have hn : ∀ x : Str, isIdent x = true → Phrase .atom x (.var x) := fun x h => Phrase.name h
  refine ⟨⟨hn _ rfl, hn _ rfl, hn _ rfl, hn _ rfl, hn _ rfl, rfl⟩, ?_, ?_, ?_, ?_⟩
  · constructor <;> simp [PExpr.value, optVal]
  · intro j
    rw [(says_dsValue _ _ _ _ _ _ _ _ (hn _ rfl) (hn _ rfl) (hn _ rfl) (hn _ rfl)).holdsAt_iff]
    simp [PExpr.value]
    norm_num
  · intro j
    rw [(says_dsDemand_none _ _ _ _ _ _ _ _ _ _ (hn _ rfl) (hn _ rfl) (hn _ rfl) (hn _ rfl) (hn _ rfl) none none
      trivial).holdsAt_iff]
    simp [PExpr.value, optVal]
    norm_num
  · intro j
    simp [PExpr.value, optVal]

end Verif
