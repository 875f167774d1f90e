import Verif.Props.Production
import Verif.Lemmas.DixitStiglitz
import Verif.Lemmas.ProductionMath

/-!
# C41, C42: relations between the generated equations

`HoldsAt s env i`: the text `s` is an equation that holds when the names have the values `env` (at the
index `i` of the dimension).
-/

namespace Verif

open scoped BigOperators

/-- C41, CES, on the texts returned by the generator: at positive values (elasticity not 0 or 1)
satisfying the generated factor demands, the production function of `CES(…)` holds iff the value
equation of `CES(…, use_value_definition=True)` holds. -/
theorem C41_ces (xs : List FactorArg) (hne : xs ≠ []) (hok : ∀ f ∈ xs, f.Ok)
    (o op tfp e : Str) (Y P A E : PExpr) (hY : Phrase .atom o Y) (hP : Phrase .atom op P)
    (hA : Phrase .atom tfp A) (hE : Phrase .atom e E) :
    ∃ prod value demands,
      (ces (.list (xs.map (·.name))) (.list (xs.map (·.price))) o op tfp
        (.list (xs.map (·.share))) e .no false).eqs = .ok (prod :: demands) ∧
      (ces (.list (xs.map (·.name))) (.list (xs.map (·.price))) o op tfp
        (.list (xs.map (·.share))) e .no true).eqs = .ok (value :: demands) ∧
      ∀ (ι : Type) [Fintype ι] (env : Str → ι → ℝ) (i : ι), HoldsAll demands env i →
        0 < Y.value env i → 0 < P.value env i → 0 < A.value env i →
        E.value env i ≠ 0 → E.value env i ≠ 1 →
        (∀ f ∈ xs, 0 < f.p.value env i ∧ 0 < f.a.value env i) →
        (HoldsAt prod env i ↔ HoldsAt value env i) := by
  have hlists : ∀ v, (ces (.list (xs.map (·.name))) (.list (xs.map (·.price))) o op tfp
        (.list (xs.map (·.share))) e .no v).eqs =
      .ok ((if v then valueEquation (xs.map (·.price)) (xs.map (·.name)) o op
          else cesProduction (xs.map (·.name)) (xs.map (·.share)) o tfp e) ::
        xs.map fun f => cesDemand f.name f.price f.share o op tfp e) := by
    intro v
    unfold ces
    dsimp only
    rw [addSecondAlpha_same _ _ (by simp)]
    dsimp only
    rw [checkLengths_same _ _ _ (by simp) (by simp)]
    simp only [reduceCtorEq, or_self, if_false, StrArg.iter, zip3_map, List.map_map, Function.comp_def]
  refine ⟨_, _, _, hlists false, hlists true, ?_⟩
  intro ι _ env i hd hYp hPp hAp hE0 hE1 hpos
  have hd' : ∀ g ∈ xs.map (·.val env i),
      CESDemand (Y.value env i) (A.value env i) (P.value env i) (E.value env i) g := by
    intro g hg
    obtain ⟨f, hf, rfl⟩ := List.mem_map.1 hg
    have := hd _ (List.mem_map.2 ⟨f, hf, rfl⟩)
    exact ((says_cesDemand f (hok f hf) o op tfp e Y P A E hY hP hA hE).holdsAt_iff env i).1 this
  have hpos' : ∀ g ∈ xs.map (·.val env i), g.Pos := by
    intro g hg
    obtain ⟨f, hf, rfl⟩ := List.mem_map.1 hg
    exact hpos f hf
  rw [if_neg (by decide), if_pos rfl,
    (says_cesProduction xs hne hok o tfp e Y A E hY hA hE).holdsAt_iff env i,
    (says_value xs hne hok o op Y P hY hP).holdsAt_iff env i,
    ces_production_iff _ _ _ _ hYp hAp hPp hE0 hE1 _ hpos' hd',
    ces_value_iff _ _ _ _ hYp hAp hPp _ hpos' hd']

theorem cobb_lists (xs : List FactorArg) (o op tfp : Str) (v : Bool) :
    (cobbDouglass (.list (xs.map (·.name))) (.list (xs.map (·.price))) o op
        (.list (xs.map (·.share))) tfp v).eqs =
      .ok ((if v then valueEquation (xs.map (·.price)) (xs.map (·.name)) o op
          else cobbProduction (xs.map (·.name)) (xs.map (·.share)) o tfp) ::
        xs.map fun f => cobbDemand f.name f.price f.share o op tfp) := by
  unfold cobbDouglass
  dsimp only [StrArg.atLeastList]
  rw [addSecondAlpha_same _ _ (by simp)]
  dsimp only
  rw [checkLengths_same _ _ _ (by simp) (by simp)]
  simp only [StrArg.iter, zip3_map, List.map_map, Function.comp_def]

/-- C41 for Cobb-Douglas, what holds (`_partial`: only one direction).  With shares adding up to one, the
demands alone imply the value equation; the production function then holds iff the output price is
the unit cost `1 / (A ∏ (α_i / p_i) ^ α_i)`.  In particular it implies the value equation. -/
theorem C41_cobb_douglass_partial (xs : List FactorArg) (hne : xs ≠ []) (hok : ∀ f ∈ xs, f.Ok)
    (o op tfp : Str) (Y P A : PExpr) (hY : Phrase .atom o Y) (hP : Phrase .atom op P)
    (hA : Phrase .atom tfp A) :
    ∃ prod value demands,
      (cobbDouglass (.list (xs.map (·.name))) (.list (xs.map (·.price))) o op
        (.list (xs.map (·.share))) tfp false).eqs = .ok (prod :: demands) ∧
      (cobbDouglass (.list (xs.map (·.name))) (.list (xs.map (·.price))) o op
        (.list (xs.map (·.share))) tfp true).eqs = .ok (value :: demands) ∧
      ∀ (ι : Type) [Fintype ι] (env : Str → ι → ℝ) (i : ι), HoldsAll demands env i →
        0 < Y.value env i → 0 < P.value env i →
        (∀ f ∈ xs, 0 < f.p.value env i ∧ 0 < f.a.value env i) →
        (xs.map fun f => f.a.value env i).sum = 1 →
        HoldsAt value env i ∧
        (HoldsAt prod env i ↔ P.value env i * (A.value env i *
          (xs.map fun f => (f.a.value env i / f.p.value env i) ^ f.a.value env i).prod) = 1) := by
  refine ⟨_, _, _, cobb_lists xs o op tfp false, cobb_lists xs o op tfp true, ?_⟩
  intro ι _ env i hd hYp hPp hpos hsum
  have hd' : ∀ g ∈ xs.map (·.val env i), CobbDouglasDemand (Y.value env i) (P.value env i) g := by
    intro g hg
    obtain ⟨f, hf, rfl⟩ := List.mem_map.1 hg
    have := hd _ (List.mem_map.2 ⟨f, hf, rfl⟩)
    exact ((says_cobbDemand f (hok f hf) o op tfp Y P hY hP.s).holdsAt_iff env i).1 this
  have hpos' : ∀ g ∈ xs.map (·.val env i), g.Pos := by
    intro g hg
    obtain ⟨f, hf, rfl⟩ := List.mem_map.1 hg
    exact hpos f hf
  have hsum' : ((xs.map (·.val env i)).map (·.a)).sum = 1 := by
    rw [List.map_map]; exact hsum
  rw [if_pos rfl, if_neg (by decide),
    (says_cobbProduction xs hne hok o tfp Y A hY hA).holdsAt_iff env i,
    (says_value xs hne hok o op Y P hY hP).holdsAt_iff env i,
    cobb_production_iff _ _ _ hYp hPp _ hpos' hsum' hd', List.map_map]
  exact ⟨cobb_value _ _ _ hpos' hsum' hd', Iff.rfl⟩

theorem cobb_lists_one (x p s o op tfp : Str) (v : Bool) :
    (cobbDouglass (.list [x]) (.list [p]) o op (.list [s]) tfp v).eqs =
      .ok [if v then valueEquation [p] [x] o op else cobbProduction [x] [s] o tfp,
        cobbDemand x p s o op tfp] :=
  cobb_lists [⟨x, p, s, .var x, .var p, .var s⟩] o op tfp v

/-- C41 is false for Cobb-Douglas: one factor with share `s = 1`, wage 1, output 1 at price 2.  The demand
`L = s * Y * P / w` and the value equation hold, the production function `Y = A * L ** s` does not. -/
theorem C41_cobb_douglass_counterexample :
    ∃ prod value demand,
      (cobbDouglass (.list ["L".toList]) (.list ["w".toList]) "Y".toList "P".toList
        (.list ["s".toList]) "A".toList false).eqs = .ok [prod, demand] ∧
      (cobbDouglass (.list ["L".toList]) (.list ["w".toList]) "Y".toList "P".toList
        (.list ["s".toList]) "A".toList true).eqs = .ok [value, demand] ∧
      ∃ env : Str → Unit → ℝ, (∀ x, 0 < env x ()) ∧ env "s".toList () = 1 ∧
        HoldsAt demand env () ∧ HoldsAt value env () ∧ ¬ HoldsAt prod env () := by
  have n : ∀ x : Str, isIdent x = true → Phrase .atom x (.var x) := fun x h => Phrase.name h
  let f : FactorArg := ⟨"L".toList, "w".toList, "s".toList, .var "L".toList, .var "w".toList, .var "s".toList⟩
  have hf : f.Ok := ⟨n _ rfl, (n _ rfl).t, (n _ rfl).s⟩
  have hok : ∀ g ∈ [f], g.Ok := by
    intro g hg
    rw [List.mem_singleton] at hg
    rw [hg]; exact hf
  refine ⟨_, _, _, cobb_lists_one _ _ _ _ _ _ false, cobb_lists_one _ _ _ _ _ _ true,
    fun x _ => if x = "P".toList then 2 else if x = "L".toList then 2 else 1, ?_, ?_, ?_, ?_, ?_⟩
  · intro x
    dsimp only
    split
    · norm_num
    · split <;> norm_num
  · dsimp only
    rw [if_neg (by decide), if_neg (by decide)]
  · rw [(says_cobbDemand f hf "Y".toList "P".toList "A".toList _ _ (n _ rfl) (n _ rfl).s).holdsAt_iff]
    unfold CobbDouglasDemand FactorArg.val
    simp only [PExpr.value, f]
    simp (decide := true)
  · have hv := says_value [f] (by simp) hok "Y".toList "P".toList _ _ (n _ rfl) (n _ rfl)
    simp only [List.map_cons, List.map_nil, f] at hv
    rw [if_pos rfl, hv.holdsAt_iff]
    unfold ValueDefinition FactorArg.val
    simp only [PExpr.value, List.map_cons, List.map_nil, List.sum_cons, List.sum_nil]
    simp (decide := true)
  · have hv := says_cobbProduction [f] (by simp) hok "Y".toList "A".toList _ _ (n _ rfl) (n _ rfl)
    simp only [List.map_cons, List.map_nil, f] at hv
    rw [if_neg (by decide), hv.holdsAt_iff]
    unfold CobbDouglasProduction FactorArg.val
    simp only [PExpr.value, List.map_cons, List.map_nil, List.prod_cons, List.prod_nil]
    simp (decide := true)

/-- C41, Leontief (one dimension, at least two factors, shares that are products): at positive output and
output price satisfying the demands, the zero-profit condition holds iff the output price equals the unit
cost `∑ p_i α_i`. -/
theorem C41_leontief (xs : List FactorArg) (hlen : 2 ≤ xs.length) (hok : ∀ f ∈ xs, f.Ok)
    (hsh : ∀ f ∈ xs, Phrase .factor f.share f.a)
    (o op d : Str) (coords : Dict Str (List Str)) (sd : Option Str) (b1 b2 : Bool) (bk : Backend)
    (Y P : PExpr) (hY : Phrase .atom o Y) (hP : Phrase .sum op P) :
    ∃ zp demands,
      leontief (.list (xs.map (·.name))) (.list (xs.map (·.price))) o op (.list (xs.map (·.share)))
        (.str d) coords sd b1 b2 bk = .ok (zp :: demands) ∧
      ∀ (ι : Type) [Fintype ι] (env : Str → ι → ℝ) (i : ι), HoldsAll demands env i →
        0 < Y.value env i → 0 < P.value env i →
        (HoldsAt zp env i ↔ P.value env i = (xs.map fun f => f.p.value env i * f.a.value env i).sum) := by
  obtain ⟨zp, demands, h1, h2, h3, h4⟩ := C40_leontief xs hlen hok hsh o op d coords sd b1 b2 bk Y P hY hP
  refine ⟨zp, demands, h1, ?_⟩
  intro ι _ env i hd hYp hPp
  have hd' : ∀ g ∈ xs.map (·.val env i), LeontiefDemand (Y.value env i) g := by
    intro g hg
    obtain ⟨f, hf, rfl⟩ := List.mem_map.1 hg
    obtain ⟨j, hj⟩ := List.getElem?_of_mem hf
    obtain ⟨t, ht, hs⟩ := h4 j f hj
    exact (hs.holdsAt_iff env i).1 (hd t (List.mem_of_getElem? ht))
  rw [h2.holdsAt_iff env i, leontief_zero_profit_iff _ _ hYp hPp _ hd', List.map_map]
  rfl

/-- A point at which the hypotheses of `C41_ces` hold (two factors, elasticity 2). -/
example : ∀ f ∈ [(⟨8, 1, 2⟩ : FactorVal)], f.Pos ∧ CESDemand 2 1 1 2 f := by
  intro f hf
  rw [List.mem_singleton] at hf
  subst hf
  refine ⟨⟨by norm_num, by norm_num⟩, ?_⟩
  unfold CESDemand
  norm_num

/-! ## C42 -/

/-- The arguments of `dixit_stiglitz` and the expressions they are read as. -/
structure DSArgs where
  f : Str
  p : Str
  o : Str
  op : Str
  e : Str
  d : Str
  X : PExpr
  P : PExpr
  Y : PExpr
  Q : PExpr
  E : PExpr

/-- All names are atoms (names, numbers, parenthesised expressions). -/
def DSArgs.Ok (a : DSArgs) : Prop :=
  Phrase .atom a.f a.X ∧ Phrase .atom a.p a.P ∧ Phrase .atom a.o a.Y ∧ Phrase .atom a.op a.Q ∧
    Phrase .atom a.e a.E ∧ isIdent a.d = true

/-- The first equation returned. -/
def dsFirst (a : DSArgs) (labels : List Str) (b : Backend) (t s : Option Str) (v : Bool) : Str :=
  if v then dsValue a.f a.p a.o a.op
  else dsProduction (dsKernel a.f a.e s) a.o a.e a.d (decStr (labels.length - 1)) t b

theorem ds_eqs (a : DSArgs) (coords : Dict Str (List Str)) (labels : List Str)
    (hc : dget coords a.d = some labels) (b : Backend) (t s : Option Str) (v : Bool) :
    dixitStiglitz (.str a.f) (.str a.p) a.o a.op a.e a.d coords b t (s.map .str) v =
      .ok [dsFirst a labels b t s v, dsDemand a.f a.p a.o a.op a.e t s] := by
  unfold dixitStiglitz
  have h2 : ((s.map StrArg.str).map StrArg.badSingle).getD false = false := by cases s <;> rfl
  have h3 : (s.map StrArg.str).map StrArg.single = s := by cases s <;> rfl
  rw [if_neg (by simp [StrArg.badSingle]), if_neg (by simp [StrArg.badSingle]),
    if_neg (by rw [h2]; decide)]
  dsimp only
  rw [hc, h3]
  rfl

theorem ds_eqs' (f p o op e d : Str) (coords : Dict Str (List Str)) (labels : List Str)
    (hc : dget coords d = some labels) (b : Backend) (t s : Option Str) (v : Bool) :
    dixitStiglitz (.str f) (.str p) o op e d coords b t (s.map .str) v =
      .ok [if v then dsValue f p o op
        else dsProduction (dsKernel f e s) o e d (decStr (labels.length - 1)) t b,
        dsDemand f p o op e t s] :=
  ds_eqs ⟨f, p, o, op, e, d, .var f, .var f, .var f, .var f, .var f⟩ coords labels hc b t s v

theorem ds_first_iff (a : DSArgs) (ha : a.Ok) (labels : List Str) (b : Backend) (v : Bool)
    (t s t' s' : Option Str) (A S A' S' : Option PExpr) (ht : OptArg t A) (hs : OptArg s S)
    (ht' : OptArg t' A') (hs' : OptArg s' S') {ι : Type} [Fintype ι] (env : Str → ι → ℝ) (i : ι)
    (hA : optVal A env i = optVal A' env i) (hS : ∀ j, optVal S env j = optVal S' env j) :
    HoldsAt (dsFirst a labels b t s v) env i ↔ HoldsAt (dsFirst a labels b t' s' v) env i := by
  obtain ⟨h1, h2, h3, h4, h5, h6⟩ := ha
  cases v with
  | true =>
    unfold dsFirst
    rw [if_pos rfl, if_pos rfl]
  | false =>
    unfold dsFirst
    rw [if_neg (by decide), if_neg (by decide),
      (says_dsProduction a.f a.o a.e a.d _ a.X a.Y a.E h1 h3 h5 h6 (decStr_tokens _) t s A S ht hs b).holdsAt_iff,
      (says_dsProduction a.f a.o a.e a.d _ a.X a.Y a.E h1 h3 h5 h6 (decStr_tokens _) t' s' A' S' ht' hs'
        b).holdsAt_iff, hA]
    simp only [hS]

/-- C42, shares.  Omitting `factor_shares` is the same as a share parameter equal to one: for every
backend, with or without TFP and value definition, the equations generated without shares hold at a point
iff those with the share parameter do. -/
theorem C42_omit_shares (a : DSArgs) (ha : a.Ok) (coords : Dict Str (List Str)) (labels : List Str)
    (hc : dget coords a.d = some labels) (b : Backend) (v : Bool) (t : Option Str) (A : Option PExpr)
    (ht : OptArg t A) (s : Str) (S : PExpr) (hs : Phrase .atom s S) :
    ∃ without with_,
      dixitStiglitz (.str a.f) (.str a.p) a.o a.op a.e a.d coords b t none v = .ok without ∧
      dixitStiglitz (.str a.f) (.str a.p) a.o a.op a.e a.d coords b t (some (.str s)) v = .ok with_ ∧
      ∀ (ι : Type) [Fintype ι] (env : Str → ι → ℝ) (i : ι), (∀ j, S.value env j = 1) →
        (HoldsAll without env i ↔ HoldsAll with_ env i) := by
  refine ⟨_, _, ds_eqs a coords labels hc b t none v, ds_eqs a coords labels hc b t (some s) v, ?_⟩
  intro ι _ env i h1
  have hS : ∀ j, optVal (none : Option PExpr) env j = optVal (some S) env j := fun j => (h1 j).symm
  have hfirst := ds_first_iff a ha labels b v t none t (some s) A none A (some S) ht trivial ht hs env i rfl hS
  have hdem : HoldsAt (dsDemand a.f a.p a.o a.op a.e t none) env i ↔
      HoldsAt (dsDemand a.f a.p a.o a.op a.e t (some s)) env i := by
    obtain ⟨g1, g2, g3, g4, g5, g6⟩ := ha
    match t, A, ht with
    | none, none, _ =>
      rw [(says_dsDemand_none a.f a.p a.o a.op a.e _ _ _ _ _ g1 g2 g3 g4 g5 none none trivial).holdsAt_iff,
        (says_dsDemand_none a.f a.p a.o a.op a.e _ _ _ _ _ g1 g2 g3 g4 g5 (some s) (some S) hs).holdsAt_iff,
        hS]
    | some t, some A, ht =>
      rw [(says_dsDemand_some a.f a.p a.o a.op a.e t _ _ _ _ _ A g1 g2 g3 g4 g5 ht none none trivial).holdsAt_iff,
        (says_dsDemand_some a.f a.p a.o a.op a.e t _ _ _ _ _ A g1 g2 g3 g4 g5 ht (some s) (some S) hs).holdsAt_iff,
        hS]
  unfold HoldsAll
  simp only [List.mem_cons, List.not_mem_nil, or_false, forall_eq_or_imp, forall_eq]
  rw [hfirst, hdem]

/-- C42, TFP, what holds (`_partial`: the first equation only): the production function (or value equation)
generated without TFP holds iff the one with a TFP parameter equal to one does. -/
theorem C42_omit_TFP_first_equation_partial (a : DSArgs) (ha : a.Ok) (coords : Dict Str (List Str))
    (labels : List Str) (hc : dget coords a.d = some labels) (b : Backend) (v : Bool) (s : Option Str)
    (S : Option PExpr) (hs : OptArg s S) (t : Str) (A : PExpr) (ht : Phrase .atom t A) :
    ∃ e1 d1 e2 d2,
      dixitStiglitz (.str a.f) (.str a.p) a.o a.op a.e a.d coords b none (s.map .str) v = .ok [e1, d1] ∧
      dixitStiglitz (.str a.f) (.str a.p) a.o a.op a.e a.d coords b (some t) (s.map .str) v = .ok [e2, d2] ∧
      ∀ (ι : Type) [Fintype ι] (env : Str → ι → ℝ) (i : ι), A.value env i = 1 →
        (HoldsAt e1 env i ↔ HoldsAt e2 env i) := by
  refine ⟨_, _, _, _, ds_eqs a coords labels hc b none s v, ds_eqs a coords labels hc b (some t) s v, ?_⟩
  intro ι _ env i h1
  exact ds_first_iff a ha labels b v none s (some t) s none S (some A) S trivial hs ht hs env i h1.symm
    (fun _ => rfl)

/-- C42 is false for TFP: the demand generated without TFP divides by the power instead of multiplying, so
at every point with positive output and prices it agrees with the demand for TFP = 1 only where the power
is one. -/
theorem C42_omit_TFP_demand_inverted (a : DSArgs) (ha : a.Ok) (coords : Dict Str (List Str))
    (labels : List Str) (hc : dget coords a.d = some labels) (b : Backend) (v : Bool)
    (t : Str) (A : PExpr) (ht : Phrase .atom t A) :
    ∃ e1 d1 e2 d2,
      dixitStiglitz (.str a.f) (.str a.p) a.o a.op a.e a.d coords b none none v = .ok [e1, d1] ∧
      dixitStiglitz (.str a.f) (.str a.p) a.o a.op a.e a.d coords b (some t) none v = .ok [e2, d2] ∧
      ∀ (ι : Type) [Fintype ι] (env : Str → ι → ℝ) (i : ι), A.value env i = 1 →
        0 < a.Y.value env i → 0 < a.P.value env i → 0 < a.Q.value env i →
        HoldsAt d1 env i → HoldsAt d2 env i →
          (a.Q.value env i / a.P.value env i) ^ a.E.value env i = 1 := by
  refine ⟨_, _, _, _, ds_eqs a coords labels hc b none none v, ds_eqs a coords labels hc b (some t) none v, ?_⟩
  intro ι _ env i h1 hY hP hQ
  obtain ⟨g1, g2, g3, g4, g5, g6⟩ := ha
  rw [(says_dsDemand_none a.f a.p a.o a.op a.e _ _ _ _ _ g1 g2 g3 g4 g5 none none trivial).holdsAt_iff,
    (says_dsDemand_some a.f a.p a.o a.op a.e t _ _ _ _ _ A g1 g2 g3 g4 g5 ht none none trivial).holdsAt_iff]
  unfold CESDemand
  have h2 : optVal (none : Option PExpr) env i = 1 := rfl
  simp only [h1, h2, one_mul, mul_one, div_one]
  intro e1 e2
  have hz : 0 < (a.Q.value env i / a.P.value env i) ^ a.E.value env i :=
    Real.rpow_pos_of_pos (div_pos hQ hP) _
  generalize (a.Q.value env i / a.P.value env i) ^ a.E.value env i = z at *
  have h3 : a.Y.value env i / z = a.Y.value env i * z := by rw [← e1, ← e2]
  have h4 : z * z = 1 := by
    rw [div_eq_iff hz.ne'] at h3
    have : a.Y.value env i * (z * z) = a.Y.value env i * 1 := by linarith
    exact mul_left_cancel₀ hY.ne' this
  nlinarith

/-- C42 is false for TFP, concrete point: two goods with prices 3 and 4, output price 5, elasticity 1,
output 1.  The equations generated without TFP hold with `X = (3/5, 4/5)`; with `A = 1` the demands would be
`X = (5/3, 5/4)`. -/
theorem C42_omit_TFP_counterexample :
    ∃ without with_,
      dixitStiglitz (.str "X".toList) (.str "PX".toList) "Y".toList "PY".toList "eps".toList "i".toList
        [("i".toList, ["a".toList, "b".toList])] .pytensor none none true = .ok without ∧
      dixitStiglitz (.str "X".toList) (.str "PX".toList) "Y".toList "PY".toList "eps".toList "i".toList
        [("i".toList, ["a".toList, "b".toList])] .pytensor (some "A".toList) none true = .ok with_ ∧
      ∃ env : Str → Bool → ℝ, (∀ i, env "A".toList i = 1) ∧ (∀ i, HoldsAll without env i) ∧
        ∀ i, ¬ HoldsAll with_ env i := by
  have n : ∀ x : Str, isIdent x = true → Phrase .atom x (.var x) := fun x h => Phrase.name h
  have g1 := n "X".toList rfl
  have g2 := n "PX".toList rfl
  have g3 := n "Y".toList rfl
  have g4 := n "PY".toList rfl
  have g5 := n "eps".toList rfl
  have g6 := n "A".toList rfl
  refine ⟨_, _, ds_eqs' _ _ _ _ _ _ _ _ rfl .pytensor none none true,
    ds_eqs' _ _ _ _ _ _ _ _ rfl .pytensor (some "A".toList) none true,
    fun x j => if x = "PY".toList then 5 else if x = "X".toList then (if j then 3 / 5 else 4 / 5) else
      if x = "PX".toList then (if j then 3 else 4) else 1, ?_, ?_, ?_⟩
  · intro i
    dsimp only
    rw [if_neg (by decide), if_neg (by decide), if_neg (by decide)]
  · intro i x hx
    simp only [List.mem_cons, List.not_mem_nil, or_false] at hx
    rcases hx with rfl | rfl
    · rw [if_pos trivial, (says_dsValue _ _ _ _ _ _ _ _ g1 g2 g3 g4).holdsAt_iff]
      simp only [PExpr.value, Fintype.sum_bool]
      simp (decide := true)
      norm_num
    · rw [(says_dsDemand_none _ _ _ _ _ _ _ _ _ _ g1 g2 g3 g4 g5 none none trivial).holdsAt_iff]
      simp only [PExpr.value, optVal]
      cases i <;> simp (decide := true)
  · intro i hx
    have h := hx _ (List.mem_cons_of_mem _ List.mem_cons_self)
    rw [(says_dsDemand_some _ _ _ _ _ _ _ _ _ _ _ _ g1 g2 g3 g4 g5 g6 none none trivial).holdsAt_iff] at h
    unfold CESDemand at h
    simp only [PExpr.value, optVal] at h
    cases i <;> simp (decide := true) at h <;> norm_num at h

/-- The hypotheses on the arguments of `dixit_stiglitz` are met by ordinary names. -/
example : (⟨"X".toList, "P_X".toList, "Y".toList, "P".toList, "eps".toList, "i".toList,
    .var "X".toList, .var "P_X".toList, .var "Y".toList, .var "P".toList, .var "eps".toList⟩ : DSArgs).Ok :=
  ⟨Phrase.name rfl, Phrase.name rfl, Phrase.name rfl, Phrase.name rfl, Phrase.name rfl, rfl⟩

end Verif
