import Verif.Lemmas.Production

/-!
# C40, C43, C44: the equations the generators emit

A text *says* a relation (Spec/Production) if Python's grammar reads it as an equation `l = r` that holds
at a point exactly when the relation does.
-/

namespace Verif

/-! ## C40 -/

theorem addSecondAlpha_same (fs ss : List Str) (h : fs.length = ss.length) :
    addSecondAlpha (.list ss) (.list fs) = (ss, .list ss) := by
  unfold addSecondAlpha
  split
  · contradiction
  · rename_i fs' heq
    cases heq
    split
    · rfl
    · split
      · contradiction
      · rename_i h2 _ a heq
        cases heq
        simp only [List.length_singleton] at h
        omega
      · rename_i l _ heq
        cases heq
        rfl

theorem checkLengths_same (a b c : List Str) (h : a.length = b.length) (h' : a.length = c.length) :
    checkLengths (.list a) (.list b) (.list c) = .ok () := by
  unfold checkLengths StrArg.atLeastList
  dsimp only
  rw [if_neg (fun hn => hn h), if_neg (fun hn => hn h'), if_neg (fun hn => hn (h.symm.trans h'))]

theorem zip3_map (xs : List FactorArg) :
    zip3 (xs.map (·.name)) (xs.map (·.price)) (xs.map (·.share)) =
      xs.map fun f => (f.name, f.price, f.share) := by
  unfold zip3
  rw [List.zip_map', List.zip_map']

theorem says_value (xs : List FactorArg) (hne : xs ≠ []) (hok : ∀ f ∈ xs, f.Ok) (o op : Str)
    (Y P : PExpr) (hY : Phrase .atom o Y) (hP : Phrase .atom op P) :
    Says (valueEquation (xs.map (·.price)) (xs.map (·.name)) o op) (fun _ _ env i =>
      ValueDefinition (Y.value env i) (P.value env i) (xs.map (·.val env i))) := by
  obtain ⟨e, h1, h2⟩ := phrase_joinAdd
    (xs.map fun f => (f.price ++ " * ".toList ++ f.name, PExpr.mul f.p f.X)) (by simpa using hne)
    (by
      intro x hx
      obtain ⟨f, hf, rfl⟩ := List.mem_map.1 hx
      obtain ⟨g1, g2, g3⟩ := hok f hf
      exact g2.mul g1.f)
  refine ⟨.mul Y P, e, ?_, ?_⟩
  · have h := (hY.t.mul hP.f).sum.eq h1
    rw [valueEquation_text, List.append_nil]
    unfold totalFactorValue
    rw [List.zip_map', List.map_map]
    simpa only [List.append_assoc, List.map_map, Function.comp_def] using h
  · intro ι _ env i
    rw [h2, List.map_map, PExpr.value]
    unfold ValueDefinition
    simp only [List.map_map]
    rfl

theorem says_cobbProduction (xs : List FactorArg) (hne : xs ≠ []) (hok : ∀ f ∈ xs, f.Ok) (o tfp : Str)
    (Y A : PExpr) (hY : Phrase .atom o Y) (hA : Phrase .atom tfp A) :
    Says (cobbProduction (xs.map (·.name)) (xs.map (·.share)) o tfp) (fun _ _ env i =>
      CobbDouglasProduction (Y.value env i) (A.value env i) (xs.map (·.val env i))) := by
  have hphr := phrase_mulAll
    (xs.map fun f => (f.name ++ (" ** (".toList ++ (f.share ++ ")".toList)), PExpr.pow f.X f.a)) tfp A hA.t
    (by
      intro x hx
      obtain ⟨f, hf, rfl⟩ := List.mem_map.1 hx
      obtain ⟨g1, g2, g3⟩ := hok f hf
      exact phrase_cobbInner g1 g3)
  have htext : tfp ++ (" * ".toList ++ joinStr " * ".toList
        (xs.map fun f => f.name ++ (" ** (".toList ++ (f.share ++ ")".toList)))) =
      tfp ++ (xs.map fun f => (f.name ++ (" ** (".toList ++ (f.share ++ ")".toList)),
        PExpr.pow f.X f.a)).flatMap fun x => " * ".toList ++ x.1 := by
    cases xs with
    | nil => exact absurd rfl hne
    | cons x xs =>
      rw [List.map_cons, joinStr_cons, List.map_cons, List.flatMap_cons]
      simp only [List.flatMap_map, List.append_assoc]
  have hzip : ((xs.map (·.name)).zip (xs.map (·.share))).map
        (fun x => x.1 ++ (" ** (".toList ++ (x.2 ++ ")".toList))) =
      xs.map fun f => f.name ++ (" ** (".toList ++ (f.share ++ ")".toList)) := by
    rw [List.zip_map', List.map_map]
    rfl
  refine ⟨Y, (xs.map fun f => (f.name ++ (" ** (".toList ++ (f.share ++ ")".toList)),
    PExpr.pow f.X f.a)).foldl (fun e x => .mul e x.2) A, ?_, ?_⟩
  · have h := hY.s.eq hphr.sum
    rw [cobbProduction_text, hzip, htext]
    · simpa only [List.append_assoc] using h
    · rw [hzip]
      have := hphr.noDollar
      rw [← htext] at this
      simp only [List.mem_append, not_or] at this
      exact this.2.2
  · intro ι _ env i
    rw [value_mulAll, List.map_map]
    unfold CobbDouglasProduction
    simp only [List.map_map]
    rfl

theorem says_cobbDemand (f : FactorArg) (hf : f.Ok) (o op tfp : Str) (Y P : PExpr)
    (hY : Phrase .atom o Y) (hP : Phrase .sum op P) :
    Says (cobbDemand f.name f.price f.share o op tfp) (fun _ _ env i =>
      CobbDouglasDemand (Y.value env i) (P.value env i) (f.val env i)) := by
  obtain ⟨g1, g2, g3⟩ := hf
  refine ⟨f.X, .div (.mul (.mul f.a Y) P) f.p, ?_, fun ι _ env i => Iff.rfl⟩
  have h := g1.s.eq (((g3.paren.t.mul hY.f).mul hP.paren.f).div g2.sum.paren.f).sum
  rw [cobbDemand_text]
  have e1 : " = (".toList = " = ".toList ++ "(".toList := rfl
  have e2 : ") * ".toList = ")".toList ++ " * ".toList := rfl
  have e3 : " * (".toList = " * ".toList ++ "(".toList := rfl
  have e4 : ") / (".toList = ")".toList ++ (" / ".toList ++ "(".toList) := rfl
  rw [e1, e2, e3, e4]
  simpa only [List.append_assoc] using h

theorem says_cesProduction (xs : List FactorArg) (hne : xs ≠ []) (hok : ∀ f ∈ xs, f.Ok) (o tfp e : Str)
    (Y A E : PExpr) (hY : Phrase .atom o Y) (hA : Phrase .atom tfp A) (hE : Phrase .atom e E) :
    Says (cesProduction (xs.map (·.name)) (xs.map (·.share)) o tfp e) (fun _ _ env i =>
      CESProduction (Y.value env i) (A.value env i) (E.value env i) (xs.map (·.val env i))) := by
  obtain ⟨r, h1, h2⟩ := phrase_joinAdd
    (xs.map fun f => ("(".toList ++ (f.share ++ (") * ".toList ++ (f.name ++ (" ** ((".toList ++ (e ++
      (" - 1) / ".toList ++ (e ++ ")".toList))))))),
      PExpr.mul f.a (.pow f.X (.div (.sub E (.num "1".toList)) E)))) (by simpa using hne)
    (by
      intro x hx
      obtain ⟨f, hf, rfl⟩ := List.mem_map.1 hx
      obtain ⟨g1, g2, g3⟩ := hok f hf
      exact phrase_cesInner g1 g3 hE)
  refine ⟨Y, .mul A (.pow r (.div E (.sub E (.num "1".toList)))), ?_, ?_⟩
  · have h := hY.s.eq (hA.t.mul (h1.paren.primary.pow (phrase_cesOuter hE).f).factor).sum
    rw [cesProduction_text, List.zip_map', List.map_map]
    have e1 : " * (".toList = " * ".toList ++ "(".toList := rfl
    have e2 : ") ** (".toList = ")".toList ++ (" ** ".toList ++ "(".toList) := rfl
    rw [e1, e2]
    simpa only [List.append_assoc, List.map_map, Function.comp_def] using h
  · intro ι _ env i
    simp only [PExpr.value, one_value, h2, numVal_one]
    unfold CESProduction
    simp only [List.map_map]
    have : (fun x => PExpr.value env x.2 i) ∘ (fun f : FactorArg =>
        ("(".toList ++ (f.share ++ (") * ".toList ++ (f.name ++ (" ** ((".toList ++ (e ++
      (" - 1) / ".toList ++ (e ++ ")".toList))))))),
      PExpr.mul f.a (.pow f.X (.div (.sub E (.num "1".toList)) E)))) =
        (fun f => f.a * f.X ^ ((E.value env i - 1) / E.value env i)) ∘ fun f : FactorArg => f.val env i := by
      funext f
      simp only [Function.comp_apply, PExpr.value, numVal_one]
      rfl
    rw [this]

theorem says_cesDemand (f : FactorArg) (hf : f.Ok) (o op tfp e : Str) (Y P A E : PExpr)
    (hY : Phrase .atom o Y) (hP : Phrase .atom op P) (hA : Phrase .atom tfp A) (hE : Phrase .atom e E) :
    Says (cesDemand f.name f.price f.share o op tfp e) (fun _ _ env i =>
      CESDemand (Y.value env i) (A.value env i) (P.value env i) (E.value env i) (f.val env i)) := by
  obtain ⟨g1, g2, g3⟩ := hf
  refine ⟨f.X, .mul (.div Y A) (.pow (.div (.mul (.mul f.a P) A) f.p) E), ?_, fun ι _ env i => Iff.rfl⟩
  have h := g1.s.eq ((hY.t.div hA.f).mul
    ((((g3.paren.t.mul hP.f).mul hA.f).div g2.sum.paren.f).sum.paren.primary.pow hE.f).factor).sum
  rw [cesDemand_text, List.append_nil]
  have e1 : " * ((".toList = " * ".toList ++ ("(".toList ++ "(".toList) := rfl
  have e2 : ") * ".toList = ")".toList ++ " * ".toList := rfl
  have e3 : " / (".toList = " / ".toList ++ "(".toList := rfl
  have e4 : ")) ** ".toList = ")".toList ++ (")".toList ++ " ** ".toList) := rfl
  rw [e1, e2, e3, e4]
  simpa only [List.append_assoc] using h

/-- C40, Cobb-Douglas.  For any number (at least one) of factors, `cobb_douglass` returns the documented
production function followed by exactly one documented demand per factor, in order. -/
theorem C40_cobb_douglass (xs : List FactorArg) (hne : xs ≠ []) (hok : ∀ f ∈ xs, f.Ok)
    (o op tfp : Str) (Y P A : PExpr) (hY : Phrase .atom o Y) (hP : Phrase .atom op P)
    (hA : Phrase .atom tfp A) :
    ∃ prod demands,
      (cobbDouglass (.list (xs.map (·.name))) (.list (xs.map (·.price))) o op
        (.list (xs.map (·.share))) tfp false).eqs = .ok (prod :: demands) ∧
      Says prod (fun _ _ env i =>
        CobbDouglasProduction (Y.value env i) (A.value env i) (xs.map (·.val env i))) ∧
      demands.length = xs.length ∧
      ∀ (j : Nat) (f : FactorArg), xs[j]? = some f → ∃ d, demands[j]? = some d ∧
        Says d (fun _ _ env i => CobbDouglasDemand (Y.value env i) (P.value env i) (f.val env i)) := by
  refine ⟨cobbProduction (xs.map (·.name)) (xs.map (·.share)) o tfp,
    xs.map fun f => cobbDemand f.name f.price f.share o op tfp, ?_, ?_, ?_, ?_⟩
  · unfold cobbDouglass
    dsimp only [StrArg.atLeastList]
    rw [addSecondAlpha_same _ _ (by simp)]
    dsimp only
    rw [checkLengths_same _ _ _ (by simp) (by simp)]
    dsimp only [StrArg.iter]
    rw [zip3_map, List.map_map]
    rfl
  · exact says_cobbProduction xs hne hok o tfp Y A hY hA
  · simp
  · intro j f hj
    refine ⟨cobbDemand f.name f.price f.share o op tfp, by simp [hj], ?_⟩
    exact says_cobbDemand f (hok f (List.mem_of_getElem? hj)) o op tfp Y P hY hP.s

/-- C40, CES. -/
theorem C40_ces (xs : List FactorArg) (hne : xs ≠ []) (hok : ∀ f ∈ xs, f.Ok)
    (o op tfp e : Str) (Y P A E : PExpr) (hY : Phrase .atom o Y) (hP : Phrase .atom op P)
    (hA : Phrase .atom tfp A) (hE : Phrase .atom e E) :
    ∃ prod demands,
      (ces (.list (xs.map (·.name))) (.list (xs.map (·.price))) o op tfp
        (.list (xs.map (·.share))) e .no false).eqs = .ok (prod :: demands) ∧
      Says prod (fun _ _ env i =>
        CESProduction (Y.value env i) (A.value env i) (E.value env i) (xs.map (·.val env i))) ∧
      demands.length = xs.length ∧
      ∀ (j : Nat) (f : FactorArg), xs[j]? = some f → ∃ d, demands[j]? = some d ∧
        Says d (fun _ _ env i =>
          CESDemand (Y.value env i) (A.value env i) (P.value env i) (E.value env i) (f.val env i)) := by
  refine ⟨cesProduction (xs.map (·.name)) (xs.map (·.share)) o tfp e,
    xs.map fun f => cesDemand f.name f.price f.share o op tfp e, ?_, ?_, ?_, ?_⟩
  · unfold ces
    dsimp only
    rw [addSecondAlpha_same _ _ (by simp)]
    dsimp only
    rw [checkLengths_same _ _ _ (by simp) (by simp)]
    simp only [reduceCtorEq, or_self, if_false, StrArg.iter, zip3_map, List.map_map, Function.comp_def,
      Bool.false_eq_true, if_true]
  · exact says_cesProduction xs hne hok o tfp e Y A E hY hA hE
  · simp
  · intro j f hj
    refine ⟨cesDemand f.name f.price f.share o op tfp e, by simp [hj], ?_⟩
    exact says_cesDemand f (hok f (List.mem_of_getElem? hj)) o op tfp e Y P A E hY hP hA hE

/-- C40, the value definition: with `use_value_definition=True` the first equation of both generators
says that revenue equals factor cost. -/
theorem C40_value_definition (xs : List FactorArg) (hne : xs ≠ []) (hok : ∀ f ∈ xs, f.Ok)
    (o op tfp e : Str) (Y P : PExpr) (hY : Phrase .atom o Y) (hP : Phrase .atom op P) :
    ∃ prod d1 d2,
      (cobbDouglass (.list (xs.map (·.name))) (.list (xs.map (·.price))) o op
        (.list (xs.map (·.share))) tfp true).eqs = .ok (prod :: d1) ∧
      (ces (.list (xs.map (·.name))) (.list (xs.map (·.price))) o op tfp
        (.list (xs.map (·.share))) e .no true).eqs = .ok (prod :: d2) ∧
      Says prod (fun _ _ env i =>
        ValueDefinition (Y.value env i) (P.value env i) (xs.map (·.val env i))) := by
  refine ⟨valueEquation (xs.map (·.price)) (xs.map (·.name)) o op,
    xs.map fun f => cobbDemand f.name f.price f.share o op tfp,
    xs.map fun f => cesDemand f.name f.price f.share o op tfp e, ?_, ?_, ?_⟩
  · unfold cobbDouglass
    dsimp only [StrArg.atLeastList]
    rw [addSecondAlpha_same _ _ (by simp)]
    dsimp only
    rw [checkLengths_same _ _ _ (by simp) (by simp)]
    dsimp only [StrArg.iter]
    rw [zip3_map, List.map_map]
    rfl
  · unfold ces
    dsimp only
    rw [addSecondAlpha_same _ _ (by simp)]
    dsimp only
    rw [checkLengths_same _ _ _ (by simp) (by simp)]
    simp only [reduceCtorEq, or_self, if_false, StrArg.iter, zip3_map, List.map_map, Function.comp_def,
      Bool.false_eq_true, if_true]
  · exact says_value xs hne hok o op Y P hY hP

/-- C40, two factors and one share given as a string: the second share is one minus the first.  (`y` is
the second factor with the text `1 - a` for its share.) -/
theorem C40_single_share (x y : FactorArg) (hx : x.Ok) (hy : y.Ok) (hs : Phrase .atom x.share x.a)
    (hshare : y.share = "1 - ".toList ++ x.share) :
    y.a = .sub (.num "1".toList) x.a ∧
    (∀ (o op tfp : Str) (v : Bool),
      (cobbDouglass (.list [x.name, y.name]) (.list [x.price, y.price]) o op (.str x.share) tfp v).eqs =
      (cobbDouglass (.list [x.name, y.name]) (.list [x.price, y.price]) o op
        (.list [x.share, y.share]) tfp v).eqs) ∧
    (∀ (o op tfp e : Str) (ex : ExpandPrice) (v : Bool),
      (ces (.list [x.name, y.name]) (.list [x.price, y.price]) o op tfp (.str x.share) e ex v).eqs =
      (ces (.list [x.name, y.name]) (.list [x.price, y.price]) o op tfp
        (.list [x.share, y.share]) e ex v).eqs) := by
  refine ⟨?_, ?_, ?_⟩
  · have h := (Phrase.one.s.sub hs.t)
    have h2 : "1 - ".toList = "1".toList ++ " - ".toList := rfl
    rw [h2] at hshare
    rw [← hshare] at h
    exact hy.2.2.reads.unique h.reads
  · intro o op tfp v
    rw [hshare]
    rfl
  · intro o op tfp e ex v
    rw [hshare]
    rfl

/-- C40, one-dimensional Leontief with at least two factors whose shares are products (no top-level `+` or
`-`): the documented zero-profit condition (divided by the price) and demands. -/
theorem C40_leontief (xs : List FactorArg) (hlen : 2 ≤ xs.length) (hok : ∀ f ∈ xs, f.Ok)
    (hsh : ∀ f ∈ xs, Phrase .factor f.share f.a)
    (o op d : Str) (coords : Dict Str (List Str)) (sd : Option Str) (b1 b2 : Bool) (bk : Backend)
    (Y P : PExpr) (hY : Phrase .atom o Y) (hP : Phrase .sum op P) :
    ∃ zp demands,
      leontief (.list (xs.map (·.name))) (.list (xs.map (·.price))) o op (.list (xs.map (·.share)))
        (.str d) coords sd b1 b2 bk = .ok (zp :: demands) ∧
      Says zp (fun _ _ env i => Y.value env i =
        ((xs.map (·.val env i)).map fun f => f.p * f.X).sum / P.value env i) ∧
      demands.length = xs.length ∧
      ∀ (j : Nat) (f : FactorArg), xs[j]? = some f → ∃ t, demands[j]? = some t ∧
        Says t (fun _ _ env i => LeontiefDemand (Y.value env i) (f.val env i)) := by
  have hne : xs ≠ [] := by rintro rfl; simp at hlen
  refine ⟨o ++ " = (".toList ++ joinStr " + ".toList (xs.map fun f => f.price ++ " * ".toList ++ f.name) ++
      ") / (".toList ++ op ++ ")".toList,
    xs.map fun f => f.name ++ " = ".toList ++ o ++ " * ".toList ++ f.share, ?_, ?_, ?_, ?_⟩
  · unfold leontief
    rw [checkLengths_same _ _ _ (by simp) (by simp)]
    dsimp only [StrArg.atLeastList]
    rw [if_pos rfl, if_neg (by rw [List.length_map]; omega)]
    unfold leontief1d
    dsimp only [StrArg.iter]
    simp only [List.zip_map', List.map_map, Function.comp_def]
  · obtain ⟨e, h1, h2⟩ := phrase_joinAdd
      (xs.map fun f => (f.price ++ " * ".toList ++ f.name, PExpr.mul f.p f.X)) (by simpa using hne)
      (by
        intro x hx
        obtain ⟨f, hf, rfl⟩ := List.mem_map.1 hx
        obtain ⟨g1, g2, g3⟩ := hok f hf
        exact g2.mul g1.f)
    refine ⟨Y, .div e P, ?_, ?_⟩
    · have h := hY.s.eq ((h1.paren.t.div hP.paren.f).sum)
      have e1 : " = (".toList = " = ".toList ++ "(".toList := rfl
      have e4 : ") / (".toList = ")".toList ++ (" / ".toList ++ "(".toList) := rfl
      rw [e1, e4]
      simpa only [List.append_assoc, List.map_map, Function.comp_def] using h
    · intro ι _ env i
      rw [PExpr.value, h2]
      simp only [List.map_map]
      rfl
  · simp
  · intro j f hj
    refine ⟨_, by rw [List.getElem?_map, hj, Option.map_some], ?_⟩
    have hf := List.mem_of_getElem? hj
    obtain ⟨g1, g2, g3⟩ := hok f hf
    refine ⟨f.X, .mul Y f.a, ?_, ?_⟩
    · have h := g1.s.eq (hY.t.mul (hsh f hf)).sum
      simpa only [List.append_assoc] using h
    · intro ι _ env i
      unfold LeontiefDemand FactorArg.val
      rw [PExpr.value, mul_comm]

/-- The restriction on Leontief shares is needed: with the share `1 - a` the emitted demand is
`K = Y * 1 - a`, which is read as `(Y * 1) - a`. -/
theorem C40_leontief_share_not_parenthesised :
    ∃ zp d1,
      leontief (.list ["L".toList, "K".toList]) (.list ["w".toList, "r".toList]) "Y".toList "P".toList
        (.list ["a".toList, "1 - a".toList]) (.str "i".toList) [] none true true .numba =
        .ok [zp, d1, "K = Y * 1 - a".toList] ∧
      ∃ (env : Str → Unit → ℝ) (l r : PExpr), ReadsEq "K = Y * 1 - a".toList l r ∧
        l.value env () = r.value env () ∧
        ¬ LeontiefDemand (env "Y".toList ()) ⟨env "K".toList (), env "r".toList (), 1 - env "a".toList ()⟩ := by
  refine ⟨"Y = (w * L + r * K) / (P)".toList, "L = Y * a".toList, by decide,
    fun s _ => if s = "Y".toList then 2 else 1,
    .var "K".toList, .sub (.mul (.var "Y".toList) (.num "1".toList)) (.var "a".toList),
    ⟨[.name "K".toList], [.name "Y".toList, .star, .num "1".toList, .minus, .name "a".toList], rfl,
      ⟨10, rfl⟩, ⟨10, rfl⟩⟩, ?_, ?_⟩
  · simp only [PExpr.value, numVal_one]
    rw [if_neg (by decide), if_pos (by decide), if_neg (by decide)]
    norm_num
  · unfold LeontiefDemand
    dsimp only
    rw [if_neg (by decide), if_neg (by decide), if_pos (by decide)]
    norm_num

/-- The hypotheses of C40 are met: three factors, a composite price, a share `1 - a - b`. -/
example :
    (⟨"L".toList, "w".toList, "a".toList, .var "L".toList, .var "w".toList, .var "a".toList⟩ : FactorArg).Ok ∧
    (⟨"M".toList, "q * (1 + tau)".toList, "b".toList, .var "M".toList,
      .mul (.var "q".toList) (.add (.num "1".toList) (.var "tau".toList)), .var "b".toList⟩ : FactorArg).Ok ∧
    (⟨"K".toList, "r".toList, "1 - a - b".toList, .var "K".toList, .var "r".toList,
      .sub (.sub (.num "1".toList) (.var "a".toList)) (.var "b".toList)⟩ : FactorArg).Ok := by
  have n : ∀ x : Str, isIdent x = true → Phrase .atom x (.var x) := fun x h => Phrase.name h
  refine ⟨⟨n _ rfl, (n _ rfl).t, (n _ rfl).s⟩,
    ⟨n _ rfl, (n "q".toList rfl).t.mul (Phrase.one.s.add (n "tau".toList rfl).t).paren.f, (n _ rfl).s⟩,
    ⟨n _ rfl, (n _ rfl).t, (Phrase.one.s.sub (n "a".toList rfl).t).sub (n "b".toList rfl).t⟩⟩

end Verif
