import Verif.Props.ArrayModel

/-!
# C76: what a call of the compiled system can raise

The shapes found when the system is compiled are those of the values in a call.
-/

namespace Verif

theorem arrayOp_static (f : ℝ → ℝ → ℝ) (a b : Arr) :
    (arrayOp f a b).map Arr.shape = broadcastShapes a.shape b.shape := by
  unfold arrayOp Arr.op broadcastShapes
  cases Arr.broadcastRev a.shape.reverse b.shape.reverse <;> rfl

theorem postArr_static (n : Bool) (q : Post) (a : Arr) :
    ((∃ k, q = .item k) ∧ postArr n q a = .error .indexError) ∨
      (postArr n q a).map Arr.shape = postShape n q a.shape := by
  cases n with
  | true => right; cases q <;> rfl
  | false =>
    cases q with
    | call m =>
      right
      simp only [postArr, postShape, Bool.false_eq_true, if_false]
      by_cases h1 : m = "sum".toList
      · rw [if_pos h1, if_pos (Or.inl h1)]; rfl
      · by_cases h2 : m = "prod".toList
        · rw [if_neg h1, if_pos h2, if_pos (Or.inr h2)]; rfl
        · rw [if_neg h1, if_neg h2, if_neg (not_or.2 ⟨h1, h2⟩)]
          split <;> rfl
    | sumAxis k =>
      right
      simp only [postArr, postShape, Bool.false_eq_true, if_false, bind, Except.bind]
      cases axisOf k with
      | error => rfl
      | ok i =>
        dsimp only
        unfold Arr.sumAxis
        cases hi : a.shape[i]? with
        | none => rw [if_neg (Nat.not_lt.2 (List.getElem?_eq_none_iff.1 hi))]; rfl
        | some m => rw [if_pos (List.getElem?_eq_some_iff.1 hi).1]; rfl
    | newAxis0 => right; rfl
    | newAxis1 =>
      right
      simp only [postArr, postShape, Bool.false_eq_true, if_false]
      unfold Arr.newAxis1
      cases a.shape <;> rfl
    | item k =>
      simp only [postArr, postShape, Bool.false_eq_true, if_false, bind, Except.bind]
      cases axisOf k with
      | error => right; rfl
      | ok i =>
        dsimp only
        unfold Arr.item
        cases a.shape with
        | nil => left; exact ⟨⟨k, rfl⟩, rfl⟩
        | cons d s =>
          dsimp only
          by_cases hlt : i < d
          · right; rw [if_pos hlt]; rfl
          · left; rw [if_neg hlt]; exact ⟨⟨k, rfl⟩, rfl⟩
    | subs | subsNum | subsList => right; rfl

/-- Does the expression pick an entry, as in `x[0]`? -/
def PExpr.picks : PExpr → Bool
  | .var _ => false
  | .num _ => false
  | .neg e => picks e
  | .pos e => picks e
  | .add a b => picks a || picks b
  | .sub a b => picks a || picks b
  | .mul a b => picks a || picks b
  | .div a b => picks a || picks b
  | .pow a b => picks a || picks b
  | .post e (.item _) => true
  | .post e _ => picks e
  | .sumOver e _ _ _ => picks e
  | .prodOver e _ _ _ => picks e

theorem picks_post {e : PExpr} {q : Post} (h : e.picks = true) : (PExpr.post e q).picks = true := by
  cases q <;> first | rfl | exact h

/-- **C76 (static shapes).**  Given values that have the static shapes, the value of an expression has the static shape
found for it, and raises what building it raises; only picking an entry that is not there is found out later. -/
theorem C76_static {env : Str → Res Arr} {shapes : Str → Res (List Nat)}
    (henv : ∀ x, (env x).map Arr.shape = shapes x) (e : PExpr) :
    (e.picks = true ∧ evalArr env e = .error .indexError) ∨ (evalArr env e).map Arr.shape = evalShape shapes e := by
  induction e with
  | var x => exact .inr (henv x)
  | num s => exact .inr rfl
  | neg e ih =>
    rcases ih with ⟨h, ih⟩ | ih
    · exact .inl ⟨h, by simp only [evalArr, ih, bind, Except.bind]⟩
    · right
      simp only [evalArr, evalShape, bind, Except.bind]
      rw [← ih]
      cases evalArr env e <;> rfl
  | pos e ih => exact ih
  | add e f ihe ihf | sub e f ihe ihf | mul e f ihe ihf | div e f ihe ihf | pow e f ihe ihf =>
    rcases ihe with ⟨h, ih⟩ | ihe
    · exact .inl ⟨by simp [PExpr.picks, h], by simp only [evalArr, ih, bind, Except.bind]⟩
    · simp only [evalArr, evalShape, bind, Except.bind]
      rw [← ihe]
      cases evalArr env e with
      | error er => exact .inr rfl
      | ok u =>
        rcases ihf with ⟨h, ih⟩ | ihf
        · exact .inl ⟨by simp [PExpr.picks, h], by simp only [ih]⟩
        · rw [← ihf]
          cases evalArr env f with
          | error er => exact .inr rfl
          | ok v => exact .inr (arrayOp_static _ u v)
  | post e q ih =>
    rcases ih with ⟨h, ih⟩ | ih
    · exact .inl ⟨picks_post h, by simp only [evalArr, ih, bind, Except.bind]⟩
    · simp only [evalArr, evalShape, bind, Except.bind]
      rw [← ih]
      cases evalArr env e with
      | error er => exact .inr rfl
      | ok u =>
        rcases postArr_static e.vars.isEmpty q u with ⟨⟨k, rfl⟩, h⟩ | h
        · exact .inl ⟨rfl, h⟩
        · exact .inr h
  | sumOver | prodOver => exact .inr rfl

theorem cache_entries {coords : Coords} : ∀ {objs : List ModelObject} {ps : List (Str × List Nat)},
    (objs.mapM fun o => (inferShape o coords).map fun s => (o.name, s)) = .ok ps →
      ps.map Prod.fst = objs.map ModelObject.name ∧
      ∀ o ∈ objs, ∃ s, inferShape o coords = .ok s ∧ (o.name, s) ∈ ps
  | [], ps, h => by
    simp only [List.mapM_nil, pure, Except.pure, Except.ok.injEq] at h
    subst h
    exact ⟨rfl, fun o ho => (nomatch ho)⟩
  | o :: objs, ps, h => by
    rw [List.mapM_cons] at h
    simp only [bind, Except.bind] at h
    cases hs : inferShape o coords with
    | error => rw [hs] at h; cases h
    | ok s =>
      rw [hs] at h
      simp only [Except.map] at h
      split at h
      · cases h
      · rename_i qs hq
        simp only [pure, Except.pure, Except.ok.injEq] at h
        subst h
        obtain ⟨h1, h2⟩ := cache_entries hq
        refine ⟨by rw [List.map_cons, h1]; rfl, fun u hu => ?_⟩
        rcases List.mem_cons.1 hu with rfl | hu
        · exact ⟨s, hs, List.mem_cons_self⟩
        · obtain ⟨t, h3, h4⟩ := h2 u hu
          exact ⟨t, h3, List.mem_cons_of_mem _ h4⟩

theorem mapM_static {env : Str → Res Arr} {shapes : Str → Res (List Nat)}
    (henv : ∀ x, (env x).map Arr.shape = shapes x) :
    ∀ (es : List PExpr) (ss : List (List Nat)), es.mapM (evalShape shapes) = .ok ss →
      ((∃ e ∈ es, e.picks = true) ∧ es.mapM (evalArr env) = .error .indexError) ∨
        ∃ as, es.mapM (evalArr env) = .ok as ∧ as.map Arr.shape = ss
  | [], ss, h => by
    simp only [List.mapM_nil, pure, Except.pure, Except.ok.injEq] at h
    exact .inr ⟨[], rfl, h⟩
  | e :: es, ss, h => by
    rw [List.mapM_cons] at h
    simp only [bind, Except.bind] at h
    cases hs : evalShape shapes e with
    | error => rw [hs] at h; cases h
    | ok s =>
      rw [hs] at h
      dsimp only at h
      cases hss : es.mapM (evalShape shapes) with
      | error => rw [hss] at h; cases h
      | ok ss' =>
        rw [hss] at h
        simp only [pure, Except.pure, Except.ok.injEq] at h
        subst h
        rw [List.mapM_cons]
        simp only [bind, Except.bind]
        rcases C76_static henv e with ⟨hp, hi⟩ | hi
        · exact .inl ⟨⟨e, List.mem_cons_self, hp⟩, by rw [hi]⟩
        · rw [hs] at hi
          cases ha : evalArr env e with
          | error => rw [ha] at hi; cases hi
          | ok a =>
            rw [ha] at hi
            simp only [Except.map, Except.ok.injEq] at hi
            rcases mapM_static henv es ss' hss with ⟨⟨f, hf, hp⟩, h2⟩ | ⟨as, h2, h3⟩
            · exact .inl ⟨⟨f, List.mem_cons_of_mem _ hf, hp⟩, by dsimp only; rw [h2]⟩
            · exact .inr ⟨a :: as, by dsimp only; rw [h2]; rfl, by rw [List.map_cons, hi, h3]⟩

/-- **C76 (calls).**  A compiled system called with arrays of the declared shapes under the names of all variables and
parameters returns a vector with one entry for each unpacked name of an equation; or an `AssertionError` is raised,
because the equations have more or fewer entries than names; or, if some equation picks an entry that is not there, an
`IndexError`.  Nothing else can go wrong in the call. -/
theorem C76_calls (coords : Coords) (objs : List ModelObject) (names unpacked : List Str) (es : List PExpr)
    (f : KwFun ℝ (List ℝ)) (hf : compileText coords objs names es = .ok f)
    (hu : unpackedEquationNames names coords = .ok unpacked) (d : Dict Str (NDArray ℝ))
    (hk : ∀ n, n ∈ dkeys d ↔ n ∈ objs.map ModelObject.name)
    (hd : ∀ o ∈ objs, ∀ s, inferShape o coords = .ok s → ∃ a, dget d o.name = some a ∧ a.shape = s) :
    (∃ v, f d = .ok v ∧ v.length = unpacked.length) ∨ f d = .error .assertion ∨
      ((∃ e ∈ es, e.picks = true) ∧ f d = .error .indexError) := by
  unfold compileText at hf
  rw [hu] at hf
  simp only [bind, Except.bind] at hf
  cases hc : shapeCache coords objs with
  | error => rw [hc] at hf; cases hf
  | ok cache =>
    rw [hc] at hf
    dsimp only at hf
    cases hs : es.mapM (evalShape (lookupName cache)) with
    | error => rw [hs] at hf; cases hf
    | ok ss =>
      rw [hs] at hf
      dsimp only at hf
      cases hcat : npConcatenate (ss.map fun s => List.replicate s.prod ()) with
      | error => rw [hcat] at hf; cases hf
      | ok w =>
        rw [hcat] at hf
        dsimp only at hf
        cases hv : validateParsing objs es with
        | error => rw [hv] at hf; cases hf
        | ok _ =>
          rw [hv] at hf
          simp only [pure, Except.pure, Except.ok.injEq] at hf
          subst hf
          have hnd : (objs.map ModelObject.name).Nodup := by
            unfold validateParsing at hv
            split at hv
            · rename_i h; exact h.1
            · cases hv
          have henv : ∀ x, ((lookupName d x).map Arr.ofNDArray).map Arr.shape = lookupName cache x := by
            intro x
            unfold shapeCache at hc
            cases hps : objs.mapM (fun o => (inferShape o coords).map fun s => (o.name, s)) with
            | error => rw [hps] at hc; cases hc
            | ok ps =>
              rw [hps] at hc
              simp only [Except.map, Except.ok.injEq] at hc
              obtain ⟨h1, h2⟩ := cache_entries hps
              rw [dofPairs_of_nodup _ (h1 ▸ hnd)] at hc
              subst hc
              unfold lookupName
              by_cases hx : x = ptName
              · rw [if_pos hx, if_pos hx]; rfl
              · rw [if_neg hx, if_neg hx]
                by_cases hmem : x ∈ objs.map ModelObject.name
                · obtain ⟨o, ho, rfl⟩ := List.mem_map.1 hmem
                  obtain ⟨s, h3, h4⟩ := h2 o ho
                  obtain ⟨a, h5, h6⟩ := hd o ho s h3
                  rw [dget_of_mem_nodup ps (by unfold dkeys; exact h1 ▸ hnd) h4, h5]
                  simp only [Except.map, Arr.ofNDArray, h6]
                · have hp : dget ps x = none := by
                    cases hg : dget ps x with
                    | none => rfl
                    | some v =>
                      refine absurd ((mem_dkeys_iff ps x).2 ⟨v, hg⟩) ?_
                      unfold dkeys
                      rw [h1]
                      exact hmem
                  have hq : dget d x = none := by
                    cases hg : dget d x with
                    | none => rfl
                    | some v => exact absurd ((hk x).1 ((mem_dkeys_iff d x).2 ⟨v, hg⟩)) hmem
                  rw [hp, hq]
                  rfl
          unfold callTextSystem
          rw [if_neg (by
            simp only [Bool.not_eq_true', Bool.and_eq_false_iff, not_or, Bool.not_eq_false, List.all_eq_true,
              decide_eq_true_eq]
            exact ⟨fun n hn => (hk n).1 hn, fun n hn => (hk n).2 hn⟩)]
          simp only [bind, Except.bind]
          rcases mapM_static henv es ss hs with ⟨hp, h⟩ | ⟨as, h, hsh⟩
          · exact .inr (.inr ⟨hp, by rw [h]⟩)
          · rw [h]
            dsimp only
            cases hfl : flattenEquations (as.map fun a => (⟨a.shape, a.entries⟩ : NDArray ℝ)) with
            | error e =>
              exfalso
              have hne : as ≠ [] := by
                rintro rfl
                rw [List.map_nil] at hsh
                subst hsh
                cases hcat
              cases as with
              | nil => exact hne rfl
              | cons => cases hfl
            | ok v =>
              dsimp only
              split
              · rename_i hlen; exact .inl ⟨v, rfl, hlen⟩
              · exact .inr (.inl rfl)

/-- `x[0] - x[5]`, where `x` has two entries: compiled, but a call raises. -/
def pickedEq (k : Str) : PExpr := .sub (.post (.var "x".toList) (.item "0".toList)) (.post (.var "x".toList) (.item k))

theorem picked_compiles (k : Str) (hk : '.' ∉ k) :
    compileText [("i".toList, ["a".toList, "b".toList])] [{ name := "x", dims := ["i".toList] }] ["e".toList]
      [pickedEq k] = .ok (callTextSystem ["x".toList] 1 [pickedEq k]) := by
  have h2 : shapeCache [("i".toList, ["a".toList, "b".toList])] [{ name := "x", dims := ["i".toList] }] =
      .ok [("x".toList, [2])] := by decide +kernel
  have h1 : unpackedEquationNames ["e".toList] [("i".toList, ["a".toList, "b".toList])] = .ok ["e".toList] := by
    decide +kernel
  have hx : lookupName [("x".toList, [2])] "x".toList = (.ok [2] : Res (List Nat)) := by decide +kernel
  have h3 : [pickedEq k].mapM (evalShape (lookupName [("x".toList, [2])])) = .ok [[]] := by
    simp only [List.mapM_cons, List.mapM_nil, pickedEq, evalShape, hx, bind, Except.bind, postShape, PExpr.vars,
      axisOf, if_neg hk]
    rfl
  have h4 : validateParsing [{ name := "x", dims := ["i".toList] }] [pickedEq k] = .ok () := by
    unfold validateParsing
    rw [if_pos]
    refine ⟨by decide, by decide, fun o ho => ?_⟩
    rw [List.mem_singleton.1 ho]
    simp [pickedEq, PExpr.vars]
  unfold compileText
  rw [h1, h2]
  simp only [bind, Except.bind, h3, h4]
  rfl

/-- **C76 (missing entries).**  Whether an entry that is picked by its position exists is only found out in a call. -/
theorem C76_missing_entry (env : Str → Res Arr) (e : PExpr) (a : Arr) (n : Nat) (s : List Nat) (k : Str)
    (he : evalArr env e = .ok a) (hs : a.shape = n :: s) (hv : e.vars ≠ []) (hk : '.' ∉ k) :
    (n ≤ digitsVal k → evalArr env (.post e (.item k)) = .error .indexError) ∧
    (digitsVal k < n → ∃ b, evalArr env (.post e (.item k)) = .ok b ∧ b.shape = s ∧
      ∀ idx, b.get idx = a.get (digitsVal k :: idx)) := by
  have hne : e.vars.isEmpty = false := by
    cases h : e.vars with
    | nil => exact absurd h hv
    | cons => rfl
  simp only [evalArr, he, bind, Except.bind, postArr, hne, Bool.false_eq_true, if_false, axisOf, if_neg hk, Arr.item, hs]
  refine ⟨fun h => by rw [if_neg (Nat.not_lt.2 h)], fun h => ?_⟩
  rw [if_pos h]
  exact ⟨_, rfl, rfl, fun _ => rfl⟩

/-- A call with `x` of two entries: with position 1 it returns, with position 5 it raises an `IndexError`. -/
example : (∃ f v, compileText [("i".toList, ["a".toList, "b".toList])] [{ name := "x", dims := ["i".toList] }] ["e".toList]
      [pickedEq "1".toList] = .ok f ∧ f [("x".toList, ⟨[2], [3, 4]⟩)] = .ok v ∧ v.length = 1) ∧
    ∃ f, compileText [("i".toList, ["a".toList, "b".toList])] [{ name := "x", dims := ["i".toList] }] ["e".toList]
      [pickedEq "5".toList] = .ok f ∧ f [("x".toList, ⟨[2], [3, 4]⟩)] = .error .indexError := by
  have hx : evalArr (fun x => (lookupName [("x".toList, (⟨[2], [3, 4]⟩ : NDArray ℝ))] x).map Arr.ofNDArray)
      (.var "x".toList) = .ok (Arr.ofNDArray ⟨[2], [3, 4]⟩) := rfl
  have hpick := fun k hk => C76_missing_entry _ _ _ 2 [] k hx rfl (List.cons_ne_nil _ _) hk
  obtain ⟨b, hb, hbs, -⟩ := (hpick "0".toList (by decide)).2 (by decide)
  constructor
  · exact ⟨_, [3 - 4], picked_compiles _ (by decide), rfl, rfl⟩
  · refine ⟨_, picked_compiles _ (by decide), ?_⟩
    unfold callTextSystem
    rw [if_neg (by decide)]
    have h5 := (hpick "5".toList (by decide)).1 (by decide)
    simp only [List.mapM_cons, List.mapM_nil, pickedEq, evalArr.eq_6, hb, h5, bind, Except.bind]

end Verif
