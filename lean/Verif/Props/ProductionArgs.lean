import Verif.Props.Production

/-!
# C43, C44: argument checks and side effects of the generators
-/

namespace Verif

/-- The number of names an argument stands for. -/
def StrArg.count (a : StrArg) : Nat := match a with
  | .str _ => 1
  | .list l => l.length

theorem StrArg.count_eq (a : StrArg) : a.atLeastList.length = a.count := by
  cases a <;> rfl

theorem checkLengths_ok_iff (a b c : StrArg) :
    (∃ u, checkLengths a b c = .ok u) ↔ a.count = b.count ∧ a.count = c.count := by
  unfold checkLengths
  simp only [StrArg.count_eq]
  by_cases h1 : a.count = b.count
  · by_cases h2 : a.count = c.count
    · have h3 : b.count = c.count := h1.symm.trans h2
      rw [if_neg (fun h => h h1), if_neg (fun h => h h2), if_neg (fun h => h h3)]
      exact ⟨fun _ => ⟨h1, h2⟩, fun _ => ⟨(), rfl⟩⟩
    · rw [if_neg (fun h => h h1), if_pos h2]
      exact ⟨fun ⟨u, hu⟩ => (by cases hu), fun h => absurd h.2 h2⟩
  · rw [if_pos h1]
    exact ⟨fun ⟨u, hu⟩ => (by cases hu), fun h => absurd h.1 h1⟩

theorem checkLengths_error (a b c : StrArg) (e : PyErr) (h : checkLengths a b c = .error e) :
    e = .valueError := by
  unfold checkLengths at h
  split at h
  · cases h; rfl
  · split at h
    · cases h; rfl
    · split at h
      · cases h; rfl
      · cases h

/-- How many shares there are after `_add_second_alpha`. -/
theorem addSecondAlpha_count (s f : StrArg) (hf : f.count ≠ 2 ∨ s.count ≠ 1) :
    (addSecondAlpha s f).1.length = s.count := by
  cases f with
  | str x => exact s.count_eq
  | list fs =>
    simp only [addSecondAlpha]
    by_cases h2 : fs.length = 2
    · rw [if_neg (fun h => h h2)]
      have hs : s.count ≠ 1 := by
        rcases hf with h | h
        · exact absurd h2 h
        · exact h
      match s, hs with
      | .str _, hs => exact absurd rfl hs
      | .list [], _ => rfl
      | .list [_], hs => exact absurd rfl hs
      | .list (_ :: _ :: _), _ => rfl
    · rw [if_pos h2]; exact s.count_eq

theorem addSecondAlpha_two (s f : StrArg) (hf : f.count = 2) (hs : s.count = 1) :
    (addSecondAlpha s f).1.length = 2 := by
  match f, hf with
  | .list fs, hf =>
    simp only [addSecondAlpha]
    rw [if_neg (fun h => h hf)]
    match s, hs with
    | .str _, _ => rfl
    | .list [_], _ => rfl

/-- The numbers fit: as many prices as factors, and as many shares, or one share for two factors. -/
def CountsFit (f p s : StrArg) : Prop :=
  f.count = p.count ∧ (f.count = s.count ∨ (f.count = 2 ∧ s.count = 1))

theorem shares_fit_iff (f s : StrArg) :
    f.count = (StrArg.list (addSecondAlpha s f).1).count ↔
      (f.count = s.count ∨ (f.count = 2 ∧ s.count = 1)) := by
  show f.count = (addSecondAlpha s f).1.length ↔ _
  by_cases h : f.count = 2 ∧ s.count = 1
  · rw [addSecondAlpha_two s f h.1 h.2]
    exact ⟨fun _ => Or.inr h, fun _ => h.1⟩
  · have h' : f.count ≠ 2 ∨ s.count ≠ 1 := by
      by_cases h2 : f.count = 2
      · exact Or.inr fun h3 => h ⟨h2, h3⟩
      · exact Or.inl h2
    rw [addSecondAlpha_count s f h']
    exact ⟨Or.inl, fun g => g.resolve_right h⟩

/-- C43, first part, for every combination of string and list arguments: `cobb_douglass` and `CES` return
equations exactly when the numbers fit, and raise `ValueError` otherwise. -/
theorem C43_cobb_douglass_ces_reject (f p s : StrArg) (o op tfp e : Str) (ex : ExpandPrice) (v : Bool) :
    ((∃ eqs, (cobbDouglass f p o op s tfp v).eqs = .ok eqs) ↔ CountsFit f p s) ∧
    ((∃ eqs, (ces f p o op tfp s e ex v).eqs = .ok eqs) ↔ CountsFit f p s) ∧
    (¬ CountsFit f p s → (cobbDouglass f p o op s tfp v).eqs = .error .valueError ∧
      (ces f p o op tfp s e ex v).eqs = .error .valueError) := by
  have hw : ∀ t : StrArg, (addSecondAlpha (.list t.atLeastList) f).1 =
      (addSecondAlpha t f).1 := by
    intro t
    cases t with
    | list l => rfl
    | str x =>
      cases f with
      | str y => rfl
      | list fs =>
        simp only [addSecondAlpha]
        by_cases h2 : fs.length = 2
        · rw [if_neg (fun h => h h2), if_neg (fun h => h h2)]
          rfl
        · rw [if_pos h2, if_pos h2]; rfl
  have key : (∃ u, checkLengths f p (.list (addSecondAlpha s f).1) = .ok u) ↔ CountsFit f p s := by
    rw [checkLengths_ok_iff, shares_fit_iff]
    rfl
  have hc : (cobbDouglass f p o op s tfp v).eqs =
      match checkLengths f p (.list (addSecondAlpha s f).1) with
      | .error e => .error e
      | .ok _ => .ok ((if v then valueEquation p.iter f.iter o op
              else cobbProduction f.iter (addSecondAlpha s f).1 o tfp) ::
            (zip3 f.iter p.iter (addSecondAlpha s f).1).map fun x =>
              cobbDemand x.1 x.2.1 x.2.2 o op tfp) := by
    unfold cobbDouglass
    dsimp only
    rw [hw s]
    cases checkLengths f p (.list (addSecondAlpha s f).1) <;> rfl
  refine ⟨?_, ?_, ?_⟩
  · rw [← key, hc]
    cases checkLengths f p (.list (addSecondAlpha s f).1) with
    | ok u => exact ⟨fun _ => ⟨u, rfl⟩, fun _ => ⟨_, rfl⟩⟩
    | error e => exact ⟨fun ⟨_, h⟩ => (by cases h), fun ⟨_, h⟩ => (by cases h)⟩
  · rw [← key]
    unfold ces
    dsimp only
    cases checkLengths f p (.list (addSecondAlpha s f).1) with
    | ok u => exact ⟨fun _ => ⟨u, rfl⟩, fun _ => ⟨_, rfl⟩⟩
    | error e => exact ⟨fun ⟨_, h⟩ => (by cases h), fun ⟨_, h⟩ => (by cases h)⟩
  · intro hn
    rw [← key] at hn
    rw [hc]
    unfold ces
    dsimp only
    cases hch : checkLengths f p (.list (addSecondAlpha s f).1) with
    | ok u => exact absurd ⟨u, hch⟩ hn
    | error e =>
      have he := checkLengths_error _ _ _ _ hch
      subst he
      exact ⟨rfl, rfl⟩

/-- C43 for `leontief`: different numbers are rejected with `ValueError`, whatever the other arguments. -/
theorem C43_leontief_rejects (f p s d : StrArg) (o op : Str) (coords : Dict Str (List Str))
    (sd : Option Str) (b1 b2 : Bool) (bk : Backend) (h : ¬ (f.count = p.count ∧ f.count = s.count)) :
    leontief f p o op s d coords sd b1 b2 bk = .error .valueError := by
  unfold leontief
  cases hch : checkLengths f p s with
  | ok u => exact absurd ((checkLengths_ok_iff f p s).1 ⟨u, hch⟩) h
  | error e =>
    have he := checkLengths_error _ _ _ _ hch
    subst he
    rfl

/-- C43 for `leontief`: with one dim at least two factors are needed, with two dims exactly one, whatever the other
arguments; anything else is a `ValueError`. -/
theorem C43_leontief_factor_count (f p s d : StrArg) (o op : Str) (coords : Dict Str (List Str))
    (sd : Option Str) (b1 b2 : Bool) (bk : Backend)
    (h : f.atLeastList.length = 1 ↔ d.atLeastList.length = 1) :
    leontief f p o op s d coords sd b1 b2 bk = .error .valueError := by
  unfold leontief
  cases hch : checkLengths f p s with
  | error e =>
    have he := checkLengths_error _ _ _ _ hch
    subst he
    rfl
  | ok u =>
    dsimp only
    cases d with
    | str x => exact if_pos (h.2 rfl)
    | list l =>
      by_cases h1 : l.length = 1
      · simp [h1, h.2 h1]
      · have h2 : f.atLeastList.length ≠ 1 := fun hc => h1 (h.1 hc)
        simp [h1, h2]

example : leontief (.list ["K", "L"]) (.list ["r", "w"]) "Y" "P" (.list ["a", "b"]) (.list ["i", "j"])
    [("i".toList, ["a"]), ("j".toList, ["b"])] none false false .numba = .error .valueError ∧
    leontief (.str "K") (.str "r") "Y" "P" (.str "a") (.str "i") [("i".toList, ["a"])] none false false .numba =
      .error .valueError :=
  ⟨C43_leontief_factor_count _ _ _ _ _ _ _ _ _ _ _ (by decide), C43_leontief_factor_count _ _ _ _ _ _ _ _ _ _ _ (by decide)⟩

theorem zip3_length {α β γ : Type} (a : List α) (b : List β) (c : List γ) (h : a.length = b.length)
    (h' : a.length = c.length) : (zip3 a b c).length = a.length := by
  unfold zip3
  rw [List.length_zip, List.length_zip]
  omega

theorem zip3_get {α β γ : Type} (a : List α) (b : List β) (c : List γ) (h : a.length = b.length)
    (h' : a.length = c.length) (j : Nat) (x : α) (hx : a[j]? = some x) :
    ∃ y z, (zip3 a b c)[j]? = some (x, y, z) ∧ b[j]? = some y ∧ c[j]? = some z := by
  have hj : j < a.length := (List.getElem?_eq_some_iff.1 hx).1
  refine ⟨b[j]'(by omega), c[j]'(by omega), ?_, List.getElem?_eq_getElem _, List.getElem?_eq_getElem _⟩
  unfold zip3
  rw [List.getElem?_zip_eq_some]
  refine ⟨hx, ?_⟩
  rw [List.getElem?_zip_eq_some]
  exact ⟨List.getElem?_eq_getElem _, List.getElem?_eq_getElem _⟩

/-- C43, second part, for list arguments (`_partial`: not for a factor given as a string, see the next
theorem): exactly one demand per factor, the left-hand side of the j-th being the j-th factor. -/
theorem C43_one_demand_per_factor_partial (fs ps : List Str) (s : StrArg) (o op tfp e : Str)
    (ex : ExpandPrice) (v : Bool) (h : CountsFit (.list fs) (.list ps) s) :
    (∃ q ds, (cobbDouglass (.list fs) (.list ps) o op s tfp v).eqs = .ok (q :: ds) ∧
      ds.length = fs.length ∧ ∀ (j : Nat) (f : Str), fs[j]? = some f →
        ∃ rhs, ds[j]? = some (f ++ " = ".toList ++ rhs)) ∧
    (∃ q ds, (ces (.list fs) (.list ps) o op tfp s e ex v).eqs = .ok (q :: ds) ∧
      ds.length = fs.length ∧ ∀ (j : Nat) (f : Str), fs[j]? = some f →
        ∃ rhs, ds[j]? = some (f ++ " = ".toList ++ rhs)) := by
  have hlen : fs.length = ps.length := h.1
  have hfit : ∀ t : StrArg, t.count = s.count → fs.length = (addSecondAlpha t (.list fs)).1.length := by
    intro t ht
    refine (shares_fit_iff (.list fs) t).2 ?_
    rw [ht]
    exact h.2
  constructor
  · have hs : fs.length = (addSecondAlpha (.list s.atLeastList) (.list fs)).1.length := by
      apply hfit
      cases s <;> rfl
    unfold cobbDouglass
    dsimp only
    generalize (addSecondAlpha (.list s.atLeastList) (.list fs)).1 = sh at hs
    rw [checkLengths_same fs ps sh hlen hs]
    refine ⟨_, _, rfl, ?_, ?_⟩
    · dsimp only [StrArg.iter]
      rw [List.length_map, zip3_length _ _ _ hlen hs]
    · intro j f hj
      dsimp only [StrArg.iter]
      obtain ⟨y, z, h1, -, -⟩ := zip3_get fs ps sh hlen hs j f hj
      rw [List.getElem?_map, h1, Option.map_some, cobbDemand_text]
      refine ⟨"(".toList ++ (z ++ (") * ".toList ++ (o ++ (" * (".toList ++ (op ++ (") / (".toList ++
        (y ++ ")".toList))))))), ?_⟩
      have e1 : " = (".toList = " = ".toList ++ "(".toList := rfl
      rw [e1]
      simp only [List.append_assoc]
  · have hs := hfit s rfl
    unfold ces
    dsimp only
    generalize (addSecondAlpha s (.list fs)).1 = sh at hs
    rw [checkLengths_same fs ps sh hlen hs]
    have hps : ∀ ps' : List Str, ps'.length = ps.length → fs.length = ps'.length :=
      fun ps' hp => hlen.trans hp.symm
    have hp2 : fs.length = (if ex = .input ∨ ex = .both then
        (StrArg.list ps).iter.map (· ++ "[:, None]".toList) else (StrArg.list ps).iter).length := by
      apply hps
      split
      · simp [StrArg.iter]
      · rfl
    generalize (if ex = .input ∨ ex = .both then
        (StrArg.list ps).iter.map (· ++ "[:, None]".toList) else (StrArg.list ps).iter) = ps' at hp2
    generalize (if ex = .output ∨ ex = .both then op ++ "[:, None]".toList else op) = op'
    refine ⟨_, _, rfl, ?_, ?_⟩
    · dsimp only [StrArg.iter]
      rw [List.length_map, zip3_length _ _ _ hp2 hs]
    · intro j f hj
      dsimp only [StrArg.iter]
      obtain ⟨y, z, h1, -, -⟩ := zip3_get fs ps' sh hp2 hs j f hj
      rw [List.getElem?_map, h1, Option.map_some, cesDemand_text]
      refine ⟨o ++ (" / ".toList ++ (tfp ++ (" * ((".toList ++ (z ++ (") * ".toList ++ (op' ++
        (" * ".toList ++ (tfp ++ (" / (".toList ++ (y ++ (")) ** ".toList ++ (e ++ [])))))))))))), ?_⟩
      simp only [List.append_assoc]

/-- C43 is false for a factor given as a string: the loops run over the characters of the string.  `CES`
documents string arguments; the demand emitted for the factor `"VA"` is an equation for `V`. -/
theorem C43_string_factor_counterexample :
    (ces (.str "VA".toList) (.str "P".toList) "Y".toList "PY".toList "A".toList (.str "a".toList)
      "e".toList .no false).eqs =
      .ok ["Y = A * ((a) * V ** ((e - 1) / e)) ** (e / (e - 1))".toList,
        "V = Y / A * ((a) * PY * A / (P)) ** e".toList] := by decide +kernel

/-! ## C44 -/

/-- C44 is false: the caller's list of one share is extended by a call with two factors. -/
theorem C44_shares_list_extended :
    (ces (.list ["L".toList, "K".toList]) (.list ["w".toList, "r".toList]) "Y".toList "P".toList
      "A".toList (.list ["a".toList]) "e".toList .no false).shares =
        .list ["a".toList, "1 - a".toList] ∧
    (cobbDouglass (.list ["L".toList, "K".toList]) (.list ["w".toList, "r".toList]) "Y".toList "P".toList
      (.list ["a".toList]) "A".toList false).shares = .list ["a".toList, "1 - a".toList] := by
  decide

/-- ... so that a later call with the same list object and one factor, which would have succeeded before,
raises. -/
theorem C44_later_call_raises :
    let before : StrArg := .list ["a".toList]
    let after := (cobbDouglass (.list ["L".toList, "K".toList]) (.list ["w".toList, "r".toList])
      "Y".toList "P".toList before "A".toList false).shares
    (∃ eqs, (cobbDouglass (.list ["M".toList]) (.list ["q".toList]) "Z".toList "PZ".toList before
      "A".toList false).eqs = .ok eqs) ∧
    (cobbDouglass (.list ["M".toList]) (.list ["q".toList]) "Z".toList "PZ".toList after
      "A".toList false).eqs = .error .valueError := by
  exact ⟨⟨_, rfl⟩, by decide⟩

/-- C44, what holds: the argument is unchanged unless it is a list of one share and there are two
factors. -/
theorem C44_unchanged_partial (f p s : StrArg) (o op tfp e : Str) (ex : ExpandPrice) (v : Bool)
    (h : ¬ (f.count = 2 ∧ ∃ a, s = .list [a])) :
    (cobbDouglass f p o op s tfp v).shares = s ∧ (ces f p o op tfp s e ex v).shares = s := by
  have key : (addSecondAlpha s f).2 = s := by
    cases f with
    | str x => rfl
    | list fs =>
      simp only [addSecondAlpha]
      by_cases h2 : fs.length = 2
      · rw [if_neg (fun hn => hn h2)]
        match s, h with
        | .str _, _ => rfl
        | .list [], _ => rfl
        | .list [a], h => exact absurd ⟨h2, a, rfl⟩ h
        | .list (_ :: _ :: _), _ => rfl
      · rw [if_pos h2]
  refine ⟨?_, key⟩
  unfold cobbDouglass
  dsimp only
  cases s with
  | str x => rfl
  | list l => exact key

/-- C44, last part: repeating the call with the same (possibly extended) argument gives the same
equations. -/
theorem C44_second_call_same_equations (f p s : StrArg) (o op tfp e : Str) (ex : ExpandPrice) (v : Bool) :
    (cobbDouglass f p o op (cobbDouglass f p o op s tfp v).shares tfp v).eqs =
      (cobbDouglass f p o op s tfp v).eqs ∧
    (ces f p o op tfp (ces f p o op tfp s e ex v).shares e ex v).eqs =
      (ces f p o op tfp s e ex v).eqs := by
  by_cases h : f.count = 2 ∧ ∃ a, s = .list [a]
  · obtain ⟨h2, a, rfl⟩ := h
    match f, h2 with
    | .list [x, y], _ => exact ⟨rfl, rfl⟩
  · obtain ⟨h1, h2⟩ := C44_unchanged_partial f p s o op tfp e ex v h
    rw [h1, h2]
    exact ⟨rfl, rfl⟩

/-- The exceptional case of `C44_unchanged_partial` and the ordinary one. -/
example : (cobbDouglass (.list ["L".toList, "K".toList]) (.list ["w".toList, "r".toList]) "Y".toList
    "P".toList (.list ["a".toList, "b".toList]) "A".toList false).shares =
      .list ["a".toList, "b".toList] ∧
    CountsFit (.list ["L".toList, "K".toList]) (.list ["w".toList, "r".toList]) (.str "a".toList) :=
  ⟨by decide, rfl, Or.inr ⟨rfl, rfl⟩⟩

/-- C43 for `dixit_stiglitz`, which takes one factor: lists of any other length are rejected with
`ValueError`; with single names the call succeeds exactly for a known dimension and is otherwise a
`KeyError`. -/
theorem C43_dixit_stiglitz (f p : StrArg) (o op e d : Str) (coords : Dict Str (List Str)) (b : Backend)
    (tfp : Option Str) (sh : Option StrArg) (v : Bool) :
    (¬ (f.count = 1 ∧ p.count = 1 ∧ ∀ s, sh = some s → s.count = 1) →
      dixitStiglitz f p o op e d coords b tfp sh v = .error .valueError) ∧
    ((f.count = 1 ∧ p.count = 1 ∧ ∀ s, sh = some s → s.count = 1) →
      (d ∉ dkeys coords → dixitStiglitz f p o op e d coords b tfp sh v = .error .keyError) ∧
      (d ∈ dkeys coords → ∃ eq1 eq2, dixitStiglitz f p o op e d coords b tfp sh v = .ok [eq1, eq2])) := by
  have hb : ∀ a : StrArg, a.badSingle = true ↔ a.count ≠ 1 := by
    intro a
    cases a with
    | str s => simp [StrArg.badSingle, StrArg.count]
    | list l => simp [StrArg.badSingle, StrArg.count]
  have hs : (sh.map StrArg.badSingle).getD false = true ↔ ¬ ∀ s, sh = some s → s.count = 1 := by
    cases sh with
    | none => simp
    | some s => simp [hb]
  unfold dixitStiglitz
  constructor
  · intro h
    by_cases h1 : f.badSingle = true
    · rw [if_pos h1]
    · rw [if_neg h1]
      by_cases h2 : p.badSingle = true
      · rw [if_pos h2]
      · rw [if_neg h2, if_pos]
        rw [hs]
        intro h3
        rw [hb] at h1 h2
        exact h ⟨not_not.1 h1, not_not.1 h2, h3⟩
  · rintro ⟨h1, h2, h3⟩
    rw [if_neg (by rw [hb]; exact fun hn => hn h1), if_neg (by rw [hb]; exact fun hn => hn h2),
      if_neg (by rw [hs]; exact fun hn => hn h3)]
    dsimp only
    constructor
    · intro hd
      rw [(dget_eq_none_iff _ _).2 hd]
    · intro hd
      obtain ⟨l, hl⟩ := (mem_dkeys_iff _ _).1 hd
      rw [hl]
      exact ⟨_, _, rfl⟩

example : (StrArg.list ["K".toList, "L".toList]).count ≠ 1 ∧ (StrArg.list ["K".toList]).count = 1 ∧
    (StrArg.str "K".toList).count = 1 := by decide

end Verif
