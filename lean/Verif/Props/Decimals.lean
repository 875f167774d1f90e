import Verif.Props.Production
import Mathlib.Tactic.Ring
import Mathlib.Tactic.NormNum
import Mathlib.Tactic.FieldSimp

/-!
# C40: numbers as arguments of the generators

An elasticity, a productivity or a share may be passed as a number, as in `CES(…, epsilon="0.5")`.
-/

namespace Verif

/-- The text is a number without exponent, `12` or `12.5`, and `v` is its value. -/
def IsDecimal (s : Str) (v : ℝ) : Prop :=
  ∃ ip fp : Str, ip ≠ [] ∧ ip.all Char.isDigit = true ∧ fp.all Char.isDigit = true ∧
    (s = ip ++ '.' :: fp ∨ s = ip ∧ fp = []) ∧
    v = Nat.ofDigitChars 10 ip 0 + (Nat.ofDigitChars 10 fp 0 : ℝ) / 10 ^ fp.length

theorem digit_ne_point {c : Char} (h : c.isDigit = true) : c ≠ '.' := by
  rintro rfl
  exact absurd h (by decide)

theorem tokens_decimal (ip fp : Str) (hne : ip ≠ []) (hi : ip.all Char.isDigit = true) (hf : fp.all Char.isDigit = true) :
    tokens (ip ++ '.' :: fp) = some [.num (ip ++ '.' :: fp)] := by
  have h1 := tokens_digits ip hne hi
  have hrun : lexRun .none ip = some ([], .num ip) := by
    cases ip with
    | nil => exact absurd rfl hne
    | cons c s =>
      have hcs := lexRun_digits (c :: s) [] hi
      rw [List.all_cons, Bool.and_eq_true] at hi
      have hd := digit_ne_point hi.1
      unfold tokens at h1
      cases hr : lexRun .none (c :: s) with
      | none => rw [hr] at h1; cases h1
      | some r =>
        obtain ⟨h5, h6, h7, h8⟩ := isAlpha_cases c (Or.inr hi.1)
        have hi' : identStart c = false := by
          cases hi'' : identStart c with
          | false => rfl
          | true =>
            exfalso
            rw [lexRun] at hcs
            unfold lexStep at hcs
            simp [h5, h6, h7, h8, hi''] at hcs
        have hstep : lexStep .none c = some ([], .num [c]) := by
          unfold lexStep
          simp only [h5, h6, h7, h8, hi', hi.1, Bool.false_eq_true, if_false, if_true]
          rfl
        rw [← hr, lexRun, hstep]
        dsimp only
        rw [lexRun_digits _ _ hi.2]
        rfl
  have hno : ip.contains '.' = false := by
    rw [← Bool.not_eq_true, List.contains_iff_mem]
    intro hm
    exact digit_ne_point (List.all_eq_true.1 hi _ hm) rfl
  have hpoint : lexStep (.num ip) '.' = some ([], .num (ip ++ ['.'])) := by
    unfold lexStep
    have e1 : (('.' : Char) == ' ') = false := by decide
    have e2 : (('.' : Char) == '*') = false := by decide
    have e3 : opToken '.' = none := rfl
    simp only [e1, e2, e3, hno, Bool.false_eq_true, if_false, beq_self_eq_true, if_true]
  unfold tokens
  rw [lexRun_append, hrun]
  dsimp only
  rw [lexRun, hpoint]
  dsimp only
  rw [lexRun_digits _ _ hf]
  simp [Pending.flush]

theorem digitsVal_eq (s : Str) : digitsVal s = Nat.ofDigitChars 10 s 0 := by
  rw [Nat.ofDigitChars_eq_foldl]
  rfl

theorem foldl_shift (s : Str) (a : Nat) : s.foldl (fun a c => 10 * a + (c.toNat - '0'.toNat)) a =
    a * 10 ^ s.length + digitsVal s := by
  induction s generalizing a with
  | nil => simp [digitsVal]
  | cons c s ih =>
    have : digitsVal (c :: s) = s.foldl (fun a c => 10 * a + (c.toNat - '0'.toNat)) (c.toNat - '0'.toNat) := by
      simp [digitsVal]
    rw [List.foldl_cons, ih, this, ih, List.length_cons]
    ring

theorem takeWhile_digits (ip : Str) (fp : Str) (hi : ip.all Char.isDigit = true) :
    (ip ++ '.' :: fp).takeWhile (· != '.') = ip ∧ (ip ++ '.' :: fp).dropWhile (· != '.') = '.' :: fp := by
  induction ip with
  | nil => simp
  | cons c s ih =>
    rw [List.all_cons, Bool.and_eq_true] at hi
    have := digit_ne_point hi.1
    obtain ⟨i1, i2⟩ := ih hi.2
    have hb : (c != '.') = true := by simpa using this
    rw [List.cons_append]
    simp only [List.takeWhile_cons, List.dropWhile_cons, hb, if_true, i1, i2, and_self]

theorem takeWhile_all_digits (ip : Str) (hi : ip.all Char.isDigit = true) :
    ip.takeWhile (· != '.') = ip ∧ ip.dropWhile (· != '.') = [] := by
  induction ip with
  | nil => simp
  | cons c s ih =>
    rw [List.all_cons, Bool.and_eq_true] at hi
    obtain ⟨i1, i2⟩ := ih hi.2
    have hb : (c != '.') = true := by simpa using digit_ne_point hi.1
    simp only [List.takeWhile_cons, List.dropWhile_cons, hb, if_true, i1, i2, and_self]

/-- A number is read as one atom, with its value. -/
theorem IsDecimal.phrase {s : Str} {v : ℝ} (h : IsDecimal s v) : Phrase .atom s (.num s) ∧ numVal s = v := by
  obtain ⟨ip, fp, hne, hi, hf, hs, rfl⟩ := h
  rcases hs with rfl | ⟨rfl, rfl⟩
  · refine ⟨⟨_, tokens_decimal ip fp hne hi hf, .num⟩, ?_⟩
    obtain ⟨h1, h2⟩ := takeWhile_digits ip fp hi
    unfold numVal
    simp only [h1, h2, List.drop_one, List.tail_cons]
    have : digitsVal (ip ++ fp) = digitsVal ip * 10 ^ fp.length + digitsVal fp := by
      conv_lhs => unfold digitsVal
      rw [List.foldl_append, foldl_shift]
      rfl
    rw [this, digitsVal_eq, digitsVal_eq]
    push_cast
    field_simp
  · refine ⟨⟨_, tokens_digits s hne hi, .num⟩, ?_⟩
    obtain ⟨h1, h2⟩ := takeWhile_all_digits s hi
    unfold numVal
    simp only [h1, h2, List.drop_nil, List.append_nil, List.length_nil, pow_zero, div_one, digitsVal_eq]
    simp [Nat.ofDigitChars]

/-- **C40, numbers.**  The productivity and the elasticity of `CES` may be numbers: the texts are the documented
production function and demands at the values of these numbers. -/
theorem C40_ces_numbers (xs : List FactorArg) (hne : xs ≠ []) (hok : ∀ f ∈ xs, f.Ok)
    (o op tfp e : Str) (Y P : PExpr) (hY : Phrase .atom o Y) (hP : Phrase .atom op P) (a ε : ℝ)
    (hA : IsDecimal tfp a) (hE : IsDecimal e ε) :
    ∃ prod demands,
      (ces (.list (xs.map (·.name))) (.list (xs.map (·.price))) o op tfp
        (.list (xs.map (·.share))) e .no false).eqs = .ok (prod :: demands) ∧
      Says prod (fun _ _ env i => CESProduction (Y.value env i) a ε (xs.map (·.val env i))) ∧
      demands.length = xs.length ∧
      ∀ (j : Nat) (f : FactorArg), xs[j]? = some f → ∃ d, demands[j]? = some d ∧
        Says d (fun _ _ env i => CESDemand (Y.value env i) a (P.value env i) ε (f.val env i)) := by
  obtain ⟨hA', ha⟩ := hA.phrase
  obtain ⟨hE', hε⟩ := hE.phrase
  have h := C40_ces xs hne hok o op tfp e Y P _ _ hY hP hA' hE'
  simp only [PExpr.value, ha, hε] at h
  exact h

/-- The same for `cobb_douglass`, where the shares may be numbers as well. -/
theorem C40_cobb_douglass_numbers (xs : List FactorArg) (hne : xs ≠ []) (hx : ∀ f ∈ xs, Phrase .atom f.name f.X)
    (hp : ∀ f ∈ xs, Phrase .term f.price f.p) (α : FactorArg → ℝ) (hα : ∀ f ∈ xs, IsDecimal f.share (α f))
    (hshare : ∀ f ∈ xs, f.a = .num f.share)
    (o op tfp : Str) (Y P : PExpr) (hY : Phrase .atom o Y) (hP : Phrase .atom op P) (a : ℝ) (hA : IsDecimal tfp a) :
    ∃ prod demands,
      (cobbDouglass (.list (xs.map (·.name))) (.list (xs.map (·.price))) o op
        (.list (xs.map (·.share))) tfp false).eqs = .ok (prod :: demands) ∧
      Says prod (fun _ _ env i => CobbDouglasProduction (Y.value env i) a
        (xs.map fun f => ⟨f.X.value env i, f.p.value env i, α f⟩)) ∧
      demands.length = xs.length ∧
      ∀ (j : Nat) (f : FactorArg), xs[j]? = some f → ∃ d, demands[j]? = some d ∧
        Says d (fun _ _ env i => CobbDouglasDemand (Y.value env i) (P.value env i) ⟨f.X.value env i, f.p.value env i, α f⟩) := by
  obtain ⟨hA', ha⟩ := hA.phrase
  have hok : ∀ f ∈ xs, f.Ok := fun f hf => ⟨hx f hf, hp f hf, by rw [hshare f hf]; exact (hα f hf).phrase.1.s⟩
  have hval : ∀ f ∈ xs, ∀ (ι : Type) [Fintype ι] (env : Str → ι → ℝ) (i : ι),
      f.val env i = ⟨f.X.value env i, f.p.value env i, α f⟩ := by
    intro f hf ι _ env i
    unfold FactorArg.val
    rw [hshare f hf]
    simp only [PExpr.value, (hα f hf).phrase.2]
  have h := C40_cobb_douglass xs hne hok o op tfp Y P _ hY hP hA'
  simp only [PExpr.value, ha] at h
  obtain ⟨prod, demands, h1, h2, h3, h4⟩ := h
  refine ⟨prod, demands, h1, ?_, h3, fun j f hj => ?_⟩
  · obtain ⟨l, r, g1, g2⟩ := h2
    refine ⟨l, r, g1, fun ι _ env i => ?_⟩
    rw [g2]
    show CobbDouglasProduction _ _ _ ↔ CobbDouglasProduction _ _ _
    rw [List.map_congr_left fun f hf => hval f hf ι env i]
  · obtain ⟨d, k1, l, r, g1, g2⟩ := h4 j f hj
    refine ⟨d, k1, l, r, g1, fun ι _ env i => ?_⟩
    rw [g2]
    show CobbDouglasDemand _ _ _ ↔ CobbDouglasDemand _ _ _
    rw [hval f (List.mem_of_getElem? hj) ι env i]

example : IsDecimal "0.5".toList (1 / 2) :=
  ⟨"0".toList, "5".toList, by simp, by decide, by decide, Or.inl rfl, by simp [Nat.ofDigitChars]; norm_num⟩

/-- `cobb_douglass(["L", "K"], ["w", "r"], "Y", "P", ["0.4", "0.6"], "1.5")` -/
example : ∃ prod demands,
    (cobbDouglass (.list ["L".toList, "K".toList]) (.list ["w".toList, "r".toList]) "Y".toList "P".toList
      (.list ["0.4".toList, "0.6".toList]) "1.5".toList false).eqs = .ok (prod :: demands) ∧
    Says prod (fun _ _ env i => CobbDouglasProduction (env "Y".toList i) (3 / 2)
      [⟨env "L".toList i, env "w".toList i, 2 / 5⟩, ⟨env "K".toList i, env "r".toList i, 3 / 5⟩]) := by
  have n : ∀ x : Str, isIdent x = true → Phrase .atom x (.var x) := fun x h => Phrase.name h
  obtain ⟨prod, demands, h1, h2, -⟩ := C40_cobb_douglass_numbers
    [⟨"L".toList, "w".toList, "0.4".toList, .var "L".toList, .var "w".toList, .num "0.4".toList⟩,
      ⟨"K".toList, "r".toList, "0.6".toList, .var "K".toList, .var "r".toList, .num "0.6".toList⟩] (by simp)
    (by
      intro f hf
      rcases List.mem_cons.1 hf with rfl | hf
      · exact n _ rfl
      · rw [List.mem_singleton.1 hf]; exact n _ rfl)
    (by
      intro f hf
      rcases List.mem_cons.1 hf with rfl | hf
      · exact (n _ rfl).t
      · rw [List.mem_singleton.1 hf]; exact (n _ rfl).t)
    (fun f => if f.name = "L".toList then 2 / 5 else 3 / 5)
    (by
      intro f hf
      rcases List.mem_cons.1 hf with rfl | hf
      · refine ⟨"0".toList, "4".toList, by simp, by decide, by decide, Or.inl rfl, ?_⟩
        rw [if_pos rfl]
        simp [Nat.ofDigitChars]
        norm_num
      · rw [List.mem_singleton.1 hf]
        refine ⟨"0".toList, "6".toList, by simp, by decide, by decide, Or.inl rfl, ?_⟩
        rw [if_neg (by decide)]
        simp [Nat.ofDigitChars]
        norm_num)
    (by
      intro f hf
      rcases List.mem_cons.1 hf with rfl | hf
      · rfl
      · rw [List.mem_singleton.1 hf])
    "Y".toList "P".toList "1.5".toList _ _ (n _ rfl) (n _ rfl) (3 / 2)
    ⟨"1".toList, "5".toList, by simp, by decide, by decide, Or.inl rfl, by simp [Nat.ofDigitChars]; norm_num⟩
  refine ⟨prod, demands, h1, ?_⟩
  simpa (decide := true) only [PExpr.value, List.map_cons, List.map_nil, if_true, if_false] using h2

/-- A number has one point at most. -/
example : tokens "1.2.3".toList = none := rfl

end Verif
