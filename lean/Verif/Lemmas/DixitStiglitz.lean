import Verif.Lemmas.Production

/-! Texts of the Dixit-Stiglitz equations and how they are read. -/

namespace Verif

open scoped BigOperators

/-- `"a * "`, or nothing if the argument is omitted. -/
def optPart : Option Str → Str
  | none => []
  | some s => s ++ " * ".toList

theorem dsDemand_text (f p o op e : Str) (tfp share : Option Str) :
    dsDemand f p o op e tfp share = f ++ (" = ".toList ++ (o ++ (" / ".toList ++ (optPart tfp ++
      ("(".toList ++ (optPart tfp ++ (optPart share ++ (op ++ (" / ".toList ++ (p ++ (") ** ".toList ++
        e))))))))))) := by
  cases tfp with
  | none =>
    cases share with
    | none =>
      have h : dsDemand f p o op e none none = f ++ (" = ".toList ++ (o ++ (" / (".toList ++
          (op ++ (" / ".toList ++ (p ++ (") ** ".toList ++ (e ++ [])))))))) :=
        safeSubst_render _ [.ph "factor".toList, .lit " = ".toList, .ph "output".toList,
          .lit " / (".toList, .ph "output_price".toList, .lit " / ".toList, .ph "factor_price".toList,
          .lit ") ** ".toList, .ph "epsilon".toList] rfl
      rw [h, List.append_nil]
      have e1 : " / (".toList = " / ".toList ++ "(".toList := rfl
      simp only [optPart, e1, List.append_assoc, List.nil_append]
    | some s =>
      have h : dsDemand f p o op e none (some s) = f ++ (" = ".toList ++ (o ++ (" / (".toList ++
          (s ++ (" * ".toList ++ (op ++ (" / ".toList ++ (p ++ (") ** ".toList ++ (e ++ [])))))))))) :=
        safeSubst_render _ [.ph "factor".toList, .lit " = ".toList, .ph "output".toList,
          .lit " / (".toList, .ph "factor_share".toList, .lit " * ".toList,
          .ph "output_price".toList, .lit " / ".toList, .ph "factor_price".toList,
          .lit ") ** ".toList, .ph "epsilon".toList] rfl
      rw [h, List.append_nil]
      have e1 : " / (".toList = " / ".toList ++ "(".toList := rfl
      simp only [optPart, e1, List.append_assoc, List.nil_append]
  | some t =>
    cases share with
    | none =>
      have h : dsDemand f p o op e (some t) none = f ++ (" = ".toList ++ (o ++ (" / ".toList ++ (t ++
          (" * (".toList ++ (t ++ (" * ".toList ++
          (op ++ (" / ".toList ++ (p ++ (") ** ".toList ++ (e ++ [])))))))))))) :=
        safeSubst_render _ [.ph "factor".toList, .lit " = ".toList, .ph "output".toList,
          .lit " / ".toList, .ph "TFP".toList, .lit " * (".toList, .ph "TFP".toList, .lit " * ".toList,
          .ph "output_price".toList, .lit " / ".toList, .ph "factor_price".toList,
          .lit ") ** ".toList, .ph "epsilon".toList] rfl
      rw [h, List.append_nil]
      have e1 : " * (".toList = " * ".toList ++ "(".toList := rfl
      simp only [optPart, e1, List.append_assoc, List.nil_append]
    | some s =>
      have h : dsDemand f p o op e (some t) (some s) = f ++ (" = ".toList ++ (o ++ (" / ".toList ++ (t ++
          (" * (".toList ++ (t ++ (" * ".toList ++ (s ++ (" * ".toList ++
          (op ++ (" / ".toList ++ (p ++ (") ** ".toList ++ (e ++ [])))))))))))))) :=
        safeSubst_render _ [.ph "factor".toList, .lit " = ".toList, .ph "output".toList,
          .lit " / ".toList, .ph "TFP".toList, .lit " * (".toList, .ph "TFP".toList, .lit " * ".toList,
          .ph "factor_share".toList, .lit " * ".toList,
          .ph "output_price".toList, .lit " / ".toList, .ph "factor_price".toList,
          .lit ") ** ".toList, .ph "epsilon".toList] rfl
      rw [h, List.append_nil]
      have e1 : " * (".toList = " * ".toList ++ "(".toList := rfl
      simp only [optPart, e1, List.append_assoc, List.nil_append]

theorem dsKernel_text (f e : Str) (share : Option Str) :
    dsKernel f e share = optPart share ++ (f ++ (" ** ((".toList ++ (e ++ (" - 1) / ".toList ++
      (e ++ ")".toList))))) := by
  cases share with
  | none =>
    exact safeSubst_render _ [.ph "factor".toList, .lit " ** ((".toList, .ph "epsilon".toList,
      .lit " - 1) / ".toList, .ph "epsilon".toList, .lit ")".toList] rfl
  | some s =>
    have h : dsKernel f e (some s) = s ++ (" * ".toList ++ (f ++ (" ** ((".toList ++ (e ++
        (" - 1) / ".toList ++ (e ++ ")".toList)))))) :=
      safeSubst_render _ [.ph "factor_share".toList, .lit " * ".toList, .ph "factor".toList,
        .lit " ** ((".toList, .ph "epsilon".toList,
        .lit " - 1) / ".toList, .ph "epsilon".toList, .lit ")".toList] rfl
    rw [h]
    simp only [optPart, List.append_assoc]

/-- The reduction in the production function. -/
def dsReduce (kernel d n : Str) : Backend → Str
  | .numba => "Sum(".toList ++ (kernel ++ (", (".toList ++ (d ++ (", 0, ".toList ++ (n ++ "))".toList)))))
  | .pytensor => "(".toList ++ (kernel ++ ").sum()".toList)

theorem dsProduction_text (k o e d n : Str) (tfp : Option Str) (b : Backend) :
    dsProduction k o e d n tfp b = o ++ (" = ".toList ++ (optPart tfp ++ (dsReduce k d n b ++
      (" ** (".toList ++ (e ++ (" / (".toList ++ (e ++ " - 1))".toList))))))) := by
  cases b with
  | numba =>
    have e1 : ")) ** (".toList = "))".toList ++ " ** (".toList := rfl
    cases tfp with
    | none =>
      have h : dsProduction k o e d n none .numba = o ++ (" = Sum(".toList ++ (k ++ (", (".toList ++ (d ++
          (", 0, ".toList ++ (n ++ (")) ** (".toList ++ (e ++ (" / (".toList ++ (e ++ " - 1))".toList)))))))))) :=
        safeSubst_render _ [.ph "output".toList, .lit " = Sum(".toList, .ph "kernel".toList,
          .lit ", (".toList, .ph "dims".toList, .lit ", 0, ".toList, .ph "dim_len".toList,
          .lit ")) ** (".toList, .ph "epsilon".toList, .lit " / (".toList, .ph "epsilon".toList,
          .lit " - 1))".toList] rfl
      rw [h]
      have e2 : " = Sum(".toList = " = ".toList ++ "Sum(".toList := rfl
      simp only [optPart, dsReduce, e1, e2, List.append_assoc, List.nil_append]
    | some t =>
      have h : dsProduction k o e d n (some t) .numba = o ++ (" = ".toList ++ (t ++ (" * Sum(".toList ++
          (k ++ (", (".toList ++ (d ++
          (", 0, ".toList ++ (n ++ (")) ** (".toList ++ (e ++ (" / (".toList ++ (e ++ " - 1))".toList)))))))))))) :=
        safeSubst_render _ [.ph "output".toList, .lit " = ".toList, .ph "TFP".toList,
          .lit " * Sum(".toList, .ph "kernel".toList,
          .lit ", (".toList, .ph "dims".toList, .lit ", 0, ".toList, .ph "dim_len".toList,
          .lit ")) ** (".toList, .ph "epsilon".toList, .lit " / (".toList, .ph "epsilon".toList,
          .lit " - 1))".toList] rfl
      rw [h]
      have e2 : " * Sum(".toList = " * ".toList ++ "Sum(".toList := rfl
      simp only [optPart, dsReduce, e1, e2, List.append_assoc]
  | pytensor =>
    have e1 : ").sum() ** (".toList = ").sum()".toList ++ " ** (".toList := rfl
    cases tfp with
    | none =>
      have h : dsProduction k o e d n none .pytensor = o ++ (" = (".toList ++ (k ++
          (").sum() ** (".toList ++ (e ++ (" / (".toList ++ (e ++ " - 1))".toList)))))) :=
        safeSubst_render _ [.ph "output".toList, .lit " = (".toList, .ph "kernel".toList,
          .lit ").sum() ** (".toList, .ph "epsilon".toList, .lit " / (".toList, .ph "epsilon".toList,
          .lit " - 1))".toList] rfl
      rw [h]
      have e2 : " = (".toList = " = ".toList ++ "(".toList := rfl
      simp only [optPart, dsReduce, e1, e2, List.append_assoc, List.nil_append]
    | some t =>
      have h : dsProduction k o e d n (some t) .pytensor = o ++ (" = ".toList ++ (t ++ (" * (".toList ++ (k ++
          (").sum() ** (".toList ++ (e ++ (" / (".toList ++ (e ++ " - 1))".toList)))))))) :=
        safeSubst_render _ [.ph "output".toList, .lit " = ".toList, .ph "TFP".toList,
          .lit " * (".toList, .ph "kernel".toList,
          .lit ").sum() ** (".toList, .ph "epsilon".toList, .lit " / (".toList, .ph "epsilon".toList,
          .lit " - 1))".toList] rfl
      rw [h]
      have e2 : " * (".toList = " * ".toList ++ "(".toList := rfl
      simp only [optPart, dsReduce, e1, e2, List.append_assoc]

theorem dsValue_text (f p o op : Str) :
    dsValue f p o op = o ++ (" = (".toList ++ (p ++ (" * ".toList ++ (f ++ (").sum() / (".toList ++
      (op ++ ")".toList)))))) :=
  safeSubst_render _ [.ph "output".toList, .lit " = (".toList, .ph "factor_prices".toList,
    .lit " * ".toList, .ph "factors".toList, .lit ").sum() / (".toList, .ph "output_price".toList,
    .lit ")".toList] rfl

/-! ## How they are read -/

theorem decStr_tokens (n : Nat) : tokens (decStr n) = some [.num (decStr n)] := by
  have h : decStr n = Nat.toDigits 10 n := by
    unfold decStr
    rw [Nat.toString_eq_ofList_toDigits]
    simp
  rw [h]
  refine tokens_digits _ Nat.toDigits_ne_nil ?_
  rw [List.all_eq_true]
  intro c hc
  exact Nat.isDigit_of_mem_toDigits (by decide) (by decide) hc

/-- A product with an optional first factor. -/
theorem phrase_opt (a : Option Str) (A : Option PExpr) (h : OptArg a A) (t : Str) (T : PExpr)
    (ht : Phrase .factor t T) :
    ∃ e, Phrase .term (optPart a ++ t) e ∧ ∀ (ι : Type) [Fintype ι] (env : Str → ι → ℝ) (i : ι),
      e.value env i = optVal A env i * T.value env i := by
  match a, A, h with
  | none, none, _ => exact ⟨T, ht.term, fun ι _ env i => (one_mul _).symm⟩
  | some s, some e, h =>
    refine ⟨.mul e T, ?_, fun ι _ env i => rfl⟩
    have := Phrase.mul (Phrase.t h) ht
    simpa only [optPart, List.append_assoc] using this

theorem phrase_kernel (f e : Str) (X E : PExpr) (hf : Phrase .atom f X) (he : Phrase .atom e E)
    (s : Option Str) (S : Option PExpr) (hs : OptArg s S) :
    ∃ k, Phrase .term (dsKernel f e s) k ∧ ∀ (ι : Type) [Fintype ι] (env : Str → ι → ℝ) (i : ι),
      k.value env i = optVal S env i * X.value env i ^ ((E.value env i - 1) / E.value env i) := by
  have h1 := (hf.primary.pow (phrase_cesExp he).f).factor
  obtain ⟨k, h2, h3⟩ := phrase_opt s S hs _ _ h1
  refine ⟨k, ?_, ?_⟩
  · rw [dsKernel_text]
    have e2 : " ** ((".toList = " ** ".toList ++ "((".toList := rfl
    rw [e2]
    simpa only [List.append_assoc] using h2
  · intro ι _ env i
    rw [h3]
    simp only [PExpr.value, numVal_one]

theorem phrase_reduce (k d n : Str) (K : PExpr) (hk : Phrase .sum k K) (hd : isIdent d = true)
    (hn : tokens n = some [.num n]) (b : Backend) :
    ∃ r, Phrase .primary (dsReduce k d n b) r ∧ ∀ (ι : Type) [Fintype ι] (env : Str → ι → ℝ) (i : ι),
      r.value env i = ∑ j, K.value env j := by
  cases b with
  | numba =>
    refine ⟨.sumOver K d "0".toList n, ?_, fun ι _ env i => rfl⟩
    have h := (hk.sumOver hd (lo := "0".toList) rfl hn).primary
    have e1 : ", 0, ".toList = ", ".toList ++ ("0".toList ++ ", ".toList) := rfl
    simp only [dsReduce, e1]
    simpa only [List.append_assoc] using h
  | pytensor =>
    refine ⟨.post K (.call "sum".toList), ?_, ?_⟩
    · have h := hk.parenSum
      simpa only [dsReduce, List.append_assoc] using h
    · intro ι _ env i
      rw [PExpr.value, if_pos rfl]

/-- The production function, both backends, all options. -/
theorem says_dsProduction (f o e d n : Str) (X Y E : PExpr) (hf : Phrase .atom f X)
    (hY : Phrase .atom o Y) (he : Phrase .atom e E) (hd : isIdent d = true)
    (hn : tokens n = some [.num n]) (t s : Option Str) (A S : Option PExpr) (ht : OptArg t A)
    (hs : OptArg s S) (b : Backend) :
    Says (dsProduction (dsKernel f e s) o e d n t b) (fun _ _ env i =>
      Y.value env i = optVal A env i *
        (∑ j, optVal S env j * X.value env j ^ ((E.value env j - 1) / E.value env j)) ^
          (E.value env i / (E.value env i - 1))) := by
  obtain ⟨k, hk, hkv⟩ := phrase_kernel f e X E hf he s S hs
  obtain ⟨r, hr, hrv⟩ := phrase_reduce _ d n k hk.sum hd hn b
  obtain ⟨q, hq, hqv⟩ := phrase_opt t A ht _ _ (hr.pow (phrase_cesOuter he).f).factor
  refine ⟨Y, q, ?_, ?_⟩
  · have h := hY.s.eq hq.sum
    rw [dsProduction_text]
    have e2 : " ** (".toList = " ** ".toList ++ "(".toList := rfl
    rw [e2]
    simpa only [List.append_assoc] using h
  · intro ι _ env i
    rw [hqv]
    simp only [PExpr.value, numVal_one, hrv, hkv]

/-- The bracket of the demand equation. -/
theorem phrase_bracket (p op : Str) (P Q : PExpr) (hp : Phrase .atom p P) (hq : Phrase .atom op Q)
    (t s : Option Str) (A S : Option PExpr) (ht : OptArg t A) (hs : OptArg s S) :
    ∃ e, Phrase .atom ("(".toList ++ (optPart t ++ (optPart s ++ (op ++ (" / ".toList ++ (p ++ ")".toList)))))) e ∧
      ∀ (ι : Type) [Fintype ι] (env : Str → ι → ℝ) (i : ι),
        e.value env i = optVal A env i * optVal S env i * Q.value env i / P.value env i := by
  match t, A, ht, s, S, hs with
  | none, none, _, none, none, _ =>
    refine ⟨.div Q P, ?_, ?_⟩
    · have h := (hq.t.div hp.f).sum.paren
      simpa only [optPart, List.append_assoc, List.nil_append] using h
    · intro ι _ env i
      simp only [PExpr.value, optVal, one_mul]
  | none, none, _, some s, some S, hs =>
    refine ⟨.div (.mul S Q) P, ?_, ?_⟩
    · have h := (((Phrase.t hs).mul hq.f).div hp.f).sum.paren
      simpa only [optPart, List.append_assoc, List.nil_append] using h
    · intro ι _ env i
      simp only [PExpr.value, optVal, one_mul]
  | some t, some A, ht, none, none, _ =>
    refine ⟨.div (.mul A Q) P, ?_, ?_⟩
    · have h := (((Phrase.t ht).mul hq.f).div hp.f).sum.paren
      simpa only [optPart, List.append_assoc, List.nil_append] using h
    · intro ι _ env i
      simp only [PExpr.value, optVal, mul_one]
  | some t, some A, ht, some s, some S, hs =>
    refine ⟨.div (.mul (.mul A S) Q) P, ?_, ?_⟩
    · have h := ((((Phrase.t ht).mul (Phrase.f hs)).mul hq.f).div hp.f).sum.paren
      simpa only [optPart, List.append_assoc, List.nil_append] using h
    · intro ι _ env i
      simp only [PExpr.value, optVal]

/-- The demand when TFP is given: as documented. -/
theorem says_dsDemand_some (f p o op e t : Str) (X P Y Q E A : PExpr) (hf : Phrase .atom f X)
    (hp : Phrase .atom p P) (hY : Phrase .atom o Y) (hq : Phrase .atom op Q) (he : Phrase .atom e E)
    (ht : Phrase .atom t A) (s : Option Str) (S : Option PExpr) (hs : OptArg s S) :
    Says (dsDemand f p o op e (some t) s) (fun _ _ env i =>
      CESDemand (Y.value env i) (A.value env i) (Q.value env i) (E.value env i)
        ⟨X.value env i, P.value env i, optVal S env i⟩) := by
  obtain ⟨b, hb, hbv⟩ := phrase_bracket p op P Q hp hq (some t) s (some A) S ht hs
  refine ⟨X, .mul (.div Y A) (.pow b E), ?_, ?_⟩
  · have h := hf.s.eq ((hY.t.div ht.f).mul (hb.primary.pow he.f).factor).sum
    rw [dsDemand_text]
    have e2 : ") ** ".toList = ")".toList ++ " ** ".toList := rfl
    rw [e2]
    simpa only [optPart, List.append_assoc] using h
  · intro ι _ env i
    simp only [PExpr.value, hbv, CESDemand]
    have e3 : optVal (some A) env i = A.value env i := rfl
    have : A.value env i * optVal S env i * Q.value env i =
        optVal S env i * Q.value env i * A.value env i := by ring
    rw [e3, this]

/-- The demand when TFP is omitted: the power is in the denominator. -/
theorem says_dsDemand_none (f p o op e : Str) (X P Y Q E : PExpr) (hf : Phrase .atom f X)
    (hp : Phrase .atom p P) (hY : Phrase .atom o Y) (hq : Phrase .atom op Q) (he : Phrase .atom e E)
    (s : Option Str) (S : Option PExpr) (hs : OptArg s S) :
    Says (dsDemand f p o op e none s) (fun _ _ env i => X.value env i = Y.value env i /
      (optVal S env i * Q.value env i / P.value env i) ^ E.value env i) := by
  obtain ⟨b, hb, hbv⟩ := phrase_bracket p op P Q hp hq none s none S trivial hs
  refine ⟨X, .div Y (.pow b E), ?_, ?_⟩
  · have h := hf.s.eq (hY.t.div (hb.primary.pow he.f).factor).sum
    rw [dsDemand_text]
    have e2 : ") ** ".toList = ")".toList ++ " ** ".toList := rfl
    rw [e2]
    simpa only [optPart, List.append_assoc, List.nil_append] using h
  · intro ι _ env i
    simp only [PExpr.value, hbv]
    have : optVal (none : Option PExpr) env i = 1 := rfl
    rw [this, one_mul]

theorem says_dsValue (f p o op : Str) (X P Y Q : PExpr) (hf : Phrase .atom f X)
    (hp : Phrase .atom p P) (hY : Phrase .atom o Y) (hq : Phrase .atom op Q) :
    Says (dsValue f p o op) (fun _ _ env i =>
      Y.value env i = (∑ j, P.value env j * X.value env j) / Q.value env i) := by
  refine ⟨Y, .div (.post (.mul P X) (.call "sum".toList)) Q, ?_, ?_⟩
  · have h := hY.s.eq ((hp.t.mul hf.f).sum.parenSum.power.factor.term.div hq.s.paren.f).sum
    rw [dsValue_text]
    have e1 : " = (".toList = " = ".toList ++ "(".toList := rfl
    have e2 : ").sum() / (".toList = ").sum()".toList ++ (" / ".toList ++ "(".toList) := rfl
    rw [e1, e2]
    simpa only [List.append_assoc] using h
  · intro ι _ env i
    simp only [PExpr.value, if_true]

/-- `Says` decides `HoldsAt`. -/
theorem Says.holdsAt_iff {s : Str} {Q : ∀ (ι : Type) [Fintype ι], (Str → ι → ℝ) → ι → Prop}
    (h : Says s Q) {ι : Type} [Fintype ι] (env : Str → ι → ℝ) (i : ι) : HoldsAt s env i ↔ Q ι env i := by
  obtain ⟨l, r, h1, h2⟩ := h
  rw [← h2]
  constructor
  · rintro ⟨l', r', h3, h4⟩
    obtain ⟨rfl, rfl⟩ := h1.unique h3
    exact h4
  · intro h4
    exact ⟨l, r, h1, h4⟩

end Verif
