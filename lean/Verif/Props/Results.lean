import Verif.Lemmas.Results
import Verif.Spec.Results

/-!
# C15–C17: the result store
-/

namespace Verif

variable {γ : Type _}

/-! ## C15 -/

/-- **C15.**  In every directory (also a missing one), for every file name and content, a save
without `overwrite` terminates, puts the data in a file that did not exist, and leaves every other
file as it was. -/
theorem C15_save_preserves (dir : Dir γ) (today : Str) (filename : Option Str) (data : γ) :
    ∃ dir' name, writeResults dir today filename false data = some (some dir') ∧
      name ∉ dkeys (filesOf dir) ∧ dget dir' name = some data ∧
      (∀ f, f ≠ name → dget dir' f = dget (filesOf dir) f) ∧
      (∀ f ∈ dkeys (filesOf dir), dget dir' f = dget (filesOf dir) f) := by
  unfold writeResults
  simp only [Bool.not_false, if_true]
  generalize splitext _ = p
  obtain ⟨base, ext⟩ := p
  obtain ⟨m, _, h2, h3, _⟩ := freshName_spec (dkeys (filesOf dir)) base ext
    ((filesOf dir).length + 1) 0 (by intro j hj; omega) (by simp [dkeys])
  have h2' : freshName (dkeys (filesOf dir)) base ext ((filesOf dir).length + 1) 1 (base ++ ext)
      = some (candName base ext m) := h2
  refine ⟨dset (filesOf dir) (candName base ext m) data, candName base ext m, ?_, h3,
    dget_dset_self _ _ _, ?_, ?_⟩
  · simp only [h2', Option.map_some]
  · intro f hf; exact dget_dset_ne _ _ (Ne.symm hf)
  · intro f hf
    apply dget_dset_ne
    rintro rfl
    exact h3 hf

/-- A directory with two files: the third save under `x` goes to `x(2).pkl`. -/
example : writeResults (γ := Nat) (some [("x.pkl", 1), ("x(1).pkl", 2)]) "d" (some "x") false 3
    = some (some ([("x.pkl", 1), ("x(1).pkl", 2), ("x(2).pkl", 3)] : Dict Str Nat)) := by decide

/-- **C15 (histories).**  After any history of saves without `overwrite`, every file that existed at
the beginning still has its content, and there are exactly as many new files as saves. -/
theorem C15_history (today : Str) (ops : List (SaveOp γ)) (hno : ∀ op ∈ ops, op.overwrite = false)
    (dir : Dir γ) :
    ∃ dir', runSaves today ops dir = some dir' ∧
      (∀ f ∈ dkeys (filesOf dir), dget (filesOf dir') f = dget (filesOf dir) f) ∧
      (filesOf dir').length = (filesOf dir).length + ops.length := by
  induction ops generalizing dir with
  | nil => exact ⟨dir, rfl, fun _ _ => rfl, rfl⟩
  | cons op ops ih =>
    obtain ⟨d1, name, h1, h2, h3, h4, h5⟩ := C15_save_preserves dir today (some op.name) op.data
    have hop : op.overwrite = false := hno op (by simp)
    have hlen : d1.length = (filesOf dir).length + 1 := by
      have hform : ∃ n, d1 = dset (filesOf dir) n op.data := by
        unfold writeResults at h1
        simp only [] at h1
        generalize splitext _ = p at h1
        obtain ⟨base, ext⟩ := p
        obtain ⟨n, _, hn⟩ := Option.map_eq_some_iff.1 h1
        exact ⟨n, (Option.some.inj hn).symm⟩
      obtain ⟨n, rfl⟩ := hform
      by_cases hn : n = name
      · subst hn
        rw [dset_of_not_mem _ _ _ h2]; simp
      · exfalso
        rw [dget_dset_ne _ _ hn, (dget_eq_none_iff _ _).2 h2] at h3
        cases h3
    obtain ⟨dir', r1, r2, r3⟩ := ih (fun op h => hno op (by simp [h])) (some d1)
    refine ⟨dir', ?_, ?_, ?_⟩
    · simp only [runSaves, hop, h1, Option.bind_some]; exact r1
    · intro f hf
      have hf1 : f ∈ dkeys d1 := by
        rw [mem_dkeys_iff, h5 f hf, ← mem_dkeys_iff]; exact hf
      exact (r2 f hf1).trans (h5 f hf)
    · rw [r3]
      have : (filesOf (some d1)).length = d1.length := rfl
      rw [this, hlen]
      simp; omega

example : runSaves (γ := Nat) "d" [⟨"x", 1, false⟩, ⟨"x.pkl", 2, false⟩, ⟨"x(1)", 3, false⟩] none
    = some (some ([("x.pkl", 1), ("x(1).pkl", 2), ("x(1)(1).pkl", 3)] : Dict Str Nat)) := by decide

/-! ## C16 -/

/-- Candidate names of different plain names never meet. -/
theorem candName_cross {y z : Str} {k j : Nat}
    (hyz : ¬ LooksLikeCopy y z) (hzy : ¬ LooksLikeCopy z y)
    (h : candName y ".pkl" k = candName z ".pkl" j) : y = z ∧ k = j := by
  unfold candName at h
  split at h <;> split at h
  · next h1 h2 => exact ⟨List.append_cancel_right h, by omega⟩
  · next h1 h2 =>
    exfalso
    apply hyz
    refine ⟨natStr j, natStr_ne_nil j, fun c => natStr_isDigit, ?_⟩
    apply List.append_cancel_right (bs := (".pkl" : String).toList)
    rw [h]; simp [numbered]
  · next h1 h2 =>
    exfalso
    apply hzy
    refine ⟨natStr k, natStr_ne_nil k, fun c => natStr_isDigit, ?_⟩
    apply List.append_cancel_right (bs := (".pkl" : String).toList)
    rw [← h]; simp [numbered]
  · exact numbered_inj h

/-- The directory holds exactly the saves of the history, in numbered files. -/
structure StoreInv (N : Str → Prop) (mode : Str → Bool) (files : Dict Str γ)
    (ops : List (SaveOp γ)) : Prop where
  never : ∀ y, N y → mode y = false → ∀ k, dget files (candName y ".pkl" k) = (savedUnder y ops)[k]?
  always : ∀ y, N y → mode y = true → ∀ k, dget files (candName y ".pkl" k)
    = if k = 0 then (savedUnder y ops).getLast? else none
  onlyThese : ∀ f ∈ dkeys files, ∃ y k, N y ∧ f = candName y ".pkl" k

theorem savedUnder_snoc (y : Str) (ops : List (SaveOp γ)) (op : SaveOp γ) :
    savedUnder y (ops ++ [op]) = savedUnder y ops ++ if op.name = y then [op.data] else [] := by
  unfold savedUnder
  rw [List.filter_append, List.map_append]
  congr 1
  by_cases h : op.name = y <;> simp [h]

theorem writeResults_plain (dir : Dir γ) (today name : Str) (ow : Bool) (data : γ)
    (hp : PlainName name) :
    writeResults dir today (some name) ow data =
      (if !ow then freshName (dkeys (filesOf dir)) name ".pkl" ((filesOf dir).length + 1) 1
          (name ++ ".pkl".toList)
        else some (name ++ ".pkl".toList)).map fun n => some (dset (filesOf dir) n data) := by
  have h1 : endsWith name ".pkl" = false := by
    cases h : endsWith name ".pkl" with
    | false => rfl
    | true =>
      obtain ⟨t, ht⟩ := (endsWith_iff _ _).1 h
      have : endsWith name "pkl" = true := (endsWith_iff _ _).2 ⟨t ++ ['.'], by rw [ht]; simp⟩
      rw [hp.1] at this; cases this
  unfold writeResults
  simp only [Option.getD_some, h1, Bool.false_eq_true, if_false]
  rw [splitext_pkl name hp.2]

theorem store_step (N : Str → Prop) (mode : Str → Bool) (files : Dict Str γ)
    (ops : List (SaveOp γ)) (op : SaveOp γ) (hp : PlainName op.name) (hN : N op.name)
    (hclash : ∀ y z, N y → N z → ¬ LooksLikeCopy y z) (hmode : op.overwrite = mode op.name)
    (hinv : StoreInv N mode files ops) (dir : Dir γ) (hdir : filesOf dir = files) (today : Str) :
    ∃ files', writeResults dir today (some op.name) op.overwrite op.data = some (some files') ∧
      StoreInv N mode files' (ops ++ [op]) := by
  rw [writeResults_plain _ _ _ _ _ hp, hmode, hdir]
  have cross : ∀ y k j, N y → candName y ".pkl" k = candName op.name ".pkl" j → y = op.name ∧ k = j :=
    fun y k j hy h => candName_cross (hclash _ _ hy hN) (hclash _ _ hN hy) h
  -- lookups after adding under candidate `m`
  have look : ∀ m y k, N y → dget (dset files (candName op.name ".pkl" m) op.data) (candName y ".pkl" k)
      = if y = op.name ∧ k = m then some op.data else dget files (candName y ".pkl" k) := by
    intro m y k hy
    rw [dget_dset]
    by_cases h : candName op.name ".pkl" m = candName y ".pkl" k
    · obtain ⟨rfl, rfl⟩ := cross y k m hy h.symm
      simp
    · rw [if_neg h, if_neg]
      rintro ⟨rfl, rfl⟩
      exact h rfl
  have only : ∀ m, ∀ f ∈ dkeys (dset files (candName op.name ".pkl" m) op.data),
      ∃ y k, N y ∧ f = candName y ".pkl" k := by
    intro m f hf
    rcases (mem_dkeys_dset _ _ _ _).1 hf with rfl | hf
    · exact ⟨op.name, m, hN, rfl⟩
    · exact hinv.onlyThese f hf
  cases hm : mode op.name with
  | true =>
    refine ⟨dset files (candName op.name ".pkl" 0) op.data, ?_, ?_, ?_, only 0⟩
    · simp [candName]
    · intro y hy hmy k
      rw [look 0 y k hy, savedUnder_snoc]
      have hne : y ≠ op.name := by rintro rfl; rw [hm] at hmy; cases hmy
      rw [if_neg (by simp [hne]), if_neg (Ne.symm hne), List.append_nil]
      exact hinv.never y hy hmy k
    · intro y hy hmy k
      rw [look 0 y k hy, savedUnder_snoc, hinv.always y hy hmy k]
      by_cases hne : y = op.name
      · subst hne
        by_cases hk : k = 0
        · simp [hk]
        · simp [hk]
      · simp [hne, Ne.symm hne]
  | false =>
    obtain ⟨m, _, h2, h3, h4⟩ := freshName_spec (dkeys files) op.name ".pkl"
      (files.length + 1) 0 (by intro j hj; omega) (by simp [dkeys])
    have h2' : freshName (dkeys files) op.name ".pkl" (files.length + 1) 1
        (op.name ++ ".pkl".toList) = some (candName op.name ".pkl" m) := h2
    have hlen : m = (savedUnder op.name ops).length := by
      have a : ¬ m < (savedUnder op.name ops).length := by
        intro hlt
        apply h3
        rw [mem_dkeys_iff, hinv.never _ hN hm m]
        exact ⟨_, List.getElem?_eq_getElem hlt⟩
      have b : ¬ (savedUnder op.name ops).length < m := by
        intro hlt
        have := h4 _ hlt
        rw [mem_dkeys_iff, hinv.never _ hN hm] at this
        obtain ⟨v, hv⟩ := this
        rw [List.getElem?_eq_none (Nat.le_refl _)] at hv
        cases hv
      omega
    refine ⟨dset files (candName op.name ".pkl" m) op.data, ?_, ?_, ?_, only m⟩
    · simp only [Bool.not_false, if_true, h2', Option.map_some]
    · intro y hy hmy k
      rw [look m y k hy, savedUnder_snoc]
      by_cases hne : y = op.name
      · subst hne
        by_cases hk : k = m
        · subst hk
          rw [if_pos ⟨rfl, rfl⟩, if_pos rfl, hlen, List.getElem?_append_right (Nat.le_refl _)]
          simp
        · rw [if_neg (by simp [hk]), if_pos rfl, hinv.never _ hy hmy k]
          rcases Nat.lt_or_ge k m with h | h
          · rw [List.getElem?_append_left (by omega)]
          · rw [List.getElem?_eq_none (by omega), List.getElem?_eq_none]
            simp; omega
      · rw [if_neg (by simp [hne]), if_neg (Ne.symm hne), List.append_nil]
        exact hinv.never y hy hmy k
    · intro y hy hmy k
      have hne : y ≠ op.name := by rintro rfl; rw [hm] at hmy; cases hmy
      rw [look m y k hy, savedUnder_snoc, if_neg (by simp [hne]), if_neg (Ne.symm hne),
        List.append_nil]
      exact hinv.always y hy hmy k

/-- Reading a plain name from a directory that satisfies the invariant. -/
theorem store_read (N : Str → Prop) (mode : Str → Bool) (files : Dict Str γ)
    (ops : List (SaveOp γ)) (x : Str) (hx : PlainName x) (hN : N x)
    (hclash : ∀ y z, N y → N z → ¬ LooksLikeCopy y z) (hinv : StoreInv N mode files ops) :
    readResults (some files) x = match (savedUnder x ops).getLast? with
      | some d => .ok d
      | none => .error .fileNotFound := by
  -- the numbered copies present are exactly the candidates of `x`
  have hmatch : ∀ f ∈ dkeys files, ∀ n, matchNumbered x f = some n →
      0 < n ∧ f = candName x ".pkl" n := by
    intro f hf n hn
    obtain ⟨d, hd1, hd2, hd3, hd4⟩ := matchNumbered_some hn
    obtain ⟨y, k, hy, hk⟩ := hinv.onlyThese f hf
    unfold candName at hk
    split at hk
    · exfalso
      apply hclash y x hy hN
      refine ⟨d, hd1, hd2, ?_⟩
      apply List.append_cancel_right (bs := (".pkl" : String).toList)
      rw [← hk, hd3]; simp
    · next hk0 =>
      have e : (x ++ '(' :: d) ++ (')' :: (".pkl" : String).toList)
          = (y ++ '(' :: natStr k) ++ (')' :: (".pkl" : String).toList) := by
        have := hd3.symm.trans hk
        simpa [numbered] using this
      obtain ⟨e1, e2⟩ := split_last_paren _ _ _ _ hd2 (fun c => natStr_isDigit)
        (List.append_cancel_right e)
      subst e1
      have hnk : n = k := by
        rw [hd4, e2]; exact Nat.ofDigitChars_ten_toDigits
      subst hnk
      exact ⟨by omega, by rw [hk]; simp [candName, hk0]⟩
  have hback : ∀ k, 0 < k → candName x ".pkl" k ∈ dkeys files → k ≤ maxSuffix x (dkeys files) := by
    intro k hk hm
    apply (maxSuffix_spec x (dkeys files)).1 _ hm
    rw [candName, if_neg (by omega)]
    exact matchNumbered_numbered x k
  have hread : readResults (some files) x = match dget files
      (candName x ".pkl" (maxSuffix x (dkeys files))) with
      | some d => .ok d
      | none => .error .fileNotFound := by
    unfold readResults
    simp only [hx.1, Bool.not_false, if_true]
    by_cases h0 : 0 < maxSuffix x (dkeys files)
    · rw [if_pos h0, candName, if_neg (by omega)]; rfl
    · rw [if_neg h0, candName, if_pos (by omega)]; rfl
  have hmax : 0 < maxSuffix x (dkeys files) →
      candName x ".pkl" (maxSuffix x (dkeys files)) ∈ dkeys files := by
    intro hpos
    obtain ⟨f, hf, hm⟩ := (maxSuffix_spec x (dkeys files)).2 hpos
    rw [← (hmatch f hf _ hm).2]; exact hf
  rw [hread]
  cases hmode : mode x with
  | true =>
    have h0 : maxSuffix x (dkeys files) = 0 := by
      rcases Nat.eq_zero_or_pos (maxSuffix x (dkeys files)) with h | h
      · exact h
      · have := hmax h
        rw [mem_dkeys_iff, hinv.always x hN hmode] at this
        obtain ⟨v, hv⟩ := this
        rw [if_neg (by omega)] at hv; cases hv
    rw [h0, hinv.always x hN hmode 0, if_pos rfl]
  | false =>
    have hlast : dget files (candName x ".pkl" (maxSuffix x (dkeys files)))
        = (savedUnder x ops).getLast? := by
      rw [List.getLast?_eq_getElem?, hinv.never x hN hmode]
      congr 1
      rcases Nat.lt_or_ge (savedUnder x ops).length 2 with h2 | h2
      · rcases Nat.eq_zero_or_pos (maxSuffix x (dkeys files)) with h | h
        · omega
        · have := hmax h
          rw [mem_dkeys_iff, hinv.never x hN hmode] at this
          obtain ⟨v, hv⟩ := this
          have := (List.getElem?_eq_some_iff.1 hv).1
          omega
      · have h3 : (savedUnder x ops).length - 1 ≤ maxSuffix x (dkeys files) := by
          apply hback _ (by omega)
          rw [mem_dkeys_iff, hinv.never x hN hmode]
          exact ⟨_, List.getElem?_eq_getElem (by omega)⟩
        have := hmax (by omega)
        rw [mem_dkeys_iff, hinv.never x hN hmode] at this
        obtain ⟨v, hv⟩ := this
        have := (List.getElem?_eq_some_iff.1 hv).1
        omega
    rw [hlast]

/-- **C16 (the part that holds).**  Start from an empty or missing directory and perform any history
of saves under plain names, each name being used either always with or always without `overwrite`,
and no name looking like a numbered copy `other(17)` of another.  Then reading a name returns the
data of its most recent save, and raises `FileNotFoundError` if there was none.
Missing: deletions, mixed `overwrite` flags and clashing names, for which the property fails (below). -/
theorem C16_read_latest_partial (today : Str) (ops : List (SaveOp γ)) (x : Str) (mode : Str → Bool)
    (hmode : ∀ op ∈ ops, op.overwrite = mode op.name)
    (hplain : ∀ y ∈ x :: ops.map SaveOp.name, PlainName y)
    (hclash : ∀ y ∈ x :: ops.map SaveOp.name, ∀ z ∈ x :: ops.map SaveOp.name, ¬ LooksLikeCopy y z)
    (dir0 : Dir γ) (hdir0 : filesOf dir0 = []) :
    ∃ dir, runSaves today ops dir0 = some dir ∧
      readResults dir x = match (savedUnder x ops).getLast? with
        | some d => .ok d
        | none => .error .fileNotFound := by
  have gen : ∀ (rest done : List (SaveOp γ)) (dir : Dir γ), ops = done ++ rest →
      StoreInv (· ∈ x :: ops.map SaveOp.name) mode (filesOf dir) done →
      ∃ dir', runSaves today rest dir = some dir' ∧
        StoreInv (· ∈ x :: ops.map SaveOp.name) mode (filesOf dir') ops := by
    intro rest
    induction rest with
    | nil => intro done dir h hi; simp at h; subst h; exact ⟨dir, rfl, hi⟩
    | cons op rest ih =>
      intro done dir h hi
      have hmem : op ∈ ops := by rw [h]; simp
      have hmn : op.name ∈ x :: ops.map SaveOp.name :=
        List.mem_cons_of_mem _ (List.mem_map_of_mem (f := SaveOp.name) hmem)
      obtain ⟨files', e, hi'⟩ := store_step (· ∈ x :: ops.map SaveOp.name) mode (filesOf dir) done op
        (hplain _ hmn) hmn (fun y z hy hz => hclash y hy z hz) (hmode op hmem) hi dir rfl today
      obtain ⟨dir', r1, r2⟩ := ih (done ++ [op]) (some files') (by simp [h]) hi'
      refine ⟨dir', ?_, r2⟩
      simp only [runSaves, e, Option.bind_some]; exact r1
  obtain ⟨dir, h1, h2⟩ := gen ops [] dir0 rfl (by
    rw [hdir0]
    constructor
    · intro y _ _ k; simp [savedUnder]
    · intro y _ _ k; simp [savedUnder]
    · intro f hf; simp [dkeys] at hf)
  refine ⟨dir, h1, ?_⟩
  have hfin := store_read (· ∈ x :: ops.map SaveOp.name) mode (filesOf dir) ops x
    (hplain x (by simp)) (by simp) (fun y z hy hz => hclash y hy z hz) h2
  cases dir with
  | some files => exact hfin
  | none =>
    -- no save happened, the directory does not exist
    have : (savedUnder x ops).getLast? = none := by
      have hd : ∀ k, dget (filesOf (none : Dir γ)) k = none := fun k => rfl
      cases hm : mode x with
      | true => have := h2.always x (by simp) hm 0; rw [hd, if_pos rfl] at this; exact this.symm
      | false =>
        have := h2.never x (by simp) hm 0
        rw [hd] at this
        cases hs : savedUnder x ops with
        | nil => rfl
        | cons a l => rw [hs] at this; simp at this
    rw [this]; rfl

/-- Hypotheses met by a history with two names and five saves. -/
example : runSaves (γ := Nat) "d" [⟨"x", 1, false⟩, ⟨"y", 2, true⟩, ⟨"x", 3, false⟩, ⟨"y", 4, true⟩,
      ⟨"x", 5, false⟩] none
    = some (some ([("x.pkl", 1), ("y.pkl", 4), ("x(1).pkl", 3), ("x(2).pkl", 5)] : Dict Str Nat)) ∧
    readResults (some [("x.pkl", 1), ("y.pkl", 4), ("x(1).pkl", 3), ("x(2).pkl", 5)]) "x"
      = .ok 5 := by decide

example : PlainName "x" ∧ PlainName "y" ∧ ¬ LooksLikeCopy "x" "y" := by
  refine ⟨⟨by decide, by decide⟩, ⟨by decide, by decide⟩, ?_⟩
  rintro ⟨d, _, _, h⟩
  have := congrArg List.length h
  simp at this

/-- **C16 (negation, overwrite).**  After two plain saves an overwriting save is not what is read:
the stale numbered copy is returned. -/
theorem C16_overwrite_then_read_stale :
    ∃ dir, runSaves "d" [⟨"x", 1, false⟩, ⟨"x", 2, false⟩, ⟨"x", 3, true⟩] none = some dir ∧
      readResults dir "x" = .ok 2 := ⟨_, rfl, by decide⟩

/-- **C16 (negation, deletion).**  After deleting an old numbered copy the next save reuses its
number and reading returns the older, higher-numbered copy. -/
theorem C16_delete_then_read_stale :
    ∃ dir dir', runSaves "d" [⟨"x", 1, false⟩, ⟨"x", 2, false⟩, ⟨"x", 3, false⟩] none = some dir ∧
      runSaves "d" [⟨"x", 4, false⟩] (some (ddel (filesOf dir) "x(1).pkl")) = some dir' ∧
      readResults dir' "x" = .ok 3 := ⟨_, _, rfl, rfl, by decide⟩

/-- **C16 (negation, clashing names).**  A save under the name `x(1)` is what reading `x` returns. -/
theorem C16_clashing_names :
    ∃ dir, runSaves "d" [⟨"x", 1, false⟩, ⟨"x(1)", 2, false⟩] none = some dir ∧
      readResults dir "x" = .ok 2 := ⟨_, rfl, by decide⟩

/-! ## C17 -/

/-- **C17 (writing).**  For every directory, name and flag, writing under `name` and under
`name.pkl` does the same thing, provided `name` does not itself end in `.pkl`. -/
theorem C17_write_same (dir : Dir γ) (today name : Str) (ow : Bool) (data : γ)
    (h : endsWith name ".pkl" = false) :
    writeResults dir today (some name) ow data
      = writeResults dir today (some (name ++ ".pkl".toList)) ow data := by
  have h2 : endsWith (name ++ ".pkl".toList) ".pkl" = true := endsWith_append _ _
  unfold writeResults
  simp only [Option.getD_some, h, h2, if_true, Bool.false_eq_true, if_false]

example : endsWith "run" ".pkl" = false := by decide

theorem replacePkl_noop : ∀ (s : Str), (∀ a b, s ≠ a ++ "pkl".toList ++ b) →
    replacePkl (s ++ ".pkl".toList) = s ++ ['.']
  | [], _ => by decide
  | c :: s, h => by
      have hs : ∀ a b, s ≠ a ++ "pkl".toList ++ b := by
        intro a b he; exact h (c :: a) b (by simp [he])
      have ih := replacePkl_noop s hs
      rw [List.cons_append]
      unfold replacePkl
      split
      · next t he =>
        exfalso
        rw [List.cons.injEq] at he
        obtain ⟨rfl, he⟩ := he
        cases s with
        | nil => simp at he
        | cons c2 s =>
          simp only [List.cons_append, List.cons.injEq] at he
          obtain ⟨rfl, he⟩ := he
          cases s with
          | nil => simp at he
          | cons c3 s =>
            simp only [List.cons_append, List.cons.injEq] at he
            obtain ⟨rfl, he⟩ := he
            exact h [] s (by simp)
      · next c' s' _ he =>
        cases he
        rw [ih]; rfl
      · next he => simp at he

/-- **C17 (reading, the part that holds).**  If `name` does not contain `pkl` and the directory has
no numbered copies `name(n).pkl` or `name.(n).pkl`, reading `name` and reading `name.pkl` give the
same result.  Missing: directories with numbered copies, where the property fails (below). -/
theorem C17_read_same_partial (dir : Dir γ) (name : Str)
    (hno : ∀ a b, name ≠ a ++ "pkl".toList ++ b)
    (hcopies : ∀ f ∈ dkeys (filesOf dir), matchNumbered name f = none ∧
      matchNumbered (name ++ ['.']) f = none) :
    readResults dir name = readResults dir (name ++ ".pkl".toList) := by
  have h1 : endsWith name "pkl" = false := by
    cases h : endsWith name "pkl" with
    | false => rfl
    | true =>
      obtain ⟨t, ht⟩ := (endsWith_iff _ _).1 h
      exact absurd ht (by simpa using hno t [])
  have h2 : endsWith (name ++ ".pkl".toList) "pkl" = true :=
    (endsWith_iff _ _).2 ⟨name ++ ['.'], by simp⟩
  cases dir with
  | none =>
    unfold readResults
    simp only [h1, h2, Bool.not_true, Bool.not_false, if_true, Bool.false_eq_true, if_false]
  | some files =>
    have hz : ∀ base, (∀ f ∈ dkeys files, matchNumbered base f = none) →
        maxSuffix base (dkeys files) = 0 := by
      intro base hb
      rcases Nat.eq_zero_or_pos (maxSuffix base (dkeys files)) with h | h
      · exact h
      · obtain ⟨f, hf, hm⟩ := (maxSuffix_spec base _).2 h
        rw [hb f hf] at hm; cases hm
    unfold readResults
    simp only [h1, h2, Bool.not_true, Bool.not_false, if_true, Bool.false_eq_true, if_false]
    rw [replacePkl_noop name hno, hz name (fun f hf => (hcopies f hf).1),
      hz (name ++ ['.']) (fun f hf => (hcopies f hf).2)]
    rfl

example : ∀ f ∈ dkeys (filesOf (some [("run.pkl", 1), ("other(3).pkl", 2)] : Dir Nat)),
    matchNumbered "run" f = none ∧ matchNumbered ("run" ++ ['.']) f = none := by decide

/-- **C17 (negation for reading).**  With a numbered copy present, reading `x` gives the newest copy
and reading `x.pkl` the oldest. -/
theorem C17_read_differs :
    ∃ dir, runSaves "d" [⟨"x", 1, false⟩, ⟨"x", 2, false⟩] none = some dir ∧
      readResults dir "x" = .ok 2 ∧ readResults dir "x.pkl" = .ok 1 :=
  ⟨_, rfl, by decide, by decide⟩

/-- **C17 (negation, names ending in `pkl`).**  A result saved under the name `mypkl` cannot be read
back under that name. -/
theorem C17_name_ending_in_pkl_unreadable :
    ∃ dir, runSaves "d" [⟨"mypkl", 1, false⟩] none = some dir ∧
      readResults dir "mypkl" = .error .fileNotFound ∧ readResults dir "mypkl.pkl" = .ok 1 :=
  ⟨_, rfl, by decide, by decide⟩

/-- **C17 (no name given).**  Without a file name the result is stored under today's date, as if the date
had been passed as the name. -/
theorem C17_default_name (dir : Dir γ) (today : Str) (ow : Bool) (data : γ)
    (h : endsWith today ".pkl" = false) :
    writeResults dir today none ow data = writeResults dir today (some today) ow data := by
  rw [C17_write_same dir today today ow data h]
  rfl

example : endsWith "2024-05-01" ".pkl" = false := by decide

end Verif
