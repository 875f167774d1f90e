import Verif.Spec.RecursiveSolve
import Verif.Lemmas.Jacobian
import Mathlib.Data.List.Perm.Basic

/-!
# Lemmas about recursive calibration
-/

namespace Verif

open SymExpr

variable {α : Type} [DecidableEq α]

/-! ### Substitution -/

theorem atoms_substKnown (K : Dict α ℚ) (x : α) (e : SymExpr α) :
    x ∈ (substKnown K e).atoms ↔ x ∈ e.atoms ∧ x ∉ dkeys K := by
  have hsym : ∀ a, x ∈ (substSym K a).atoms ↔ x = a ∧ x ∉ dkeys K := by
    intro a
    unfold substSym
    cases h : dget K a with
    | some v =>
      simp only [atoms, List.not_mem_nil, false_iff, not_and, not_not]
      rintro rfl
      exact (mem_dkeys_iff _ _).mpr ⟨v, h⟩
    | none =>
      simp only [atoms, List.mem_singleton]
      constructor
      · rintro rfl
        refine ⟨rfl, fun hh => ?_⟩
        obtain ⟨v, hv⟩ := (mem_dkeys_iff _ _).mp hh
        rw [h] at hv; cases hv
      · exact fun h => h.1
  induction e with
  | num => simp [substKnown, atoms]
  | sym a => rw [substKnown, hsym]; simp [atoms]
  | add a b iha ihb => simp only [substKnown, atoms, List.mem_append, iha, ihb]; tauto
  | mul a b iha ihb => simp only [substKnown, atoms, List.mem_append, iha, ihb]; tauto
  | pow a b iha ihb => simp only [substKnown, atoms, List.mem_append, iha, ihb]; tauto
  | log a ih => simpa [substKnown, atoms] using ih
  | exp a ih => simpa [substKnown, atoms] using ih

theorem eval_substKnown (K : Dict α ℚ) (env : α → ℝ) (h : AgreesWith env K) (e : SymExpr α) :
    (substKnown K e).eval env = e.eval env := by
  induction e with
  | num => rfl
  | sym a =>
    simp only [substKnown, substSym]
    cases hg : dget K a with
    | some v => simp [eval, h a v hg]
    | none => rfl
  | add a b iha ihb => simp [substKnown, eval, iha, ihb]
  | mul a b iha ihb => simp [substKnown, eval, iha, ihb]
  | pow a b iha ihb => simp [substKnown, eval, iha, ihb]
  | log a ih => simp [substKnown, eval, ih]
  | exp a ih => simp [substKnown, eval, ih]

theorem mem_freeSymbols (e : SymExpr α) (x : α) : x ∈ freeSymbols e ↔ x ∈ e.atoms := by
  simp [freeSymbols]

omit [DecidableEq α] in
theorem mentions_iff (e : SymExpr α) (x : α) : Mentions x e ↔ x ∈ e.atoms := (mem_atoms_iff x e).symm

/-! ### One pass -/

theorem foldl_erase_filter {β : Type _} [DecidableEq β] (p : β → Bool) (suf : List β) :
    ∀ (pre : List β), (∀ a ∈ pre, p a = false) →
    (suf.filter p).foldl List.erase (pre ++ suf) = pre ++ suf.filter (fun a => !p a) := by
  induction suf with
  | nil => intro pre _; simp
  | cons a suf ih =>
    intro pre hpre
    by_cases hp : p a = true
    · have hna : a ∉ pre := fun h => by rw [hpre a h] at hp; cases hp
      rw [List.filter_cons_of_pos hp, List.foldl_cons, List.erase_append_right _ hna,
        List.erase_cons_head, ih pre hpre]
      congr 1
      rw [List.filter_cons_of_neg (by simp [hp])]
    · have hpf : p a = false := by simpa using hp
      rw [List.filter_cons_of_neg (by simp [hp])]
      have := ih (pre ++ [a]) (by
        intro b hb
        rcases List.mem_append.mp hb with hb | hb
        · exact hpre b hb
        · rw [List.mem_singleton] at hb; rw [hb]; exact hpf)
      rw [List.append_assoc, List.singleton_append] at this
      rw [this, List.filter_cons_of_pos (by simp [hpf]), List.append_assoc]
      rfl

/-- At most one unknown. -/
def fewUnknowns (e : SymExpr α) : Bool := decide ((freeSymbols e).length ≤ 1)

/-- Exactly one unknown. -/
def oneUnknown (e : SymExpr α) : Bool := decide ((freeSymbols e).length = 1)

theorem passStep_eq (S : SymSolver α) (st : PassState α) (e : SymExpr α) :
    (passStep S st e).remove = st.remove ++ (if fewUnknowns e then [e] else []) ∧
    (passStep S st e).found = (st.found || oneUnknown e) ∧
    (∀ x, freeSymbols e = [x] →
      (passStep S st e).known = dset st.known x (firstSolution (S.solve e x))) ∧
    (oneUnknown e = false → (passStep S st e).known = st.known) := by
  unfold passStep fewUnknowns oneUnknown
  cases h : freeSymbols e with
  | nil => simp
  | cons a l =>
    cases l with
    | nil => simp
    | cons b l => simp

theorem oneUnknown_iff (e : SymExpr α) : oneUnknown e = true ↔ ∃ x, freeSymbols e = [x] := by
  simp [oneUnknown, List.length_eq_one_iff]

theorem pass_remove (S : SymSolver α) (l : List (SymExpr α)) : ∀ (st : PassState α),
    (l.foldl (passStep S) st).remove = st.remove ++ l.filter fewUnknowns ∧
    ((l.foldl (passStep S) st).found = (st.found || l.any oneUnknown)) := by
  induction l with
  | nil => intro st; simp
  | cons e l ih =>
    intro st
    obtain ⟨h1, h2⟩ := ih (passStep S st e)
    obtain ⟨s1, s2, -, -⟩ := passStep_eq S st e
    rw [List.foldl_cons]
    constructor
    · rw [h1, s1, List.append_assoc, List.filter_cons]
      congr 1
      split <;> simp_all
    · rw [h2, s2, List.any_cons, Bool.or_assoc]

/-- The length of the dictionary after a pass. -/
theorem length_dset_le {κ ν : Type _} [DecidableEq κ] (d : Dict κ ν) (k : κ) (v : ν) :
    (dset d k v).length ≤ d.length + 1 := by
  induction d with
  | nil => simp [dset]
  | cons p d ih =>
    obtain ⟨k', v'⟩ := p
    simp only [dset]
    split
    · simp
    · simp only [List.length_cons]; omega

theorem pass_length (S : SymSolver α) (l : List (SymExpr α)) : ∀ (st : PassState α),
    (l.foldl (passStep S) st).known.length ≤ st.known.length + (l.filter oneUnknown).length := by
  induction l with
  | nil => intro st; simp
  | cons e l ih =>
    intro st
    rw [List.foldl_cons]
    refine Nat.le_trans (ih _) ?_
    obtain ⟨-, -, s3, s4⟩ := passStep_eq S st e
    by_cases h : oneUnknown e = true
    · obtain ⟨x, hx⟩ := (oneUnknown_iff e).mp h
      rw [s3 x hx, List.filter_cons_of_pos h]
      have := length_dset_le st.known x (firstSolution (S.solve e x))
      simp only [List.length_cons]; omega
    · rw [s4 (by simpa using h), List.filter_cons_of_neg (by simpa using h)]

/-- The keys after a pass: old keys and the single unknowns. -/
theorem pass_keys (S : SymSolver α) (l : List (SymExpr α)) : ∀ (st : PassState α) (x : α),
    x ∈ dkeys (l.foldl (passStep S) st).known ↔
      x ∈ dkeys st.known ∨ ∃ e ∈ l, freeSymbols e = [x] := by
  induction l with
  | nil => intro st x; simp
  | cons e l ih =>
    intro st x
    rw [List.foldl_cons, ih]
    obtain ⟨-, -, s3, s4⟩ := passStep_eq S st e
    by_cases h : oneUnknown e = true
    · obtain ⟨y, hy⟩ := (oneUnknown_iff e).mp h
      rw [s3 y hy, mem_dkeys_dset]
      simp only [List.mem_cons, exists_eq_or_imp, hy, List.cons.injEq, and_true]
      constructor
      · rintro ((rfl | h) | h)
        · exact Or.inr (Or.inl rfl)
        · exact Or.inl h
        · exact Or.inr (Or.inr h)
      · rintro (h | rfl | h)
        · exact Or.inl (Or.inr h)
        · exact Or.inl (Or.inl rfl)
        · exact Or.inr h
    · rw [s4 (by simpa using h)]
      have hne : freeSymbols e ≠ [x] := fun hh => h ((oneUnknown_iff e).mpr ⟨x, hh⟩)
      simp [hne]

/-- A pass changes only the values of single unknowns. -/
theorem pass_keeps (S : SymSolver α) (l : List (SymExpr α)) : ∀ (st : PassState α) (x : α),
    (∀ e ∈ l, freeSymbols e ≠ [x]) → dget (l.foldl (passStep S) st).known x = dget st.known x := by
  induction l with
  | nil => intro st x _; rfl
  | cons e l ih =>
    intro st x h
    rw [List.foldl_cons, ih _ _ fun e he => h e (by simp [he])]
    obtain ⟨-, -, s3, s4⟩ := passStep_eq S st e
    by_cases ho : oneUnknown e = true
    · obtain ⟨y, hy⟩ := (oneUnknown_iff e).mp ho
      rw [s3 y hy, dget_dset_ne]
      rintro rfl
      exact h e (by simp) hy
    · rw [s4 (by simpa using ho)]

/-- The values given by a pass come from the solver. -/
theorem pass_values (S : SymSolver α) (P : α → ℚ → Prop) (l : List (SymExpr α)) :
    ∀ (st : PassState α), (∀ x v, dget st.known x = some v → P x v) →
    (∀ e ∈ l, ∀ x, freeSymbols e = [x] → P x (firstSolution (S.solve e x))) →
    ∀ x v, dget (l.foldl (passStep S) st).known x = some v → P x v := by
  induction l with
  | nil => intro st h _; exact h
  | cons e l ih =>
    intro st h hl
    rw [List.foldl_cons]
    refine ih _ ?_ fun e he => hl e (by simp [he])
    intro x v hv
    obtain ⟨-, -, s3, s4⟩ := passStep_eq S st e
    by_cases ho : oneUnknown e = true
    · obtain ⟨y, hy⟩ := (oneUnknown_iff e).mp ho
      rw [s3 y hy, dget_dset] at hv
      split at hv
      · rename_i hyx
        subst hyx
        cases hv
        exact hl e (by simp) y hy
      · exact h x v hv
    · rw [s4 (by simpa using ho)] at hv
      exact h x v hv

/-- What one pass does. -/
theorem solvePass_spec (S : SymSolver α) (known : Dict α ℚ) (unsolved : List (SymExpr α)) :
    let simplified := unsolved.map fun e => S.simplify (substKnown known e)
    let r := solvePass S known unsolved
    r.2.1 = simplified.any oneUnknown ∧
    r.2.2 = simplified.filter (fun e => !fewUnknowns e) ∧
    r.1.length ≤ known.length + (simplified.filter oneUnknown).length ∧
    (∀ x, x ∈ dkeys r.1 ↔ x ∈ dkeys known ∨ ∃ e ∈ simplified, freeSymbols e = [x]) ∧
    (∀ x, (∀ e ∈ simplified, freeSymbols e ≠ [x]) → dget r.1 x = dget known x) ∧
    ∀ P : α → ℚ → Prop, (∀ x v, dget known x = some v → P x v) →
      (∀ e ∈ simplified, ∀ x, freeSymbols e = [x] → P x (firstSolution (S.solve e x))) →
      ∀ x v, dget r.1 x = some v → P x v := by
  intro simplified r
  have hr := pass_remove S simplified ⟨known, false, []⟩
  refine ⟨hr.2.trans (Bool.false_or _), ?_, pass_length S simplified ⟨known, false, []⟩,
    fun x => pass_keys S simplified ⟨known, false, []⟩ x,
    fun x hx => pass_keeps S simplified ⟨known, false, []⟩ x hx,
    fun P h1 h2 => pass_values S P simplified ⟨known, false, []⟩ h1 h2⟩
  have hrm : r.2.2 = (simplified.foldl (passStep S) ⟨known, false, []⟩).remove.foldl List.erase
    simplified := rfl
  rw [hrm, hr.1]
  simpa using foldl_erase_filter fewUnknowns simplified [] (by simp)

/-! ### Solving one at a time -/

theorem OneAtATime.mono {K K' : α → Prop} {o : List (SymExpr α)} (h : OneAtATime K o)
    (hK : ∀ y, K y → K' y) : OneAtATime K' o := by
  induction h generalizing K' with
  | nil => exact .nil
  | cons h1 _ ih =>
    obtain ⟨x, hx⟩ := h1
    exact .cons ⟨x, fun y hy => (hx y hy).imp (hK y) id⟩ (ih fun y hy => hy.imp (hK y) id)

theorem OneAtATime.append {l : List (SymExpr α)} : ∀ {o : List (SymExpr α)} {K : α → Prop},
    OneAtATime K o →
    (∀ e ∈ l, ∃ x, ∀ y, Mentions y e → (K y ∨ ∃ e' ∈ o, Mentions y e') ∨ y = x) →
    OneAtATime K (o ++ l) := by
  intro o K ho
  induction ho with
  | @nil K =>
    intro h
    rw [List.nil_append]
    induction l generalizing K with
    | nil => exact .nil
    | cons e l ih =>
      refine .cons ?_ (ih ?_)
      · obtain ⟨x, hx⟩ := h e (by simp)
        exact ⟨x, fun y hy => by simpa using hx y hy⟩
      · intro e' he'
        obtain ⟨x, hx⟩ := h e' (by simp [he'])
        refine ⟨x, fun y hy => ?_⟩
        rcases hx y hy with (h | h) | h
        · exact Or.inl (Or.inl (Or.inl h))
        · simp at h
        · exact Or.inr h
  | @cons K e es h1 _ ih =>
    intro h
    refine .cons h1 (ih ?_)
    intro e' he'
    obtain ⟨x, hx⟩ := h e' he'
    refine ⟨x, fun y hy => ?_⟩
    rcases hx y hy with (h | ⟨e'', he'', hm⟩) | h
    · exact Or.inl (Or.inl (Or.inl h))
    · rcases List.mem_cons.mp he'' with rfl | he''
      · exact Or.inl (Or.inl (Or.inr hm))
      · exact Or.inl (Or.inr ⟨e'', he'', hm⟩)
    · exact Or.inr h

/-- Unless every symbol is known, some equation has exactly one unknown. -/
theorem OneAtATime.progress {K : α → Prop} {o : List (SymExpr α)} (h : OneAtATime K o)
    (K' : α → Prop) (hK : ∀ y, K y → K' y) :
    (∀ e ∈ o, ∀ y, Mentions y e → K' y) ∨
    ∃ e ∈ o, (∃ y, Mentions y e ∧ ¬ K' y) ∧ ∃ x, ∀ y, Mentions y e → K' y ∨ y = x := by
  induction h with
  | nil => left; simp
  | @cons K e es h1 _ ih =>
    obtain ⟨x, hx⟩ := h1
    by_cases he : ∀ y, Mentions y e → K' y
    · rcases ih (fun y hy => hy.elim (hK y) (he y)) with h | ⟨e', he', h⟩
      · left
        intro e' he'
        rcases List.mem_cons.mp he' with rfl | he'
        · exact he
        · exact h e' he'
      · exact Or.inr ⟨e', by simp [he'], h⟩
    · right
      refine ⟨e, by simp, ?_, x, fun y hy => (hx y hy).imp (hK y) id⟩
      by_contra hc
      exact he fun y hy => by
        by_contra hk
        exact hc ⟨y, hy, hk⟩

/-! ### The invariant -/

/-- The state of the outer loop: `o` are the equations dealt with. -/
def SolveInv (S : SymSolver α) (eqs : List (SymExpr α)) (K0 known : Dict α ℚ)
    (U : List (SymExpr α)) : Prop :=
  ∃ (pairs : List (SymExpr α × SymExpr α)) (o : List (SymExpr α)),
    pairs.map Prod.snd = U ∧ (o ++ pairs.map Prod.fst).Perm eqs ∧
    OneAtATime (fun x => x ∈ dkeys K0) o ∧
    (∀ x ∈ dkeys known, x ∈ dkeys K0 ∨ ∃ e ∈ o, Mentions x e) ∧
    (∀ e ∈ o, ∀ x, Mentions x e → x ∈ dkeys known) ∧
    (∀ x ∈ dkeys K0, dget known x = dget K0 x) ∧
    ∀ p ∈ pairs, Arises S (fun _ => True) eqs p.2 ∧
      ∀ x, x ∉ dkeys known → (Mentions x p.2 ↔ Mentions x p.1)

theorem length_le_one_of {l : List α} (h : l.length ≤ 1) [Nonempty α] : ∃ x, ∀ y ∈ l, y = x := by
  cases l with
  | nil => exact ⟨Classical.arbitrary α, by simp⟩
  | cons a l => cases l with
    | nil => exact ⟨a, by simp⟩
    | cons b l => simp at h

theorem mentions_few (e : SymExpr α) (x : α) (h : ∀ y, Mentions y e → y = x) :
    fewUnknowns e = true := by
  unfold fewUnknowns
  rw [decide_eq_true_iff]
  have hn : (freeSymbols e).Nodup := List.nodup_dedup _
  have hall : ∀ y ∈ freeSymbols e, y = x := fun y hy =>
    h y ((mentions_iff e y).mpr ((mem_freeSymbols e y).mp hy))
  match hl : freeSymbols e with
  | [] => simp
  | [a] => simp
  | a :: b :: l =>
    rw [hl] at hn hall
    have h1 := hall a (by simp)
    have h2 := hall b (by simp)
    subst h1
    simp [h2] at hn

theorem SolveInv.dkeys_mono {S : SymSolver α} {known : Dict α ℚ} {U : List (SymExpr α)} (x : α)
    (hx : x ∈ dkeys known) : x ∈ dkeys (solvePass S known U).1 :=
  ((solvePass_spec S known U).2.2.2.1 x).mpr (Or.inl hx)

theorem solveInv_init (S : SymSolver α) (eqs : List (SymExpr α)) (K0 : Dict α ℚ) :
    SolveInv S eqs K0 K0 eqs :=
  ⟨eqs.map fun e => (e, e), [], by simp [Function.comp_def], by simp [Function.comp_def], .nil,
    fun x hx => Or.inl hx, by simp, fun _ _ => rfl, by
      intro p hp
      obtain ⟨e, he, rfl⟩ := List.mem_map.mp hp
      exact ⟨.base he, fun _ _ => Iff.rfl⟩⟩

theorem solveInv_pass [Nonempty α] (S : SymSolver α) (eqs : List (SymExpr α)) (K0 known : Dict α ℚ)
    (U : List (SymExpr α)) (hS : KeepsSymbols S eqs) (h : SolveInv S eqs K0 known U) :
    SolveInv S eqs K0 (solvePass S known U).1 (solvePass S known U).2.2 := by
  obtain ⟨pairs, o, hU, hperm, ho, hk1, hk2, hk3, hp⟩ := h
  obtain ⟨-, hrest, -, hkeys, hkeep, -⟩ := solvePass_spec S known U
  let g : SymExpr α × SymExpr α → SymExpr α × SymExpr α :=
    fun p => (p.1, S.simplify (substKnown known p.2))
  have hsimp : U.map (fun e => S.simplify (substKnown known e)) = (pairs.map g).map Prod.snd := by
    rw [← hU]; simp [g, Function.comp_def]
  have hfst : (pairs.map g).map Prod.fst = pairs.map Prod.fst := by simp [g, Function.comp_def]
  rw [hsimp] at hrest hkeys hkeep
  have hm : ∀ q ∈ pairs.map g, Arises S (fun _ => True) eqs q.2 ∧
      ∀ x, Mentions x q.2 ↔ Mentions x q.1 ∧ x ∉ dkeys known := by
    intro q hq
    obtain ⟨p, hpm, rfl⟩ := List.mem_map.mp hq
    obtain ⟨ha, hx⟩ := hp p hpm
    refine ⟨.step known trivial ha, fun x => ?_⟩
    show Mentions x (S.simplify (substKnown known p.2)) ↔ _
    rw [hS p.2 known ha x, mentions_iff, atoms_substKnown, ← mentions_iff]
    constructor
    · exact fun h => ⟨(hx x h.2).mp h.1, h.2⟩
    · exact fun h => ⟨(hx x h.2).mpr h.1, h.2⟩
  let few := (pairs.map g).filter fun q => fewUnknowns q.2
  let many := (pairs.map g).filter fun q => !fewUnknowns q.2
  have hone : ∀ q ∈ few, ∃ x, ∀ y, Mentions y q.2 → y = x := by
    intro q hq
    have hf := (List.mem_filter.mp hq).2
    unfold fewUnknowns at hf
    obtain ⟨x, hx⟩ := length_le_one_of (by simpa using hf)
    exact ⟨x, fun y hy => hx y ((mem_freeSymbols _ _).mpr ((mentions_iff _ _).mp hy))⟩
  have hsub : ∀ x, x ∈ dkeys known → x ∈ dkeys (solvePass S known U).1 := fun x hx =>
    (hkeys x).mpr (Or.inl hx)
  have hfewkeys : ∀ q ∈ few, ∀ x, Mentions x q.1 → x ∈ dkeys (solvePass S known U).1 := by
    intro q hq x hx
    by_cases hxk : x ∈ dkeys known
    · exact hsub x hxk
    · refine (hkeys x).mpr (Or.inr ⟨q.2, List.mem_map_of_mem (List.mem_filter.mp hq).1, ?_⟩)
      have hx2 : Mentions x q.2 := ((hm q (List.mem_filter.mp hq).1).2 x).mpr ⟨hx, hxk⟩
      have hl := (List.mem_filter.mp hq).2
      unfold fewUnknowns at hl
      rw [decide_eq_true_iff] at hl
      have hmem : x ∈ freeSymbols q.2 := (mem_freeSymbols _ _).mpr ((mentions_iff _ _).mp hx2)
      match hfs : freeSymbols q.2 with
      | [] => rw [hfs] at hmem; simp at hmem
      | [a] => rw [hfs] at hmem; rw [List.mem_singleton] at hmem; rw [hmem]
      | a :: b :: l => rw [hfs] at hl; simp at hl
  refine ⟨many, o ++ few.map Prod.fst, ?_, ?_, ?_, ?_, ?_, ?_, ?_⟩
  · rw [hrest, List.filter_map]
    rfl
  · rw [List.append_assoc, ← List.map_append]
    refine List.Perm.trans (List.Perm.append_left o ?_) hperm
    rw [← hfst]
    exact (List.filter_append_perm (fun q : SymExpr α × SymExpr α => fewUnknowns q.2)
      (pairs.map g)).map Prod.fst
  · refine ho.append fun e he => ?_
    obtain ⟨q, hq, rfl⟩ := List.mem_map.mp he
    obtain ⟨x, hx⟩ := hone q hq
    refine ⟨x, fun y hy => ?_⟩
    by_cases hyk : y ∈ dkeys known
    · exact Or.inl (hk1 y hyk)
    · exact Or.inr (hx y (((hm q (List.mem_filter.mp hq).1).2 y).mpr ⟨hy, hyk⟩))
  · intro x hx
    rcases (hkeys x).mp hx with h | ⟨e, he, hfe⟩
    · rcases hk1 x h with h | ⟨e, he, hxe⟩
      · exact Or.inl h
      · exact Or.inr ⟨e, by simp [he], hxe⟩
    · obtain ⟨q, hq, rfl⟩ := List.mem_map.mp he
      have hqf : q ∈ few := List.mem_filter.mpr ⟨hq, by simp [fewUnknowns, hfe]⟩
      have hxq : Mentions x q.2 := (mentions_iff _ _).mpr ((mem_freeSymbols _ _).mp (by rw [hfe]; simp))
      exact Or.inr ⟨q.1, List.mem_append_right _ (List.mem_map_of_mem hqf),
        (((hm q hq).2 x).mp hxq).1⟩
  · intro e he x hx
    rcases List.mem_append.mp he with he | he
    · exact hsub x (hk2 e he x hx)
    · obtain ⟨q, hq, rfl⟩ := List.mem_map.mp he
      exact hfewkeys q hq x hx
  · intro x hx
    rw [← hk3 x hx]
    refine hkeep x fun e he hfe => ?_
    obtain ⟨q, hq, rfl⟩ := List.mem_map.mp he
    have hxq : Mentions x q.2 := (mentions_iff _ _).mpr ((mem_freeSymbols _ _).mp (by rw [hfe]; simp))
    refine (((hm q hq).2 x).mp hxq).2 ?_
    obtain ⟨v, hv⟩ := (mem_dkeys_iff _ _).mp hx
    exact (mem_dkeys_iff _ _).mpr ⟨v, (hk3 x hx).trans hv⟩
  · intro q hq
    obtain ⟨h1, h2⟩ := hm q (List.mem_filter.mp hq).1
    refine ⟨h1, fun x hx => ?_⟩
    rw [h2 x]
    exact ⟨fun h => h.1, fun h => ⟨h, fun hh => hx (hsub x hh)⟩⟩

theorem solveInv_loop [Nonempty α] (S : SymSolver α) (eqs : List (SymExpr α)) (K0 : Dict α ℚ) (n : Nat)
    (hS : KeepsSymbols S eqs) : ∀ (fuel : Nat) (known : Dict α ℚ) (U : List (SymExpr α)),
    SolveInv S eqs K0 known U →
    SolveInv S eqs K0 (solveLoop S n fuel known U).1 (solveLoop S n fuel known U).2 := by
  intro fuel
  induction fuel with
  | zero => intro known U h; exact h
  | succ k ih =>
    intro known U h
    have hp := solveInv_pass S eqs K0 known U hS h
    simp only [solveLoop]
    split
    · exact hp
    · split
      · exact hp
      · exact ih _ _ hp

/-- While equations are left, a pass finds a value. -/
theorem solvePass_progress (S : SymSolver α) (eqs : List (SymExpr α)) (K0 known : Dict α ℚ)
    (U : List (SymExpr α)) (hS : KeepsSymbols S eqs) (h : SolveInv S eqs K0 known U)
    (hrec : RecursivelySolvable (fun x => x ∈ dkeys K0) eqs)
    (hleft : (solvePass S known U).2.2 ≠ []) :
    (solvePass S known U).2.1 = true := by
  obtain ⟨pairs, o, hU, hperm, ho, hk1, hk2, hk3, hp⟩ := h
  obtain ⟨hfound, hrest, -⟩ := solvePass_spec S known U
  obtain ⟨o', hperm', hone⟩ := hrec
  have hsub : ∀ y, y ∈ dkeys K0 → y ∈ dkeys known := by
    intro y hy
    obtain ⟨v, hv⟩ := (mem_dkeys_iff _ _).mp hy
    exact (mem_dkeys_iff _ _).mpr ⟨v, (hk3 y hy).trans hv⟩
  have hm : ∀ p ∈ pairs, ∀ x, Mentions x (S.simplify (substKnown known p.2)) ↔
      Mentions x p.1 ∧ x ∉ dkeys known := by
    intro p hpm x
    obtain ⟨ha, hx⟩ := hp p hpm
    rw [hS p.2 known ha x, mentions_iff, atoms_substKnown, ← mentions_iff]
    constructor
    · exact fun h => ⟨(hx x h.2).mp h.1, h.2⟩
    · exact fun h => ⟨(hx x h.2).mpr h.1, h.2⟩
  rw [hfound, List.any_eq_true]
  rcases hone.progress (fun x => x ∈ dkeys known) hsub with hall | ⟨e, he, ⟨y, hy, hyk⟩, x, hx⟩
  · exfalso
    apply hleft
    rw [hrest, List.filter_eq_nil_iff]
    intro e he
    obtain ⟨u, hu, rfl⟩ := List.mem_map.mp he
    rw [← hU] at hu
    obtain ⟨p, hpm, rfl⟩ := List.mem_map.mp hu
    have hno : ∀ y, ¬ Mentions y (S.simplify (substKnown known p.2)) := by
      intro y hy
      obtain ⟨h1, h2⟩ := (hm p hpm y).mp hy
      have hpe : p.1 ∈ eqs := hperm.subset (List.mem_append_right _ (List.mem_map_of_mem hpm))
      exact h2 (hall p.1 (hperm'.symm.subset hpe) y h1)
    have hnil : freeSymbols (S.simplify (substKnown known p.2)) = [] := by
      apply List.eq_nil_iff_forall_not_mem.mpr
      intro y hy
      exact hno y ((mentions_iff _ _).mpr ((mem_freeSymbols _ _).mp hy))
    simp [fewUnknowns, hnil]
  · have he' : e ∈ o ++ pairs.map Prod.fst := hperm.symm.subset (hperm'.subset he)
    rcases List.mem_append.mp he' with he' | he'
    · exact absurd (hk2 e he' y hy) hyk
    · obtain ⟨p, hpm, rfl⟩ := List.mem_map.mp he'
      refine ⟨S.simplify (substKnown known p.2), ?_, ?_⟩
      · rw [← hU, List.map_map]
        exact List.mem_map.mpr ⟨p, hpm, rfl⟩
      · have hmy : Mentions y (S.simplify (substKnown known p.2)) := (hm p hpm y).mpr ⟨hy, hyk⟩
        have hf : fewUnknowns (S.simplify (substKnown known p.2)) = true := by
          refine mentions_few _ x fun z hz => ?_
          obtain ⟨h1, h2⟩ := (hm p hpm z).mp hz
          exact (hx z h1).resolve_left h2
        have hmem := (mem_freeSymbols _ _).mpr ((mentions_iff _ _).mp hmy)
        have hpos := List.length_pos_of_mem hmem
        simp only [fewUnknowns, oneUnknown, decide_eq_true_iff] at hf ⊢
        omega

theorem length_filter_one_le (l : List (SymExpr α)) :
    (l.filter oneUnknown).length + (l.filter fun e => !fewUnknowns e).length ≤ l.length := by
  induction l with
  | nil => simp
  | cons e l ih =>
    simp only [List.filter_cons, List.length_cons]
    have : oneUnknown e = true → fewUnknowns e = true := by
      simp only [oneUnknown, fewUnknowns, decide_eq_true_iff]; omega
    by_cases h1 : oneUnknown e = true
    · simp [h1, this h1]; omega
    · by_cases h2 : fewUnknowns e = true
      · simp [h1, h2]; omega
      · simp [h1, h2]; omega

theorem length_le_dset {κ ν : Type _} [DecidableEq κ] (d : Dict κ ν) (k : κ) (v : ν) :
    d.length ≤ (dset d k v).length := by
  induction d with
  | nil => simp
  | cons p d ih =>
    obtain ⟨k', v'⟩ := p
    simp only [dset]
    split <;> simp [*]

theorem pass_length_ge (S : SymSolver α) (l : List (SymExpr α)) : ∀ (st : PassState α),
    st.known.length ≤ (l.foldl (passStep S) st).known.length := by
  induction l with
  | nil => intro st; simp
  | cons e l ih =>
    intro st
    rw [List.foldl_cons]
    refine Nat.le_trans ?_ (ih _)
    obtain ⟨-, -, s3, s4⟩ := passStep_eq S st e
    by_cases h : oneUnknown e = true
    · obtain ⟨x, hx⟩ := (oneUnknown_iff e).mp h
      rw [s3 x hx]
      exact length_le_dset _ _ _
    · rw [s4 (by simpa using h)]

/-- With no values to start from, or more than there are equations, all equations are dealt with. -/
theorem solveLoop_complete [Nonempty α] (S : SymSolver α) (eqs : List (SymExpr α)) (K0 : Dict α ℚ)
    (n : Nat) (hS : KeepsSymbols S eqs)
    (hrec : RecursivelySolvable (fun x => x ∈ dkeys K0) eqs) :
    ∀ (fuel : Nat) (known : Dict α ℚ) (U : List (SymExpr α)),
    SolveInv S eqs K0 known U → U.length ≤ fuel →
    (known.length + U.length ≤ n ∨ n < known.length) →
    (solveLoop S n fuel known U).2 = [] := by
  intro fuel
  induction fuel with
  | zero =>
    intro known U _ hl _
    exact List.length_eq_zero_iff.mp (Nat.le_zero.mp hl)
  | succ k ih =>
    intro known U h hl hlen
    have hp := solveInv_pass S eqs K0 known U hS h
    obtain ⟨hfound, hrest, hlen2, -⟩ := solvePass_spec S known U
    have hge : known.length ≤ (solvePass S known U).1.length :=
      pass_length_ge S _ ⟨known, false, []⟩
    have hcount := length_filter_one_le (U.map fun e => S.simplify (substKnown known e))
    rw [List.length_map, ← hrest] at hcount
    simp only [solveLoop]
    split
    · rename_i heq
      have : (solvePass S known U).2.2.length = 0 := by omega
      exact List.length_eq_zero_iff.mp this
    · by_cases hnil : (solvePass S known U).2.2 = []
      · split
        · exact hnil
        · refine ih _ _ hp (by rw [hnil]; simp) (by rcases hlen with h | h <;> omega)
      · have hf := solvePass_progress S eqs K0 known U hS h hrec hnil
        rw [hf, if_neg (by simp)]
        have hpos : 0 < ((U.map fun e => S.simplify (substKnown known e)).filter oneUnknown).length := by
          rw [hfound, List.any_eq_true] at hf
          obtain ⟨e, he, ho⟩ := hf
          exact List.length_pos_of_mem (List.mem_filter.mpr ⟨he, ho⟩)
        exact ih _ _ hp (by omega) (by rcases hlen with h | h <;> omega)

/-! ### The values -/

/-- The state of the outer loop relative to a solution `s`. -/
def ValueInv (S : SymSolver α) (s : α → ℝ) (eqs : List (SymExpr α)) (known : Dict α ℚ)
    (U : List (SymExpr α)) : Prop :=
  AgreesWith s known ∧ (∀ e ∈ U, Arises S (AgreesWith s) eqs e) ∧
  ∀ e ∈ eqs, (∃ e' ∈ U, ∀ env, AgreesWith env known → e'.eval env = e.eval env) ∨
    ∀ env, AgreesWith env known → e.eval env = 0

theorem arises_eval (S : SymSolver α) (s : α → ℝ) (eqs : List (SymExpr α))
    (hsimp : ∀ e env, (S.simplify e).eval env = e.eval env) (hs : ∀ e ∈ eqs, e.eval s = 0)
    (e : SymExpr α) (h : Arises S (AgreesWith s) eqs e) : e.eval s = 0 := by
  induction h with
  | base he => exact hs _ he
  | step K hK _ ih => rw [hsimp, eval_substKnown K s hK, ih]

theorem valueInv_pass (S : SymSolver α) (s : α → ℝ) (eqs : List (SymExpr α)) (known : Dict α ℚ)
    (U : List (SymExpr α)) (hsimp : ∀ e env, (S.simplify e).eval env = e.eval env)
    (hs : ∀ e ∈ eqs, e.eval s = 0)
    (hsolve : ∀ e x, Arises S (AgreesWith s) eqs e → (∀ y, Mentions y e ↔ y = x) →
      ∃ q rest, S.solve e x = q :: rest ∧ s x = (q : ℝ))
    (h : ValueInv S s eqs known U) :
    ValueInv S s eqs (solvePass S known U).1 (solvePass S known U).2.2 := by
  obtain ⟨hk, hU, he⟩ := h
  obtain ⟨-, hrest, -, hkeys, -, hvals⟩ := solvePass_spec S known U
  have hA : ∀ e ∈ U.map (fun e => S.simplify (substKnown known e)),
      Arises S (AgreesWith s) eqs e := by
    intro e he
    obtain ⟨u, hu, rfl⟩ := List.mem_map.mp he
    exact .step known hk (hU u hu)
  have hk' : AgreesWith s (solvePass S known U).1 := by
    refine hvals (fun x v => s x = (v : ℝ)) hk ?_
    intro e he x hx
    obtain ⟨q, rest, hq, hv⟩ := hsolve e x (hA e he) (fun y => by
      rw [mentions_iff, ← mem_freeSymbols, hx, List.mem_singleton])
    rw [hq]
    exact hv
  have hext : ∀ env, AgreesWith env (solvePass S known U).1 → AgreesWith env known := by
    intro env henv x v hv
    have hx : x ∈ dkeys (solvePass S known U).1 :=
      (hkeys x).mpr (Or.inl ((mem_dkeys_iff _ _).mpr ⟨v, hv⟩))
    obtain ⟨w, hw⟩ := (mem_dkeys_iff _ _).mp hx
    rw [henv x w hw, ← hk' x w hw, hk x v hv]
  refine ⟨hk', ?_, ?_⟩
  · intro e he
    rw [hrest] at he
    exact hA e (List.mem_filter.mp he).1
  · intro e hee
    rcases he e hee with ⟨e', he', heval⟩ | hz
    · have hmem : S.simplify (substKnown known e') ∈
          U.map (fun e => S.simplify (substKnown known e)) := List.mem_map_of_mem he'
      have hev : ∀ env, AgreesWith env (solvePass S known U).1 →
          (S.simplify (substKnown known e')).eval env = e.eval env := by
        intro env henv
        rw [hsimp, eval_substKnown known env (hext env henv), heval env (hext env henv)]
      by_cases hf : fewUnknowns (S.simplify (substKnown known e')) = true
      · right
        intro env henv
        rw [← hev env henv, ← arises_eval S s eqs hsimp hs _ (hA _ hmem)]
        refine eval_congr _ fun y hy => ?_
        have hmemy := (mem_freeSymbols _ _).mpr hy
        have hfs : freeSymbols (S.simplify (substKnown known e')) = [y] := by
          unfold fewUnknowns at hf
          rw [decide_eq_true_iff] at hf
          match hl : freeSymbols (S.simplify (substKnown known e')) with
          | [] => rw [hl] at hmemy; simp at hmemy
          | [a] => rw [hl] at hmemy; rw [List.mem_singleton] at hmemy; rw [hmemy]
          | a :: b :: l => rw [hl] at hf; simp at hf
        obtain ⟨w, hw⟩ := (mem_dkeys_iff _ _).mp ((hkeys y).mpr (Or.inr ⟨_, hmem, hfs⟩))
        rw [henv y w hw, hk' y w hw]
      · left
        refine ⟨_, ?_, hev⟩
        rw [hrest]
        exact List.mem_filter.mpr ⟨hmem, by simp [hf]⟩
    · exact Or.inr fun env henv => hz env (hext env henv)

theorem valueInv_loop (S : SymSolver α) (s : α → ℝ) (eqs : List (SymExpr α)) (n : Nat)
    (hsimp : ∀ e env, (S.simplify e).eval env = e.eval env) (hs : ∀ e ∈ eqs, e.eval s = 0)
    (hsolve : ∀ e x, Arises S (AgreesWith s) eqs e → (∀ y, Mentions y e ↔ y = x) →
      ∃ q rest, S.solve e x = q :: rest ∧ s x = (q : ℝ)) :
    ∀ (fuel : Nat) (known : Dict α ℚ) (U : List (SymExpr α)), ValueInv S s eqs known U →
    ValueInv S s eqs (solveLoop S n fuel known U).1 (solveLoop S n fuel known U).2 := by
  intro fuel
  induction fuel with
  | zero => intro known U h; exact h
  | succ k ih =>
    intro known U h
    have hp := valueInv_pass S s eqs known U hsimp hs hsolve h
    simp only [solveLoop]
    split
    · exact hp
    · split
      · exact hp
      · exact ih _ _ hp

end Verif
