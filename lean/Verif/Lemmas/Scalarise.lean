import Verif.Lemmas.ReduceShape
import Verif.Lemmas.SympyTensor2
import Verif.Model.Scalarise
import Verif.Props.EquationNames
import Verif.Props.Reduce
import Verif.Props.Plots

/-!
# Lemmas on turning indexed equations into scalar equations
-/

namespace Verif

open RExpr

/-! ### Removing the indices -/

/-- The scalar expression with the symbol `b_l_m` for `b[l, m]`. -/
def scal : RExpr → SymExpr Str
  | .num q => .num q
  | .sym x => .sym x
  | .indexed b ix => .sym (joinStr "_".toList (b :: ix.map labelText))
  | .add a b => .add (scal a) (scal b)
  | .mul a b => .mul (scal a) (scal b)
  | .pow a b => .pow (scal a) (scal b)
  | .log a => .log (scal a)
  | .exp a => .exp (scal a)
  | .red _ body _ => scal body

/-- An entry of the substitution dictionary. -/
def SubEntry (p : RExpr × RExpr) : Prop :=
  (∃ x, p = (.sym x, .sym x)) ∨
    ∃ b ix, p = (.indexed b ix, .sym (joinStr "_".toList (b :: ix.map labelText)))

theorem subEntry_leaf {p : RExpr × RExpr} (h : SubEntry p) :
    (∀ a b, RExpr.add a b ≠ p.1) ∧ (∀ a b, RExpr.mul a b ≠ p.1) ∧ (∀ a b, RExpr.pow a b ≠ p.1) ∧
      (∀ a, RExpr.log a ≠ p.1) ∧ (∀ a, RExpr.exp a ≠ p.1) ∧ ∀ q, RExpr.num q ≠ p.1 := by
  rcases h with ⟨x, rfl⟩ | ⟨b, ix, rfl⟩ <;> simp

theorem foldl_sub_sym (ps : List (RExpr × RExpr)) (h : ∀ p ∈ ps, SubEntry p) (x : Str) :
    ps.foldl (fun e p => replaceSub p.1 p.2 e) (.sym x) = .sym x := by
  induction ps with
  | nil => rfl
  | cons p ps ih =>
    rw [List.foldl_cons]
    have : replaceSub p.1 p.2 (.sym x) = .sym x := by
      rcases h p (by simp) with ⟨y, rfl⟩ | ⟨b, ix, rfl⟩
      · rw [replaceSub]; split
        · rename_i he; exact he.symm
        · rfl
      · rw [replaceSub]; simp
    rw [this]
    exact ih fun q hq => h q (by simp [hq])

theorem foldl_sub_indexed (ps : List (RExpr × RExpr)) (h : ∀ p ∈ ps, SubEntry p) (b : Str)
    (ix : List SIdx) (hex : ∃ p ∈ ps, p.1 = .indexed b ix) :
    ps.foldl (fun e p => replaceSub p.1 p.2 e) (.indexed b ix) =
      .sym (joinStr "_".toList (b :: ix.map labelText)) := by
  induction ps with
  | nil => obtain ⟨p, hp, -⟩ := hex; cases hp
  | cons p ps ih =>
    rw [List.foldl_cons]
    by_cases hp : p.1 = .indexed b ix
    · have : replaceSub p.1 p.2 (.indexed b ix) = .sym (joinStr "_".toList (b :: ix.map labelText)) := by
        rw [replaceSub, if_pos hp.symm]
        rcases h p (by simp) with ⟨y, rfl⟩ | ⟨b', ix', rfl⟩
        · cases hp
        · cases hp; rfl
      rw [this]
      exact foldl_sub_sym ps (fun q hq => h q (by simp [hq])) _
    · have : replaceSub p.1 p.2 (.indexed b ix) = .indexed b ix := by
        rw [replaceSub, if_neg (Ne.symm hp)]
      rw [this]
      refine ih (fun q hq => h q (by simp [hq])) ?_
      obtain ⟨q, hq, hq'⟩ := hex
      rcases List.mem_cons.1 hq with rfl | hq
      · exact absurd hq' hp
      · exact ⟨q, hq, hq'⟩

theorem toScalarExpr_foldl (ps : List (RExpr × RExpr)) (h : ∀ p ∈ ps, SubEntry p) (e : RExpr)
    (hrf : RedFree e) (hall : ∀ v ∈ e.indexeds, ∃ p ∈ ps, p.1 = .indexed v.1 v.2) :
    toScalarExpr (ps.foldl (fun e p => replaceSub p.1 p.2 e) e) = some (scal e) := by
  have two : ∀ (f : RExpr → RExpr → RExpr),
      (∀ p, SubEntry p → ∀ a b, replaceSub p.1 p.2 (f a b) =
        f (replaceSub p.1 p.2 a) (replaceSub p.1 p.2 b)) →
      ∀ (ps : List (RExpr × RExpr)), (∀ p ∈ ps, SubEntry p) → ∀ a b,
      ps.foldl (fun e p => replaceSub p.1 p.2 e) (f a b) =
        f (ps.foldl (fun e p => replaceSub p.1 p.2 e) a) (ps.foldl (fun e p => replaceSub p.1 p.2 e) b) := by
    intro f hf ps
    induction ps with
    | nil => intro _ a b; rfl
    | cons p ps ih =>
      intro h a b
      rw [List.foldl_cons, hf p (h p (by simp)), ih fun q hq => h q (by simp [hq])]
      rfl
  have one : ∀ (f : RExpr → RExpr),
      (∀ p, SubEntry p → ∀ a, replaceSub p.1 p.2 (f a) = f (replaceSub p.1 p.2 a)) →
      ∀ (ps : List (RExpr × RExpr)), (∀ p ∈ ps, SubEntry p) → ∀ a,
      ps.foldl (fun e p => replaceSub p.1 p.2 e) (f a) =
        f (ps.foldl (fun e p => replaceSub p.1 p.2 e) a) := by
    intro f hf ps
    induction ps with
    | nil => intro _ a; rfl
    | cons p ps ih =>
      intro h a
      rw [List.foldl_cons, hf p (h p (by simp)), ih fun q hq => h q (by simp [hq])]
      rfl
  induction e with
  | num q =>
    have : ∀ (ps : List (RExpr × RExpr)), (∀ p ∈ ps, SubEntry p) →
        ps.foldl (fun e p => replaceSub p.1 p.2 e) (.num q) = .num q := by
      intro ps
      induction ps with
      | nil => intro _; rfl
      | cons p ps ih =>
        intro h
        rw [List.foldl_cons, replaceSub, if_neg ((subEntry_leaf (h p (by simp))).2.2.2.2.2 q)]
        exact ih fun r hr => h r (by simp [hr])
    rw [this ps h]; rfl
  | sym x => rw [foldl_sub_sym ps h]; rfl
  | indexed b ix => rw [foldl_sub_indexed ps h b ix (hall (b, ix) (by simp [indexeds]))]; rfl
  | add a b iha ihb =>
    rw [two .add (fun p hp a b => by rw [replaceSub, if_neg ((subEntry_leaf hp).1 a b)]) ps h]
    rw [toScalarExpr, iha hrf.1 fun v hv => hall v (List.mem_append_left _ hv),
      ihb hrf.2 fun v hv => hall v (List.mem_append_right _ hv)]
    rfl
  | mul a b iha ihb =>
    rw [two .mul (fun p hp a b => by rw [replaceSub, if_neg ((subEntry_leaf hp).2.1 a b)]) ps h]
    rw [toScalarExpr, iha hrf.1 fun v hv => hall v (List.mem_append_left _ hv),
      ihb hrf.2 fun v hv => hall v (List.mem_append_right _ hv)]
    rfl
  | pow a b iha ihb =>
    rw [two .pow (fun p hp a b => by rw [replaceSub, if_neg ((subEntry_leaf hp).2.2.1 a b)]) ps h]
    rw [toScalarExpr, iha hrf.1 fun v hv => hall v (List.mem_append_left _ hv),
      ihb hrf.2 fun v hv => hall v (List.mem_append_right _ hv)]
    rfl
  | log a ih =>
    rw [one .log (fun p hp a => by rw [replaceSub, if_neg ((subEntry_leaf hp).2.2.2.1 a)]) ps h]
    rw [toScalarExpr, ih hrf hall]
    rfl
  | exp a ih =>
    rw [one .exp (fun p hp a => by rw [replaceSub, if_neg ((subEntry_leaf hp).2.2.2.2.1 a)]) ps h]
    rw [toScalarExpr, ih hrf hall]
    rfl
  | red => exact hrf.elim

theorem eval_scal (env : Str → ℝ) (e : RExpr) (h : RedFree e) :
    (scal e).eval env = e.val env fun b ix => env (joinStr "_".toList (b :: ix.map labelText)) := by
  induction e with
  | red => exact h.elim
  | num | sym | indexed => rfl
  | add a b iha ihb | mul a b iha ihb | pow a b iha ihb =>
    simp only [scal, SymExpr.eval, RExpr.val, iha h.1, ihb h.2]
  | log a ih | exp a ih =>
    have h' : RedFree a := h
    simp only [scal, SymExpr.eval, RExpr.val, ih h']

theorem atoms_scal (e : RExpr) (h : RedFree e) (n : Str) (hn : n ∈ (scal e).atoms) :
    n ∈ e.syms ∨ ∃ v ∈ e.indexeds, n = joinStr "_".toList (v.1 :: v.2.map labelText) := by
  induction e with
  | red => exact h.elim
  | num => simp [scal, SymExpr.atoms] at hn
  | sym x => exact Or.inl hn
  | indexed b ix =>
    refine Or.inr ⟨(b, ix), by simp [indexeds], ?_⟩
    simpa [scal, SymExpr.atoms] using hn
  | add a b iha ihb | mul a b iha ihb | pow a b iha ihb =>
    simp only [scal, SymExpr.atoms, List.mem_append] at hn
    simp only [RExpr.syms, indexeds, List.mem_append]
    rcases hn with hn | hn
    · rcases iha h.1 hn with h' | ⟨v, hv, hh⟩
      · exact Or.inl (Or.inl h')
      · exact Or.inr ⟨v, Or.inl hv, hh⟩
    · rcases ihb h.2 hn with h' | ⟨v, hv, hh⟩
      · exact Or.inl (Or.inr h')
      · exact Or.inr ⟨v, Or.inr hv, hh⟩
  | log a ih | exp a ih => exact ih h hn

/-! ### Putting labels for the index symbols -/

/-- The label is what its text is read as. -/
def ReadsBack (l : Str) : Prop := labelText (sympifyLabel l) = l

theorem FitLabel.readsBack {n k : Nat} {l : Str} (h : FitLabel n k l) : ReadsBack l := by
  unfold ReadsBack
  rcases h with h | ⟨m, rfl, -⟩
  · rw [sympifyLabel_of_notNumeral h]; rfl
  · rw [sympifyLabel_toString]; rfl

theorem map_readsBack {ls : List Str} (h : ∀ l ∈ ls, ReadsBack l) :
    (ls.map sympifyLabel).map labelText = ls := by
  rw [List.map_map]
  conv => rhs; rw [← List.map_id ls]
  exact List.map_congr_left h

theorem foldl_substLabel (ds ls : List Str) (e : RExpr) :
    (ds.zip ls).foldl (fun e p => substLabel e p.1 p.2) e =
      e.mapIx fun _ ix => ix.map (bindIdx (bindLabels ds ls)) := by
  have key : ∀ (ps : List (Str × Str)) (e : RExpr),
      ps.foldl (fun e p => substLabel e p.1 p.2) e =
        e.mapIx fun _ ix => ix.map (bindIdx fun d => match dget ps d with
          | some l => sympifyLabel l
          | none => .idx d) := by
    intro ps
    induction ps with
    | nil =>
      intro e
      have : (fun (_ : Str) (ix : List SIdx) => ix.map (bindIdx fun d =>
          match dget ([] : Dict Str Str) d with
          | some l => sympifyLabel l
          | none => .idx d)) = fun _ ix => ix := by
        funext _ ix
        conv => rhs; rw [← List.map_id ix]
        apply List.map_congr_left
        intro s _
        cases s <;> rfl
      rw [this, mapIx_self]; rfl
    | cons p ps ih =>
      intro e
      obtain ⟨d, l⟩ := p
      rw [List.foldl_cons, ih, substLabel, mapIx_mapIx]
      congr 1
      funext _ ix
      rw [List.map_map]
      apply List.map_congr_left
      intro s _
      cases s with
      | idx j =>
        simp only [Function.comp, setLabel, bindIdx, dget_cons]
        by_cases hj : j = d
        · subst hj
          simp only [if_true]
          exact bindIdx_sympifyLabel _ _
        · rw [if_neg hj, if_neg (Ne.symm hj)]
      | num => rfl
      | lab => rfl
  rw [key (ds.zip ls) e]
  rfl

/-! ### The numeraire -/

theorem fix_indexeds (old : RExpr) (hold : (∃ x, old = .sym x) ∨ ∃ b ix, old = .indexed b ix) (e : RExpr) :
    ∀ v ∈ (replaceSub old (.num 1) e).indexeds, v ∈ e.indexeds ∧ old ≠ .indexed v.1 v.2 := by
  have hleaf : (∀ a b, RExpr.add a b ≠ old) ∧ (∀ a b, RExpr.mul a b ≠ old) ∧
      (∀ a b, RExpr.pow a b ≠ old) ∧ (∀ a, RExpr.log a ≠ old) ∧ (∀ a, RExpr.exp a ≠ old) ∧
      ∀ o b l, RExpr.red o b l ≠ old := by
    rcases hold with ⟨x, rfl⟩ | ⟨b, ix, rfl⟩ <;> simp
  induction e with
  | num | sym =>
    intro v hv
    rw [replaceSub] at hv
    split at hv <;> simp [indexeds] at hv
  | indexed b ix =>
    intro v hv
    rw [replaceSub] at hv
    split at hv
    · simp [indexeds] at hv
    · rename_i hne
      refine ⟨hv, ?_⟩
      simp only [indexeds, List.mem_singleton] at hv
      subst hv
      exact Ne.symm hne
  | add a b iha ihb =>
    intro v hv
    rw [replaceSub, if_neg (hleaf.1 a b)] at hv
    rcases List.mem_append.1 hv with hv | hv
    · exact ⟨List.mem_append_left _ (iha v hv).1, (iha v hv).2⟩
    · exact ⟨List.mem_append_right _ (ihb v hv).1, (ihb v hv).2⟩
  | mul a b iha ihb =>
    intro v hv
    rw [replaceSub, if_neg (hleaf.2.1 a b)] at hv
    rcases List.mem_append.1 hv with hv | hv
    · exact ⟨List.mem_append_left _ (iha v hv).1, (iha v hv).2⟩
    · exact ⟨List.mem_append_right _ (ihb v hv).1, (ihb v hv).2⟩
  | pow a b iha ihb =>
    intro v hv
    rw [replaceSub, if_neg (hleaf.2.2.1 a b)] at hv
    rcases List.mem_append.1 hv with hv | hv
    · exact ⟨List.mem_append_left _ (iha v hv).1, (iha v hv).2⟩
    · exact ⟨List.mem_append_right _ (ihb v hv).1, (ihb v hv).2⟩
  | log a ih =>
    intro v hv
    rw [replaceSub, if_neg (hleaf.2.2.2.1 a)] at hv
    exact ih v hv
  | exp a ih =>
    intro v hv
    rw [replaceSub, if_neg (hleaf.2.2.2.2.1 a)] at hv
    exact ih v hv
  | red o a l ih =>
    intro v hv
    rw [replaceSub, if_neg (hleaf.2.2.2.2.2 o a l)] at hv
    exact ih v hv

theorem fix_syms (old : RExpr) (hold : (∃ x, old = .sym x) ∨ ∃ b ix, old = .indexed b ix) (e : RExpr) :
    ∀ x ∈ (replaceSub old (.num 1) e).syms, x ∈ e.syms ∧ old ≠ .sym x := by
  have hleaf : (∀ a b, RExpr.add a b ≠ old) ∧ (∀ a b, RExpr.mul a b ≠ old) ∧
      (∀ a b, RExpr.pow a b ≠ old) ∧ (∀ a, RExpr.log a ≠ old) ∧ (∀ a, RExpr.exp a ≠ old) ∧
      ∀ o b l, RExpr.red o b l ≠ old := by
    rcases hold with ⟨x, rfl⟩ | ⟨b, ix, rfl⟩ <;> simp
  induction e with
  | num | indexed =>
    intro v hv
    rw [replaceSub] at hv
    split at hv <;> simp [RExpr.syms] at hv
  | sym b =>
    intro v hv
    rw [replaceSub] at hv
    split at hv
    · simp [RExpr.syms] at hv
    · rename_i hne
      refine ⟨hv, ?_⟩
      simp only [RExpr.syms, List.mem_singleton] at hv
      subst hv
      exact Ne.symm hne
  | add a b iha ihb =>
    intro v hv
    rw [replaceSub, if_neg (hleaf.1 a b)] at hv
    rcases List.mem_append.1 hv with hv | hv
    · exact ⟨List.mem_append_left _ (iha v hv).1, (iha v hv).2⟩
    · exact ⟨List.mem_append_right _ (ihb v hv).1, (ihb v hv).2⟩
  | mul a b iha ihb =>
    intro v hv
    rw [replaceSub, if_neg (hleaf.2.1 a b)] at hv
    rcases List.mem_append.1 hv with hv | hv
    · exact ⟨List.mem_append_left _ (iha v hv).1, (iha v hv).2⟩
    · exact ⟨List.mem_append_right _ (ihb v hv).1, (ihb v hv).2⟩
  | pow a b iha ihb =>
    intro v hv
    rw [replaceSub, if_neg (hleaf.2.2.1 a b)] at hv
    rcases List.mem_append.1 hv with hv | hv
    · exact ⟨List.mem_append_left _ (iha v hv).1, (iha v hv).2⟩
    · exact ⟨List.mem_append_right _ (ihb v hv).1, (ihb v hv).2⟩
  | log a ih =>
    intro v hv
    rw [replaceSub, if_neg (hleaf.2.2.2.1 a)] at hv
    exact ih v hv
  | exp a ih =>
    intro v hv
    rw [replaceSub, if_neg (hleaf.2.2.2.2.1 a)] at hv
    exact ih v hv
  | red o a l ih =>
    intro v hv
    rw [replaceSub, if_neg (hleaf.2.2.2.2.2 o a l)] at hv
    exact ih v hv

theorem fix_redFree (old : RExpr) (e : RExpr) (h : RedFree e) : RedFree (replaceSub old (.num 1) e) := by
  induction e with
  | num | sym | indexed => rw [replaceSub]; split <;> trivial
  | add a b iha ihb | mul a b iha ihb | pow a b iha ihb =>
    rw [replaceSub]; split
    · trivial
    · exact ⟨iha h.1, ihb h.2⟩
  | log a ih | exp a ih =>
    rw [replaceSub]; split
    · trivial
    · exact ih h
  | red => exact h.elim

theorem fix_plain (coords : Coords) (old : RExpr)
    (hold : (∃ x, old = .sym x) ∨ ∃ b ix, old = .indexed b ix) (e : RExpr) (h : AllPlain coords e) :
    AllPlain coords (replaceSub old (.num 1) e) := by
  induction e with
  | num | sym | indexed => rw [replaceSub]; split <;> trivial
  | add a b iha ihb | mul a b iha ihb | pow a b iha ihb =>
    rw [replaceSub]; split
    · trivial
    · exact ⟨iha h.1, ihb h.2⟩
  | log a ih | exp a ih =>
    rw [replaceSub]; split
    · trivial
    · exact ih h
  | red op body lims _ =>
    rw [replaceSub]; split
    · trivial
    · have hp : PlainReduction coords body lims := h
      exact ⟨fix_redFree _ _ hp.redFree, hp.bounds,
        fun v hv => hp.known v (fix_indexeds old hold body v hv).1,
        fun v hv w hw => hp.consistent v (fix_indexeds old hold body v hv).1 w
          (fix_indexeds old hold body w hw).1⟩

/-- The value after the numeraire was replaced by one. -/
theorem fix_value (σ σ' : Str → ℝ) (A A' : Str → List SIdx → ℝ) (coords : Coords) (old : RExpr)
    (hold : (∃ x, old = .sym x) ∨ ∃ b ix, old = .indexed b ix) (e : RExpr)
    (hs : ∀ x ∈ e.syms, σ' x = if old = .sym x then 1 else σ x)
    (hA : ∀ v ∈ e.indexeds, ∀ ix, A' v.1 ix = if old = .indexed v.1 v.2 then 1 else A v.1 ix) :
    ∀ η, (replaceSub old (.num 1) e).value σ A coords η = e.value σ' A' coords η := by
  have hleaf : (∀ a b, RExpr.add a b ≠ old) ∧ (∀ a b, RExpr.mul a b ≠ old) ∧
      (∀ a b, RExpr.pow a b ≠ old) ∧ (∀ a, RExpr.log a ≠ old) ∧ (∀ a, RExpr.exp a ≠ old) ∧
      (∀ o b l, RExpr.red o b l ≠ old) ∧ ∀ q, RExpr.num q ≠ old := by
    rcases hold with ⟨x, rfl⟩ | ⟨b, ix, rfl⟩ <;> simp
  induction e with
  | num q => intro η; rw [replaceSub, if_neg (hleaf.2.2.2.2.2.2 q)]; rfl
  | sym x =>
    intro η
    rw [replaceSub]
    have := hs x (by simp [RExpr.syms])
    split
    · rename_i hh
      rw [if_pos hh.symm] at this
      simp [RExpr.value, this]
    · rename_i hh
      rw [if_neg (Ne.symm hh)] at this
      simp [RExpr.value, this]
  | indexed b ix =>
    intro η
    rw [replaceSub]
    have := hA (b, ix) (by simp [indexeds]) (ix.map (bindIdx η))
    dsimp only at this
    split
    · rename_i hh
      rw [if_pos hh.symm] at this
      simp [RExpr.value, this]
    · rename_i hh
      rw [if_neg (Ne.symm hh)] at this
      simp only [RExpr.value, this]
  | add a b iha ihb =>
    intro η
    rw [replaceSub, if_neg (hleaf.1 a b)]
    simp only [RExpr.value]
    rw [iha (fun x hx => hs x (List.mem_append_left _ hx)) (fun v hv => hA v (List.mem_append_left _ hv)),
      ihb (fun x hx => hs x (List.mem_append_right _ hx)) (fun v hv => hA v (List.mem_append_right _ hv))]
  | mul a b iha ihb =>
    intro η
    rw [replaceSub, if_neg (hleaf.2.1 a b)]
    simp only [RExpr.value]
    rw [iha (fun x hx => hs x (List.mem_append_left _ hx)) (fun v hv => hA v (List.mem_append_left _ hv)),
      ihb (fun x hx => hs x (List.mem_append_right _ hx)) (fun v hv => hA v (List.mem_append_right _ hv))]
  | pow a b iha ihb =>
    intro η
    rw [replaceSub, if_neg (hleaf.2.2.1 a b)]
    simp only [RExpr.value]
    rw [iha (fun x hx => hs x (List.mem_append_left _ hx)) (fun v hv => hA v (List.mem_append_left _ hv)),
      ihb (fun x hx => hs x (List.mem_append_right _ hx)) (fun v hv => hA v (List.mem_append_right _ hv))]
  | log a ih =>
    intro η
    rw [replaceSub, if_neg (hleaf.2.2.2.1 a)]
    simp only [RExpr.value]
    rw [ih hs hA]
  | exp a ih =>
    intro η
    rw [replaceSub, if_neg (hleaf.2.2.2.2.1 a)]
    simp only [RExpr.value]
    rw [ih hs hA]
  | red o a l ih =>
    intro η
    rw [replaceSub, if_neg (hleaf.2.2.2.2.2.1 o a l)]
    simp only [RExpr.value]
    rw [funext (ih hs hA)]

/-- The free indices after the numeraire was replaced by one. -/
theorem fix_free (name : Str) (d : Str) (old : RExpr)
    (hold : (∃ x, old = .sym x) ∨ ∃ b ix, old = .indexed b ix) (e : RExpr)
    (hown : ∀ v ∈ e.indexeds, v.1 = name ↔ old = .indexed v.1 v.2) :
    hasFree [] d (replaceSub old (.num 1) e) = hasFree [name] d e := by
  have hleaf : (∀ a b, RExpr.add a b ≠ old) ∧ (∀ a b, RExpr.mul a b ≠ old) ∧
      (∀ a b, RExpr.pow a b ≠ old) ∧ (∀ a, RExpr.log a ≠ old) ∧ (∀ a, RExpr.exp a ≠ old) ∧
      (∀ o b l, RExpr.red o b l ≠ old) ∧ ∀ q, RExpr.num q ≠ old := by
    rcases hold with ⟨x, rfl⟩ | ⟨b, ix, rfl⟩ <;> simp
  induction e with
  | num | sym => rw [replaceSub]; split <;> rfl
  | indexed b ix =>
    rw [replaceSub]
    have := hown (b, ix) (by simp [indexeds])
    split
    · rename_i hh
      have hb : b = name := this.2 hh.symm
      simp [hasFree, hb]
    · rename_i hh
      have hb : b ≠ name := fun hb => hh (this.1 hb).symm
      simp [hasFree, hb]
  | add a b iha ihb =>
    rw [replaceSub, if_neg (hleaf.1 a b)]
    simp only [hasFree]
    rw [iha fun v hv => hown v (List.mem_append_left _ hv), ihb fun v hv => hown v (List.mem_append_right _ hv)]
  | mul a b iha ihb =>
    rw [replaceSub, if_neg (hleaf.2.1 a b)]
    simp only [hasFree]
    rw [iha fun v hv => hown v (List.mem_append_left _ hv), ihb fun v hv => hown v (List.mem_append_right _ hv)]
  | pow a b iha ihb =>
    rw [replaceSub, if_neg (hleaf.2.2.1 a b)]
    simp only [hasFree]
    rw [iha fun v hv => hown v (List.mem_append_left _ hv), ihb fun v hv => hown v (List.mem_append_right _ hv)]
  | log a ih =>
    rw [replaceSub, if_neg (hleaf.2.2.2.1 a)]
    simp only [hasFree]
    rw [ih hown]
  | exp a ih =>
    rw [replaceSub, if_neg (hleaf.2.2.2.2.1 a)]
    simp only [hasFree]
    rw [ih hown]
  | red o a l ih =>
    rw [replaceSub, if_neg (hleaf.2.2.2.2.2.1 o a l)]
    simp only [hasFree]
    rw [ih hown]

theorem hasIdx_eq_hasFree (d : Str) (e : RExpr) (h : RedFree e) : hasIdx d e = hasFree [] d e := by
  induction e with
  | num | sym => rfl
  | indexed => simp [hasIdx, hasFree]
  | add a b iha ihb | mul a b iha ihb | pow a b iha ihb => simp only [hasIdx, hasFree, iha h.1, ihb h.2]
  | log a ih | exp a ih => exact ih h
  | red => exact h.elim

end Verif
