import Verif.Spec.Reduce
import Verif.Lemmas.Expand

/-!
# Lemmas about the expansion of sums and products
-/

namespace Verif

open RExpr

/-! ### Reduction-free expressions as functions of their indexed symbols -/

/-- The value of a reduction-free expression, the indexed symbols being given directly. -/
noncomputable def RExpr.val (σ : Str → ℝ) (V : Str → List SIdx → ℝ) : RExpr → ℝ
  | .num q => (q : ℝ)
  | .sym x => σ x
  | .indexed b ix => V b ix
  | .add a b => val σ V a + val σ V b
  | .mul a b => val σ V a * val σ V b
  | .pow a b => val σ V a ^ val σ V b
  | .log a => Real.log (val σ V a)
  | .exp a => Real.exp (val σ V a)
  | .red _ _ _ => 0

theorem val_mapIx (σ : Str → ℝ) (V : Str → List SIdx → ℝ) (g : Str → List SIdx → List SIdx)
    (e : RExpr) : (mapIx g e).val σ V = e.val σ (fun b ix => V b (g b ix)) := by
  induction e <;> simp_all [mapIx, val]

theorem val_congr (σ : Str → ℝ) (V W : Str → List SIdx → ℝ) (e : RExpr)
    (h : ∀ v ∈ e.indexeds, V v.1 v.2 = W v.1 v.2) : e.val σ V = e.val σ W := by
  induction e with
  | num => rfl
  | sym => rfl
  | indexed b ix => exact h (b, ix) (by simp [indexeds])
  | add a b iha ihb =>
    simp only [val]
    rw [iha fun v hv => h v (by simp [indexeds, hv]), ihb fun v hv => h v (by simp [indexeds, hv])]
  | mul a b iha ihb =>
    simp only [val]
    rw [iha fun v hv => h v (by simp [indexeds, hv]), ihb fun v hv => h v (by simp [indexeds, hv])]
  | pow a b iha ihb =>
    simp only [val]
    rw [iha fun v hv => h v (by simp [indexeds, hv]), ihb fun v hv => h v (by simp [indexeds, hv])]
  | log a ih => simp only [val]; rw [ih h]
  | exp a ih => simp only [val]; rw [ih h]
  | red => rfl

theorem value_eq_val (σ : Str → ℝ) (A : Str → List SIdx → ℝ) (coords : Coords) (e : RExpr)
    (h : RedFree e) (η : Str → SIdx) :
    e.value σ A coords η = e.val σ (fun b ix => A b (ix.map (bindIdx η))) := by
  induction e with
  | num => rfl
  | sym => rfl
  | indexed => rfl
  | add a b iha ihb => simp only [value, val]; rw [iha h.1, ihb h.2]
  | mul a b iha ihb => simp only [value, val]; rw [iha h.1, ihb h.2]
  | pow a b iha ihb => simp only [value, val]; rw [iha h.1, ihb h.2]
  | log a ih => simp only [value, val]; rw [ih h]
  | exp a ih => simp only [value, val]; rw [ih h]
  | red => exact h.elim

theorem redFree_mapIx (g : Str → List SIdx → List SIdx) (e : RExpr) (h : RedFree e) :
    RedFree (mapIx g e) := by
  induction e <;> simp_all [mapIx, RedFree]

theorem val_reduceList (σ : Str → ℝ) (V : Str → List SIdx → ℝ) (op : RedOp) (l : List RExpr) :
    (reduceList op l).val σ V = reduceVals op (l.map fun e => e.val σ V) := by
  cases op with
  | sum =>
    have key : ∀ (l : List RExpr) (e : RExpr),
        (l.foldl add e).val σ V = e.val σ V + (l.map fun e => e.val σ V).sum := by
      intro l
      induction l with
      | nil => intro e; simp
      | cons a l ih => intro e; simp only [List.foldl_cons, ih, val, List.map_cons, List.sum_cons, add_assoc]
    simp [reduceList, reduceVals, key, val]
  | prod =>
    have key : ∀ (l : List RExpr) (e : RExpr),
        (l.foldl mul e).val σ V = e.val σ V * (l.map fun e => e.val σ V).prod := by
      intro l
      induction l with
      | nil => intro e; simp
      | cons a l ih => intro e; simp only [List.foldl_cons, ih, val, List.map_cons, List.prod_cons, mul_assoc]
    simp [reduceList, reduceVals, key, val]

theorem redFree_reduceList (op : RedOp) (l : List RExpr) (h : ∀ e ∈ l, RedFree e) :
    RedFree (reduceList op l) := by
  have key : ∀ (f : RExpr → RExpr → RExpr), (∀ a b, RedFree a → RedFree b → RedFree (f a b)) →
      ∀ (l : List RExpr) (e : RExpr), RedFree e → (∀ e ∈ l, RedFree e) → RedFree (l.foldl f e) := by
    intro f hf l
    induction l with
    | nil => intro e he _; exact he
    | cons a l ih =>
      intro e he hl
      exact ih _ (hf _ _ he (hl a (by simp))) fun e he => hl e (by simp [he])
  cases op with
  | sum => exact key add (fun _ _ h1 h2 => ⟨h1, h2⟩) l _ trivial h
  | prod => exact key mul (fun _ _ h1 h2 => ⟨h1, h2⟩) l _ trivial h

theorem redFree_applyLims (op : RedOp) (lims : List Lim) : ∀ (f : RExpr), RedFree f →
    RedFree (applyLims op f lims) := by
  induction lims with
  | nil => intro f h; exact h
  | cons l ls ih =>
    intro f h
    apply ih
    apply redFree_reduceList
    intro e he
    obtain ⟨k, -, rfl⟩ := List.mem_map.mp he
    exact redFree_mapIx _ _ h

theorem doit_of_redFree (e : RExpr) (h : RedFree e) : doit e = e := by
  induction e <;> simp_all [doit, RedFree]

/-! ### Expansion of the limits -/

/-- The integers a limit ranges over. -/
def limNums (l : Lim) : List SIdx := (List.range' l.lo (l.stop - l.lo)).map SIdx.num

theorem bindIdx_setIdx (θ : Str → SIdx) (i : Str) (k : Nat) (s : SIdx) :
    bindIdx θ (setIdx i k s) = bindIdx (setEnv θ i (.num k)) s := by
  cases s with
  | idx j =>
    by_cases h : j = i
    · subst h; simp [setIdx, bindIdx, setEnv]
    · simp [setIdx, bindIdx, setEnv, h]
  | num n => rfl
  | lab l => rfl

theorem val_applyLims (σ : Str → ℝ) (op : RedOp) (W : Str → List SIdx → ℝ) (lims : List Lim) :
    ∀ (f : RExpr) (θ : Str → SIdx),
    (applyLims op f lims).val σ (fun b ix => W b (ix.map (bindIdx θ))) =
      overLims limNums op lims
        (fun θ => f.val σ (fun b ix => W b (ix.map (bindIdx θ)))) θ := by
  induction lims with
  | nil => intro f θ; rfl
  | cons l ls ih =>
    intro f θ
    simp only [applyLims, overLims]
    rw [ih]
    congr 1
    funext θ
    rw [val_reduceList]
    congr 1
    simp only [limNums, List.map_map]
    apply List.map_congr_left
    intro k _
    simp only [Function.comp, substIdx, val_mapIx, List.map_map]
    congr 1
    funext b ix
    congr 1
    apply List.map_congr_left
    intro s _
    exact bindIdx_setIdx θ l.i k s

/-! ### Labels -/

theorem sympifyLabel_ne_idx (l i : Str) : sympifyLabel l ≠ .idx i := by
  unfold sympifyLabel; split <;> simp

theorem bindIdx_sympifyLabel (η : Str → SIdx) (l : Str) : bindIdx η (sympifyLabel l) = sympifyLabel l := by
  cases h : sympifyLabel l with
  | idx i => exact absurd h (sympifyLabel_ne_idx _ _)
  | num | lab => rfl

theorem sympifyLabel_of_notNumeral {l : Str} (h : NotNumeral l) : sympifyLabel l = .lab l := by
  unfold sympifyLabel; exact if_neg h

theorem sympifyLabel_toString (k : Nat) : sympifyLabel (toString k).toList = .num k := by
  have h : (toString k).toList = Nat.toDigits 10 k := by
    rw [Nat.toString_eq_ofList_toDigits]; simp
  rw [h]
  unfold sympifyLabel
  rw [if_pos ⟨Nat.toDigits_ne_nil, List.all_eq_true.2 fun c hc =>
    Nat.isDigit_of_mem_toDigits (by decide) (by decide) hc⟩, ← Nat.ofDigitChars_eq_foldl,
    Nat.ofDigitChars_toDigits (by decide) (by decide)]

theorem sympifyLabel_num {n k m : Nat} {l : Str} (h : FitLabel n k l) (hm : sympifyLabel l = .num m) (hn : m < n) :
    k = m := by
  rcases h with h | ⟨m', rfl, h⟩
  · rw [sympifyLabel_of_notNumeral h] at hm; cases hm
  · rw [sympifyLabel_toString] at hm
    cases hm
    omega

/-! ### Numbers and labels in step -/

/-- `θ` (integers) and `θ'` (labels) agree: indices in `S` stand for the same label, the other indices
are untouched on one side and stand for `η` on the other. -/
def InStep (coords : Coords) (η : Str → SIdx) (S : List Str) (θ θ' : Str → SIdx) : Prop :=
  ∀ i, if i ∈ S then ∃ (k : Nat) (l : Str), ((dget coords i).getD [])[k]? = some l ∧
      θ i = .num k ∧ θ' i = sympifyLabel l
    else θ i = .idx i ∧ θ' i = η i

theorem InStep.congr {coords : Coords} {η : Str → SIdx} {S T : List Str} {θ θ' : Str → SIdx}
    (h : InStep coords η S θ θ') (hST : ∀ i, i ∈ S ↔ i ∈ T) : InStep coords η T θ θ' := by
  intro i
  have := h i
  by_cases hi : i ∈ S
  · rw [if_pos ((hST i).mp hi)]; rw [if_pos hi] at this; exact this
  · rw [if_neg fun hh => hi ((hST i).mpr hh)]; rw [if_neg hi] at this; exact this

theorem InStep.set {coords : Coords} {η : Str → SIdx} {S : List Str} {θ θ' : Str → SIdx}
    (h : InStep coords η S θ θ') (i : Str) (k : Nat) (l : Str)
    (hk : ((dget coords i).getD [])[k]? = some l) :
    InStep coords η (i :: S) (setEnv θ i (.num k)) (setEnv θ' i (sympifyLabel l)) := by
  intro j
  by_cases hj : j = i
  · subst hj
    rw [if_pos (by simp)]
    exact ⟨k, l, hk, by simp [setEnv], by simp [setEnv]⟩
  · have := h j
    simp only [List.mem_cons, hj, false_or, setEnv, if_false]
    exact this

theorem map_congr_forall₂ {β γ δ : Type _} {R : β → γ → Prop} {f : β → δ} {g : γ → δ} :
    ∀ {l : List β} {l' : List γ}, l.length = l'.length →
    (∀ p ∈ l.zip l', R p.1 p.2) → (∀ a b, R a b → f a = g b) → l.map f = l'.map g
  | [], [], _, _, _ => rfl
  | [], _ :: _, h, _, _ => by simp at h
  | _ :: _, [], h, _, _ => by simp at h
  | a :: l, b :: l', h, hz, hR => by
      simp only [List.map_cons]
      rw [hR a b (hz (a, b) (by simp)),
        map_congr_forall₂ (R := R) (by simpa using h) (fun p hp => hz p (by simp [hp])) hR]

theorem overLims_inStep (coords : Coords) (η : Str → SIdx) (op : RedOp) (lims : List Lim) :
    ∀ (S : List Str) (F G : (Str → SIdx) → ℝ),
    (∀ l ∈ lims, l.stop ≤ ((dget coords l.i).getD []).length) →
    (∀ θ θ', InStep coords η (lims.map Lim.i ++ S) θ θ' → F θ = G θ') →
    ∀ θ θ', InStep coords η S θ θ' →
      overLims limNums op lims F θ =
      overLims (fun l => (limLabels coords l).map sympifyLabel) op lims G θ' := by
  induction lims with
  | nil => intro S F G _ h θ θ' hθ; exact h θ θ' hθ
  | cons l ls ih =>
    intro S F G hb h θ θ' hθ
    simp only [overLims]
    refine ih S _ _ (fun l hl => hb l (by simp [hl])) ?_ θ θ' hθ
    intro θ θ' hθ
    congr 1
    have hstop := hb l (by simp)
    generalize hL : (dget coords l.i).getD [] = L at hstop
    have hlen : (limNums l).length = ((limLabels coords l).map sympifyLabel).length := by
      simp only [limNums, limLabels, hL, List.length_map, List.length_range', List.length_take,
        List.length_drop]
      omega
    refine map_congr_forall₂ (R := fun s s' => ∃ (k : Nat) (lb : Str), L[k]? = some lb ∧
      s = SIdx.num k ∧ s' = sympifyLabel lb) hlen ?_ ?_
    · intro p hp
      obtain ⟨n, hn⟩ := List.mem_iff_getElem?.mp hp
      rw [List.getElem?_zip_eq_some] at hn
      obtain ⟨h1, h2⟩ := hn
      simp only [limNums, List.getElem?_map, Option.map_eq_some_iff] at h1
      obtain ⟨k, hk, hk'⟩ := h1
      simp only [limLabels, hL, List.getElem?_map, Option.map_eq_some_iff] at h2
      obtain ⟨lb, hlb, hlb'⟩ := h2
      have hn : n < l.stop - l.lo := by
        rcases Nat.lt_or_ge n (l.stop - l.lo) with hh | hh
        · exact hh
        · rw [List.getElem?_eq_none (by simpa using hh)] at hk; cases hk
      rw [List.getElem?_range' hn] at hk
      rw [List.getElem?_take_of_lt hn, List.getElem?_drop] at hlb
      cases hk
      exact ⟨l.lo + 1 * n, lb, by simpa using hlb, hk'.symm, hlb'.symm⟩
    · rintro s s' ⟨k, lb, hk, rfl, rfl⟩
      apply h
      refine (hθ.set l.i k lb (by rw [hL]; exact hk)).congr ?_
      intro i; simp

/-! ### The substitution of labels for integers -/

/-- Sequential replacement of index lists. -/
def replaceSeq (es : List (Str × List SIdx × List SIdx)) (b : Str) (ix : List SIdx) : List SIdx :=
  es.foldl (fun ix e => replaceIx e.1 e.2 b ix) ix

theorem replaceSeq_append (es es' : List (Str × List SIdx × List SIdx)) (b : Str)
    (ix : List SIdx) : replaceSeq (es ++ es') b ix = replaceSeq es' b (replaceSeq es b ix) := by
  simp [replaceSeq, List.foldl_append]

theorem replaceSeq_eq (b : Str) (key img : List SIdx) :
    ∀ (es : List (Str × List SIdx × List SIdx)),
    (∀ e ∈ es, e.1 = b → e.2.1 = key → e.2.2 = img) →
    (∀ e ∈ es, e.1 = b → e.2.1 = img → e.2.2 = img) →
    replaceSeq es b img = img ∧
      ((∃ e ∈ es, e.1 = b ∧ e.2.1 = key) → replaceSeq es b key = img) ∧
      (replaceSeq es b key = key ∨ replaceSeq es b key = img) := by
  intro es
  induction es with
  | nil => intro _ _; exact ⟨rfl, (by rintro ⟨e, he, -⟩; cases he), Or.inl rfl⟩
  | cons e es ih =>
    intro h1 h2
    obtain ⟨i1, i2, i3⟩ := ih (fun e he => h1 e (by simp [he])) (fun e he => h2 e (by simp [he]))
    have himg : replaceIx e.1 e.2 b img = img := by
      unfold replaceIx
      split
      · rename_i hh; exact h2 e (by simp) hh.1.symm hh.2.symm
      · rfl
    have hstep : ∀ ix, replaceSeq (e :: es) b ix = replaceSeq es b (replaceIx e.1 e.2 b ix) :=
      fun _ => rfl
    refine ⟨by rw [hstep, himg, i1], ?_, ?_⟩
    · rintro ⟨e', he', hb, hk⟩
      rw [hstep]
      by_cases hc : b = e.1 ∧ key = e.2.1
      · have : replaceIx e.1 e.2 b key = img := by
          unfold replaceIx
          rw [if_pos hc]
          exact h1 e (by simp) hc.1.symm hc.2.symm
        rw [this, i1]
      · have : replaceIx e.1 e.2 b key = key := by
          unfold replaceIx; rw [if_neg hc]
        rw [this]
        apply i2
        rcases List.mem_cons.mp he' with rfl | he'
        · exact absurd ⟨hb.symm, hk.symm⟩ hc
        · exact ⟨e', he', hb, hk⟩
    · rw [hstep]
      by_cases hc : b = e.1 ∧ key = e.2.1
      · have : replaceIx e.1 e.2 b key = img := by
          unfold replaceIx
          rw [if_pos hc]
          exact h1 e (by simp) hc.1.symm hc.2.symm
        rw [this]; exact Or.inr i1
      · have : replaceIx e.1 e.2 b key = key := by
          unfold replaceIx; rw [if_neg hc]
        rw [this]; exact i3

theorem foldl_mapIx (b : Str) (ps : List (List SIdx × List SIdx)) (e : RExpr) (σ : Str → ℝ)
    (V : Str → List SIdx → ℝ) :
    (ps.foldl (fun e p => e.mapIx (replaceIx b p)) e).val σ V =
      e.val σ (fun b' ix => V b' (replaceSeq (ps.map fun p => (b, p)) b' ix)) := by
  induction ps generalizing e with
  | nil => rfl
  | cons p ps ih =>
    rw [List.foldl_cons, ih, val_mapIx]
    rfl

theorem mapIx_self (e : RExpr) : mapIx (fun _ ix => ix) e = e := by
  induction e <;> simp_all [mapIx]

theorem mapIx_mapIx (f g : Str → List SIdx → List SIdx) (e : RExpr) :
    mapIx g (mapIx f e) = mapIx (fun b ix => g b (f b ix)) e := by
  induction e <;> simp_all [mapIx]

theorem foldl_mapIx_eq (b : Str) (ps : List (List SIdx × List SIdx)) (e : RExpr) :
    ps.foldl (fun e p => e.mapIx (replaceIx b p)) e =
      e.mapIx (replaceSeq (ps.map fun p => (b, p))) := by
  induction ps generalizing e with
  | nil => exact (mapIx_self e).symm
  | cons p ps ih =>
    rw [List.foldl_cons, ih, mapIx_mapIx]
    rfl

theorem foldl_mapIx_redFree (b : Str) (ps : List (List SIdx × List SIdx)) (e : RExpr)
    (h : RedFree e) : RedFree (ps.foldl (fun e p => e.mapIx (replaceIx b p)) e) := by
  induction ps generalizing e with
  | nil => exact h
  | cons p ps ih => exact ih _ (redFree_mapIx _ _ h)

/-- What one position of a dictionary entry looks like. -/
def PosPair (used : List Str) (coords : Coords) (s : SIdx) (q : SIdx × SIdx) : Prop :=
  ∃ i ls, s = .idx i ∧ dget coords i = some ls ∧
    if i ∈ used then ∃ (n : Nat) (lb : Str), ls[n]? = some lb ∧ q = (.num n, sympifyLabel lb)
    else q = (.idx i, .idx i)

theorem positionPairs_ok (used : List Str) (coords : Coords) (i : Str) (ls : List Str)
    (h : dget coords i = some ls) (hne : ls ≠ []) :
    ∃ L, positionPairs used coords (.idx i) = .ok L ∧
      ∀ q, q ∈ L ↔ PosPair used coords (.idx i) q := by
  have hg : dgetE coords i = .ok ls := by simp [dgetE, h]
  by_cases hu : i ∈ used
  · refine ⟨ls.zipIdx.map fun p => (SIdx.num p.2, sympifyLabel p.1), ?_, ?_⟩
    · simp only [positionPairs, idxName]
      show (dgetE coords i >>= _) = _
      rw [hg]
      simp [bind, Except.bind, hu]
    · intro q
      constructor
      · intro hq
        obtain ⟨⟨lb, n⟩, hp, rfl⟩ := List.mem_map.mp hq
        refine ⟨i, ls, rfl, h, ?_⟩
        rw [if_pos hu]
        exact ⟨n, lb, by simpa using List.mem_zipIdx_iff_getElem?.mp hp, rfl⟩
      · rintro ⟨i', ls', hi, hls, hq⟩
        cases hi
        rw [h] at hls; cases hls
        rw [if_pos hu] at hq
        obtain ⟨n, lb, hn, rfl⟩ := hq
        exact List.mem_map.mpr ⟨(lb, n), List.mem_zipIdx_iff_getElem?.mpr hn, rfl⟩
  · refine ⟨ls.map fun _ => (SIdx.idx i, SIdx.idx i), ?_, ?_⟩
    · simp only [positionPairs, idxName]
      show (dgetE coords i >>= _) = _
      rw [hg]
      simp [bind, Except.bind, hu]
    · intro q
      constructor
      · intro hq
        obtain ⟨a, -, rfl⟩ := List.mem_map.mp hq
        refine ⟨i, ls, rfl, h, ?_⟩
        rw [if_neg hu]
      · rintro ⟨i', ls', hi, hls, hq⟩
        cases hi
        rw [if_neg hu] at hq
        subst hq
        cases ls with
        | nil => exact absurd rfl hne
        | cons a ls => simp

theorem product_pairs (used : List Str) (coords : Coords) :
    ∀ (ix : List SIdx), (∀ s ∈ ix, ∃ i ls, s = SIdx.idx i ∧ dget coords i = some ls ∧ ls ≠ []) →
    ∃ P, ix.mapM (positionPairs used coords) = .ok P ∧
      ∀ qs, qs ∈ product P ↔ List.Forall₂ (PosPair used coords) ix qs := by
  intro ix
  induction ix with
  | nil =>
    intro _
    refine ⟨[], rfl, ?_⟩
    intro qs
    simp [product]
  | cons s ix ih =>
    intro h
    obtain ⟨i, ls, rfl, hls, hne⟩ := h s (by simp)
    obtain ⟨L, hL, hLm⟩ := positionPairs_ok used coords i ls hls hne
    obtain ⟨P, hP, hPm⟩ := ih fun s hs => h s (by simp [hs])
    refine ⟨L :: P, by rw [List.mapM_cons, hL, hP]; rfl, ?_⟩
    intro qs
    simp only [product, List.mem_flatMap, List.mem_map]
    constructor
    · rintro ⟨q, hq, r, hr, rfl⟩
      exact .cons ((hLm q).mp hq) ((hPm r).mp hr)
    · intro hqs
      cases hqs with
      | cons h1 h2 => exact ⟨_, (hLm _).mpr h1, _, (hPm _).mpr h2, rfl⟩

theorem mem_dset {κ ν : Type _} [DecidableEq κ] (d : Dict κ ν) (k : κ) (v : ν) (e : κ × ν)
    (h : e ∈ dset d k v) : e ∈ d ∨ e = (k, v) := by
  induction d with
  | nil => simpa [dset] using h
  | cons p d ih =>
    obtain ⟨k', v'⟩ := p
    simp only [dset] at h
    split at h
    · rename_i hk
      subst hk
      rcases List.mem_cons.mp h with rfl | h
      · exact Or.inr rfl
      · exact Or.inl (by simp [h])
    · rcases List.mem_cons.mp h with rfl | h
      · exact Or.inl (by simp)
      · rcases ih h with h | h
        · exact Or.inl (by simp [h])
        · exact Or.inr h

theorem mem_dupdate {κ ν : Type _} [DecidableEq κ] (l : List (κ × ν)) : ∀ (d : Dict κ ν) (e : κ × ν),
    e ∈ dupdate d l → e ∈ d ∨ e ∈ l := by
  induction l with
  | nil => intro d e h; exact Or.inl h
  | cons p l ih =>
    intro d e h
    rcases ih _ e h with h | h
    · rcases mem_dset _ _ _ _ h with h | h
      · exact Or.inl h
      · exact Or.inr (by simp [h])
    · exact Or.inr (by simp [h])

theorem dupdate_has_key {κ ν : Type _} [DecidableEq κ] (l : List (κ × ν)) :
    ∀ (d : Dict κ ν) (k : κ), (k ∈ dkeys d ∨ ∃ v, (k, v) ∈ l) → k ∈ dkeys (dupdate d l) := by
  induction l with
  | nil =>
    intro d k h
    rcases h with h | ⟨v, hv⟩
    · exact h
    · cases hv
  | cons p l ih =>
    intro d k h
    apply ih (dset d p.1 p.2) k
    by_cases hk : p.1 = k
    · left; rw [mem_dkeys_iff]; exact ⟨p.2, by rw [← hk]; exact dget_dset_self _ _ _⟩
    · rcases h with h | ⟨v, hv⟩
      · left
        rw [mem_dkeys_iff] at h ⊢
        rw [dget_dset_ne _ _ hk]; exact h
      · rcases List.mem_cons.mp hv with hv | hv
        · exact absurd (by rw [← hv]) hk
        · exact Or.inr ⟨v, hv⟩

theorem makeSubDict_ok (used : List Str) (coords : Coords) (ix : List SIdx)
    (h : ∀ s ∈ ix, ∃ i ls, s = SIdx.idx i ∧ dget coords i = some ls ∧ ls ≠ []) :
    ∃ d, makeSubDict used coords ix = .ok d ∧
      (∀ e ∈ d, ∃ qs, List.Forall₂ (PosPair used coords) ix qs ∧
        e = (qs.map Prod.fst, qs.map Prod.snd)) ∧
      ∀ qs, List.Forall₂ (PosPair used coords) ix qs → ∃ e ∈ d, e.1 = qs.map Prod.fst := by
  obtain ⟨P, hP, hPm⟩ := product_pairs used coords ix h
  refine ⟨_, by rw [makeSubDict, hP]; rfl, ?_, ?_⟩
  · intro e he
    rcases mem_dupdate _ _ _ he with he | he
    · cases he
    · obtain ⟨qs, hqs, rfl⟩ := List.mem_map.mp he
      exact ⟨qs, (hPm qs).mp hqs, rfl⟩
  · intro qs hqs
    have hk : qs.map Prod.fst ∈ dkeys (dofPairs ((product P).map fun ps : List (SIdx × SIdx) =>
        (ps.map Prod.fst, ps.map Prod.snd))) :=
      dupdate_has_key _ _ _ (Or.inr ⟨qs.map Prod.snd,
        List.mem_map.mpr ⟨qs, (hPm qs).mpr hqs, rfl⟩⟩)
    rw [mem_dkeys_iff] at hk
    obtain ⟨v, hv⟩ := hk
    exact ⟨_, mem_of_dget _ hv, rfl⟩

theorem relabel_ok (order : Dict (List SIdx) (List SIdx) → List (List SIdx × List SIdx))
    (horder : ∀ d e, e ∈ order d ↔ e ∈ d) (used : List Str) (coords : Coords) :
    ∀ (vs : List (Str × List SIdx)) (e : RExpr), RedFree e →
    (∀ v ∈ vs, ∀ s ∈ v.2, ∃ i ls, s = SIdx.idx i ∧ dget coords i = some ls ∧ ls ≠ []) →
    ∃ e' ES, relabel order used coords vs e = .ok e' ∧ RedFree e' ∧ e' = e.mapIx (replaceSeq ES) ∧
      (∀ x ∈ ES, ∃ v ∈ vs, x.1 = v.1 ∧ ∃ qs, List.Forall₂ (PosPair used coords) v.2 qs ∧
        x.2 = (qs.map Prod.fst, qs.map Prod.snd)) ∧
      ∀ v ∈ vs, ∀ qs, List.Forall₂ (PosPair used coords) v.2 qs →
        ∃ x ∈ ES, x.1 = v.1 ∧ x.2.1 = qs.map Prod.fst := by
  intro vs
  induction vs with
  | nil =>
    intro e he _
    refine ⟨e, [], rfl, he, (mapIx_self e).symm, ?_, ?_⟩
    · intro x hx; cases hx
    · intro v hv; cases hv
  | cons v vs ih =>
    intro e he h
    obtain ⟨d, hd, hd1, hd2⟩ := makeSubDict_ok used coords v.2 (h v (by simp))
    obtain ⟨e', ES, h1, h2, h3, h4, h5⟩ := ih
      ((order d).foldl (fun e p => e.mapIx (replaceIx v.1 p)) e)
      (foldl_mapIx_redFree _ _ _ he) (fun w hw => h w (by simp [hw]))
    refine ⟨e', (order d).map (fun p => (v.1, p)) ++ ES, ?_, h2, ?_, ?_, ?_⟩
    · rw [relabel, hd]; exact h1
    · rw [h3, foldl_mapIx_eq, mapIx_mapIx]
      congr 1
      funext b ix
      rw [replaceSeq_append]
    · intro x hx
      rcases List.mem_append.mp hx with hx | hx
      · obtain ⟨p, hp, rfl⟩ := List.mem_map.mp hx
        obtain ⟨qs, hqs, rfl⟩ := hd1 p ((horder d p).mp hp)
        exact ⟨v, by simp, rfl, qs, hqs, rfl⟩
      · obtain ⟨w, hw, hh⟩ := h4 x hx
        exact ⟨w, by simp [hw], hh⟩
    · intro w hw qs hqs
      rcases List.mem_cons.mp hw with rfl | hw
      · obtain ⟨p, hp, hpk⟩ := hd2 qs hqs
        exact ⟨(w.1, p), List.mem_append_left _ (List.mem_map.mpr ⟨p, (horder d p).mpr hp, rfl⟩),
          rfl, hpk⟩
      · obtain ⟨x, hx, hh⟩ := h5 w hw qs hqs
        exact ⟨x, List.mem_append_right _ hx, hh⟩

theorem forall₂_get {β γ : Type _} {R : β → γ → Prop} {l : List β} {l' : List γ}
    (h : List.Forall₂ R l l') : ∀ (p : Nat) (b : γ), l'[p]? = some b →
      ∃ a, l[p]? = some a ∧ R a b := by
  induction h with
  | nil => intro p b hb; simp at hb
  | cons h1 _ ih =>
    intro p b hb
    cases p with
    | zero =>
      rw [List.getElem?_cons_zero] at hb; cases hb
      exact ⟨_, rfl, h1⟩
    | succ p => exact ih p b hb

/-- The index that `s` becomes under the limits `S`. -/
def limImage (S : List Str) (θ' : Str → SIdx) : Str → SIdx := fun i => if i ∈ S then θ' i else .idx i

/-- What the relabelling does to the index lists of the expanded body. -/
theorem relabel_image (coords : Coords)
    (hlab : FitLabels coords)
    (body : RExpr) (lims : List Lim) (hp : PlainReduction coords body lims)
    (ES : List (Str × List SIdx × List SIdx))
    (h4 : ∀ x ∈ ES, ∃ v ∈ indexeds body, x.1 = v.1 ∧
      ∃ qs, List.Forall₂ (PosPair (lims.map Lim.i) coords) v.2 qs ∧
        x.2 = (qs.map Prod.fst, qs.map Prod.snd))
    (h5 : ∀ v ∈ indexeds body, ∀ qs, List.Forall₂ (PosPair (lims.map Lim.i) coords) v.2 qs →
        ∃ x ∈ ES, x.1 = v.1 ∧ x.2.1 = qs.map Prod.fst)
    (η θ θ' : Str → SIdx) (hθ : InStep coords η (lims.map Lim.i) θ θ')
    (b : Str) (ix : List SIdx) (hv : (b, ix) ∈ indexeds body) :
    replaceSeq ES b (ix.map (bindIdx θ)) = ix.map (bindIdx (limImage (lims.map Lim.i) θ')) := by
  generalize hθm : limImage (lims.map Lim.i) θ' = θm
  have hθm' : θm = fun i => if i ∈ lims.map Lim.i then θ' i else .idx i := hθm.symm
  have hkey : List.Forall₂ (PosPair (lims.map Lim.i) coords) ix
      (ix.map fun s => (bindIdx θ s, bindIdx θm s)) := by
    have : ∀ s ∈ ix, PosPair (lims.map Lim.i) coords s (bindIdx θ s, bindIdx θm s) := by
      intro s hs
      obtain ⟨i, ls, rfl, hls, -⟩ := hp.known _ hv s hs
      refine ⟨i, ls, rfl, hls, ?_⟩
      have hi := hθ i
      by_cases hu : i ∈ lims.map Lim.i
      · rw [if_pos hu] at hi ⊢
        obtain ⟨k, l, hk, hl, hl'⟩ := hi
        rw [hls] at hk
        refine ⟨k, l, hk, ?_⟩
        simp only [bindIdx, hθm', if_pos hu, hl, hl']
      · rw [if_neg hu] at hi ⊢
        simp only [bindIdx, hθm', if_neg hu, hi.1]
    clear hv
    induction ix with
    | nil => exact .nil
    | cons s ix ih => exact .cons (this s (by simp)) (ih fun s hs => this s (by simp [hs]))
  obtain ⟨x0, hx0, hx0b, hx0k⟩ := h5 (b, ix) hv _ hkey
  rw [List.map_map] at hx0k
  have hfst : (Prod.fst ∘ fun s => (bindIdx θ s, bindIdx θm s)) = bindIdx θ := rfl
  rw [hfst] at hx0k
  refine (replaceSeq_eq b (ix.map (bindIdx θ)) (ix.map (bindIdx θm)) ES ?_ ?_).2.1
    ⟨x0, hx0, hx0b, hx0k⟩
  · intro x hx hxb hxk
    obtain ⟨w, hw, hwb, qs, hqs, hx2⟩ := h4 x hx
    rw [hx2] at hxk ⊢
    dsimp only at hxk ⊢
    have hlen : qs.length = ix.length := by
      have := congrArg List.length hxk; simpa using this
    apply List.ext_getElem?
    intro p
    by_cases hpl : p < ix.length
    · have hq : qs[p]? = some (qs[p]'(by omega)) := List.getElem?_eq_getElem _
      generalize hqdef : qs[p]'(by omega) = q at hq
      obtain ⟨s', hs', hpp⟩ := forall₂_get hqs p q hq
      have hix : ix[p]? = some ix[p] := List.getElem?_eq_getElem _
      generalize hsdef : ix[p] = s at hix
      obtain ⟨i, ls, rfl, hls, -⟩ := hp.known _ hv s (List.mem_of_getElem? hix)
      have hk : q.1 = θ i := by
        have := congrArg (·[p]?) hxk
        simp only [List.getElem?_map, hq, hix, Option.map_some, Option.some.injEq] at this
        exact this
      simp only [List.getElem?_map, hq, hix, Option.map_some, Option.some.injEq]
      obtain ⟨j, ls', rfl, hls', hcase⟩ := hpp
      have hi := hθ i
      by_cases hu : i ∈ lims.map Lim.i
      · rw [if_pos hu] at hi
        obtain ⟨k, l, hkl, hl, hl'⟩ := hi
        by_cases huj : j ∈ lims.map Lim.i
        · rw [if_pos huj] at hcase
          obtain ⟨n, lb, hn, rfl⟩ := hcase
          have hcons := hp.consistent (b, ix) hv w hw (hxb.symm.trans hwb) p i j hix hs' hu huj
          dsimp only at hk
          rw [hl] at hk
          cases hk
          rw [hls, hls'] at hcons
          cases hcons
          rw [hls] at hkl
          have : l = lb := by
            have h' : ls[k]? = some l := hkl
            rw [hn] at h'; cases h'; rfl
          subst this
          simp only [bindIdx, hθm', if_pos hu, hl']
        · rw [if_neg huj] at hcase
          subst hcase
          dsimp only at hk
          rw [hl] at hk; cases hk
      · rw [if_neg hu] at hi
        by_cases huj : j ∈ lims.map Lim.i
        · rw [if_pos huj] at hcase
          obtain ⟨n, lb, hn, rfl⟩ := hcase
          dsimp only at hk
          rw [hi.1] at hk; cases hk
        · rw [if_neg huj] at hcase
          subst hcase
          dsimp only at hk ⊢
          rw [hi.1] at hk; cases hk
          simp only [bindIdx, hθm', if_neg hu]
    · rw [List.getElem?_eq_none (by simp; omega), List.getElem?_eq_none (by simp; omega)]
  · intro x hx hxb hxk
    obtain ⟨w, hw, hwb, qs, hqs, hx2⟩ := h4 x hx
    rw [hx2] at hxk ⊢
    dsimp only at hxk ⊢
    have hlen : qs.length = ix.length := by
      have := congrArg List.length hxk; simpa using this
    apply List.ext_getElem?
    intro p
    by_cases hpl : p < ix.length
    · have hq : qs[p]? = some (qs[p]'(by omega)) := List.getElem?_eq_getElem _
      generalize hqdef : qs[p]'(by omega) = q at hq
      obtain ⟨s', hs', hpp⟩ := forall₂_get hqs p q hq
      have hix : ix[p]? = some ix[p] := List.getElem?_eq_getElem _
      generalize hsdef : ix[p] = s at hix
      obtain ⟨i, ls, rfl, hls, -⟩ := hp.known _ hv s (List.mem_of_getElem? hix)
      have hk : q.1 = θm i := by
        have := congrArg (·[p]?) hxk
        simp only [List.getElem?_map, hq, hix, Option.map_some, Option.some.injEq] at this
        exact this
      simp only [List.getElem?_map, hq, hix, Option.map_some, Option.some.injEq]
      obtain ⟨j, ls', rfl, hls', hcase⟩ := hpp
      have hi := hθ i
      by_cases hu : i ∈ lims.map Lim.i
      · rw [if_pos hu] at hi
        obtain ⟨k, l, hkl, hl, hl'⟩ := hi
        simp only [hθm', if_pos hu, hl'] at hk
        rw [hls] at hkl
        by_cases huj : j ∈ lims.map Lim.i
        · rw [if_pos huj] at hcase
          obtain ⟨n, lb, hn, rfl⟩ := hcase
          have hcons := hp.consistent (b, ix) hv w hw (hxb.symm.trans hwb) p i j hix hs' hu huj
          rw [hls, hls'] at hcons
          cases hcons
          have hnk := sympifyLabel_num (hlab i ls hls k l hkl) hk.symm (List.getElem?_eq_some_iff.1 hn).1
          subst hnk
          have : l = lb := by
            have h' : ls[k]? = some l := hkl
            rw [hn] at h'; cases h'; rfl
          subst this
          simp only [bindIdx, hθm', if_pos hu, hl']
        · rw [if_neg huj] at hcase
          subst hcase
          exact absurd hk.symm (sympifyLabel_ne_idx _ _)
      · simp only [hθm', if_neg hu] at hk
        by_cases huj : j ∈ lims.map Lim.i
        · rw [if_pos huj] at hcase
          obtain ⟨n, lb, hn, rfl⟩ := hcase
          cases hk
        · rw [if_neg huj] at hcase
          subst hcase
          cases hk
          simp only [bindIdx, hθm', if_neg hu]
    · rw [List.getElem?_eq_none (by simp; omega), List.getElem?_eq_none (by simp; omega)]

/-- Expanding one plain reduction and relabelling it gives the reduction over the labels. -/
theorem substituteOp_value (order : Dict (List SIdx) (List SIdx) → List (List SIdx × List SIdx))
    (horder : ∀ d e, e ∈ order d ↔ e ∈ d) (coords : Coords)
    (hlab : FitLabels coords)
    (op : RedOp) (body : RExpr) (lims : List Lim) (hp : PlainReduction coords body lims) :
    ∃ new, relabel order (lims.map Lim.i) coords (indexeds body) (doit (.red op body lims)) = .ok new ∧
      RedFree new ∧ ∀ (σ : Str → ℝ) (A : Str → List SIdx → ℝ) (η : Str → SIdx),
        new.value σ A coords η = (RExpr.red op body lims).value σ A coords η := by
  have hdoit : doit (.red op body lims) = applyLims op body lims := by
    rw [doit, doit_of_redFree _ hp.redFree]
  have hrf : RedFree (applyLims op body lims) := redFree_applyLims _ _ _ hp.redFree
  obtain ⟨new, ES, h1, h2, h3, h4, h5⟩ := relabel_ok order horder (lims.map Lim.i) coords
    (indexeds body) _ hrf hp.known
  refine ⟨new, by rw [hdoit]; exact h1, h2, ?_⟩
  intro σ A η
  rw [value_eq_val _ _ _ _ h2, h3, val_mapIx]
  have hid : ∀ (ix : List SIdx), ix.map (bindIdx SIdx.idx) = ix := by
    intro ix
    have : bindIdx SIdx.idx = id := by funext s; cases s <;> rfl
    rw [this, List.map_id]
  have hval := val_applyLims σ op
    (fun b ix => A b ((replaceSeq ES b ix).map (bindIdx η))) lims body SIdx.idx
  simp only [hid] at hval
  rw [hval]
  simp only [RExpr.value]
  refine overLims_inStep coords η op lims [] _ _ hp.bounds ?_ _ _ ?_
  · intro θ θ' hθ
    rw [List.append_nil] at hθ
    rw [value_eq_val _ _ _ _ hp.redFree]
    apply val_congr
    rintro ⟨b, ix⟩ hv
    dsimp only
    -- the intended image before the free indices are resolved
    have himg : (ix.map (bindIdx (limImage (lims.map Lim.i) θ'))).map (bindIdx η) = ix.map (bindIdx θ') := by
      rw [List.map_map]
      apply List.map_congr_left
      intro s hs
      obtain ⟨i, ls, rfl, -⟩ := hp.known _ hv s hs
      have hi := hθ i
      simp only [Function.comp, bindIdx, limImage]
      by_cases hu : i ∈ lims.map Lim.i
      · rw [if_pos hu] at hi ⊢
        obtain ⟨k, l, -, -, hl⟩ := hi
        rw [hl]
        exact bindIdx_sympifyLabel _ _
      · rw [if_neg hu] at hi ⊢
        exact hi.2.symm
    rw [← himg]
    congr 2
    exact relabel_image coords hlab body lims hp ES h4 h5 η θ θ' hθ b ix hv
  · intro i
    rw [if_neg (by simp)]
    exact ⟨rfl, rfl⟩

/-! ### Replacing operators inside an equation -/

theorem replaceSub_redFree (op : RedOp) (body : RExpr) (lims : List Lim) (new e : RExpr)
    (h : RedFree e) : replaceSub (.red op body lims) new e = e := by
  induction e with
  | num | sym | indexed => rw [replaceSub]; simp
  | add a b iha ihb => rw [replaceSub]; simp [iha h.1, ihb h.2]
  | mul a b iha ihb => rw [replaceSub]; simp [iha h.1, ihb h.2]
  | pow a b iha ihb => rw [replaceSub]; simp [iha h.1, ihb h.2]
  | log a ih => rw [replaceSub]; simp [ih h]
  | exp a ih => rw [replaceSub]; simp [ih h]
  | red => exact h.elim

theorem findOps_redFree (o : RedOp) (e : RExpr) (h : RedFree e) : findOps o e = [] := by
  induction e <;> simp_all [findOps, RedFree]

theorem allPlain_redFree (coords : Coords) (e : RExpr) (h : RedFree e) : AllPlain coords e := by
  induction e <;> simp_all [AllPlain, RedFree]

theorem redFree_of_findOps (coords : Coords) (e : RExpr) (h : AllPlain coords e)
    (h0 : ∀ o, findOps o e = []) : RedFree e := by
  induction e with
  | num | sym | indexed => trivial
  | add a b iha ihb =>
    exact ⟨iha h.1 fun o => (List.append_eq_nil_iff.mp (h0 o)).1,
      ihb h.2 fun o => (List.append_eq_nil_iff.mp (h0 o)).2⟩
  | mul a b iha ihb =>
    exact ⟨iha h.1 fun o => (List.append_eq_nil_iff.mp (h0 o)).1,
      ihb h.2 fun o => (List.append_eq_nil_iff.mp (h0 o)).2⟩
  | pow a b iha ihb =>
    exact ⟨iha h.1 fun o => (List.append_eq_nil_iff.mp (h0 o)).1,
      ihb h.2 fun o => (List.append_eq_nil_iff.mp (h0 o)).2⟩
  | log a ih => exact ih h h0
  | exp a ih => exact ih h h0
  | red op body lims => have := h0 op; simp [findOps] at this

theorem replaceSub_spec (coords : Coords) (op : RedOp) (body : RExpr) (lims : List Lim)
    (new : RExpr) (hnew : RedFree new)
    (hval : ∀ (σ : Str → ℝ) (A : Str → List SIdx → ℝ) (η : Str → SIdx),
      new.value σ A coords η = (RExpr.red op body lims).value σ A coords η) (e : RExpr)
    (h : AllPlain coords e) :
    AllPlain coords (replaceSub (.red op body lims) new e) ∧
    (∀ (σ : Str → ℝ) (A : Str → List SIdx → ℝ) (η : Str → SIdx),
      (replaceSub (.red op body lims) new e).value σ A coords η = e.value σ A coords η) ∧
    ∀ o x, x ∈ findOps o (replaceSub (.red op body lims) new e) →
      x ∈ findOps o e ∧ x ≠ .red op body lims := by
  induction e with
  | num | sym | indexed => rw [replaceSub]; simp [AllPlain, findOps]
  | add a b iha ihb =>
    obtain ⟨a1, a2, a3⟩ := iha h.1
    obtain ⟨b1, b2, b3⟩ := ihb h.2
    rw [replaceSub, if_neg (by simp)]
    refine ⟨⟨a1, b1⟩, fun σ A η => by simp only [RExpr.value, a2, b2], ?_⟩
    intro o x hx
    rcases List.mem_append.mp hx with hx | hx
    · exact ⟨List.mem_append_left _ (a3 o x hx).1, (a3 o x hx).2⟩
    · exact ⟨List.mem_append_right _ (b3 o x hx).1, (b3 o x hx).2⟩
  | mul a b iha ihb =>
    obtain ⟨a1, a2, a3⟩ := iha h.1
    obtain ⟨b1, b2, b3⟩ := ihb h.2
    rw [replaceSub, if_neg (by simp)]
    refine ⟨⟨a1, b1⟩, fun σ A η => by simp only [RExpr.value, a2, b2], ?_⟩
    intro o x hx
    rcases List.mem_append.mp hx with hx | hx
    · exact ⟨List.mem_append_left _ (a3 o x hx).1, (a3 o x hx).2⟩
    · exact ⟨List.mem_append_right _ (b3 o x hx).1, (b3 o x hx).2⟩
  | pow a b iha ihb =>
    obtain ⟨a1, a2, a3⟩ := iha h.1
    obtain ⟨b1, b2, b3⟩ := ihb h.2
    rw [replaceSub, if_neg (by simp)]
    refine ⟨⟨a1, b1⟩, fun σ A η => by simp only [RExpr.value, a2, b2], ?_⟩
    intro o x hx
    rcases List.mem_append.mp hx with hx | hx
    · exact ⟨List.mem_append_left _ (a3 o x hx).1, (a3 o x hx).2⟩
    · exact ⟨List.mem_append_right _ (b3 o x hx).1, (b3 o x hx).2⟩
  | log a ih =>
    obtain ⟨a1, a2, a3⟩ := ih h
    rw [replaceSub, if_neg (by simp)]
    exact ⟨a1, fun σ A η => by simp only [RExpr.value, a2], a3⟩
  | exp a ih =>
    obtain ⟨a1, a2, a3⟩ := ih h
    rw [replaceSub, if_neg (by simp)]
    exact ⟨a1, fun σ A η => by simp only [RExpr.value, a2], a3⟩
  | red op' body' lims' _ =>
    rw [replaceSub]
    by_cases heq : RExpr.red op' body' lims' = .red op body lims
    · rw [if_pos heq, heq]
      refine ⟨allPlain_redFree _ _ hnew, hval, ?_⟩
      intro o x hx
      rw [findOps_redFree _ _ hnew] at hx; cases hx
    · rw [if_neg heq]
      have hb : replaceSub (.red op body lims) new body' = body' :=
        replaceSub_redFree _ _ _ _ _ h.redFree
      simp only [hb]
      refine ⟨h, fun _ _ _ => trivial, ?_⟩
      intro o x hx
      refine ⟨hx, ?_⟩
      simp only [findOps, findOps_redFree _ _ h.redFree, List.append_nil] at hx
      split at hx
      · rw [List.mem_singleton] at hx; rw [hx]; exact heq
      · cases hx

theorem findOps_plain (coords : Coords) (o : RedOp) (e : RExpr) (h : AllPlain coords e) :
    ∀ x ∈ findOps o e, ∃ op body lims, x = .red op body lims ∧ PlainReduction coords body lims := by
  induction e with
  | num | sym | indexed => intro x hx; cases hx
  | add a b iha ihb =>
    intro x hx
    exact (List.mem_append.mp hx).elim (iha h.1 x) (ihb h.2 x)
  | mul a b iha ihb =>
    intro x hx
    exact (List.mem_append.mp hx).elim (iha h.1 x) (ihb h.2 x)
  | pow a b iha ihb =>
    intro x hx
    exact (List.mem_append.mp hx).elim (iha h.1 x) (ihb h.2 x)
  | log a ih => exact ih h
  | exp a ih => exact ih h
  | red op body lims _ =>
    intro x hx
    simp only [findOps, findOps_redFree _ _ h.redFree, List.append_nil] at hx
    split at hx
    · rw [List.mem_singleton] at hx; exact ⟨op, body, lims, hx, h⟩
    · cases hx

theorem foldlM_substituteOp (order : Dict (List SIdx) (List SIdx) → List (List SIdx × List SIdx))
    (horder : ∀ d e, e ∈ order d ↔ e ∈ d) (coords : Coords)
    (hlab : FitLabels coords) :
    ∀ (L : List RExpr) (eq : RExpr), AllPlain coords eq →
    (∀ x ∈ L, ∃ op body lims, x = .red op body lims ∧ PlainReduction coords body lims) →
    ∃ eq', L.foldlM (substituteOp order coords) eq = .ok eq' ∧ AllPlain coords eq' ∧
      (∀ (σ : Str → ℝ) (A : Str → List SIdx → ℝ) (η : Str → SIdx),
        eq'.value σ A coords η = eq.value σ A coords η) ∧
      ∀ o x, x ∈ findOps o eq' → x ∈ findOps o eq ∧ x ∉ L := by
  intro L
  induction L with
  | nil =>
    intro eq h _
    exact ⟨eq, rfl, h, fun _ _ _ => rfl, fun o x hx => ⟨hx, by simp⟩⟩
  | cons x L ih =>
    intro eq h hL
    obtain ⟨op, body, lims, rfl, hp⟩ := hL x (by simp)
    obtain ⟨new, h1, h2, h3⟩ := substituteOp_value order horder coords hlab op body lims hp
    obtain ⟨r1, r2, r3⟩ := replaceSub_spec coords op body lims new h2 h3 eq h
    obtain ⟨eq', e1, e2, e3, e4⟩ := ih _ r1 fun y hy => hL y (by simp [hy])
    refine ⟨eq', ?_, e2, fun σ A η => by rw [e3, r2], ?_⟩
    · rw [List.foldlM_cons]
      have : substituteOp order coords eq (.red op body lims) =
          .ok (replaceSub (.red op body lims) new eq) := by
        rw [substituteOp, h1]; rfl
      rw [this]
      exact e1
    · intro o y hy
      obtain ⟨f1, f2⟩ := e4 o y hy
      obtain ⟨g1, g2⟩ := r3 o y f1
      exact ⟨g1, by simp [g2, f2]⟩

end Verif
