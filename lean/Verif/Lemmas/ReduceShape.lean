import Verif.Lemmas.Reduce
import Verif.Spec.Scalarise

/-!
# The shape of the expansion of sums and products

Which symbols, indexed symbols and free indices `substitute_reduce_ops` leaves in an equation.
-/

namespace Verif

open RExpr

/-- `s'` is `s`, or a label of the index `s`. -/
def InstIdx (coords : Coords) (s s' : SIdx) : Prop :=
  s' = s ∨ ∃ i l, s = .idx i ∧ l ∈ (dget coords i).getD [] ∧ s' = sympifyLabel l

theorem InstIdx.trans {coords : Coords} {a b c : SIdx} (h : InstIdx coords a b)
    (h' : InstIdx coords b c) : InstIdx coords a c := by
  rcases h with rfl | ⟨i, l, rfl, hl, rfl⟩
  · exact h'
  · rcases h' with rfl | ⟨j, l', hj, -⟩
    · exact Or.inr ⟨i, l, rfl, hl, rfl⟩
    · exact absurd hj (sympifyLabel_ne_idx _ _)

theorem forall₂_trans {β : Type _} {R : β → β → Prop} (hR : ∀ a b c, R a b → R b c → R a c) :
    ∀ {l l' l'' : List β}, List.Forall₂ R l l' → List.Forall₂ R l' l'' → List.Forall₂ R l l''
  | [], _, _, .nil, .nil => .nil
  | _ :: _, _, _, .cons h hs, .cons h' hs' => .cons (hR _ _ _ h h') (forall₂_trans hR hs hs')

theorem forall₂_self {β : Type _} {R : β → β → Prop} (hR : ∀ a, R a a) : ∀ l, List.Forall₂ R l l
  | [] => .nil
  | a :: l => .cons (hR a) (forall₂_self hR l)

theorem forall₂_map_right {β γ : Type _} {R : β → γ → Prop} (f : β → γ) :
    ∀ l : List β, (∀ s ∈ l, R s (f s)) → List.Forall₂ R l (l.map f)
  | [], _ => .nil
  | a :: l, h => .cons (h a (by simp)) (forall₂_map_right f l fun s hs => h s (by simp [hs]))

/-- What an expression becomes: the same symbols, instances of the same indexed symbols, the same free
indices. -/
structure ShapeRel (coords : Coords) (e e' : RExpr) : Prop where
  syms : ∀ x ∈ e'.syms, x ∈ e.syms
  ix : ∀ v' ∈ e'.indexeds, ∃ v ∈ e.indexeds, v'.1 = v.1 ∧ List.Forall₂ (InstIdx coords) v.2 v'.2
  free : ∀ d, hasFree [] d e' = hasFree [] d e

theorem ShapeRel.refl (coords : Coords) (e : RExpr) : ShapeRel coords e e :=
  ⟨fun _ h => h, fun v hv => ⟨v, hv, rfl, forall₂_self (R := InstIdx coords) (fun _ => Or.inl rfl) _⟩, fun _ => rfl⟩

theorem ShapeRel.trans {coords : Coords} {a b c : RExpr} (h : ShapeRel coords a b)
    (h' : ShapeRel coords b c) : ShapeRel coords a c := by
  refine ⟨fun x hx => h.syms x (h'.syms x hx), fun v hv => ?_, fun d => (h'.free d).trans (h.free d)⟩
  obtain ⟨w, hw, e1, f1⟩ := h'.ix v hv
  obtain ⟨u, hu, e2, f2⟩ := h.ix w hw
  exact ⟨u, hu, e1.trans e2, forall₂_trans (R := InstIdx coords) (fun _ _ _ h h' => h.trans h') f2 f1⟩

theorem ShapeRel.append {coords : Coords} {a a' b b' : RExpr}
    (h : ShapeRel coords a a') (h' : ShapeRel coords b b') (f : RExpr → RExpr → RExpr)
    (hs : ∀ a b, (f a b).syms = a.syms ++ b.syms) (hi : ∀ a b, (f a b).indexeds = a.indexeds ++ b.indexeds)
    (hf : ∀ d a b, hasFree [] d (f a b) = (hasFree [] d a || hasFree [] d b)) :
    ShapeRel coords (f a b) (f a' b') := by
  refine ⟨fun x hx => ?_, fun v hv => ?_, fun d => by rw [hf, hf, h.free, h'.free]⟩
  · rw [hs] at hx ⊢
    rw [List.mem_append] at hx ⊢
    exact hx.imp (h.syms x) (h'.syms x)
  · rw [hi] at hv
    rcases List.mem_append.1 hv with hv | hv
    · obtain ⟨w, hw, hh⟩ := h.ix v hv
      exact ⟨w, by rw [hi]; exact List.mem_append_left _ hw, hh⟩
    · obtain ⟨w, hw, hh⟩ := h'.ix v hv
      exact ⟨w, by rw [hi]; exact List.mem_append_right _ hw, hh⟩

theorem indexeds_mapIx (g : Str → List SIdx → List SIdx) (e : RExpr) :
    (mapIx g e).indexeds = e.indexeds.map fun v => (v.1, g v.1 v.2) := by
  induction e <;> simp_all [mapIx, indexeds]

theorem syms_mapIx (g : Str → List SIdx → List SIdx) (e : RExpr) : (mapIx g e).syms = e.syms := by
  induction e <;> simp_all [mapIx, RExpr.syms]

theorem indexeds_reduceList (op : RedOp) (l : List RExpr) :
    (reduceList op l).indexeds = l.flatMap indexeds := by
  have key : ∀ (f : RExpr → RExpr → RExpr), (∀ a b, (f a b).indexeds = a.indexeds ++ b.indexeds) →
      ∀ (l : List RExpr) (e : RExpr), (l.foldl f e).indexeds = e.indexeds ++ l.flatMap indexeds := by
    intro f hf l
    induction l with
    | nil => intro e; simp
    | cons a l ih => intro e; rw [List.foldl_cons, ih, hf]; simp
  cases op with
  | sum => rw [reduceList, key _ (fun _ _ => rfl)]; simp [indexeds]
  | prod => rw [reduceList, key _ (fun _ _ => rfl)]; simp [indexeds]

theorem syms_reduceList (op : RedOp) (l : List RExpr) :
    (reduceList op l).syms = l.flatMap RExpr.syms := by
  have key : ∀ (f : RExpr → RExpr → RExpr), (∀ a b, (f a b).syms = a.syms ++ b.syms) →
      ∀ (l : List RExpr) (e : RExpr), (l.foldl f e).syms = e.syms ++ l.flatMap RExpr.syms := by
    intro f hf l
    induction l with
    | nil => intro e; simp
    | cons a l ih => intro e; rw [List.foldl_cons, ih, hf]; simp
  cases op with
  | sum => rw [reduceList, key _ (fun _ _ => rfl)]; simp [RExpr.syms]
  | prod => rw [reduceList, key _ (fun _ _ => rfl)]; simp [RExpr.syms]

theorem syms_applyLims (op : RedOp) (lims : List Lim) : ∀ (f : RExpr) (x : Str),
    x ∈ (applyLims op f lims).syms → x ∈ f.syms := by
  induction lims with
  | nil => intro f x h; exact h
  | cons l ls ih =>
    intro f x h
    have := ih _ x h
    rw [syms_reduceList, List.mem_flatMap] at this
    obtain ⟨e, he, hx⟩ := this
    obtain ⟨k, -, rfl⟩ := List.mem_map.1 he
    rwa [substIdx, syms_mapIx] at hx

/-- The integers the limits can put for the indices. -/
def LimEnv (coords : Coords) (lims : List Lim) (θ : Str → SIdx) : Prop :=
  ∀ i, if i ∈ lims.map Lim.i then
      ∃ (k : Nat) (l : Str), ((dget coords i).getD [])[k]? = some l ∧ θ i = .num k
    else θ i = .idx i

theorem mem_indexeds_reduce (op : RedOp) (l : Lim) (f : RExpr) (b : Str) (ix' : List SIdx) :
    (b, ix') ∈ (reduceList op ((List.range' l.lo (l.stop - l.lo)).map fun k => substIdx l.i k f)).indexeds ↔
      ∃ k ix, l.lo ≤ k ∧ k < l.stop ∧ (b, ix) ∈ f.indexeds ∧ ix' = ix.map (setIdx l.i k) := by
  rw [indexeds_reduceList, List.mem_flatMap]
  constructor
  · rintro ⟨e, he, hv⟩
    obtain ⟨k, hk, rfl⟩ := List.mem_map.1 he
    rw [substIdx, indexeds_mapIx] at hv
    obtain ⟨w, hw, hww⟩ := List.mem_map.1 hv
    cases hww
    rw [List.mem_range'_1] at hk
    exact ⟨k, w.2, hk.1, by omega, hw, rfl⟩
  · rintro ⟨k, ix, h1, h2, hv, rfl⟩
    refine ⟨_, List.mem_map.2 ⟨k, ?_, rfl⟩, ?_⟩
    · rw [List.mem_range'_1]; omega
    · rw [substIdx, indexeds_mapIx]
      exact List.mem_map.2 ⟨_, hv, rfl⟩

theorem indexeds_applyLims (coords : Coords) (op : RedOp) (lims : List Lim) :
    ∀ (f : RExpr), (∀ l ∈ lims, l.stop ≤ ((dget coords l.i).getD []).length) →
    ∀ b ix', (b, ix') ∈ (applyLims op f lims).indexeds →
      ∃ ix θ, (b, ix) ∈ f.indexeds ∧ ix' = ix.map (bindIdx θ) ∧ LimEnv coords lims θ := by
  induction lims with
  | nil =>
    intro f _ b ix' h
    refine ⟨ix', SIdx.idx, h, ?_, fun i => by simp⟩
    have : bindIdx SIdx.idx = id := by funext s; cases s <;> rfl
    rw [this, List.map_id]
  | cons l ls ih =>
    intro f hb b ix' h
    obtain ⟨ix1, θ, h1, h2, h3⟩ := ih _ (fun m hm => hb m (by simp [hm])) b ix' h
    rw [mem_indexeds_reduce] at h1
    obtain ⟨k, ix, k1, k2, hv, rfl⟩ := h1
    refine ⟨ix, setEnv θ l.i (.num k), hv, ?_, ?_⟩
    · rw [h2, List.map_map]
      apply List.map_congr_left
      intro s _
      exact bindIdx_setIdx θ l.i k s
    · intro i
      by_cases hi : i = l.i
      · subst hi
        rw [if_pos (by simp)]
        have hlt : k < ((dget coords l.i).getD []).length := by
          have := hb l (by simp); omega
        exact ⟨k, _, List.getElem?_eq_getElem hlt, by simp [setEnv]⟩
      · have := h3 i
        simp only [setEnv, List.map_cons, List.mem_cons, hi, false_or]
        exact this

theorem applyLims_free (op : RedOp) (lims : List Lim) (d : Str) : ∀ (f : RExpr),
    (∃ b ix', (b, ix') ∈ (applyLims op f lims).indexeds ∧ SIdx.idx d ∈ ix') ↔
      (∃ b ix, (b, ix) ∈ f.indexeds ∧ SIdx.idx d ∈ ix) ∧ ∀ l ∈ lims, l.i ≠ d ∧ l.lo < l.stop := by
  induction lims with
  | nil => intro f; simp [applyLims]
  | cons l ls ih =>
    intro f
    rw [applyLims, ih]
    have : (∃ b ix, (b, ix) ∈ (reduceList op ((List.range' l.lo (l.stop - l.lo)).map
        fun k => substIdx l.i k f)).indexeds ∧ SIdx.idx d ∈ ix) ↔
        (∃ b ix, (b, ix) ∈ f.indexeds ∧ SIdx.idx d ∈ ix) ∧ l.i ≠ d ∧ l.lo < l.stop := by
      constructor
      · rintro ⟨b, ix', h, hd⟩
        rw [mem_indexeds_reduce] at h
        obtain ⟨k, ix, h1, h2, hv, rfl⟩ := h
        obtain ⟨s, hs, hsd⟩ := List.mem_map.1 hd
        cases s with
        | idx j =>
          simp only [setIdx] at hsd
          split at hsd
          · cases hsd
          · rename_i hj
            cases hsd
            exact ⟨⟨b, ix, hv, hs⟩, fun h => hj h.symm, by omega⟩
        | num n => cases hsd
        | lab n => cases hsd
      · rintro ⟨⟨b, ix, hv, hd⟩, h1, h2⟩
        refine ⟨b, _, (mem_indexeds_reduce _ _ _ _ _).2 ⟨l.lo, ix, le_refl _, h2, hv, rfl⟩, ?_⟩
        exact List.mem_map.2 ⟨_, hd, by simp [setIdx, Ne.symm h1]⟩
    rw [this]
    simp only [List.mem_cons, forall_eq_or_imp]
    tauto

theorem hasFree_redFree (d : Str) (e : RExpr) (h : RedFree e) :
    hasFree [] d e = true ↔ ∃ b ix, (b, ix) ∈ e.indexeds ∧ SIdx.idx d ∈ ix := by
  induction e with
  | num | sym => simp [hasFree, indexeds]
  | indexed b ix => simp [hasFree, indexeds]
  | add a b iha ihb | mul a b iha ihb | pow a b iha ihb =>
    simp only [hasFree, indexeds, Bool.or_eq_true, iha h.1, ihb h.2, List.mem_append]
    constructor
    · rintro (⟨b, ix, h1, h2⟩ | ⟨b, ix, h1, h2⟩)
      · exact ⟨b, ix, Or.inl h1, h2⟩
      · exact ⟨b, ix, Or.inr h1, h2⟩
    · rintro ⟨b, ix, h1 | h1, h2⟩
      · exact Or.inl ⟨b, ix, h1, h2⟩
      · exact Or.inr ⟨b, ix, h1, h2⟩
  | log a ih | exp a ih => simpa only [hasFree, indexeds] using ih h
  | red => exact h.elim

/-- Expanding one plain reduction. -/
theorem shape_relabel (order : Dict (List SIdx) (List SIdx) → List (List SIdx × List SIdx))
    (horder : ∀ d e, e ∈ order d ↔ e ∈ d) (coords : Coords)
    (hlab : FitLabels coords)
    (op : RedOp) (body : RExpr) (lims : List Lim) (hp : PlainReduction coords body lims) (new : RExpr)
    (hnew : relabel order (lims.map Lim.i) coords (indexeds body) (doit (.red op body lims)) = .ok new) :
    ShapeRel coords (.red op body lims) new := by
  have hdoit : doit (.red op body lims) = applyLims op body lims := by
    rw [doit, doit_of_redFree _ hp.redFree]
  have hrf : RedFree (applyLims op body lims) := redFree_applyLims _ _ _ hp.redFree
  obtain ⟨new', ES, h1, h2, h3, h4, h5⟩ := relabel_ok order horder (lims.map Lim.i) coords
    (indexeds body) _ hrf hp.known
  rw [hdoit, h1] at hnew
  cases hnew
  -- the image of one index list
  have himg : ∀ b ix θ, (b, ix) ∈ body.indexeds → LimEnv coords lims θ →
      ∃ θ' : Str → SIdx, replaceSeq ES b (ix.map (bindIdx θ)) =
          ix.map (bindIdx (limImage (lims.map Lim.i) θ')) ∧
        ∀ i ∈ lims.map Lim.i, ∃ l ∈ (dget coords i).getD [], θ' i = sympifyLabel l := by
    intro b ix θ hv hθ
    have hc : ∀ i, ∃ s : SIdx, if i ∈ lims.map Lim.i then
        ∃ (k : Nat) (l : Str), ((dget coords i).getD [])[k]? = some l ∧ θ i = .num k ∧ s = sympifyLabel l
        else θ i = .idx i ∧ s = .idx i := by
      intro i
      have := hθ i
      by_cases hi : i ∈ lims.map Lim.i
      · rw [if_pos hi] at this
        obtain ⟨k, l, g1, g2⟩ := this
        exact ⟨sympifyLabel l, by rw [if_pos hi]; exact ⟨k, l, g1, g2, rfl⟩⟩
      · rw [if_neg hi] at this
        exact ⟨.idx i, by rw [if_neg hi]; exact ⟨this, rfl⟩⟩
    choose θ' hθ' using hc
    refine ⟨θ', relabel_image coords hlab body lims hp ES h4 h5 SIdx.idx θ θ' hθ' b ix hv, ?_⟩
    intro i hi
    have := hθ' i
    rw [if_pos hi] at this
    obtain ⟨k, l, g1, -, g3⟩ := this
    exact ⟨l, List.mem_of_getElem? g1, g3⟩
  have hindexeds : new.indexeds = (applyLims op body lims).indexeds.map
      fun v => (v.1, replaceSeq ES v.1 v.2) := by rw [h3, indexeds_mapIx]
  refine ⟨?_, ?_, ?_⟩
  · intro x hx
    rw [h3, syms_mapIx] at hx
    exact syms_applyLims op lims body x hx
  · intro v hv
    rw [hindexeds] at hv
    obtain ⟨⟨b, ix'⟩, hw, rfl⟩ := List.mem_map.1 hv
    obtain ⟨ix, θ, hix, rfl, hθ⟩ := indexeds_applyLims coords op lims body hp.bounds b ix' hw
    obtain ⟨θ', e1, e2⟩ := himg b ix θ hix hθ
    refine ⟨(b, ix), hix, rfl, ?_⟩
    dsimp only
    rw [e1]
    apply forall₂_map_right
    intro s hs
    obtain ⟨i, ls, rfl, -⟩ := hp.known _ hix s hs
    simp only [bindIdx, limImage]
    by_cases hi : i ∈ lims.map Lim.i
    · rw [if_pos hi]
      obtain ⟨l, hl, hl'⟩ := e2 i hi
      exact Or.inr ⟨i, l, rfl, hl, hl'⟩
    · rw [if_neg hi]; exact Or.inl rfl
  · intro d
    rw [Bool.eq_iff_iff, hasFree_redFree _ _ h2]
    have hred : hasFree [] d (.red op body lims) = true ↔
        (∃ b ix, (b, ix) ∈ body.indexeds ∧ SIdx.idx d ∈ ix) ∧ ∀ l ∈ lims, l.i ≠ d ∧ l.lo < l.stop := by
      rw [← hasFree_redFree _ _ hp.redFree]
      simp [hasFree]
    rw [hred, ← applyLims_free op, hindexeds]
    constructor
    · rintro ⟨b, ix'', h, hd⟩
      obtain ⟨⟨b', ix'⟩, hw, hww⟩ := List.mem_map.1 h
      cases hww
      refine ⟨b', ix', hw, ?_⟩
      obtain ⟨ix, θ, hix, rfl, hθ⟩ := indexeds_applyLims coords op lims body hp.bounds b' ix' hw
      obtain ⟨θ', e1, e2⟩ := himg b' ix θ hix hθ
      rw [e1] at hd
      obtain ⟨s, hs, hsd⟩ := List.mem_map.1 hd
      obtain ⟨i, ls, rfl, -⟩ := hp.known _ hix s hs
      simp only [bindIdx, limImage] at hsd
      by_cases hi : i ∈ lims.map Lim.i
      · rw [if_pos hi] at hsd
        obtain ⟨l, -, hl⟩ := e2 i hi
        rw [hl] at hsd; exact absurd hsd (sympifyLabel_ne_idx _ _)
      · rw [if_neg hi] at hsd
        have := hθ i
        rw [if_neg hi] at this
        exact List.mem_map.2 ⟨_, hs, this.trans hsd⟩
    · rintro ⟨b, ix', h, hd⟩
      obtain ⟨ix, θ, hix, rfl, hθ⟩ := indexeds_applyLims coords op lims body hp.bounds b ix' h
      obtain ⟨θ', e1, e2⟩ := himg b ix θ hix hθ
      refine ⟨b, _, List.mem_map.2 ⟨_, h, rfl⟩, ?_⟩
      dsimp only
      rw [e1]
      obtain ⟨s, hs, hsd⟩ := List.mem_map.1 hd
      obtain ⟨i, ls, rfl, -⟩ := hp.known _ hix s hs
      refine List.mem_map.2 ⟨_, hs, ?_⟩
      simp only [bindIdx, limImage] at hsd ⊢
      by_cases hi : i ∈ lims.map Lim.i
      · have := hθ i
        rw [if_pos hi] at this
        obtain ⟨k, l, -, hk⟩ := this
        rw [hk] at hsd; cases hsd
      · rw [if_neg hi]
        have := hθ i
        rw [if_neg hi] at this
        rw [← this]; exact hsd

theorem shape_replaceSub (coords : Coords) (old new : RExpr) (h : ShapeRel coords old new) (e : RExpr) :
    ShapeRel coords e (replaceSub old new e) := by
  induction e with
  | num | sym | indexed =>
    rw [replaceSub]
    split
    · rename_i heq; rw [heq]; exact h
    · exact ShapeRel.refl _ _
  | add a b iha ihb =>
    rw [replaceSub]
    split
    · rename_i heq; rw [heq]; exact h
    · exact iha.append ihb .add (fun _ _ => rfl) (fun _ _ => rfl) (fun _ _ _ => rfl)
  | mul a b iha ihb =>
    rw [replaceSub]
    split
    · rename_i heq; rw [heq]; exact h
    · exact iha.append ihb .mul (fun _ _ => rfl) (fun _ _ => rfl) (fun _ _ _ => rfl)
  | pow a b iha ihb =>
    rw [replaceSub]
    split
    · rename_i heq; rw [heq]; exact h
    · exact iha.append ihb .pow (fun _ _ => rfl) (fun _ _ => rfl) (fun _ _ _ => rfl)
  | log a ih =>
    rw [replaceSub]
    split
    · rename_i heq; rw [heq]; exact h
    · exact ⟨ih.syms, ih.ix, ih.free⟩
  | exp a ih =>
    rw [replaceSub]
    split
    · rename_i heq; rw [heq]; exact h
    · exact ⟨ih.syms, ih.ix, ih.free⟩
  | red op body lims ih =>
    rw [replaceSub]
    split
    · rename_i heq; rw [heq]; exact h
    · exact ⟨ih.syms, ih.ix, fun d => by simp only [hasFree, ih.free]⟩

theorem shape_foldlM (order : Dict (List SIdx) (List SIdx) → List (List SIdx × List SIdx))
    (horder : ∀ d e, e ∈ order d ↔ e ∈ d) (coords : Coords)
    (hlab : FitLabels coords) :
    ∀ (L : List RExpr) (eq eq' : RExpr),
    (∀ x ∈ L, ∃ op body lims, x = .red op body lims ∧ PlainReduction coords body lims) →
    L.foldlM (substituteOp order coords) eq = .ok eq' → ShapeRel coords eq eq' := by
  intro L
  induction L with
  | nil => intro eq eq' _ h; cases h; exact ShapeRel.refl _ _
  | cons x L ih =>
    intro eq eq' hL h
    obtain ⟨op, body, lims, rfl, hp⟩ := hL x (by simp)
    obtain ⟨new, h1, -, -⟩ := substituteOp_value order horder coords hlab op body lims hp
    rw [List.foldlM_cons] at h
    have hs : substituteOp order coords eq (.red op body lims) =
        .ok (replaceSub (.red op body lims) new eq) := by
      rw [substituteOp, h1]; rfl
    rw [hs] at h
    exact (shape_replaceSub coords _ _ (shape_relabel order horder coords hlab op body lims hp new h1)
      eq).trans (ih _ _ (fun y hy => hL y (by simp [hy])) h)

/-- The expansion of all sums and products: no operator left, the same value, and the same symbols,
indexed symbols and free indices. -/
theorem substituteReduceOps_shape (setList : List RExpr → List RExpr)
    (hset : ∀ l x, x ∈ setList l ↔ x ∈ l)
    (order : Dict (List SIdx) (List SIdx) → List (List SIdx × List SIdx))
    (horder : ∀ d e, e ∈ order d ↔ e ∈ d) (coords : Coords)
    (hlab : FitLabels coords)
    (eq : RExpr) (hplain : AllPlain coords eq) (r : RExpr)
    (hr : substituteReduceOps setList order eq coords = .ok r) : ShapeRel coords eq r := by
  have hp1 : ∀ x ∈ setList (findOps .sum eq), ∃ op body lims, x = .red op body lims ∧
      PlainReduction coords body lims :=
    fun x hx => findOps_plain coords .sum eq hplain x ((hset _ _).mp hx)
  obtain ⟨e1, h1, p1, -, -⟩ := foldlM_substituteOp order horder coords hlab
    (setList (findOps .sum eq)) eq hplain hp1
  rw [substituteReduceOps, h1] at hr
  exact (shape_foldlM order horder coords hlab _ _ _ hp1 h1).trans
    (shape_foldlM order horder coords hlab _ _ _
      (fun x hx => findOps_plain coords .prod e1 p1 x ((hset _ _).mp hx)) hr)

end Verif
