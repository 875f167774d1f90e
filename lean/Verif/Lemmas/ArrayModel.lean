import Verif.Lemmas.Scalarise2
import Verif.Model.PytensorText
import Verif.Spec.ArrayModel

/-!
# Lemmas on array texts and their indexed twins
-/

namespace Verif

open RExpr

/-- The number of labels of a dim. -/
def dimSize (coords : Coords) (d : Str) : Nat := (labelsOf coords d).length

/-- The indices of the axes `ds` stand for the labels at the positions `idx`. -/
def Agrees (coords : Coords) (ds : List Str) (idx : List Nat) (η : Str → SIdx) : Prop :=
  List.Forall₂ (fun d i => ∃ l, (labelsOf coords d)[i]? = some l ∧ η d = sympifyLabel l) ds idx

/-- The length of an axis. -/
def axisSize (coords : Coords) : Option Str → Nat
  | none => 1
  | some d => dimSize coords d

/-- The position on one axis is that of the label its index stands for. -/
def AxisAt (coords : Coords) (η : Str → SIdx) : Option Str → Nat → Prop
  | none, i => i = 0
  | some d, i => ∃ l, (labelsOf coords d)[i]? = some l ∧ η d = sympifyLabel l

/-- The indices of the axes stand for the labels at the positions `idx`. -/
def AgreesAx (coords : Coords) (axs : Axes) (idx : List Nat) (η : Str → SIdx) : Prop :=
  List.Forall₂ (AxisAt coords η) axs idx

variable {coords : Coords}

theorem agreesAx_some {ds : List Str} {idx : List Nat} {η : Str → SIdx} :
    AgreesAx coords (ds.map some) idx η ↔ Agrees coords ds idx η := by
  unfold AgreesAx Agrees
  rw [List.forall₂_map_left_iff]
  rfl

theorem map_axisSize_some (ds : List Str) : (ds.map some).map (axisSize coords) = ds.map (dimSize coords) := by
  rw [List.map_map]; rfl

/-! ### Broadcasting -/

theorem fitRev_broadcast {s t u : Axes} (h : AxesFitRev s t u) :
    Arr.broadcastRev (s.map (axisSize coords)) (t.map (axisSize coords)) = some (u.map (axisSize coords)) := by
  induction h with
  | left => rfl
  | @right s => cases s <;> rfl
  | @cons a b c s t u hf _ ih =>
    simp only [List.map_cons, Arr.broadcastRev, ih, Option.map_some]
    cases hf with
    | same => rw [if_pos (Or.inl rfl)]
    | left =>
      have hn : axisSize coords none = 1 := rfl
      by_cases h1 : axisSize coords b = 1
      · rw [if_pos (Or.inr h1), h1, hn]
      · rw [if_neg, if_pos hn]
        rw [hn]
        rintro (h2 | h2)
        · exact h1 h2.symm
        · exact h1 h2
    | right => rw [if_pos (Or.inr (show axisSize coords none = 1 from rfl))]

/-- The axes `s` are, from the front, axes of `u` or repeated ones. -/
def FitsInto (s u : Axes) : Prop := ∃ p q, u = p ++ q ∧ List.Forall₂ (fun a c => a = none ∨ a = c) s p

theorem fitsInto_refl (s : Axes) : FitsInto s s :=
  ⟨s, [], by simp, List.forall₂_same.2 fun _ _ => Or.inr rfl⟩

theorem fitRev_into {s t u : Axes} (h : AxesFitRev s t u) : FitsInto s u ∧ FitsInto t u := by
  induction h with
  | @left s => exact ⟨⟨[], s, rfl, .nil⟩, fitsInto_refl s⟩
  | @right s => exact ⟨fitsInto_refl s, ⟨[], s, rfl, .nil⟩⟩
  | @cons a b c s t u hf _ ih =>
    obtain ⟨⟨p, q, h1, h2⟩, p', q', h3, h4⟩ := ih
    have hac : a = none ∨ a = c := by cases hf <;> simp
    have hbc : b = none ∨ b = c := by cases hf <;> simp
    exact ⟨⟨c :: p, q, by rw [h1]; rfl, .cons hac h2⟩, ⟨c :: p', q', by rw [h3]; rfl, .cons hbc h4⟩⟩

theorem fitRev_mem {s t u : Axes} (h : AxesFitRev s t u) (d : Str) :
    some d ∈ u ↔ some d ∈ s ∨ some d ∈ t := by
  induction h with
  | left => simp
  | right => simp
  | cons hf _ ih =>
    simp only [List.mem_cons, ih]
    cases hf with
    | same => tauto
    | left => simp only [reduceCtorEq, false_or]; tauto
    | right => simp only [reduceCtorEq, false_or]; tauto

theorem fits_mem {ds es fs : Axes} (hf : AxesFit ds es fs) (d : Str) :
    some d ∈ fs ↔ some d ∈ ds ∨ some d ∈ es := by
  have := fitRev_mem hf d
  simpa using this

theorem fits_ne_nil {ds es fs : Axes} (hf : AxesFit ds es fs) (h : fs ≠ []) : ds ≠ [] ∨ es ≠ [] := by
  by_contra hc
  rw [not_or, not_not, not_not] at hc
  obtain ⟨rfl, rfl⟩ := hc
  unfold AxesFit at hf
  generalize hg : fs.reverse = g at hf
  cases hf <;> exact h (by simpa using hg)

theorem axisAt_lt {η : Str → SIdx} {a : Option Str} {i : Nat} (h : AxisAt coords η a i) :
    i < axisSize coords a := by
  cases a with
  | none => rw [show i = 0 from h]; exact Nat.one_pos
  | some d =>
    obtain ⟨l, hl, -⟩ := h
    exact (List.getElem?_eq_some_iff.1 hl).1

theorem agreesAx_zip {η : Str → SIdx} {s u : Axes} (h : List.Forall₂ (fun a c => a = none ∨ a = c) s u) :
    ∀ {idx : List Nat}, AgreesAx coords u idx η → AgreesAx coords s
      (List.zipWith (fun d k => if d = 1 then 0 else k) (s.map (axisSize coords)) idx) η := by
  induction h with
  | nil => intro idx hA; cases hA; exact .nil
  | @cons a c s u hac _ ih =>
    intro idx hA
    cases hA with
    | @cons _ i _ idx hi hA =>
      rw [List.map_cons, List.zipWith_cons_cons]
      refine .cons ?_ (ih hA)
      rcases hac with rfl | rfl
      · exact if_pos rfl
      · have hlt := axisAt_lt hi
        split
        · have : i = 0 := by omega
          rw [← this]; exact hi
        · exact hi

theorem bget_fits {a : Arr} {ds fs : Axes} {idx : List Nat} {η : Str → SIdx}
    (hs : a.shape = ds.map (axisSize coords)) (hf : FitsInto ds.reverse fs.reverse)
    (hA : AgreesAx coords fs idx η) : ∃ idx', AgreesAx coords ds idx' η ∧ a.bget idx = a.get idx' := by
  obtain ⟨p, q, h1, h2⟩ := hf
  have hfs : fs = q.reverse ++ p.reverse := by
    have := congrArg List.reverse h1
    simpa using this
  have h3 : List.Forall₂ (fun a c => a = none ∨ a = c) ds p.reverse := by
    have := List.rel_reverse h2
    simpa using this
  subst hfs
  have hlen := hA.length_eq
  rw [List.length_append] at hlen
  have h := List.forall₂_drop q.reverse.length hA
  rw [List.drop_left] at h
  refine ⟨_, agreesAx_zip h3 h, ?_⟩
  unfold Arr.bget
  have h4 := h3.length_eq
  have : idx.length - a.shape.length = q.reverse.length := by
    rw [hs, List.length_map]; omega
  rw [this, hs]

theorem fits_op {ds es fs : Axes} (hf : AxesFit ds es fs) (f : ℝ → ℝ → ℝ) {a b : Arr}
    (ha : a.shape = ds.map (axisSize coords)) (hb : b.shape = es.map (axisSize coords)) :
    ∃ c, arrayOp f a b = .ok c ∧ c.shape = fs.map (axisSize coords) ∧
      ∀ idx η, AgreesAx coords fs idx η → ∃ i j, AgreesAx coords ds i η ∧ AgreesAx coords es j η ∧
        c.get idx = f (a.get i) (b.get j) := by
  have hbr : Arr.broadcastRev a.shape.reverse b.shape.reverse = some (fs.map (axisSize coords)).reverse := by
    rw [ha, hb, ← List.map_reverse, ← List.map_reverse, ← List.map_reverse]
    exact fitRev_broadcast hf
  refine ⟨⟨fs.map (axisSize coords), fun idx => f (a.bget idx) (b.bget idx)⟩, ?_, rfl, ?_⟩
  · unfold arrayOp Arr.op
    rw [hbr]
    simp
  · intro idx η hA
    obtain ⟨i, h1, h2⟩ := bget_fits ha (fitRev_into hf).1 hA
    obtain ⟨j, h3, h4⟩ := bget_fits hb (fitRev_into hf).2 hA
    exact ⟨i, j, h1, h3, by show f _ _ = _; rw [h2, h4]⟩

/-! ### The entries of an array, in row-major order -/

theorem entries_eq (a : Arr) (ds : List Str) (hs : a.shape = ds.map (dimSize coords)) (G : List Str → ℝ)
    (h : ∀ idx ls, pick (ds.map (labelsOf coords)) idx = some ls → a.get idx = G ls) :
    a.entries = (product (ds.map (labelsOf coords))).map G := by
  have hsh : (ds.map (labelsOf coords)).map List.length = a.shape := by
    rw [hs, List.map_map]; rfl
  have hlen : (product (a.shape.map List.range)).length = a.shape.prod := by
    rw [length_product, List.map_map]
    congr 1
    conv_rhs => rw [← List.map_id a.shape]
    exact List.map_congr_left fun n _ => by simp
  unfold Arr.entries
  apply List.ext_getElem?
  intro k
  rw [List.getElem?_map, List.getElem?_map]
  by_cases hk : k < a.shape.prod
  · have hv := unravel_valid a.shape k hk
    obtain ⟨ls, hls⟩ := Option.isSome_iff_exists.1
      (pick_isSome (ds.map (labelsOf coords)) (unravelIndex a.shape k) (by rw [hsh]; exact hv))
    have h1 := product_ravel (ds.map (labelsOf coords)) (unravelIndex a.shape k) (by rw [hsh]; exact hv)
    rw [hsh, ravel_unravel _ _ hk, hls] at h1
    rw [product_range_get _ _ hk, h1]
    simp only [Option.map_some]
    rw [h _ _ hls]
  · rw [List.getElem?_eq_none (by omega), List.getElem?_eq_none]
    · rfl
    · rw [length_product, hsh]; omega

/-- Letting the indices stand for labels, one after the other. -/
def setAll (η : Str → SIdx) : List Str → List Str → Str → SIdx
  | d :: ds, l :: ls => setAll (setEnv η d (sympifyLabel l)) ds ls
  | _, _ => η

theorem setAll_not_mem (η : Str → SIdx) (ds ls : List Str) (d : Str) (h : d ∉ ds) :
    setAll η ds ls d = η d := by
  induction ds generalizing η ls with
  | nil => cases ls <;> rfl
  | cons e ds ih =>
    cases ls with
    | nil => rfl
    | cons l ls =>
      rw [List.mem_cons, not_or] at h
      rw [setAll, ih _ _ h.2, setEnv, if_neg h.1]

theorem agrees_setAll : ∀ (ds : List Str) (hnd : ds.Nodup) (η : Str → SIdx) (idx : List Nat) (ls : List Str),
    pick (ds.map (labelsOf coords)) idx = some ls → Agrees coords ds idx (setAll η ds ls)
  | [], _, η, idx, ls, h => by
      cases idx with
      | nil => exact .nil
      | cons => cases h
  | d :: ds, hnd, η, [], ls, h => by cases h
  | d :: ds, hnd, η, i :: idx, ls, h => by
      simp only [List.map_cons, pick] at h
      rw [List.nodup_cons] at hnd
      cases hl : (labelsOf coords d)[i]? with
      | none => rw [hl] at h; cases h
      | some l =>
        rw [hl] at h
        simp only [Option.bind_some] at h
        cases hp : pick (ds.map (labelsOf coords)) idx with
        | none => rw [hp] at h; cases h
        | some ls' =>
          rw [hp] at h
          simp only [Option.map_some, Option.some.injEq] at h
          subst h
          refine .cons ⟨l, hl, ?_⟩ (agrees_setAll ds hnd.2 _ idx ls' hp)
          rw [setAll, setAll_not_mem _ _ _ _ hnd.1, setEnv, if_pos rfl]

theorem agrees_bindLabels : ∀ (ds : List Str) (hnd : ds.Nodup) (idx : List Nat) (ls : List Str),
    pick (ds.map (labelsOf coords)) idx = some ls → Agrees coords ds idx (bindLabels ds ls)
  | [], _, idx, ls, h => by
      cases idx with
      | nil => exact .nil
      | cons => cases h
  | d :: ds, hnd, [], ls, h => by cases h
  | d :: ds, hnd, i :: idx, ls, h => by
      simp only [List.map_cons, pick] at h
      rw [List.nodup_cons] at hnd
      cases hl : (labelsOf coords d)[i]? with
      | none => rw [hl] at h; cases h
      | some l =>
        rw [hl] at h
        simp only [Option.bind_some] at h
        cases hp : pick (ds.map (labelsOf coords)) idx with
        | none => rw [hp] at h; cases h
        | some ls' =>
          rw [hp] at h
          simp only [Option.map_some, Option.some.injEq] at h
          subst h
          have ih := agrees_bindLabels ds hnd.2 idx ls' hp
          refine .cons ⟨l, hl, ?_⟩ ?_
          · simp [bindLabels, dget]
          · have key : ∀ (es : List Str) (js : List Nat), (∀ e ∈ es, e ∈ ds) →
                Agrees coords es js (bindLabels ds ls') →
                Agrees coords es js (bindLabels (d :: ds) (l :: ls')) := by
              intro es js hsub hA
              induction hA with
              | nil => exact .nil
              | @cons e j es js he _ ihe =>
                obtain ⟨l', h1, h2⟩ := he
                refine .cons ⟨l', h1, ?_⟩ (ihe fun e' he' => hsub e' (List.mem_cons_of_mem _ he'))
                rw [← h2]
                have hne : e ≠ d := fun h => hnd.1 (h ▸ hsub e (by simp))
                simp [bindLabels, dget, Ne.symm hne]
            exact key ds idx (fun _ h => h) ih

/-! ### Sums and products -/

theorem reduce_flatMap {α : Type _} (op : RedOp) (l : List α) (f : α → List ℝ) :
    reduceVals op (l.flatMap f) = reduceVals op (l.map fun a => reduceVals op (f a)) := by
  cases op with
  | sum =>
    simp only [reduceVals]
    induction l with
    | nil => rfl
    | cons a l ih => simp [List.flatMap_cons, ih]
  | prod =>
    simp only [reduceVals]
    induction l with
    | nil => rfl
    | cons a l ih => simp [List.flatMap_cons, ih]

theorem overLims_append (vals : Lim → List SIdx) (op : RedOp) (l₁ l₂ : List Lim)
    (F : (Str → SIdx) → ℝ) (η : Str → SIdx) :
    overLims vals op (l₁ ++ l₂) F η = overLims vals op l₂ (overLims vals op l₁ F) η := by
  induction l₁ generalizing F with
  | nil => rfl
  | cons l l₁ ih => exact ih _

/-- The limits of sums over all labels of the dims. -/
def fullLims (coords : Coords) (ds : List Str) : List Lim :=
  (ds.map fun d => (⟨d, 0, dimSize coords d⟩ : Lim)).reverse

theorem limLabels_full (d : Str) : limLabels coords ⟨d, 0, dimSize coords d⟩ = labelsOf coords d := by
  simp [limLabels, dimSize, labelsOf]

theorem overLims_full (op : RedOp) (ds : List Str) (F : (Str → SIdx) → ℝ) (η : Str → SIdx) :
    overLims (fun l => (limLabels coords l).map sympifyLabel) op (fullLims coords ds) F η =
      reduceVals op ((product (ds.map (labelsOf coords))).map fun ls => F (setAll η ds ls)) := by
  induction ds generalizing η with
  | nil => cases op <;> simp [fullLims, overLims, product, setAll, reduceVals]
  | cons d ds ih =>
    have : fullLims coords (d :: ds) = fullLims coords ds ++ [⟨d, 0, dimSize coords d⟩] := by
      simp [fullLims]
    rw [this, overLims_append]
    simp only [overLims, limLabels_full, List.map_map, List.map_cons, product,
      List.map_flatMap, reduce_flatMap]
    congr 1
    refine List.map_congr_left fun l _ => ?_
    simp only [Function.comp]
    rw [ih]
    rfl

theorem sum_map_labels {α : Type _} (l : List α) (F : α → ℝ) (G : Nat → ℝ)
    (h : ∀ (i : Nat) a, l[i]? = some a → G i = F a) : (l.map F).sum = ∑ t ∈ Finset.range l.length, G t := by
  induction l generalizing G with
  | nil => rfl
  | cons a l ih =>
    rw [List.length_cons, Finset.sum_range_succ', List.map_cons, List.sum_cons,
      ih (fun t => G (t + 1)) (fun i b hb => h (i + 1) b (by simpa using hb)), h 0 a rfl, add_comm]

/-! ### What sympy makes of the texts -/

/-- Objects are used with indices that have the labels of their dims. -/
structure IndexUse (coords : Coords) (objs : List ModelObject) (r : RExpr) : Prop where
  syms : ∀ x ∈ r.syms, ∃ o ∈ objs, o.name = x ∧ o.dims = []
  indexeds : ∀ v ∈ r.indexeds, ∃ o ∈ objs, o.name = v.1 ∧ o.dims ≠ [] ∧ List.Forall₂ (fun s d =>
    ∃ i, s = .idx i ∧ i ∈ dkeys coords ∧ labelsOf coords i = labelsOf coords d) v.2 o.dims

variable {objs : List ModelObject} {locals : Dict Str RExpr}

theorem IndexUse.two {a b c : RExpr} (ha : IndexUse coords objs a) (hb : IndexUse coords objs b)
    (h1 : c.syms = a.syms ++ b.syms) (h2 : c.indexeds = a.indexeds ++ b.indexeds) :
    IndexUse coords objs c := by
  constructor
  · intro x hx
    rw [h1, List.mem_append] at hx
    exact hx.elim (ha.syms x) (hb.syms x)
  · intro v hv
    rw [h2, List.mem_append] at hv
    exact hv.elim (ha.indexeds v) (hb.indexeds v)

theorem IndexUse.well {r : RExpr} (hr : IndexUse coords objs r) : WellIndexed coords objs r := by
  refine ⟨hr.syms, ?_⟩
  intro v hv
  obtain ⟨o, ho, hn, hd, hix⟩ := hr.indexeds v hv
  refine ⟨o, ho, hn, hd, hix.imp ?_⟩
  rintro s d ⟨i, hs, hi, hl⟩
  exact Or.inl ⟨i, hs, hi, fun l hl' => hl ▸ hl'⟩

theorem WellIndexed.two {a b c : RExpr} (ha : WellIndexed coords objs a) (hb : WellIndexed coords objs b)
    (h1 : c.syms = a.syms ++ b.syms) (h2 : c.indexeds = a.indexeds ++ b.indexeds) :
    WellIndexed coords objs c := by
  constructor
  · intro x hx
    rw [h1, List.mem_append] at hx
    exact hx.elim (ha.scalars x) (hb.scalars x)
  · intro v hv
    rw [h2, List.mem_append] at hv
    exact hv.elim (ha.arrays v) (hb.arrays v)

theorem indexUse_num (q : ℚ) : IndexUse coords objs (.num q) :=
  ⟨fun _ h => (by cases h), fun _ h => (by cases h)⟩

theorem toSympy_fresh (o : ModelObject) (h : o.dimVals = []) :
    toSympy o = if o.dims = [] then .sym o.name else .indexed o.name (o.dims.map SIdx.idx) := by
  unfold toSympy
  rw [h]
  rfl

theorem numVal_numQ (s : Str) : numVal s = (numQ s : ℝ) := by
  unfold numVal numQ
  push_cast
  rfl

theorem redFree_hasFree {r : RExpr} (h : RedFree r) (d : Str) :
    hasFree [] d r = true ↔ ∃ v ∈ r.indexeds, SIdx.idx d ∈ v.2 := by
  induction r with
  | num | sym => simp [hasFree, RExpr.indexeds]
  | indexed => simp [hasFree, RExpr.indexeds]
  | add a b iha ihb | mul a b iha ihb | pow a b iha ihb =>
    simp only [hasFree, RExpr.indexeds, Bool.or_eq_true, iha h.1, ihb h.2, List.mem_append]
    constructor
    · rintro (⟨v, hv, hd⟩ | ⟨v, hv, hd⟩)
      · exact ⟨v, Or.inl hv, hd⟩
      · exact ⟨v, Or.inr hv, hd⟩
    · rintro ⟨v, hv | hv, hd⟩
      · exact Or.inl ⟨v, hv, hd⟩
      · exact Or.inr ⟨v, hv, hd⟩
  | log a ih | exp a ih => exact ih h
  | red => exact h.elim

/-! ### Replacing indices -/

/-- An index with another name. -/
def onIdx (σ : Str → Str) : SIdx → SIdx
  | .idx d => .idx (σ d)
  | s => s

theorem renameSymbol_mapIx (i j : Str) {r : RExpr} (h : RedFree r) (hi : i ∉ r.syms) :
    renameSymbol i j r = mapIx (fun _ ix => ix.map (onIdx fun d => if d = i then j else d)) r := by
  induction r with
  | num => rfl
  | sym x =>
    have : x ≠ i := fun hx => hi (by simp [RExpr.syms, hx])
    simp [renameSymbol, mapIx, this]
  | indexed b ix =>
    have hfun : renameIdx i j = onIdx fun d => if d = i then j else d := by
      funext s
      cases s <;> rfl
    simp only [renameSymbol, mapIx, hfun]
  | add a b iha ihb | mul a b iha ihb | pow a b iha ihb =>
    simp only [RExpr.syms, List.mem_append, not_or] at hi
    simp only [renameSymbol, mapIx, iha h.1 hi.1, ihb h.2 hi.2]
  | log a ih | exp a ih => simp only [renameSymbol, mapIx, ih h hi]
  | red => exact h.elim

theorem subsNames_mapIx (ps : List (Str × Str)) {r : RExpr} (h : RedFree r)
    (hs : ∀ p ∈ ps, symbolOf locals p.1 = .sym p.1 ∧ symbolOf locals p.2 = .sym p.2 ∧ p.1 ∉ r.syms) :
    subsNames locals ps r = mapIx (fun _ ix => ix.map (onIdx (renamed ps))) r := by
  induction ps generalizing r with
  | nil =>
    have : (fun (_ : Str) (ix : List SIdx) => ix.map (onIdx (renamed []))) = fun _ ix => ix := by
      funext _ ix
      conv_rhs => rw [← List.map_id ix]
      refine List.map_congr_left fun s _ => ?_
      cases s <;> rfl
    rw [this, mapIx_self]
    rfl
  | cons p ps ih =>
    obtain ⟨h1, h2, h3⟩ := hs p (by simp)
    have hr : subsExpr (symbolOf locals p.1) (symbolOf locals p.2) r =
        mapIx (fun _ ix => ix.map (onIdx fun d => if d = p.1 then p.2 else d)) r := by
      rw [h1, h2]
      exact renameSymbol_mapIx _ _ h h3
    have hstep : subsNames locals (p :: ps) r = subsNames locals ps
        (mapIx (fun _ ix => ix.map (onIdx fun d => if d = p.1 then p.2 else d)) r) := by
      unfold subsNames
      rw [List.foldl_cons, hr]
    rw [hstep, ih (redFree_mapIx _ _ h), mapIx_mapIx]
    · congr 1
      funext _ ix
      rw [List.map_map]
      refine List.map_congr_left fun s _ => ?_
      cases s <;> rfl
    · intro q hq
      obtain ⟨g1, g2, g3⟩ := hs q (List.mem_cons_of_mem _ hq)
      exact ⟨g1, g2, by rw [syms_mapIx]; exact g3⟩

theorem value_onIdx (A : Str → List SIdx → ℝ) (σ : Str → Str) {r : RExpr} (h : RedFree r) (η : Str → SIdx) :
    (mapIx (fun _ ix => ix.map (onIdx σ)) r).value (fun x => A x []) A coords η =
      r.value (fun x => A x []) A coords fun d => η (σ d) := by
  induction r with
  | num | sym => rfl
  | indexed b ix =>
    simp only [mapIx, RExpr.value, List.map_map]
    congr 1
    refine List.map_congr_left fun s _ => ?_
    cases s <;> rfl
  | add a b iha ihb | mul a b iha ihb | pow a b iha ihb =>
    simp only [mapIx, RExpr.value, iha h.1, ihb h.2]
  | log a ih | exp a ih => simp only [mapIx, RExpr.value, ih h]
  | red => exact h.elim

theorem numberSymbol_mapIx (i : Str) (k : Nat) {r : RExpr} (h : RedFree r) (hi : i ∉ r.syms) :
    numberSymbol i k r = mapIx (fun _ ix => ix.map (setIdx i k)) r := by
  induction r with
  | num => rfl
  | sym x =>
    have : x ≠ i := fun hx => hi (by simp [RExpr.syms, hx])
    simp [numberSymbol, mapIx, this]
  | indexed b ix => rfl
  | add a b iha ihb | mul a b iha ihb | pow a b iha ihb =>
    simp only [RExpr.syms, List.mem_append, not_or] at hi
    simp only [numberSymbol, mapIx, iha h.1 hi.1, ihb h.2 hi.2]
  | log a ih | exp a ih => simp only [numberSymbol, mapIx, ih h hi]
  | red => exact h.elim

theorem value_setIdx (A : Str → List SIdx → ℝ) (i : Str) (k : Nat) {r : RExpr} (h : RedFree r) (η : Str → SIdx) :
    (mapIx (fun _ ix => ix.map (setIdx i k)) r).value (fun x => A x []) A coords η =
      r.value (fun x => A x []) A coords (setEnv η i (.num k)) := by
  induction r with
  | num | sym => rfl
  | indexed b ix =>
    simp only [mapIx, RExpr.value, List.map_map]
    congr 1
    exact List.map_congr_left fun s _ => bindIdx_setIdx η i k s
  | add a b iha ihb | mul a b iha ihb | pow a b iha ihb =>
    simp only [mapIx, RExpr.value, iha h.1, ihb h.2]
  | log a ih | exp a ih => simp only [mapIx, RExpr.value, ih h]
  | red => exact h.elim

/-! ### What is needed of the objects -/

structure ObjectsOK (coords : Coords) (objs : List ModelObject) (locals : Dict Str RExpr) : Prop where
  found : ∀ o ∈ objs, dget locals o.name = some (toSympy o)
  others : ∀ x, x ∉ objs.map ModelObject.name → symbolOf locals x = .sym x
  fresh : ∀ o ∈ objs, o.dimVals = []
  known : ∀ o ∈ objs, ∀ d ∈ o.dims, d ∈ dkeys coords
  names : (objs.map ModelObject.name).Nodup
  labels : ∀ d ∈ dkeys coords, labelsOf coords d ≠ []

theorem object_unique (hn : (objs.map ModelObject.name).Nodup) {o o' : ModelObject} (ho : o ∈ objs)
    (ho' : o' ∈ objs) (h : o.name = o'.name) : o = o' := by
  obtain ⟨m, hm⟩ := List.getElem?_of_mem ho
  obtain ⟨m', hm'⟩ := List.getElem?_of_mem ho'
  have h1 := findIdx_name objs hn m o hm
  have h2 := findIdx_name objs hn m' o' hm'
  rw [h] at h1
  rw [h1] at h2
  cases h2
  rw [hm] at hm'
  exact Option.some.inj hm'

theorem labelsOf_eq_dget {d e : Str} (hd : d ∈ dkeys coords) (he : e ∈ dkeys coords)
    (h : labelsOf coords d = labelsOf coords e) : dget coords d = dget coords e := by
  obtain ⟨ls, h1⟩ := (mem_dkeys_iff coords d).1 hd
  obtain ⟨ls', h2⟩ := (mem_dkeys_iff coords e).1 he
  simp only [labelsOf, h1, h2, Option.getD_some] at h
  rw [h1, h2, h]

theorem forall₂_get? {α β : Type*} {R : α → β → Prop} {l : List α} {m : List β} (h : List.Forall₂ R l m)
    {p : Nat} {a : α} (ha : l[p]? = some a) : ∃ b, m[p]? = some b ∧ R a b := by
  induction h generalizing p with
  | nil => cases ha
  | cons hr _ ih =>
    cases p with
    | zero => cases ha; exact ⟨_, rfl, hr⟩
    | succ p => exact ih ha

theorem plain_sum (hO : ObjectsOK coords objs locals) {r : RExpr} (hrf : RedFree r)
    (hu : IndexUse coords objs r) (ds : List Str) : PlainReduction coords r (fullLims coords ds) where
  redFree := hrf
  bounds := by
    intro l hl
    simp only [fullLims, List.mem_reverse, List.mem_map] at hl
    obtain ⟨d, -, rfl⟩ := hl
    exact le_refl _
  known := by
    intro v hv s hs
    obtain ⟨o, ho, -, -, hix⟩ := hu.indexeds v hv
    obtain ⟨p, hp⟩ := List.getElem?_of_mem hs
    obtain ⟨d, -, i, rfl, hi, -⟩ := forall₂_get? hix hp
    obtain ⟨ls, h1⟩ := (mem_dkeys_iff coords i).1 hi
    refine ⟨i, ls, rfl, h1, fun hnil => hO.labels i hi ?_⟩
    simp [labelsOf, h1, hnil]
  consistent := by
    intro v hv w hw hvw p i j hi hj _ _
    obtain ⟨o, ho, hn, -, hix⟩ := hu.indexeds v hv
    obtain ⟨o', ho', hn', -, hix'⟩ := hu.indexeds w hw
    have := object_unique hO.names ho ho' (by rw [hn, hn', hvw])
    subst this
    obtain ⟨d, hd, i', hi', h1, h2⟩ := forall₂_get? hix hi
    obtain ⟨d', hd', j', hj', h3, h4⟩ := forall₂_get? hix' hj
    rw [hd] at hd'
    cases hd'
    cases hi'
    cases hj'
    exact labelsOf_eq_dget h1 h3 (h2.trans h4.symm)

theorem redFree_allPlain {r : RExpr} (h : RedFree r) : AllPlain coords r := by
  induction r with
  | num | sym | indexed => trivial
  | add a b iha ihb | mul a b iha ihb | pow a b iha ihb => exact ⟨iha h.1, ihb h.2⟩
  | log a ih | exp a ih => exact ih h
  | red => exact h.elim

theorem sympyRed_redFree (op : RedOp) {r : RExpr} (h : RedFree r) (l : Lim) :
    sympyRed op r l = .red op r [l] := by
  cases r <;> first | rfl | exact h.elim

theorem overDim_sympy (op : RedOp) {f : PExpr} {r : RExpr} (h : sympyOf locals f = .ok r) (d lo hi : Str) :
    sympyOf locals (overDim op f d lo hi) = .ok (sympyRed op r ⟨d, digitsVal lo, digitsVal hi + 1⟩) := by
  cases op <;> simp [overDim, sympyOf, h, bind, Except.bind]

theorem sums_sympy {op : RedOp} {e g : PExpr} {ds : List Str} (h : SumsOver coords op ds e g) {r : RExpr}
    (hr : sympyOf locals e = .ok r) (hrf : RedFree r) :
    sympyOf locals g = .ok (if ds = [] then r else .red op r (fullLims coords ds)) := by
  induction h with
  | nil => simpa using hr
  | @cons d ds f g lo hi hs hlh ih =>
    obtain ⟨hlo, hhi⟩ := hlh
    rw [overDim_sympy op (ih hr), hlo, hhi, if_neg (List.cons_ne_nil d ds)]
    have hl : fullLims coords (d :: ds) = fullLims coords ds ++ [⟨d, 0, (labelsOf coords d).length⟩] := by
      simp [fullLims, dimSize]
    rw [hl]
    by_cases hds : ds = []
    · subst hds
      rw [if_pos rfl, sympyRed_redFree op hrf]
      rfl
    · rw [if_neg hds, sympyRed, if_pos rfl]

/-! ### The values -/

/-- The arrays of the objects have the entries `A`. -/
def HoldsEntries (coords : Coords) (objs : List ModelObject) (env : Str → Res Arr)
    (A : Str → List SIdx → ℝ) : Prop :=
  ∀ o ∈ objs, ∃ a, env o.name = .ok a ∧ a.shape = o.dims.map (dimSize coords) ∧
    ∀ idx η, Agrees coords o.dims idx η → a.get idx = A o.name (o.dims.map η)

/-- The array `a` has, at labels, the values of `r`. -/
structure SameValues (coords : Coords) (A : Str → List SIdx → ℝ) (axs : Axes) (a : Arr) (r : RExpr) :
    Prop where
  shape : a.shape = axs.map (axisSize coords)
  get : ∀ idx η, AgreesAx coords axs idx η → a.get idx = r.value (fun x => A x []) A coords η

theorem sameValues_op {A : Str → List SIdx → ℝ} {ds es fs : Axes} (hf : AxesFit ds es fs) {a b : Arr}
    {r s t : RExpr} (f : ℝ → ℝ → ℝ) (ha : SameValues coords A ds a r) (hb : SameValues coords A es b s)
    (ht : ∀ η, t.value (fun x => A x []) A coords η =
      f (r.value (fun x => A x []) A coords η) (s.value (fun x => A x []) A coords η)) :
    ∃ c, arrayOp f a b = .ok c ∧ SameValues coords A fs c t := by
  obtain ⟨c, h1, h2, h3⟩ := fits_op hf f ha.shape hb.shape
  refine ⟨c, h1, h2, fun idx η hA => ?_⟩
  obtain ⟨i, j, g1, g2, g3⟩ := h3 idx η hA
  rw [g3, ha.get i η g1, hb.get j η g2, ht]

theorem agreesAx_renamed {ps : List (Str × Str)} {axs : Axes} {η : Str → SIdx}
    (hl : ∀ d, some d ∈ axs → labelsOf coords (renamed ps d) = labelsOf coords d) :
    ∀ {idx : List Nat}, AgreesAx coords (axs.map (Option.map (renamed ps))) idx η →
      AgreesAx coords axs idx fun d => η (renamed ps d) := by
  induction axs with
  | nil => intro idx h; cases h; exact .nil
  | cons a axs ih =>
    intro idx h
    cases h with
    | @cons _ i _ idx hi h =>
      refine .cons ?_ (ih (fun d hd => hl d (List.mem_cons_of_mem _ hd)) h)
      cases a with
      | none => exact hi
      | some d =>
        obtain ⟨l, h1, h2⟩ := hi
        exact ⟨l, by rw [← hl d (by simp)]; exact h1, h2⟩

theorem agreesAx_insert {d : Str} {η : Str → SIdx} {t : Nat} {l : Str}
    (hl : (labelsOf coords d)[t]? = some l) : ∀ (k : Nat) (axs : Axes) (idx : List Nat),
      axs[k]? = some (some d) → some d ∉ axs.eraseIdx k → AgreesAx coords (axs.eraseIdx k) idx η →
      AgreesAx coords axs (idx.insertIdx k t) (setEnv η d (sympifyLabel l)) := by
  have hset : ∀ (axs : Axes) (idx : List Nat), some d ∉ axs → AgreesAx coords axs idx η →
      AgreesAx coords axs idx (setEnv η d (sympifyLabel l)) := by
    intro axs idx hd hA
    induction hA with
    | nil => exact .nil
    | @cons a i axs idx hi _ ih =>
      rw [List.mem_cons, not_or] at hd
      refine .cons ?_ (ih hd.2)
      cases a with
      | none => exact hi
      | some e =>
        obtain ⟨l', h1, h2⟩ := hi
        exact ⟨l', h1, by rw [setEnv, if_neg (fun h => hd.1 (by rw [h]))]; exact h2⟩
  intro k
  induction k with
  | zero =>
    intro axs idx hk hd hA
    cases axs with
    | nil => cases hk
    | cons a axs =>
      cases hk
      rw [List.insertIdx_zero]
      exact .cons ⟨l, hl, by rw [setEnv, if_pos rfl]⟩ (hset _ _ hd hA)
  | succ k ih =>
    intro axs idx hk hd hA
    cases axs with
    | nil => cases hk
    | cons a axs =>
      rw [List.eraseIdx_cons_succ] at hd hA
      rw [List.mem_cons, not_or] at hd
      cases hA with
      | @cons _ i _ idx hi hA =>
        rw [List.insertIdx_succ_cons]
        refine .cons ?_ (ih axs idx hk hd.2 hA)
        cases a with
        | none => exact hi
        | some e =>
          obtain ⟨l', h1, h2⟩ := hi
          exact ⟨l', h1, by rw [setEnv, if_neg (fun h => hd.1 (by rw [h]))]; exact h2⟩

theorem mem_eraseIdx_some {axs : Axes} {k : Nat} {d e : Str} (hk : axs[k]? = some (some d))
    (hd : some d ∉ axs.eraseIdx k) : some e ∈ axs.eraseIdx k ↔ some e ∈ axs ∧ d ≠ e := by
  induction k generalizing axs with
  | zero =>
    cases axs with
    | nil => cases hk
    | cons a axs =>
      cases hk
      rw [List.eraseIdx_zero, List.tail_cons] at hd ⊢
      constructor
      · exact fun h => ⟨List.mem_cons_of_mem _ h, fun he => hd (he ▸ h)⟩
      · rintro ⟨h, hne⟩
        rcases List.mem_cons.1 h with h | h
        · cases h; exact absurd rfl hne
        · exact h
  | succ k ih =>
    cases axs with
    | nil => cases hk
    | cons a axs =>
      rw [List.eraseIdx_cons_succ, List.mem_cons, not_or] at hd
      rw [List.eraseIdx_cons_succ, List.mem_cons, List.mem_cons, ih hk hd.2]
      constructor
      · rintro (h | h)
        · exact ⟨Or.inl h, fun he => hd.1 (by rw [he, h])⟩
        · exact ⟨Or.inr h.1, h.2⟩
      · rintro ⟨h | h, hne⟩
        · exact Or.inl h
        · exact Or.inr ⟨h, hne⟩

/-! ### Twins -/

/-- What is known of twins. -/
structure TwinFacts (coords : Coords) (objs : List ModelObject) (locals : Dict Str RExpr) (b : Bool)
    (e f : PExpr) (axs : Axes) (r : RExpr) : Prop where
  sympy : sympyOf locals f = .ok r
  plain : AllPlain coords r
  redFree : b = false → RedFree r
  use : b = false → IndexUse coords objs r
  well : WellIndexed coords objs r
  free : ∀ d, hasFree [] d r = true ↔ some d ∈ axs
  vars : axs ≠ [] → e.vars.isEmpty = false
  value : ∀ env A, HoldsEntries coords objs env A → ∃ a, evalArr env e = .ok a ∧ SameValues coords A axs a r

theorem isEmpty_append_of {l m : List Str} (h : l.isEmpty = false ∨ m.isEmpty = false) :
    (l ++ m).isEmpty = false := by
  cases l with
  | nil => simpa using h
  | cons => rfl

theorem twins_op {b : Bool} {e g f h eg fh : PExpr} {ds es fs : Axes} {r s t : RExpr}
    (h1 : TwinFacts coords objs locals b e f ds r) (h2 : TwinFacts coords objs locals b g h es s)
    (hf : AxesFit ds es fs) (op : ℝ → ℝ → ℝ)
    (hsym : sympyOf locals f = .ok r → sympyOf locals h = .ok s → sympyOf locals fh = .ok t)
    (hplain : AllPlain coords r → AllPlain coords s → AllPlain coords t)
    (hred : RedFree r → RedFree s → RedFree t)
    (huse : IndexUse coords objs r → IndexUse coords objs s → IndexUse coords objs t)
    (hwell : WellIndexed coords objs r → WellIndexed coords objs s → WellIndexed coords objs t)
    (hfree : ∀ d, hasFree [] d t = true ↔ hasFree [] d r = true ∨ hasFree [] d s = true)
    (hvars : eg.vars = e.vars ++ g.vars)
    (hval : ∀ (A : Str → List SIdx → ℝ) η, t.value (fun x => A x []) A coords η =
      op (r.value (fun x => A x []) A coords η) (s.value (fun x => A x []) A coords η))
    (heval : ∀ env u v, evalArr env e = .ok u → evalArr env g = .ok v → evalArr env eg = arrayOp op u v) :
    TwinFacts coords objs locals b eg fh fs t where
  sympy := hsym h1.sympy h2.sympy
  plain := hplain h1.plain h2.plain
  redFree hb := hred (h1.redFree hb) (h2.redFree hb)
  use hb := huse (h1.use hb) (h2.use hb)
  well := hwell h1.well h2.well
  free d := by rw [hfree, h1.free, h2.free, fits_mem hf]
  vars hne := by
    rw [hvars]
    exact isEmpty_append_of ((fits_ne_nil hf hne).imp h1.vars h2.vars)
  value env A henv := by
    obtain ⟨u, k1, k2⟩ := h1.value env A henv
    obtain ⟨v, m1, m2⟩ := h2.value env A henv
    obtain ⟨c, n1, n2⟩ := sameValues_op hf op k2 m2 (t := t) (hval A)
    exact ⟨c, by rw [heval env u v k1 m1, n1], n2⟩

theorem twins_subs (hO : ObjectsOK coords objs locals) {e f g : PExpr} {axs : Axes} {ps : List (Str × Str)}
    {r : RExpr} (h : TwinFacts coords objs locals false e f axs r) (hp : RenamesAxes coords objs ps axs)
    (hg : sympyOf locals g = .ok (subsNames locals ps r)) :
    TwinFacts coords objs locals false e g (axs.map (Option.map (renamed ps)))
      (mapIx (fun _ ix => ix.map (onIdx (renamed ps))) r) := by
  have hrf := h.redFree rfl
  have hrf' := redFree_mapIx (fun _ ix => ix.map (onIdx (renamed ps))) r hrf
  have hsub : subsNames locals ps r = mapIx (fun _ ix => ix.map (onIdx (renamed ps))) r := by
    refine subsNames_mapIx ps hrf fun p hpp => ?_
    obtain ⟨h1, h2⟩ := hp.objects p hpp
    refine ⟨hO.others _ h1, hO.others _ h2, fun hs => h1 ?_⟩
    obtain ⟨o, ho, hn, -⟩ := (h.use rfl).syms _ hs
    exact List.mem_map.2 ⟨o, ho, hn⟩
  have huse : IndexUse coords objs (mapIx (fun _ ix => ix.map (onIdx (renamed ps))) r) := by
    constructor
    · intro x hx
      rw [syms_mapIx] at hx
      exact (h.use rfl).syms x hx
    · intro v hv
      rw [indexeds_mapIx] at hv
      obtain ⟨w, hw, rfl⟩ := List.mem_map.1 hv
      obtain ⟨o, ho, h1, h2, h3⟩ := (h.use rfl).indexeds w hw
      refine ⟨o, ho, h1, h2, ?_⟩
      dsimp only
      rw [List.forall₂_map_left_iff]
      have hmem : ∀ s ∈ w.2, ∀ i, s = .idx i → some i ∈ axs := fun s hs i hi =>
        (h.free i).1 ((redFree_hasFree hrf i).2 ⟨w, hw, hi ▸ hs⟩)
      generalize w.2 = ix at h3 hmem
      generalize o.dims = ds at h3 ⊢
      clear h1 h2
      induction h3 with
      | nil => exact .nil
      | cons hsd _ ih =>
        refine .cons ?_ (ih fun s hs => hmem s (List.mem_cons_of_mem _ hs))
        obtain ⟨i, rfl, hi, hl⟩ := hsd
        have := hmem _ (by simp) i rfl
        exact ⟨renamed ps i, rfl, hp.known i this, (hp.labels i this).trans hl⟩
  refine ⟨hg.trans (congrArg _ hsub), redFree_allPlain hrf', fun _ => hrf', fun _ => huse, huse.well, fun d => ?_, fun hne => ?_,
    fun env A henv => ?_⟩
  · rw [redFree_hasFree hrf', indexeds_mapIx]
    constructor
    · rintro ⟨v, hv, hd⟩
      obtain ⟨w, hw, rfl⟩ := List.mem_map.1 hv
      obtain ⟨s, hs, he⟩ := List.mem_map.1 hd
      cases s with
      | idx i =>
        cases he
        exact List.mem_map.2 ⟨some i, (h.free i).1 ((redFree_hasFree hrf i).2 ⟨w, hw, hs⟩), rfl⟩
      | _ => cases he
    · intro hd
      obtain ⟨a, ha, he⟩ := List.mem_map.1 hd
      cases a with
      | none => cases he
      | some i =>
        cases he
        obtain ⟨w, hw, hs⟩ := (redFree_hasFree hrf i).1 ((h.free i).2 ha)
        exact ⟨_, List.mem_map.2 ⟨w, hw, rfl⟩, List.mem_map.2 ⟨_, hs, rfl⟩⟩
  · exact h.vars fun hnil => hne (by rw [hnil]; rfl)
  · obtain ⟨a, h1, h2⟩ := h.value env A henv
    refine ⟨a, h1, ?_, fun idx η hA => ?_⟩
    · rw [h2.shape, List.map_map]
      refine List.map_congr_left fun x hx => ?_
      cases x with
      | none => rfl
      | some d => simp [axisSize, dimSize, hp.labels d hx]
    · rw [value_onIdx A _ hrf, h2.get idx _ (agreesAx_renamed hp.labels hA)]

theorem twins_facts (hO : ObjectsOK coords objs locals) {b : Bool} {e f : PExpr} {axs : Axes}
    (h : Twins coords objs b e f axs) : ∃ r, TwinFacts coords objs locals b e f axs r := by
  induction h with
  | @var b o ho =>
    have huse : IndexUse coords objs (toSympy o) := by
      rw [toSympy_fresh o (hO.fresh o ho)]
      by_cases hd : o.dims = []
      · rw [if_pos hd]
        refine ⟨?_, fun _ h => (by cases h)⟩
        intro x hx
        simp only [RExpr.syms, List.mem_singleton] at hx
        exact ⟨o, ho, hx.symm, hd⟩
      · rw [if_neg hd]
        refine ⟨fun _ h => (by cases h), ?_⟩
        intro v hv
        simp only [RExpr.indexeds, List.mem_singleton] at hv
        subst hv
        refine ⟨o, ho, rfl, hd, ?_⟩
        dsimp only
        rw [List.forall₂_map_left_iff, List.forall₂_same]
        exact fun d hd => ⟨d, rfl, hO.known o ho d hd, rfl⟩
    refine ⟨toSympy o, by simp [sympyOf, symbolOf, hO.found o ho], ?_, ?_, fun _ => huse, huse.well, ?_,
      fun _ => rfl, ?_⟩
    · rw [toSympy_fresh o (hO.fresh o ho)]; split <;> trivial
    · intro _; rw [toSympy_fresh o (hO.fresh o ho)]; split <;> trivial
    · intro d
      rw [toSympy_fresh o (hO.fresh o ho)]
      by_cases hd : o.dims = []
      · rw [if_pos hd, hd]; simp [hasFree]
      · rw [if_neg hd]; simp [hasFree]
    · intro env A henv
      obtain ⟨a, h1, h2, h3⟩ := henv o ho
      refine ⟨a, h1, by rw [h2, map_axisSize_some], fun idx η hA => ?_⟩
      rw [h3 idx η (agreesAx_some.1 hA), toSympy_fresh o (hO.fresh o ho)]
      by_cases hd : o.dims = []
      · rw [if_pos hd, hd]; rfl
      · rw [if_neg hd]
        simp only [RExpr.value, List.map_map]
        rfl
  | @num b s =>
    exact ⟨.num (numQ s), rfl, trivial, fun _ => trivial, fun _ => indexUse_num _, (indexUse_num _).well, by simp [hasFree],
      fun h => absurd rfl h, fun env A _ => ⟨_, rfl, rfl, fun idx η _ => numVal_numQ s⟩⟩
  | @neg b e f ds _ ih =>
    obtain ⟨r, h⟩ := ih
    refine ⟨.mul (.num (-1)) r, by simp [sympyOf, h.sympy, bind, Except.bind], ⟨trivial, h.plain⟩,
      fun hb => ⟨trivial, h.redFree hb⟩, fun hb => (indexUse_num (-1)).two (h.use hb) rfl rfl,
      (indexUse_num (-1)).well.two h.well rfl rfl, fun d => ?_, h.vars,
      fun env A henv => ?_⟩
    · rw [← h.free d]; simp [hasFree]
    · obtain ⟨a, h1, h2⟩ := h.value env A henv
      refine ⟨a.map fun v => - v, by simp [evalArr, h1, bind, Except.bind], h2.shape, fun idx η hA => ?_⟩
      show - a.get idx = _
      rw [h2.get idx η hA]
      simp [RExpr.value]
  | pos _ ih =>
    obtain ⟨r, h⟩ := ih
    exact ⟨r, h.sympy, h.plain, h.redFree, h.use, h.well, h.free, h.vars, h.value⟩
  | @add b e g f k ds es fs _ _ hf iha ihb =>
    obtain ⟨r, h1⟩ := iha
    obtain ⟨s, h2⟩ := ihb
    exact ⟨.add r s, twins_op h1 h2 hf (· + ·) (fun k1 k2 => by simp [sympyOf, k1, k2, bind, Except.bind])
      (fun k1 k2 => ⟨k1, k2⟩) (fun k1 k2 => ⟨k1, k2⟩) (fun k1 k2 => k1.two k2 rfl rfl)
      (fun k1 k2 => k1.two k2 rfl rfl)
      (fun d => by simp [hasFree]) rfl (fun A η => rfl)
      (fun env u v k1 k2 => by simp [evalArr, k1, k2, bind, Except.bind])⟩
  | @sub b e g f k ds es fs _ _ hf iha ihb =>
    obtain ⟨r, h1⟩ := iha
    obtain ⟨s, h2⟩ := ihb
    exact ⟨.add r (.mul (.num (-1)) s), twins_op h1 h2 hf (· - ·)
      (fun k1 k2 => by simp [sympyOf, k1, k2, bind, Except.bind])
      (fun k1 k2 => ⟨k1, trivial, k2⟩) (fun k1 k2 => ⟨k1, trivial, k2⟩)
      (fun k1 k2 => k1.two ((indexUse_num (-1)).two k2 rfl rfl) rfl rfl)
      (fun k1 k2 => k1.two ((indexUse_num (-1)).well.two k2 rfl rfl) rfl rfl)
      (fun d => by simp [hasFree]) rfl (fun A η => by simp [RExpr.value, sub_eq_add_neg])
      (fun env u v k1 k2 => by simp [evalArr, k1, k2, bind, Except.bind])⟩
  | @mul b e g f k ds es fs _ _ hf iha ihb =>
    obtain ⟨r, h1⟩ := iha
    obtain ⟨s, h2⟩ := ihb
    exact ⟨.mul r s, twins_op h1 h2 hf (· * ·) (fun k1 k2 => by simp [sympyOf, k1, k2, bind, Except.bind])
      (fun k1 k2 => ⟨k1, k2⟩) (fun k1 k2 => ⟨k1, k2⟩) (fun k1 k2 => k1.two k2 rfl rfl)
      (fun k1 k2 => k1.two k2 rfl rfl)
      (fun d => by simp [hasFree]) rfl (fun A η => rfl)
      (fun env u v k1 k2 => by simp [evalArr, k1, k2, bind, Except.bind])⟩
  | @div b e g f k ds es fs _ _ hf iha ihb =>
    obtain ⟨r, h1⟩ := iha
    obtain ⟨s, h2⟩ := ihb
    exact ⟨.mul r (.pow s (.num (-1))), twins_op h1 h2 hf (· / ·)
      (fun k1 k2 => by simp [sympyOf, k1, k2, bind, Except.bind])
      (fun k1 k2 => ⟨k1, k2, trivial⟩) (fun k1 k2 => ⟨k1, k2, trivial⟩)
      (fun k1 k2 => k1.two (k2.two (indexUse_num (-1)) rfl rfl) rfl rfl)
      (fun k1 k2 => k1.two (k2.two (indexUse_num (-1)).well rfl rfl) rfl rfl)
      (fun d => by simp [hasFree]) rfl (fun A η => by simp [RExpr.value, div_eq_mul_inv, Real.rpow_neg_one])
      (fun env u v k1 k2 => by simp [evalArr, k1, k2, bind, Except.bind])⟩
  | @pow b e g f k ds es fs _ _ hf iha ihb =>
    obtain ⟨r, h1⟩ := iha
    obtain ⟨s, h2⟩ := ihb
    exact ⟨.pow r s, twins_op h1 h2 hf (· ^ ·) (fun k1 k2 => by simp [sympyOf, k1, k2, bind, Except.bind])
      (fun k1 k2 => ⟨k1, k2⟩) (fun k1 k2 => ⟨k1, k2⟩) (fun k1 k2 => k1.two k2 rfl rfl)
      (fun k1 k2 => k1.two k2 rfl rfl)
      (fun d => by simp [hasFree]) rfl (fun A η => rfl)
      (fun env u v k1 k2 => by simp [evalArr, k1, k2, bind, Except.bind])⟩
  | @addSwap b e g f k ds es fs _ _ hf iha ihb =>
    obtain ⟨r, h1⟩ := iha
    obtain ⟨s, h2⟩ := ihb
    exact ⟨.add s r, twins_op h1 h2 hf (· + ·) (fun k1 k2 => by simp [sympyOf, k1, k2, bind, Except.bind])
      (fun k1 k2 => ⟨k2, k1⟩) (fun k1 k2 => ⟨k2, k1⟩) (fun k1 k2 => k2.two k1 rfl rfl)
      (fun k1 k2 => k2.two k1 rfl rfl)
      (fun d => by simp [hasFree, or_comm]) rfl (fun A η => by simp only [RExpr.value]; ring)
      (fun env u v k1 k2 => by simp [evalArr, k1, k2, bind, Except.bind])⟩
  | @mulSwap b e g f k ds es fs _ _ hf iha ihb =>
    obtain ⟨r, h1⟩ := iha
    obtain ⟨s, h2⟩ := ihb
    exact ⟨.mul s r, twins_op h1 h2 hf (· * ·) (fun k1 k2 => by simp [sympyOf, k1, k2, bind, Except.bind])
      (fun k1 k2 => ⟨k2, k1⟩) (fun k1 k2 => ⟨k2, k1⟩) (fun k1 k2 => k2.two k1 rfl rfl)
      (fun k1 k2 => k2.two k1 rfl rfl)
      (fun d => by simp [hasFree, or_comm]) rfl (fun A η => by simp only [RExpr.value]; ring)
      (fun env u v k1 k2 => by simp [evalArr, k1, k2, bind, Except.bind])⟩
  | @newAxis0 b e f ds _ hne ih =>
    obtain ⟨r, h⟩ := ih
    refine ⟨r, h.sympy, h.plain, h.redFree, h.use, h.well, fun d => by rw [h.free d]; simp, fun _ => h.vars hne,
      fun env A henv => ?_⟩
    obtain ⟨a, h1, h2⟩ := h.value env A henv
    refine ⟨a.newAxis0, by simp [evalArr, h1, bind, Except.bind, postArr, h.vars hne], ?_, fun idx η hA => ?_⟩
    · show 1 :: a.shape = _
      rw [h2.shape]; rfl
    · cases hA with
      | cons _ hA => exact h2.get _ η hA
  | @newAxis1 b e f x ds _ ih =>
    obtain ⟨r, h⟩ := ih
    have hv := h.vars (List.cons_ne_nil _ _)
    refine ⟨r, h.sympy, h.plain, h.redFree, h.use, h.well, fun d => by rw [h.free d]; simp, fun _ => hv,
      fun env A henv => ?_⟩
    obtain ⟨a, h1, h2⟩ := h.value env A henv
    have hs := h2.shape
    rw [List.map_cons] at hs
    refine ⟨⟨axisSize coords x :: 1 :: ds.map (axisSize coords),
      fun idx => a.get (idx.headD 0 :: idx.drop 2)⟩, ?_, rfl, fun idx η hA => ?_⟩
    · simp only [evalArr, h1, bind, Except.bind, postArr, hv, Arr.newAxis1, hs]
      rfl
    · cases hA with
      | @cons _ i _ idx hi hA =>
        cases hA with
        | cons _ hA => exact h2.get _ η (.cons hi hA)
  | @ravel b e f d _ ih =>
    obtain ⟨r, h⟩ := ih
    have hv := h.vars (List.cons_ne_nil _ _)
    refine ⟨r, h.sympy, h.plain, h.redFree, h.use, h.well, h.free, fun _ => hv, fun env A henv => ?_⟩
    obtain ⟨a, h1, h2⟩ := h.value env A henv
    have hs := h2.shape
    refine ⟨a.ravel, ?_, ?_, fun idx η hA => ?_⟩
    · simp only [evalArr, h1, bind, Except.bind, postArr, hv]
      rfl
    · show [a.shape.prod] = _
      rw [hs]
      simp
    · cases hA with
      | @cons _ i _ idx hi hA =>
        cases hA
        show a.get (Arr.unravel a.shape i) = _
        rw [hs]
        have : Arr.unravel (List.map (axisSize coords) [some d]) i = [i] := by
          simp [Arr.unravel]
        rw [this]
        exact h2.get _ η (.cons hi .nil)
  | @subs e f axs i j _ hp ih =>
    obtain ⟨r, h⟩ := ih
    exact ⟨_, twins_subs hO h hp (by simp [sympyOf, h.sympy, bind, Except.bind])⟩
  | @subsList e f axs ps _ hp ih =>
    obtain ⟨r, h⟩ := ih
    exact ⟨_, twins_subs hO h hp (by simp [sympyOf, h.sympy, bind, Except.bind])⟩
  | free _ ih =>
    obtain ⟨r, h⟩ := ih
    exact ⟨r, h.sympy, h.plain, fun hb => (nomatch hb), fun hb => (nomatch hb), h.well, h.free, h.vars, h.value⟩
  | @reduce op e f g ds _ hne hnd hs ih =>
    obtain ⟨r, h⟩ := ih
    have hrf := h.redFree rfl
    have hv := h.vars (by simpa using hne)
    have hsy := sums_sympy hs h.sympy hrf
    rw [if_neg hne] at hsy
    refine ⟨_, hsy, plain_sum hO hrf (h.use rfl) ds, fun hb => (nomatch hb), fun hb => (nomatch hb),
      ⟨h.well.scalars, h.well.arrays⟩,
      fun d => ?_, fun h => absurd rfl h, fun env A henv => ?_⟩
    · simp only [hasFree, Bool.and_eq_true, List.not_mem_nil, iff_false, not_and, h.free d]
      intro hd hall
      rw [List.all_eq_true] at hall
      have := hall ⟨d, 0, dimSize coords d⟩ (by simpa [fullLims] using hd)
      simp at this
    · obtain ⟨a, h1, h2⟩ := h.value env A henv
      have hsh : a.shape = ds.map (dimSize coords) := by rw [h2.shape, map_axisSize_some]
      have hent : ∀ η, a.entries = (product (ds.map (labelsOf coords))).map fun ls =>
          r.value (fun x => A x []) A coords (setAll η ds ls) := fun η =>
        entries_eq a ds hsh (fun ls => r.value (fun x => A x []) A coords (setAll η ds ls))
          fun idx ls hp => h2.get idx _ (agreesAx_some.2 (agrees_setAll ds hnd η idx ls hp))
      refine ⟨Arr.const (reduceVals op a.entries), ?_, rfl, fun idx η _ => ?_⟩
      · simp only [evalArr, h1, bind, Except.bind, postArr, hv]
        cases op <;> rfl
      · show reduceVals op a.entries = _
        simp only [RExpr.value]
        rw [overLims_full, hent η]
  | @sumAxis e f axs k d lo hi _ hdot hk hd hfull ih =>
    obtain ⟨r, h⟩ := ih
    have hrf := h.redFree rfl
    have hne : axs ≠ [] := by rintro rfl; cases hk
    have hv := h.vars hne
    have hpos : 0 < dimSize coords d := by
      have := hfull.2
      unfold dimSize
      omega
    have hsy : sympyOf locals (.sumOver f d lo hi) = .ok (.red .sum r (fullLims coords [d])) := by
      have := overDim_sympy .sum h.sympy d lo hi
      rw [sympyRed_redFree _ hrf, hfull.1, hfull.2] at this
      exact this
    refine ⟨_, hsy, plain_sum hO hrf (h.use rfl) [d], fun hb => (nomatch hb), fun hb => (nomatch hb),
      ⟨h.well.scalars, h.well.arrays⟩,
      fun x => ?_, fun _ => hv, fun env A henv => ?_⟩
    · rw [mem_eraseIdx_some hk hd, ← h.free x]
      simp [hasFree, fullLims, hpos]
    · obtain ⟨a, h1, h2⟩ := h.value env A henv
      have hsk : a.shape[digitsVal k]? = some (dimSize coords d) := by
        rw [h2.shape, List.getElem?_map, hk]; rfl
      refine ⟨⟨a.shape.eraseIdx (digitsVal k), fun idx => ∑ t ∈ Finset.range (dimSize coords d),
        a.get (idx.insertIdx (digitsVal k) t)⟩, ?_, ?_, fun idx η hA => ?_⟩
      · simp only [evalArr, h1, bind, Except.bind, postArr, hv, axisOf, if_neg hdot, Arr.sumAxis, hsk]
        rfl
      · show a.shape.eraseIdx (digitsVal k) = _
        rw [h2.shape, List.eraseIdx_map]
      · simp only [RExpr.value]
        rw [overLims_full]
        simp only [List.map_cons, List.map_nil, product, reduceVals]
        show ∑ t ∈ Finset.range (labelsOf coords d).length, _ = _
        rw [← sum_map_labels (labelsOf coords d) (fun l => r.value (fun x => A x []) A coords (setEnv η d (sympifyLabel l)))]
        · congr 1
          generalize labelsOf coords d = ls
          induction ls with
          | nil => rfl
          | cons l ls ih => rw [List.flatMap_cons, List.map_append, List.map_cons, ih]; rfl
        · intro t l hl
          exact h2.get _ _ (agreesAx_insert hl _ axs idx hk hd hA)
  | @item e f axs d k _ hd hdot hlab hobj ih =>
    obtain ⟨r, h⟩ := ih
    have hrf := h.redFree rfl
    have huse := h.use rfl
    have hv := h.vars (List.cons_ne_nil _ _)
    have hrf' := redFree_mapIx (fun _ ix => ix.map (setIdx d (digitsVal k))) r hrf
    have hsub : subsNumber locals d k r = .ok (mapIx (fun _ ix => ix.map (setIdx d (digitsVal k))) r) := by
      rw [subsNumber, if_neg hdot, hO.others d hobj]
      dsimp only
      rw [numberSymbol_mapIx _ _ hrf]
      intro hs
      obtain ⟨o, ho, hn, -⟩ := huse.syms _ hs
      exact hobj (List.mem_map.2 ⟨o, ho, hn⟩)
    refine ⟨_, by simp only [sympyOf, h.sympy, bind, Except.bind]; exact hsub, redFree_allPlain hrf',
      fun hb => (nomatch hb), fun hb => (nomatch hb), ⟨?_, ?_⟩, fun x => ?_, fun _ => hv, fun env A henv => ?_⟩
    · intro x hx
      rw [syms_mapIx] at hx
      exact huse.syms x hx
    · intro v hv
      rw [indexeds_mapIx] at hv
      obtain ⟨w, hw, rfl⟩ := List.mem_map.1 hv
      obtain ⟨o, ho, h1, h2, h3⟩ := huse.indexeds w hw
      refine ⟨o, ho, h1, h2, ?_⟩
      dsimp only
      rw [List.forall₂_map_left_iff]
      refine h3.imp ?_
      rintro s x ⟨i, rfl, hi, hl⟩
      by_cases hid : i = d
      · subst hid
        refine Or.inr ⟨(toString (digitsVal k)).toList, ?_, ?_⟩
        · rw [sympifyLabel_toString]; simp [setIdx]
        · rw [← hl]; exact List.mem_of_getElem? hlab
      · exact Or.inl ⟨i, by simp [setIdx, hid], hi, fun l hl' => hl ▸ hl'⟩
    · have hm := mem_eraseIdx_some (axs := some d :: axs) (k := 0) (d := d) (e := x) rfl hd
      rw [List.eraseIdx_zero, List.tail_cons] at hm
      rw [hm, ← h.free x, redFree_hasFree hrf', redFree_hasFree hrf, indexeds_mapIx]
      constructor
      · rintro ⟨v, hv, hx⟩
        obtain ⟨w, hw, rfl⟩ := List.mem_map.1 hv
        obtain ⟨s, hs, he⟩ := List.mem_map.1 hx
        cases s with
        | idx i =>
          by_cases hid : i = d
          · simp [setIdx, hid] at he
          · simp only [setIdx, if_neg hid] at he
            cases he
            exact ⟨⟨w, hw, hs⟩, fun h => hid h.symm⟩
        | _ => cases he
      · rintro ⟨⟨w, hw, hs⟩, hne⟩
        exact ⟨_, List.mem_map.2 ⟨w, hw, rfl⟩, List.mem_map.2 ⟨_, hs, by simp [setIdx, Ne.symm hne]⟩⟩
    · obtain ⟨a, h1, h2⟩ := h.value env A henv
      have hs := h2.shape
      rw [List.map_cons] at hs
      have hlt : digitsVal k < axisSize coords (some d) := by
        obtain ⟨hlt, -⟩ := List.getElem?_eq_some_iff.1 hlab
        exact hlt
      refine ⟨⟨axs.map (axisSize coords), fun idx => a.get (digitsVal k :: idx)⟩, ?_, rfl, fun idx η hA => ?_⟩
      · simp only [evalArr, h1, bind, Except.bind, postArr, hv, axisOf, if_neg hdot, Arr.item, hs]
        rw [if_pos hlt]
        rfl
      · rw [value_setIdx A _ _ hrf]
        have := agreesAx_insert hlab 0 (some d :: axs) idx rfl hd hA
        rw [sympifyLabel_toString] at this
        exact h2.get _ _ this

end Verif
