import Verif.Model.Plots
import Verif.Lemmas.Expand
import Verif.Props.Grid
import Verif.Props.Idata
import Mathlib.Tactic.FieldSimp
import Mathlib.Tactic.Ring
import Mathlib.Tactic.Positivity
import Mathlib.Data.Rat.Floor

/-!
# C61: bar plots; C62: area plots
-/

namespace Verif

/-! ## Steps of a stored trajectory -/

/-- The variable `name` is stored in the dataset with `n + 1` steps, its axes after the first being the
dims, each as long as it has labels. -/
structure Trajectory {K : Type} (coords : Coords) (ds : XDataset K) (name : Str) (dims : List Str)
    (n : Nat) (v : NDArray K) : Prop where
  stored : dget ds name = some ("step".toList :: dims, v)
  known : ∀ d ∈ dims, d ∈ dkeys coords
  shape : v.shape = (n + 1) :: dims.map fun d => (labelsOf coords d).length
  wf : v.WF

section Steps

variable {K : Type}

theorem lastStepData_spec (v : NDArray K) (n : Nat) (s : List Nat) (hs : v.shape = (n + 1) :: s)
    (hw : v.WF) : ∃ x, lastStepData v = .ok x ∧ x.length = s.prod ∧
      ∀ idx, ValidIdx s idx → x[ravelIndex s idx]? = v.at? (n :: idx) := by
  refine ⟨v.data.drop (n * s.prod), by simp [lastStepData, hs], ?_, ?_⟩
  · rw [List.length_drop, hw, hs, List.prod_cons, Nat.add_mul, Nat.one_mul]; omega
  · intro idx hi
    have hv : ValidIdx v.shape (n :: idx) := by rw [hs]; exact ⟨Nat.lt_succ_self n, hi⟩
    rw [NDArray.at?, if_pos hv, hs, List.getElem?_drop]
    rfl

theorem firstStepData_spec (v : NDArray K) (n : Nat) (s : List Nat) (hs : v.shape = (n + 1) :: s)
    (hw : v.WF) : ∃ x, firstStepData v = .ok x ∧ x.length = s.prod ∧
      ∀ idx, ValidIdx s idx → x[ravelIndex s idx]? = v.at? (0 :: idx) := by
  refine ⟨v.data.take s.prod, by simp [firstStepData, hs], ?_, ?_⟩
  · rw [List.length_take, hw, hs, List.prod_cons, Nat.add_mul, Nat.one_mul]; omega
  · intro idx hi
    have hv : ValidIdx v.shape (0 :: idx) := by rw [hs]; exact ⟨Nat.succ_pos n, hi⟩
    rw [NDArray.at?, if_pos hv, hs, List.getElem?_take_of_lt (ravelIndex_lt _ _ hi)]
    simp [ravelIndex]

theorem mapM_exists {α β ε : Type _} (f : α → Except ε β) (P : α → β → Prop) (l : List α)
    (h : ∀ x ∈ l, ∃ y, f x = .ok y ∧ P x y) : ∃ ys, l.mapM f = .ok ys ∧ List.Forall₂ P l ys := by
  induction l with
  | nil => exact ⟨[], rfl, .nil⟩
  | cons a l ih =>
    obtain ⟨y, hy, hp⟩ := h a (by simp)
    obtain ⟨ys, hys, hps⟩ := ih fun x hx => h x (by simp [hx])
    exact ⟨y :: ys, by rw [List.mapM_cons, hy, hys]; rfl, .cons hp hps⟩

theorem mapM_exists₂ {α β γ ε : Type _} (f : β → Except ε γ) (P : α → β → Prop) (Q : α → γ → Prop)
    (l : List α) (ys : List β) (hP : List.Forall₂ P l ys)
    (h : ∀ x y, P x y → ∃ z, f y = .ok z ∧ Q x z) :
    ∃ zs, ys.mapM f = .ok zs ∧ List.Forall₂ Q l zs := by
  induction hP with
  | nil => exact ⟨[], rfl, .nil⟩
  | cons hp _ ih =>
    obtain ⟨z, hz, hq⟩ := h _ _ hp
    obtain ⟨zs, hzs, hqs⟩ := ih
    exact ⟨z :: zs, by rw [List.mapM_cons, hz, hzs]; rfl, .cons hq hqs⟩

end Steps

/-! ## Bars -/

section Bars

variable {K : Type} [Field K] [LinearOrder K]

/-- What the bars `c` over one label must be, given the final value `f` and the initial value `i`. -/
structure CellShows (metric : Str) (threshold f i : K) (c : List K) : Prop where
  pct : metric = "pct_change".toList → threshold < i → c = [(f - i) / i]
  change : metric = "change".toList → c = [f - i]
  absChange : metric = "abs_change".toList → c = [|f - i|]
  final : metric = "final".toList → c = [f]
  initial : metric = "initial".toList → c = [i]
  both : metric = "both".toList → c = [f, i]

/-- The documented values of `metric`. -/
def documentedMetrics : List Str :=
  ["pct_change".toList, "change".toList, "abs_change".toList, "final".toList, "initial".toList,
   "both".toList]

theorem metricCell_spec (metric : Str) (thr : K) (h : metric ∈ documentedMetrics) :
    ∃ g, metricCell metric thr = some g ∧ ∀ f i, CellShows metric thr f i (g f i) := by
  have ne {a b : Str} {p : Prop} (h : a ≠ b) : a = b → p := fun e => absurd e h
  simp only [documentedMetrics, List.mem_cons, List.not_mem_nil, or_false] at h
  rcases h with rfl | rfl | rfl | rfl | rfl | rfl
  · refine ⟨fun d i => [if thr < i then (d - i) / i else 0], if_pos rfl, fun f i => ?_⟩
    exact ⟨fun _ hi => by dsimp only; rw [if_pos hi], ne (by decide), ne (by decide), ne (by decide),
      ne (by decide), ne (by decide)⟩
  · exact ⟨fun d i => [d - i], rfl, fun f i => ⟨ne (by decide), fun _ => rfl, ne (by decide),
      ne (by decide), ne (by decide), ne (by decide)⟩⟩
  · exact ⟨fun d i => [|d - i|], rfl, fun f i => ⟨ne (by decide), ne (by decide), fun _ => rfl,
      ne (by decide), ne (by decide), ne (by decide)⟩⟩
  · exact ⟨fun d _ => [d], rfl, fun f i => ⟨ne (by decide), ne (by decide), ne (by decide),
      fun _ => rfl, ne (by decide), ne (by decide)⟩⟩
  · exact ⟨fun _ i => [i], rfl, fun f i => ⟨ne (by decide), ne (by decide), ne (by decide),
      ne (by decide), fun _ => rfl, ne (by decide)⟩⟩
  · exact ⟨fun d i => [d, i], rfl, fun f i => ⟨ne (by decide), ne (by decide), ne (by decide),
      ne (by decide), ne (by decide), fun _ => rfl⟩⟩

theorem computeBarData_ok (data initial : BarRows K) (metric : Str) (thr : K)
    (h : metric ∈ documentedMetrics) (hl : data.length = initial.length) :
    ∃ rows, computeBarData data initial metric thr = .ok rows ∧ rows.length = data.length ∧
      ∀ (k : Nat) ld f li i, data[k]? = some (ld, f) → initial[k]? = some (li, i) →
        ∃ c, rows[k]? = some (ld, c) ∧ CellShows metric thr f i c := by
  obtain ⟨g, hg, hs⟩ := metricCell_spec metric thr h
  refine ⟨List.zipWith (fun d i => (d.1, g d.2 i.2)) data initial,
    by simp only [computeBarData, hg], by simp [hl], ?_⟩
  intro k ld f li i hd hi
  exact ⟨g f i, by rw [List.getElem?_zipWith, hd, hi], hs f i⟩

omit [Field K] [LinearOrder K] in
theorem toFrame_ok (coords : Coords) (dims : List Str) (x : List K) (hd : dims ≠ [])
    (hk : ∀ d ∈ dims, d ∈ dkeys coords) :
    toFrame coords dims x = .ok ((product (dims.map (labelsOf coords))).zip x) := by
  unfold toFrame
  rw [if_neg hd, mapM_labels coords dims hk]
  rfl

theorem map_length_labels (coords : Coords) (dims : List Str) :
    (dims.map (labelsOf coords)).map List.length = dims.map fun d => (labelsOf coords d).length := by
  simp

/-- The panel of one variable. -/
structure PanelShows (coords : Coords) (metric : Str) (thr : K) (dims : List Str) (n : Nat)
    (v : NDArray K) (rows : List (List Str × List K)) : Prop where
  count : rows.length = (dims.map fun d => (labelsOf coords d).length).prod
  cell : ∀ idx, ValidIdx (dims.map fun d => (labelsOf coords d).length) idx →
    ∃ labels f i c, pick (dims.map (labelsOf coords)) idx = some labels ∧
      v.at? (n :: idx) = some f ∧ v.at? (0 :: idx) = some i ∧
      rows[ravelIndex (dims.map fun d => (labelsOf coords d).length) idx]? = some (labels, c) ∧
      CellShows metric thr f i c

omit [Field K] [LinearOrder K] in
theorem at?_isSome (v : NDArray K) (hw : v.WF) (idx : List Nat) (h : ValidIdx v.shape idx) :
    ∃ a, v.at? idx = some a := by
  have hlt := ravelIndex_lt _ _ h
  rw [← hw] at hlt
  exact ⟨v.data[ravelIndex v.shape idx], by rw [NDArray.at?, if_pos h, List.getElem?_eq_getElem hlt]⟩

theorem oneBar_ok (coords : Coords) (ds : XDataset K) (name : Str) (dims : List Str) (n : Nat)
    (v : NDArray K) (metric : Str) (thr : K) (hm : metric ∈ documentedMetrics) (hd : dims ≠ [])
    (ht : Trajectory coords ds name dims n v) :
    ∃ f i, barInputs ds name = .ok (name, dims, f, i) ∧
      ∃ rows, oneBar coords dims f i none metric thr = .ok rows ∧
        PanelShows coords metric thr dims n v rows := by
  obtain ⟨f, hf, hfl, hfa⟩ := lastStepData_spec v n _ ht.shape ht.wf
  obtain ⟨i, hi, hil, hia⟩ := firstStepData_spec v n _ ht.shape ht.wf
  have hlen : (product (dims.map (labelsOf coords))).length =
      (dims.map fun d => (labelsOf coords d).length).prod := by
    rw [length_product, map_length_labels]
  refine ⟨f, i, ?_, ?_⟩
  · simp only [barInputs, dgetE, ht.stored, bind, Except.bind, hf, hi, pure, Except.pure,
      List.tail_cons]
  · obtain ⟨rows, hr, hrl, hrc⟩ := computeBarData_ok
      ((product (dims.map (labelsOf coords))).zip f) ((product (dims.map (labelsOf coords))).zip i)
      metric thr hm (by simp [hfl, hil])
    refine ⟨rows, ?_, ?_, ?_⟩
    · simp only [oneBar, toFrame_ok coords dims _ hd ht.known, bind, Except.bind, applyGroups]
      exact hr
    · rw [hrl, List.length_zip, hlen, hfl, Nat.min_self]
    · intro idx hx
      have hx' : ValidIdx ((dims.map (labelsOf coords)).map List.length) idx := by
        rw [map_length_labels]; exact hx
      obtain ⟨labels, hlab⟩ := Option.isSome_iff_exists.1 (pick_isSome _ _ hx')
      have hp := product_ravel _ _ hx'
      rw [map_length_labels, hlab] at hp
      obtain ⟨a, ha⟩ := at?_isSome v ht.wf (n :: idx) (by rw [ht.shape]; exact ⟨n.lt_succ_self, hx⟩)
      obtain ⟨b, hb⟩ := at?_isSome v ht.wf (0 :: idx) (by rw [ht.shape]; exact ⟨n.succ_pos, hx⟩)
      have h1 := hfa idx hx
      have h2 := hia idx hx
      rw [ha] at h1; rw [hb] at h2
      obtain ⟨c, hc, hs⟩ := hrc _ labels a labels b
        (by rw [List.getElem?_zip_eq_some]; exact ⟨hp, h1⟩)
        (by rw [List.getElem?_zip_eq_some]; exact ⟨hp, h2⟩)
      exact ⟨labels, a, b, c, hlab, ha, hb, hc, hs⟩

/-- The group of a result that must be shown: the optimizer's when there is one, Euler's otherwise. -/
def ShownGroup (res : SimResult K) (ds : XDataset K) : Prop :=
  (∃ g, dget res "optimizer".toList = some g ∧ ds = g.1) ∨
  (dget res "optimizer".toList = none ∧ ∃ g, dget res "euler".toList = some g ∧ ds = g.1)

theorem plottedGroup_eq (res : SimResult K) (ds : XDataset K) (h : ShownGroup res ds) :
    plottedGroup res = .ok ds := by
  rcases h with ⟨g, hg, rfl⟩ | ⟨hn, g, hg, rfl⟩
  · simp only [plottedGroup, hg]
  · simp only [plottedGroup, hn, hg]

/-- **C61, for variables with dims and initial values above the threshold.**  With a documented metric
`plot_bar` draws one panel for each name, in the order of the names.  In the panel of a variable there is
one bar for each element, under the element's own labels, and it shows the chosen comparison of the last
step with step 0 of the same group (the optimizer's when there is one).

What is missing from the full statement: percentage bars of elements whose initial value is not above the
threshold (`C61_pct_not_above_threshold`), and variables without dims (`C61_scalar_raises`). -/
theorem C61_panels_partial (coords : Coords) (res : SimResult K) (ds : XDataset K)
    (varNames : List Str) (nCols : Nat) (metric : Str) (thr : K) (hg : ShownGroup res ds)
    (hne : varNames ≠ []) (hc : 1 ≤ nCols) (hm : metric ∈ documentedMetrics)
    (ht : ∀ name ∈ varNames, ∃ dims n v, dims ≠ [] ∧ Trajectory coords ds name dims n v) :
    ∃ panels, plotBar coords res varNames nCols none metric thr = .ok panels ∧
      List.Forall₂ (fun name p => p.1 = name ∧ ∀ dims n v, Trajectory coords ds name dims n v →
        PanelShows coords metric thr dims n v p.2) varNames panels := by
  have hpos : 1 ≤ varNames.length := List.length_pos_iff.2 hne
  obtain ⟨inputs, hin, hF⟩ := mapM_exists (barInputs ds)
    (fun name y => ∃ dims n v f i rows, y = (name, dims, f, i) ∧
      Trajectory coords ds name dims n v ∧ oneBar coords dims f i none metric thr = .ok rows ∧
        PanelShows coords metric thr dims n v rows) varNames (by
    intro name hn
    obtain ⟨dims, n, v, hd, htr⟩ := ht name hn
    obtain ⟨f, i, hb, rows, hr, hp⟩ := oneBar_ok coords ds name dims n v metric thr hm hd htr
    exact ⟨_, hb, dims, n, v, f, i, rows, rfl, htr, hr, hp⟩)
  obtain ⟨panels, hpan, hQ⟩ := mapM_exists₂
    (fun p : Str × List Str × List K × List K =>
      (oneBar coords p.2.1 p.2.2.1 p.2.2.2 none metric thr).map fun b => (p.1, b)) _
    (fun name p => p.1 = name ∧ ∀ dims n v, Trajectory coords ds name dims n v →
        PanelShows coords metric thr dims n v p.2) varNames inputs hF (by
    rintro name y ⟨dims, n, v, f, i, rows, rfl, htr, hr, hp⟩
    refine ⟨(name, rows), by simp only [hr, Except.map], rfl, ?_⟩
    intro dims' n' v' htr'
    have h := htr.stored.symm.trans htr'.stored
    simp only [Option.some.injEq, Prod.mk.injEq, List.cons.injEq, true_and] at h
    obtain ⟨rfl, rfl⟩ := h
    have hn := htr.shape.symm.trans htr'.shape
    simp only [List.cons.injEq, Nat.add_right_cancel_iff, and_true] at hn
    subst hn
    exact hp)
  refine ⟨panels, ?_, hQ⟩
  simp only [plotBar, plottedGroup_eq res ds hg, bind, Except.bind, hin,
    prepareGrid_eq _ _ (le_min hc hpos) hpos]
  exact hpan

/-! ### Percentages and groups -/

/-- **C61, initial values that are not above the threshold.**  Whatever the final value is, the
percentage bar is zero. -/
theorem C61_pct_not_above_threshold (data initial : BarRows K) (thr : K)
    (hl : data.length = initial.length) :
    ∃ rows, computeBarData data initial "pct_change".toList thr = .ok rows ∧
      ∀ (k : Nat) ld f li i, data[k]? = some (ld, f) → initial[k]? = some (li, i) → i ≤ thr →
        rows[k]? = some (ld, [0]) := by
  refine ⟨_, rfl, ?_⟩
  intro k ld f li i hd hi hle
  rw [List.getElem?_zipWith, hd, hi]
  simp [not_lt.2 hle]

/-- The elements of a variable along its only dim that belong to the group `g`. -/
def membersOf (cd : Dict Str Str) (labels : List Str) (g : Str) (x : List K) : List K :=
  ((labels.zip x).filter fun p => decide (dget cd p.1 = some g)).map Prod.snd

omit [LinearOrder K] in
theorem groupSum_ok (cd : Dict Str Str) (labels : List Str) (x : List K)
    (h : ∀ l ∈ labels, ∃ g, dget cd l = some g) (hx : x.length = labels.length) :
    groupSum cd ((labels.map fun l => [l]).zip x) =
      .ok (((labels.map fun l => (dget cd l).getD []).dedup.insertionSort fun a b => a ≤ b).map
        fun g => ([g], (membersOf cd labels g x).sum)) := by
  have hmap : ((labels.map fun l => [l]).zip x).mapM (groupOfRow cd) =
      .ok ((labels.zip x).map fun p => ((dget cd p.1).getD [], p.2)) := by
    rw [List.zip_map_left, List.mapM_map]
    apply mapM_ok_of_forall
    rintro ⟨l, a⟩ hp
    obtain ⟨g, hg⟩ := h l (List.of_mem_zip hp).1
    simp [groupOfRow, Function.comp, Prod.map, dgetE, hg, Except.map]
  have hf : ((labels.zip x).map fun p => ((dget cd p.1).getD [], p.2)).map Prod.fst =
      labels.map fun l => (dget cd l).getD [] := by
    rw [List.map_map]
    have : (Prod.fst ∘ fun p : Str × K => ((dget cd p.1).getD [], p.2)) =
        (fun l => (dget cd l).getD []) ∘ Prod.fst := rfl
    rw [this, ← List.map_map, List.map_fst_zip (by omega)]
  simp only [groupSum, hmap, bind, Except.bind, pure, Except.pure, hf]
  congr 1
  apply List.map_congr_left
  intro g _
  congr 2
  rw [membersOf, List.filter_map, List.map_map]
  have hfil : ∀ p ∈ labels.zip x, ((fun q : Str × K => decide (q.1 = g)) ∘
      fun p : Str × K => ((dget cd p.1).getD [], p.2)) p = decide (dget cd p.1 = some g) := by
    rintro ⟨l, a⟩ hp
    obtain ⟨g', hg⟩ := h l (List.of_mem_zip hp).1
    simp [hg]
  rw [List.filter_congr hfil]
  rfl

/-- **C61 (groups).**  When the caller groups the labels of a variable's dim, there is exactly one bar for
each group in use, in alphabetical order, and it compares the group's total at the end with the group's
total at the start. -/
theorem C61_groups (coords : Coords) (dim : Str) (labels : List Str)
    (gd : Dict Str (Dict Str Str)) (cd : Dict Str Str) (f i : List K) (metric : Str) (thr : K)
    (hm : metric ∈ documentedMetrics) (hl : dget coords dim = some labels)
    (hgd : dget gd dim = some cd) (hcd : ∀ l ∈ labels, ∃ g, dget cd l = some g)
    (hf : f.length = labels.length) (hi : i.length = labels.length) :
    ∃ (groups : List Str) (rows : List (List Str × List K)),
      oneBar coords [dim] f i (some gd) metric thr = .ok rows ∧
      groups.Nodup ∧ groups.Pairwise (· ≤ ·) ∧ (∀ g, g ∈ groups ↔ ∃ l ∈ labels, dget cd l = some g) ∧
      List.Forall₂ (fun g row => row.1 = [g] ∧
        CellShows metric thr (membersOf cd labels g f).sum (membersOf cd labels g i).sum row.2)
        groups rows := by
  have hfr : ∀ x : List K, toFrame coords [dim] x = .ok ((labels.map fun l => [l]).zip x) := by
    intro x
    simp [toFrame, dgetE, hl, product, bind, Except.bind, pure, Except.pure, List.map_eq_flatMap]
  obtain ⟨g, hg, hs⟩ := metricCell_spec metric thr hm
  refine ⟨(labels.map fun l => (dget cd l).getD []).dedup.insertionSort fun a b => a ≤ b,
    ((labels.map fun l => (dget cd l).getD []).dedup.insertionSort fun a b => a ≤ b).map fun gr =>
      ([gr], g (membersOf cd labels gr f).sum (membersOf cd labels gr i).sum), ?_, ?_, ?_, ?_, ?_⟩
  · simp only [oneBar, hfr, bind, Except.bind, applyGroups, hgd, groupSum_ok cd labels _ hcd hf,
      groupSum_ok cd labels _ hcd hi, computeBarData, hg]
    rw [List.zipWith_map]
    simp
  · exact (List.perm_insertionSort _ _).nodup_iff.2 (List.nodup_dedup _)
  · exact List.pairwise_insertionSort _ _
  · intro gr
    rw [(List.perm_insertionSort _ _).mem_iff, List.mem_dedup, List.mem_map]
    constructor
    · rintro ⟨l, hl', rfl⟩
      obtain ⟨g', hg'⟩ := hcd l hl'
      exact ⟨l, hl', by simp [hg']⟩
    · rintro ⟨l, hl', h⟩
      exact ⟨l, hl', by simp [h]⟩
  · rw [List.forall₂_map_right_iff]
    exact List.forall₂_same.2 fun gr _ => ⟨rfl, hs _ _⟩

section Average

variable [IsStrictOrderedRing K]

/-- **C61 (groups are weighted averages).**  When all initial values are positive, the percentage change
of a group's total is the average of the percentage changes of its members, weighted with their shares
in the initial total. -/
theorem C61_group_weighted_average (ps : List (K × K)) (hp : ∀ p ∈ ps, 0 < p.2) :
    ((ps.map Prod.fst).sum - (ps.map Prod.snd).sum) / (ps.map Prod.snd).sum =
      (ps.map fun p => p.2 / (ps.map Prod.snd).sum * ((p.1 - p.2) / p.2)).sum := by
  have key : ∀ (T : K) (qs : List (K × K)), (∀ p ∈ qs, 0 < p.2) →
      ((qs.map Prod.fst).sum - (qs.map Prod.snd).sum) / T =
        (qs.map fun p => p.2 / T * ((p.1 - p.2) / p.2)).sum := by
    intro T qs
    induction qs with
    | nil => simp
    | cons q qs ih =>
      intro h
      have hq : q.2 ≠ 0 := (h q (by simp)).ne'
      have e : q.2 / T * ((q.1 - q.2) / q.2) = (q.1 - q.2) / T := by
        rw [div_mul_div_comm, mul_comm T, mul_div_mul_left _ _ hq]
      rw [List.map_cons, List.map_cons, List.map_cons, List.sum_cons, List.sum_cons, List.sum_cons,
        ← ih fun p hp => h p (by simp [hp]), e, ← add_div]
      congr 1
      ring
  exact key _ ps hp

/-- **C61 (the sign of a percentage bar).**  With a threshold that is not negative, a percentage bar
over an element whose initial value is above it points up exactly when the variable rose, and the final
value can be read back from it. -/
theorem C61_pct_reads_back (thr f i : K) (c : List K) (h0 : 0 ≤ thr) (hi : thr < i)
    (h : CellShows "pct_change".toList thr f i c) :
    ∃ b, c = [b] ∧ (0 < b ↔ i < f) ∧ (b < 0 ↔ f < i) ∧ i * (1 + b) = f := by
  have hpos : 0 < i := h0.trans_lt hi
  refine ⟨(f - i) / i, h.pct rfl hi, ?_, ?_, ?_⟩
  · rw [div_pos_iff_of_pos_right hpos, sub_pos]
  · rw [div_neg_iff]
    constructor
    · rintro (⟨_, h2⟩ | ⟨h1, _⟩)
      · exact absurd h2 (not_lt.2 hpos.le)
      · exact sub_neg.1 h1
    · exact fun h => Or.inr ⟨sub_neg.2 h, hpos⟩
  · have : i ≠ 0 := hpos.ne'
    field_simp
    ring

end Average

/-- **C61 (after the optimizer).**  Let the result hold the optimizer's group as `simulate` makes it
(C51) from the initial values `init`, the solution `x` and the parameters.  Then the bar of an element of
a variable compares the solution at the element's flat address with the caller's initial value. -/
theorem C61_after_optimizer_partial (coords : Coords) (vars params : List ModelObject)
    (x theta : List K) (init : Dict Str (NDArray K)) (hlab : Labelled coords vars params)
    (hx : x.length = totalSize coords vars) (ht : theta.length = totalSize coords params)
    (hi : ∀ o ∈ vars ++ params, DataFor coords init o) (k nCols : Nat) (o : ModelObject)
    (ho : vars[k]? = some o) (hd : o.dims ≠ []) (hc : 1 ≤ nCols) (metric : Str) (thr : K)
    (hm : metric ∈ documentedMetrics) (old : SimResult K) :
    ∃ g a rows, optimizerResultToIdata x theta init vars params coords = .ok g ∧
      dget init o.name = some a ∧
      plotBar coords (dset old "optimizer".toList g) [o.name] nCols none metric thr =
        .ok [(o.name, rows)] ∧
      rows.length = specSize coords o ∧
      ∀ idx, ValidIdx (specShape coords o) idx → ∃ labels f i c,
        pick (o.dims.map (labelsOf coords)) idx = some labels ∧
        x[offsetOf coords vars k + ravelIndex (specShape coords o) idx]? = some f ∧
        a.at? idx = some i ∧
        rows[ravelIndex (specShape coords o) idx]? = some (labels, c) ∧
        CellShows metric thr f i c := by
  obtain ⟨V, P, hres, _, _, hV, _⟩ := C51_optimizer_partial coords vars params x theta init hlab hx ht hi
  have hmem : o ∈ vars ++ params := List.mem_append_left _ (List.mem_of_getElem? ho)
  obtain ⟨a, ha, _, _⟩ := hi o hmem
  obtain ⟨v, hv, h2⟩ := hV k o a ho ha
  have htr : Trajectory coords V o.name o.dims 1 v.2 := by
    refine ⟨?_, hlab.known o hmem, h2.shape, h2.wf⟩
    rw [hv]
    exact congrArg some (Prod.ext h2.axes rfl)
  obtain ⟨panels, hp, hF⟩ := C61_panels_partial coords (dset old "optimizer".toList (V, P)) V [o.name]
    nCols metric thr (Or.inl ⟨(V, P), dget_dset_self _ _ _, rfl⟩) (by simp) hc hm (by
      intro name hn
      rw [List.mem_singleton] at hn
      subst hn
      exact ⟨o.dims, 1, v.2, hd, htr⟩)
  cases hF with
  | cons hq hnil =>
    cases hnil
    rename_i p
    obtain ⟨hpn, hq⟩ := hq
    have hps := hq _ _ _ htr
    refine ⟨(V, P), a, p.2, hres, ha, ?_, hps.count, ?_⟩
    · rw [hp, ← hpn]
    intro idx hidx
    obtain ⟨labels, f, i, c, h1, h3, h4, h5, h6⟩ := hps.cell idx hidx
    exact ⟨labels, f, i, c, h1, (h2.after idx hidx).symm.trans h3, (h2.before idx).symm.trans h4, h5, h6⟩

/-- **C61, variables without dims.**  A variable without dims has no bar: the call raises. -/
theorem C61_scalar_raises (coords : Coords) (res : SimResult K) (ds : XDataset K) (name : Str)
    (n nCols : Nat) (v : NDArray K) (metric : Str) (thr : K) (gd : Option (Dict Str (Dict Str Str)))
    (hg : ShownGroup res ds) (hc : 1 ≤ nCols) (ht : Trajectory coords ds name [] n v) :
    plotBar coords res [name] nCols gd metric thr = .error .attributeError := by
  obtain ⟨f, hf, _⟩ := lastStepData_spec v n _ ht.shape ht.wf
  obtain ⟨i, hi, _⟩ := firstStepData_spec v n _ ht.shape ht.wf
  have hb : barInputs ds name = .ok (name, [], f, i) := by
    simp only [barInputs, dgetE, ht.stored, bind, Except.bind, hf, hi, pure, Except.pure,
      List.tail_cons]
  simp only [plotBar, plottedGroup_eq res ds hg, bind, Except.bind, List.mapM_cons, List.mapM_nil, hb,
    pure, Except.pure, List.length_singleton, prepareGrid_eq _ _ (le_min hc le_rfl) le_rfl, oneBar,
    toFrame, if_true, Except.map]

/-- **C61, a loss of a negative value.**  A variable that goes from `-10` to `-20` (a balance, a net
transfer) is drawn as unchanged, next to a variable that doubled and is drawn as such. -/
theorem C61_negative_initial_counterexample :
    computeBarData [(["a".toList], (-20 : ℚ)), (["b".toList], 20)]
      [(["a".toList], (-10 : ℚ)), (["b".toList], 10)] "pct_change".toList (1 / 10 ^ 6) =
      .ok [(["a".toList], [0]), (["b".toList], [1])] := by
  rw [computeBarData]
  simp only [metricCell, if_pos]
  norm_num

end Bars

/-! ### Examples for C61 -/

/-- Two regions, two goods, a variable with both, three steps. -/
def exPlotCoords : Coords :=
  [("i".toList, ["a".toList, "b".toList]), ("r".toList, ["N".toList, "S".toList])]

def exPlotSet : XDataset ℚ :=
  [("X".toList, ("step".toList :: ["i".toList, "r".toList],
      ⟨[2, 2, 2], [1, 2, 4, 5, 2, 1, 4, 10]⟩)),
   ("Y".toList, ("step".toList :: ["i".toList], ⟨[2, 2], [10, 20, 30, 10]⟩)),
   ("e".toList, (["step".toList], ⟨[2], [1, 3]⟩))]

def exPlotRes : SimResult ℚ := [("euler".toList, (exPlotSet, []))]

theorem exPlotX : Trajectory exPlotCoords exPlotSet "X".toList ["i".toList, "r".toList] 1
    ⟨[2, 2, 2], [1, 2, 4, 5, 2, 1, 4, 10]⟩ := ⟨by rfl, by decide, by rfl, by rfl⟩

theorem exPlotY : Trajectory exPlotCoords exPlotSet "Y".toList ["i".toList] 1
    ⟨[2, 2], [10, 20, 30, 10]⟩ := ⟨by rfl, by decide, by rfl, by rfl⟩

/-- The hypotheses of `C61_panels_partial` hold for a result with two variables. -/
example : ShownGroup exPlotRes exPlotSet ∧ ["X".toList, "Y".toList] ≠ [] ∧ 1 ≤ 3 ∧
    "change".toList ∈ documentedMetrics ∧ ∀ name ∈ ["X".toList, "Y".toList],
      ∃ dims n v, dims ≠ [] ∧ Trajectory exPlotCoords exPlotSet name dims n v := by
  refine ⟨Or.inr ⟨by rfl, _, by rfl, rfl⟩, by decide, by decide, by decide, ?_⟩
  intro name hn
  simp only [List.mem_cons, List.not_mem_nil, or_false] at hn
  rcases hn with rfl | rfl
  · exact ⟨_, _, _, by decide, exPlotX⟩
  · exact ⟨_, _, _, by decide, exPlotY⟩

set_option synthInstance.maxSize 2000 in
/-- What is drawn there. -/
example : plotBar exPlotCoords exPlotRes ["X".toList, "Y".toList] 3 none "change".toList (1 / 10 ^ 6) =
    .ok [("X".toList, [(["a".toList, "N".toList], [1]), (["a".toList, "S".toList], [-1]),
          (["b".toList, "N".toList], [0]), (["b".toList, "S".toList], [5])]),
         ("Y".toList, [(["a".toList], [20]), (["b".toList], [-10])])] := by decide +kernel

/-- The hypotheses of `C61_scalar_raises` and of `C61_groups` can be met. -/
example : Trajectory exPlotCoords exPlotSet "e".toList [] 1 ⟨[2], [1, 3]⟩ :=
  ⟨by rfl, by decide, by rfl, by rfl⟩

example : oneBar exPlotCoords ["i".toList] [30, 10] [10, (20 : ℚ)]
    (some [("i".toList, [("a".toList, "all".toList), ("b".toList, "all".toList)])])
    "pct_change".toList (1 / 10 ^ 6) = .ok [(["all".toList], [1 / 3])] := by decide +kernel

/-- Values for `C61_pct_reads_back` and `C61_group_weighted_average`. -/
example : (0 : ℚ) ≤ 1 / 10 ^ 6 ∧ (1 / 10 ^ 6 : ℚ) < 10 ∧
    CellShows "pct_change".toList (1 / 10 ^ 6) (30 : ℚ) 10 [2] := by
  refine ⟨by norm_num, by norm_num, fun _ _ => by norm_num, ?_, ?_, ?_, ?_, ?_⟩ <;>
    exact fun h => absurd h (by decide)

/-! ## Areas -/

section Areas

variable {K : Type} [Field K] [LinearOrder K] {E : Type}

theorem keepUnmasked_zipWith {β γ δ : Type _} (f : γ → δ → Bool) (x : List β) (a : List γ) (b : List δ) :
    keepUnmasked x (List.zipWith f a b) =
      (((x.zip (a.zip b)).filter fun t => !f t.2.1 t.2.2).map fun t => t.1) := by
  induction x generalizing a b with
  | nil => rfl
  | cons x xs ih =>
    cases a with
    | nil => rfl
    | cons a as =>
      cases b with
      | nil => rfl
      | cons b bs =>
        have := ih as bs
        unfold keepUnmasked at *
        simp only [List.zipWith_cons_cons, List.zip_cons_cons, List.filter_cons]
        split <;> simp [this]

theorem keepUnmasked_zipWith_self {β γ δ : Type _} (f : γ → δ → Bool) (x : List β) (a : List γ)
    (b : List δ) (h1 : x.length = a.length) (h2 : x.length = b.length) :
    keepUnmasked a (List.zipWith f a b) =
        (((x.zip (a.zip b)).filter fun t => !f t.2.1 t.2.2).map fun t => t.2.1) ∧
      keepUnmasked b (List.zipWith f a b) =
        (((x.zip (a.zip b)).filter fun t => !f t.2.1 t.2.2).map fun t => t.2.2) := by
  induction x generalizing a b with
  | nil =>
    have ha := List.length_eq_zero_iff.1 h1.symm
    have hb := List.length_eq_zero_iff.1 h2.symm
    subst ha; subst hb
    exact ⟨rfl, rfl⟩
  | cons x xs ih =>
    cases a with
    | nil => simp at h1
    | cons a as =>
      cases b with
      | nil => simp at h2
      | cons b bs =>
        have := ih as bs (by simpa using h1) (by simpa using h2)
        unfold keepUnmasked at *
        simp only [List.zipWith_cons_cons, List.zip_cons_cons, List.filter_cons]
        split <;> simp [this]

/-- One call on a single variable, in closed form. -/
theorem plotAreas_single (r : Reg E) (coords : Coords) (res : SimResult K)
    (initial : Dict Str (NDArray K)) (name : Str) (shock : Option Str) (rename : Dict Str Str)
    (dims : List Str) (labels : List (List Str)) (a : NDArray K) (z : List K)
    (hd : dimsOfName r name = .ok dims) (hl : dims.mapM (dgetE coords) = .ok labels)
    (hne : labels.flatten ≠ []) (ha : dget initial name = some a) (hz : postData res name = .ok z)
    (hlen : a.data.length = z.length) :
    plotAreas r coords res initial (.list [name]) shock rename =
      .ok (let mask := List.zipWith (fun p q => closeToZero p || closeToZero q) a.data z
        let shown := keepUnmasked (labels.flatten.map fun l => (dget rename l).getD l) mask
        [⟨"Pre-".toList ++ shock.getD "Shock".toList, keepUnmasked a.data mask, shown⟩,
         ⟨"Post-".toList ++ shock.getD "Shock".toList, keepUnmasked z mask, shown⟩]) := by
  have hne' : (labels.flatten.map fun l => (dget rename l).getD l).length ≠ 0 := by
    rw [List.length_map]; exact fun h => hne (List.length_eq_zero_iff.1 h)
  simp only [plotAreas, NamesArg.iter, List.mapM_cons, List.mapM_nil, hd, bind, Except.bind, pure,
    Except.pure, List.all_cons, decide_true, List.all_nil, Bool.and_true, Bool.not_true, hl,
    if_neg hne', dgetE, ha, Except.map, hz, zeroMask, List.flatten_cons, List.flatten_nil,
    List.append_nil, if_pos hlen]
  rfl

/-- **C62, for one variable with one dim.**  The two panels show the same elements in the same order:
those whose value is nowhere zero up to `1e-8`.  Each area has the size of the element's initial (final)
value and carries the element's own label, renamed where the caller asks for it.

What is missing from the full statement: several variables (`C62_several_variables_unlabelled`), several
dims (`C62_two_dims_counterexample`) and a name given as a string (`C62_string_is_split`). -/
theorem C62_one_dim_partial (r : Reg E) (coords : Coords) (res : SimResult K) (ds : XDataset K)
    (initial : Dict Str (NDArray K)) (name : Str) (shock : Option Str) (rename : Dict Str Str)
    (dim : Str) (labels : List Str) (n : Nat) (a v : NDArray K)
    (hd : dimsOfName r name = .ok [dim]) (hl : dget coords dim = some labels) (hne : labels ≠ [])
    (ha : dget initial name = some a) (hal : a.data.length = labels.length)
    (hg : ShownGroup res ds) (ht : Trajectory coords ds name [dim] n v) :
    ∃ (final : List K) (pre post : AreaPanel K),
      plotAreas r coords res initial (.list [name]) shock rename = .ok [pre, post] ∧
      final.length = labels.length ∧ (∀ k, k < labels.length → final[k]? = v.at? [n, k]) ∧
      ∃ kept, kept = (labels.zip (a.data.zip final)).filter (fun t =>
          decide (1 / 10 ^ 8 < |t.2.1| ∧ 1 / 10 ^ 8 < |t.2.2|)) ∧
        pre.labels = kept.map (fun t => (dget rename t.1).getD t.1) ∧ post.labels = pre.labels ∧
        pre.sizes = kept.map (fun t => t.2.1) ∧ post.sizes = kept.map (fun t => t.2.2) := by
  have hlab : labelsOf coords dim = labels := by simp [labelsOf, hl]
  obtain ⟨z, hz, hzl, hza⟩ := lastStepData_spec v n _ ht.shape ht.wf
  rw [List.map_cons, List.map_nil, hlab] at hzl hza
  have hzl' : z.length = labels.length := by simpa using hzl
  have hpost : postData res name = .ok z := by
    rcases hg with ⟨g, hg, rfl⟩ | ⟨hn, g, hg, rfl⟩
    · simp only [postData, hg, bind, Except.bind, dgetE, ht.stored, hz]
    · simp only [postData, hn, hg, bind, Except.bind, dgetE, ht.stored, hz]
  have hcall := plotAreas_single r coords res initial name shock rename [dim] [labels] a z hd
    (by simp [dgetE, hl, bind, Except.bind, pure, Except.pure]) (by simpa using hne) ha hpost
    (by omega)
  have hf : ∀ t : Str × K × K, (!(closeToZero t.2.1 || closeToZero t.2.2)) =
      decide (1 / 10 ^ 8 < |t.2.1| ∧ 1 / 10 ^ 8 < |t.2.2|) := by
    intro t
    simp only [closeToZero, Bool.not_or, ← decide_not, not_le, ← Bool.decide_and]
  refine ⟨z, _, _, hcall, hzl', ?_, _, rfl, ?_, rfl, ?_, ?_⟩
  · intro k hk
    have := hza [k] ⟨hk, trivial⟩
    simpa [ravelIndex] using this
  · dsimp only
    rw [keepUnmasked_zipWith, List.flatten_cons, List.flatten_nil, List.append_nil,
      List.zip_map_left, List.filter_map, List.map_map]
    congr 1
    apply List.filter_congr
    intro t _
    exact hf t
  · dsimp only
    rw [(keepUnmasked_zipWith_self _ labels a.data z (by omega) (by omega)).1]
    exact congrArg _ (List.filter_congr fun t _ => hf t)
  · dsimp only
    rw [(keepUnmasked_zipWith_self _ labels a.data z (by omega) (by omega)).2]
    exact congrArg _ (List.filter_congr fun t _ => hf t)

/-- **C62, several variables.**  Two or more variables with the same one dim: whenever a plot is made and
no value is near zero, there are fewer labels than areas, so some areas carry no label at all. -/
theorem C62_several_variables_unlabelled (r : Reg E) (coords : Coords) (res : SimResult K)
    (initial : Dict Str (NDArray K)) (names : List Str) (shock : Option Str) (rename : Dict Str Str)
    (dim : Str) (labels : List Str) (hn : 2 ≤ names.length)
    (hd : ∀ name ∈ names, dimsOfName r name = .ok [dim]) (hl : dget coords dim = some labels)
    (ha : ∀ name ∈ names, ∃ a, dget initial name = some a ∧ a.data.length = labels.length ∧
      ∀ t ∈ a.data, 1 / 10 ^ 8 < |t|)
    (hz : ∀ name ∈ names, ∃ z, postData res name = .ok z ∧ ∀ t ∈ z, 1 / 10 ^ 8 < |t|)
    (panels : List (AreaPanel K))
    (h : plotAreas r coords res initial (.list names) shock rename = .ok panels) :
    ∀ p ∈ panels, p.labels.length = labels.length ∧ p.labels.length < p.sizes.length := by
  have hdims : names.mapM (dimsOfName r) = .ok (names.map fun _ => [dim]) :=
    mapM_ok_of_forall _ _ _ hd
  obtain ⟨pre, hpre, hpreF⟩ := mapM_exists (fun v => (dgetE initial v).map NDArray.data)
    (fun _ x => x.length = labels.length ∧ ∀ t ∈ x, 1 / 10 ^ 8 < |t|) names (by
    intro name hm
    obtain ⟨a, h1, h2, h3⟩ := ha name hm
    exact ⟨a.data, by simp only [dgetE, h1, Except.map], h2, h3⟩)
  obtain ⟨post, hpost, hpostF⟩ := mapM_exists (postData res)
    (fun _ z => ∀ t ∈ z, 1 / 10 ^ 8 < |t|) names hz
  obtain ⟨nm, rest, rfl⟩ : ∃ nm rest, names = nm :: rest := by
    cases names with
    | nil => simp at hn
    | cons a b => exact ⟨a, b, rfl⟩
  have hall : (((nm :: rest).map fun _ => [dim]).all fun e => decide (e = [dim])) = true := by
    simp
  simp only [plotAreas, NamesArg.iter, hdims, bind, Except.bind, hpre, hpost] at h
  rw [List.map_cons] at h hall
  simp only [hall, Bool.not_true, List.mapM_cons, List.mapM_nil, dgetE, hl, bind, Except.bind,
    pure, Except.pure, List.flatten_cons, List.flatten_nil, List.append_nil, List.length_map] at h
  have hl0 : labels.length ≠ 0 := by
    intro h0
    simp [h0] at h
  simp only [if_neg hl0, Bool.false_eq_true, if_false, zeroMask] at h
  have hlen : pre.flatten.length = (rest.length + 1) * labels.length := by
    have : ∀ (ns : List Str) (xs : List (List K)),
        List.Forall₂ (fun _ x => x.length = labels.length ∧ ∀ t ∈ x, 1 / 10 ^ 8 < |t|) ns xs →
        xs.flatten.length = ns.length * labels.length := by
      intro ns xs hF
      induction hF with
      | nil => simp
      | cons hx _ ih => simp [hx.1, ih, Nat.add_mul]; omega
    simpa using this _ _ hpreF
  have hfar : ∀ (P : Str → List K → Prop) (ns : List Str) (xs : List (List K)),
      (∀ n x, P n x → ∀ t ∈ x, 1 / 10 ^ 8 < |t|) → List.Forall₂ P ns xs →
      ∀ t ∈ xs.flatten, closeToZero t = false := by
    intro P ns xs hP hF
    induction hF with
    | nil => simp
    | cons hx _ ih =>
      intro t ht
      rw [List.flatten_cons, List.mem_append] at ht
      rcases ht with ht | ht
      · exact decide_eq_false (not_le.2 (hP _ _ hx t ht))
      · exact ih t ht
  have hf1 := hfar _ _ _ (fun _ _ h => h.2) hpreF
  have hf2 := hfar _ _ _ (fun _ _ h => h) hpostF
  have hkeep : ∀ {β : Type} (x : List β), keepUnmasked x (List.zipWith
      (fun a b => closeToZero a || closeToZero b) pre.flatten post.flatten) =
      x.take (min pre.flatten.length post.flatten.length) := by
    intro β x
    have : ∀ (u w : List K), (∀ t ∈ u, closeToZero t = false) → (∀ t ∈ w, closeToZero t = false) →
        ∀ x : List β, keepUnmasked x (List.zipWith (fun a b => closeToZero a || closeToZero b) u w) =
          x.take (min u.length w.length) := by
      intro u
      induction u with
      | nil => intro w _ _ x; simp [keepUnmasked]
      | cons a u ih =>
        intro w hu hw x
        cases w with
        | nil => simp [keepUnmasked]
        | cons b w =>
          cases x with
          | nil => simp [keepUnmasked]
          | cons c x =>
            have := ih w (fun t ht => hu t (by simp [ht])) (fun t ht => hw t (by simp [ht])) x
            unfold keepUnmasked at *
            simp [hu a (by simp), hw b (by simp), this, Nat.add_min_add_right]
    exact this _ _ hf1 hf2 x
  split at h
  · cases h
  · rename_i mask hmask
    split at hmask
    · rename_i heq
      cases hmask
      cases h
      simp only [hkeep]
      have h2 : labels.length < pre.flatten.length := by
        rw [hlen]
        have : 2 ≤ rest.length + 1 := by simpa using hn
        nlinarith [Nat.pos_of_ne_zero hl0]
      intro p hp
      simp only [List.mem_cons, List.not_mem_nil, or_false] at hp
      rcases hp with rfl | rfl <;> simp only [List.length_take, List.length_map] <;> omega
    · split at hmask <;> cases hmask

end Areas

/-! ### Examples and counterexamples for C62 -/

def exAreaReg : Reg Unit :=
  ⟨[("X".toList, { name := "X".toList, dims := ["i".toList, "r".toList] }),
    ("Y".toList, { name := "Y".toList, dims := ["i".toList] }),
    ("Z".toList, { name := "Z".toList, dims := ["i".toList] }),
    ("ZY".toList, { name := "ZY".toList, dims := ["i".toList] })], [], []⟩

def exAreaSet : XDataset ℚ :=
  [("X".toList, (["step".toList, "i".toList, "r".toList], ⟨[1, 2, 2], [5, 6, 7, 8]⟩)),
   ("Y".toList, (["step".toList, "i".toList], ⟨[1, 2], [3, 4]⟩)),
   ("Z".toList, (["step".toList, "i".toList], ⟨[1, 2], [1, 2]⟩)),
   ("ZY".toList, (["step".toList, "i".toList], ⟨[1, 2], [9, 9]⟩))]

def exAreaRes : SimResult ℚ := [("euler".toList, (exAreaSet, []))]

def exAreaInit : Dict Str (NDArray ℚ) :=
  [("X".toList, ⟨[2, 2], [1, 2, 3, 4]⟩), ("Y".toList, ⟨[2], [1, 1]⟩), ("Z".toList, ⟨[2], [1, 1]⟩),
   ("ZY".toList, ⟨[2], [7, 7]⟩)]

/-- The hypotheses of `C62_one_dim_partial` hold for the variable `Y`. -/
example : dimsOfName exAreaReg "Y".toList = .ok ["i".toList] ∧
    dget exPlotCoords "i".toList = some ["a".toList, "b".toList] ∧
    dget exAreaInit "Y".toList = some ⟨[2], [1, 1]⟩ ∧ ShownGroup exAreaRes exAreaSet ∧
    Trajectory exPlotCoords exAreaSet "Y".toList ["i".toList] 0 ⟨[1, 2], [3, 4]⟩ :=
  ⟨by rfl, by rfl, by rfl, Or.inr ⟨by rfl, _, by rfl, rfl⟩, by rfl, by decide, by rfl, by rfl⟩

set_option synthInstance.maxSize 2000 in
/-- The panels for `Y`, one label renamed. -/
example : plotAreas exAreaReg exPlotCoords exAreaRes exAreaInit (.list ["Y".toList]) none
    [("b".toList, "Bread".toList)] =
    .ok [⟨"Pre-Shock".toList, [1, 1], ["a".toList, "Bread".toList]⟩,
         ⟨"Post-Shock".toList, [3, 4], ["a".toList, "Bread".toList]⟩] := by decide +kernel

set_option synthInstance.maxSize 2000 in
/-- **C62, two dims.**  The four elements of `X[i, r]` are `(a, N), (a, S), (b, N), (b, S)`; they are
labelled `a, b, N, S`, so the element `(a, S)` carries the label `b`. -/
theorem C62_two_dims_counterexample :
    plotAreas exAreaReg exPlotCoords exAreaRes exAreaInit (.list ["X".toList]) none [] =
      .ok [⟨"Pre-Shock".toList, [1, 2, 3, 4], ["a".toList, "b".toList, "N".toList, "S".toList]⟩,
           ⟨"Post-Shock".toList, [5, 6, 7, 8],
             ["a".toList, "b".toList, "N".toList, "S".toList]⟩] := by decide +kernel

set_option synthInstance.maxSize 2000 in
/-- **C62, a string.**  The documentation allows `var_names` to be a string.  It is taken apart into
characters: asked for the variable `ZY`, the plot shows `Z` and `Y` (and labels only half of the
areas). -/
theorem C62_string_is_split :
    plotAreas exAreaReg exPlotCoords exAreaRes exAreaInit (.str "ZY".toList) none [] =
      .ok [⟨"Pre-Shock".toList, [1, 1, 1, 1], ["a".toList, "b".toList]⟩,
           ⟨"Post-Shock".toList, [1, 2, 3, 4], ["a".toList, "b".toList]⟩] := by decide +kernel

end Verif
