import Verif.Model.PlotLines
import Verif.Props.Plots
import Verif.Props.Grid
import Verif.Props.SimulateEuler
import Verif.Props.SimulateSolve
import Verif.Lemmas.Expand

/-!
# C77: what `plot_lines` shows
-/

namespace Verif

section General

variable {K : Type}

/-- Does the caller ask for a legend in the panel of a variable? -/
def wantsLegend : LegendArg → Str → Bool
  | .none, _ => false
  | .flag b, _ => b
  | .list l, v => decide (v ∈ l)

/-- Every kept row has a well formed array of shape `s` under the name. -/
def RowsHave (rows : List (Nat × Dict Str (NDArray K))) (name : Str) (s : List Nat) : Prop :=
  ∀ r ∈ rows, ∃ a, dget r.2 name = some a ∧ a.shape = s ∧ a.WF

/-- The lines show the rows: a line for each element, a point for each row, at the row's step and at the
height of that element. -/
def LinesShow (rows : List (Nat × Dict Str (NDArray K))) (name : Str) (s : List Nat)
    (ls : List (List (Nat × K))) : Prop :=
  ls.length = s.prod ∧ ∀ idx, ValidIdx s idx → ∃ pts, ls[ravelIndex s idx]? = some pts ∧
    pts.length = rows.length ∧ ∀ (i : Nat) t row a, rows[i]? = some (t, row) → dget row name = some a →
      ∃ y, a.at? idx = some y ∧ pts[i]? = some (t, y)

theorem dget_const (l : List Str) (b : Bool) (v : Str) (hv : v ∈ l) :
    dget (dofPairs (l.map fun w => (w, b))) v = some b := by
  have hm : v ∈ dkeys (dofPairs (l.map fun w => (w, b))) := by
    unfold dofPairs
    rw [mem_dkeys_dupdate]
    right
    simpa [List.map_map, Function.comp_def] using hv
  obtain ⟨x, hx⟩ := (mem_dkeys_iff _ _).1 hm
  rcases mem_dupdate _ _ _ (mem_of_dget _ hx) with h | h
  · cases h
  · obtain ⟨w, -, hw⟩ := List.mem_map.1 h
    cases hw
    exact hx

/-- A legend is drawn exactly where the caller asks for one, and the lookup never fails. -/
theorem legendDict_get (setList : List Str → List Str) (hset : ∀ l x, x ∈ setList l ↔ x ∈ l)
    (names : List Str) (legends : LegendArg) (v : Str) (hv : v ∈ names) :
    dget (legendDict setList names legends) v = some (wantsLegend legends v) := by
  cases legends with
  | none => exact dget_const _ _ _ hv
  | flag b => exact dget_const _ _ _ hv
  | list l =>
    unfold legendDict wantsLegend
    dsimp only
    by_cases h : v ∈ l
    · rw [dget_dupdate_of_not_mem, dget_const _ _ _ h]
      · simp [h]
      · simp [List.map_map, Function.comp_def, hset, h]
    · have hm : v ∈ setList (names.filter fun v => decide (v ∉ l)) := by
        rw [hset]; simp [hv, h]
      obtain ⟨x, hx⟩ := (mem_dkeys_iff (dupdate (dofPairs (l.map fun v => (v, true)))
        ((setList (names.filter fun v => decide (v ∉ l))).map fun v => (v, false))) v).1 (by
          rw [mem_dkeys_dupdate]
          right
          simpa [List.map_map, Function.comp_def] using hm)
      rw [hx]
      rcases (mem_dupdate _ _ _ (mem_of_dget _ hx)).symm with h' | h'
      · obtain ⟨w, -, hw⟩ := List.mem_map.1 h'
        cases hw
        simp [h]
      · rcases (mem_dupdate _ _ _ h').symm with h'' | h''
        · obtain ⟨w, hw1, hw⟩ := List.mem_map.1 h''
          cases hw
          exact absurd hw1 h
        · cases h''

theorem linesOf_shows (rows : List (Nat × Dict Str (NDArray K))) (name : Str) (s : List Nat)
    (hne : rows ≠ []) (h : RowsHave rows name s) :
    ∃ ls, linesOf rows name = .ok ls ∧ LinesShow rows name s ls := by
  obtain ⟨r0, rs, rfl⟩ := List.exists_cons_of_ne_nil hne
  obtain ⟨a0, ha0, hs0, hw0⟩ := h r0 (by simp)
  have hl0 : a0.data.length = s.prod := by rw [hw0, hs0]
  have hcols := mapM_ok_of_forall (ε := PyErr)
    (fun r : Nat × Dict Str (NDArray K) => (dgetE r.2 name).map fun a => (r.1, a.data))
    (fun r => (r.1, ((dget r.2 name).map NDArray.data).getD [])) (r0 :: rs) (by
      intro r hr
      obtain ⟨a, ha, -, -⟩ := h r hr
      simp only [dgetE, ha]
      rfl)
  refine ⟨(List.range a0.data.length).map fun j =>
    ((r0 :: rs).map fun r => (r.1, ((dget r.2 name).map NDArray.data).getD [])).filterMap
      fun p => p.2[j]?.map fun y => (p.1, y), ?_, ?_⟩
  · unfold linesOf
    rw [hcols]
    simp only [listGetE, List.getElem?_cons_zero, bind, Except.bind, dgetE, ha0, pure, Except.pure]
  · refine ⟨by simp [hl0], ?_⟩
    intro idx hi
    have hj := ravelIndex_lt _ _ hi
    rw [List.getElem?_map, List.getElem?_range (by omega)]
    refine ⟨_, rfl, ?_⟩
    have hfm : ∀ rows : List (Nat × Dict Str (NDArray K)), RowsHave rows name s →
        ∃ pts, (rows.map fun r => (r.1, ((dget r.2 name).map NDArray.data).getD [])).filterMap
          (fun p => p.2[ravelIndex s idx]?.map fun y => (p.1, y)) = pts ∧
        pts.length = rows.length ∧ ∀ (i : Nat) t row a, rows[i]? = some (t, row) →
          dget row name = some a → ∃ y, a.at? idx = some y ∧ pts[i]? = some (t, y) := by
      intro rows hrows
      induction rows with
      | nil => exact ⟨[], rfl, rfl, by simp⟩
      | cons r rows ih =>
        obtain ⟨pts, h1, h2, h3⟩ := ih fun r hr => hrows r (by simp [hr])
        obtain ⟨a, ha, hs, hw⟩ := hrows r (by simp)
        have hlt : ravelIndex s idx < a.data.length := by rw [hw, hs]; exact hj
        refine ⟨(r.1, a.data[ravelIndex s idx]) :: pts, ?_, by simp [h2], ?_⟩
        · rw [List.map_cons, List.filterMap_cons]
          simp only [ha, Option.map_some, Option.getD_some, List.getElem?_eq_getElem hlt, h1]
        · intro i t row b hi' hb
          cases i with
          | zero =>
            simp only [List.getElem?_cons_zero, Option.some.injEq] at hi'
            subst hi'
            rw [ha] at hb
            cases hb
            refine ⟨_, ?_, rfl⟩
            rw [NDArray.at?, if_pos (hs ▸ hi), hs, List.getElem?_eq_getElem hlt]
          | succ i => exact h3 i t row b (by simpa using hi') hb
    obtain ⟨pts, h1, h2, h3⟩ := hfm (r0 :: rs) h
    dsimp only
    rw [h1]
    exact ⟨h2, h3⟩

/-- The last kept step. -/
def IsLastStep (rows : List (Nat × Dict Str (NDArray K))) (t : Nat) : Prop :=
  (∃ r ∈ rows, r.1 = t) ∧ ∀ r ∈ rows, r.1 ≤ t

theorem maxLabel_isLast (rows : List (Nat × Dict Str (NDArray K))) (hne : rows ≠ []) :
    ∃ t, maxLabel rows = .ok t ∧ IsLastStep rows t := by
  obtain ⟨r0, rs, rfl⟩ := List.exists_cons_of_ne_nil hne
  refine ⟨_, rfl, ?_⟩
  have key : ∀ (l : List (Nat × Dict Str (NDArray K))) m,
      m ≤ l.foldl (fun m q => max m q.1) m ∧ (∀ r ∈ l, r.1 ≤ l.foldl (fun m q => max m q.1) m) ∧
      (l.foldl (fun m q => max m q.1) m = m ∨ ∃ r ∈ l, r.1 = l.foldl (fun m q => max m q.1) m) := by
    intro l
    induction l with
    | nil => intro m; simp
    | cons a l ih =>
      intro m
      obtain ⟨h1, h2, h3⟩ := ih (max m a.1)
      refine ⟨le_trans (le_max_left _ _) h1, ?_, ?_⟩
      · intro r hr
        rcases List.mem_cons.1 hr with rfl | hr
        · exact le_trans (le_max_right _ _) h1
        · exact h2 r hr
      · rcases h3 with h3 | ⟨r, hr, h3⟩
        · rw [List.foldl_cons, h3]
          rcases le_total m a.1 with h | h
          · right; exact ⟨a, by simp, by simp [h]⟩
          · left; simp [h]
        · right; exact ⟨r, by simp [hr], h3⟩
  obtain ⟨h1, h2, h3⟩ := key rs r0.1
  refine ⟨?_, ?_⟩
  · rcases h3 with h3 | ⟨r, hr, h3⟩
    · exact ⟨r0, by simp, h3.symm⟩
    · exact ⟨r, by simp [hr], h3⟩
  · intro r hr
    rcases List.mem_cons.1 hr with rfl | hr
    · exact h1
    · exact h2 r hr

/-- The stars show the two ends of the optimizer's result `v` for a variable of shape `s`: at 0 the values
of the first step, at `t` those of the last step, in C order. -/
structure StarsShow (v : NDArray K) (n : Nat) (s : List Nat) (t : Nat)
    (st : List (Nat × K) × List (Nat × K)) : Prop where
  count : st.1.length = s.prod ∧ st.2.length = s.prod
  green : ∀ idx, ValidIdx s idx → ∃ y, v.at? (0 :: idx) = some y ∧ st.1[ravelIndex s idx]? = some (0, y)
  red : ∀ idx, ValidIdx s idx → ∃ y, v.at? (n :: idx) = some y ∧ st.2[ravelIndex s idx]? = some (t, y)

theorem starsOf_shows (rows : Option (List (Nat × Dict Str (NDArray K)))) (opt : XDataset K × XDataset K)
    (name : Str) (dims : List Str) (v : NDArray K) (n : Nat) (s : List Nat) (t : Nat)
    (hv : dget opt.1 name = some (dims, v)) (hs : v.shape = (n + 1) :: s) (hw : v.WF)
    (ht : starStep rows = .ok t) :
    ∃ st, starsOf rows opt name = .ok st ∧ StarsShow v n s t st := by
  obtain ⟨f, hf, hfl, hfa⟩ := lastStepData_spec v n _ hs hw
  obtain ⟨i, hi, hil, hia⟩ := firstStepData_spec v n _ hs hw
  refine ⟨(i.map fun y => (0, y), f.map fun y => (t, y)), ?_, ?_⟩
  · unfold starsOf
    simp only [dgetE, hv, bind, Except.bind, hi, hf, ht, pure, Except.pure]
  · refine ⟨by simp [hfl, hil], ?_, ?_⟩
    · intro idx hx
      have hj : ravelIndex s idx < i.length := by rw [hil]; exact ravelIndex_lt _ _ hx
      refine ⟨i[ravelIndex s idx], ?_, ?_⟩
      · rw [← hia idx hx, List.getElem?_eq_getElem hj]
      · simp [List.getElem?_eq_getElem hj]
    · intro idx hx
      have hj : ravelIndex s idx < f.length := by rw [hfl]; exact ravelIndex_lt _ _ hx
      refine ⟨f[ravelIndex s idx], ?_, ?_⟩
      · rw [← hfa idx hx, List.getElem?_eq_getElem hj]
      · simp [List.getElem?_eq_getElem hj]

/-- The result has what is asked for: the group `euler` with at least one kept row and the named variable
in every row, if Euler steps are to be shown; the group `optimizer` with the variable, if the optimizer's
result is to be shown. -/
structure Plottable (out : SimOut K) (names : List Str) (plotEuler plotOptimizer : Bool) : Prop where
  euler : plotEuler = true → ∃ e, out.euler = some e ∧ e.keptVars ≠ [] ∧
    ∀ name ∈ names, ∃ s, RowsHave e.keptVars name s
  optimizer : plotOptimizer = true → ∃ o, out.optimizer = some o ∧
    ∀ name ∈ names, ∃ dims v n s, dget o.1 name = some (dims, v) ∧ v.shape = (n + 1) :: s ∧ v.WF

/-- What the panel of one variable shows. -/
structure PanelIs (out : SimOut K) (plotEuler plotOptimizer : Bool) (rename : Option (Dict Str Str))
    (legends : LegendArg) (name : Str) (p : LinePanel K) : Prop where
  title : p.title = (dget (rename.getD []) name).getD name
  lines : ∀ e, out.euler = some e → plotEuler = true → ∃ ls, p.lines = some (ls, wantsLegend legends name) ∧
    ∀ s, RowsHave e.keptVars name s → LinesShow e.keptVars name s ls
  no_lines : plotEuler = false → p.lines = none
  stars : ∀ o, out.optimizer = some o → plotOptimizer = true → ∃ st t, p.stars = some st ∧
    (∀ dims v n s, dget o.1 name = some (dims, v) → v.shape = (n + 1) :: s → v.WF → StarsShow v n s t st) ∧
    (plotEuler = false → t = 1) ∧
    (∀ e, plotEuler = true → out.euler = some e → IsLastStep e.keptVars t)
  no_stars : plotOptimizer = false → p.stars = none

/-- **C77, panels.**  For a result that has what is asked for, `plot_lines` returns one panel for each
name, in the caller's order, each at its own place of the grid (C50); each panel shows its own variable. -/
theorem C77_panels (setList : List Str → List Str) (hset : ∀ l x, x ∈ setList l ↔ x ∈ l)
    (knownCmap : Str → Bool) (out : SimOut K) (modelNames : List Str) (nCols : Nat)
    (varNames : Option (List Str)) (init : Option (Dict Str (NDArray K))) (plotEuler plotOptimizer : Bool)
    (rename : Option (Dict Str Str)) (legends : LegendArg) (cmap : Option Str)
    (hc : 1 ≤ nCols) (hn : varNames.getD modelNames ≠ [])
    (hcm : knownCmap (cmap.getD "tab10".toList) = true)
    (hp : Plottable out (varNames.getD modelNames) plotEuler plotOptimizer) :
    ∃ panels g, plotLines setList knownCmap out modelNames nCols varNames init plotEuler plotOptimizer
        rename legends cmap = .ok panels ∧
      prepareGrid (min nCols (varNames.getD modelNames).length) (varNames.getD modelNames).length = .ok g ∧
      panels.map LinePanel.loc = g.locs ∧
      List.Forall₂ (PanelIs out plotEuler plotOptimizer rename legends) (varNames.getD modelNames) panels := by
  unfold plotLines
  generalize hnames : varNames.getD modelNames = names at *
  have hpos : 1 ≤ names.length := List.length_pos_iff.2 hn
  have h1 : (out.euler.isNone && plotEuler) = false := by
    cases plotEuler with
    | false => simp
    | true => obtain ⟨e, he, -⟩ := hp.euler rfl; simp [he]
  have h2 : (out.optimizer.isNone && plotOptimizer) = false := by
    cases plotOptimizer with
    | false => simp
    | true => obtain ⟨e, he, -⟩ := hp.optimizer rfl; simp [he]
  have hg := prepareGrid_eq (min nCols names.length) names.length (le_min hc hpos) hpos
  obtain ⟨panels, hpan, hall⟩ := mapM_exists (fun p : Str × Nat => (do
      let loc ← listGetE ((List.range names.length).map
        (panelLoc (min nCols names.length) names.length)) p.2
      let ls ← euLines plotEuler (out.euler.map EulerPass.keptVars) (legendDict setList names legends) p.1
      let st ← opStars plotEuler plotOptimizer (out.euler.map EulerPass.keptVars) out.optimizer p.1
      pure (⟨loc, (dget (rename.getD []) p.1).getD p.1, ls, st⟩ : LinePanel K) : Res (LinePanel K)))
    (fun p q => ((List.range names.length).map
        (panelLoc (min nCols names.length) names.length))[p.2]? = some q.loc ∧
      PanelIs out plotEuler plotOptimizer rename legends p.1 q) names.zipIdx (by
    rintro ⟨name, k⟩ hk
    obtain ⟨hk1, hk2⟩ := List.mem_zipIdx' hk
    have hmem : name ∈ names := hk2 ▸ List.getElem_mem _
    have hloc : ((List.range names.length).map
        (panelLoc (min nCols names.length) names.length))[k]? =
        some (panelLoc (min nCols names.length) names.length k) := by
      rw [List.getElem?_map, List.getElem?_range hk1]; rfl
    have hE : ∃ l, euLines plotEuler (out.euler.map EulerPass.keptVars) (legendDict setList names legends)
        name = .ok l ∧ (plotEuler = false → l = none) ∧
        ∀ e, out.euler = some e → plotEuler = true → ∃ ls, l = some (ls, wantsLegend legends name) ∧
          ∀ s, RowsHave e.keptVars name s → LinesShow e.keptVars name s ls := by
      cases hpe : plotEuler with
      | false => exact ⟨none, rfl, fun _ => rfl, fun _ _ h => (by cases h)⟩
      | true =>
        obtain ⟨e, he, hne, hrows⟩ := hp.euler hpe
        obtain ⟨s, hs⟩ := hrows name hmem
        obtain ⟨ls, hls, hshow⟩ := linesOf_shows _ _ _ hne hs
        refine ⟨some (ls, wantsLegend legends name), ?_, fun h => (by cases h), ?_⟩
        · rw [he]
          simp only [Option.map_some, euLines, hls, bind, Except.bind, dgetE,
            legendDict_get setList hset names legends name hmem, pure, Except.pure]
        · intro e' he' _
          rw [he] at he'
          cases he'
          refine ⟨ls, rfl, ?_⟩
          intro s' hs'
          obtain ⟨r0, rs, hr0⟩ := List.exists_cons_of_ne_nil hne
          obtain ⟨a, ha, hsa, -⟩ := hs r0 (by simp [hr0])
          obtain ⟨a', ha', hsa', -⟩ := hs' r0 (by simp [hr0])
          rw [ha] at ha'
          cases ha'
          rw [← hsa', hsa]
          exact hshow
    have hO : ∃ l, opStars plotEuler plotOptimizer (out.euler.map EulerPass.keptVars) out.optimizer
        name = .ok l ∧ (plotOptimizer = false → l = none) ∧
        ∀ o, out.optimizer = some o → plotOptimizer = true → ∃ st t, l = some st ∧
          (∀ dims v n s, dget o.1 name = some (dims, v) → v.shape = (n + 1) :: s → v.WF →
            StarsShow v n s t st) ∧
          (plotEuler = false → t = 1) ∧
          (∀ e, plotEuler = true → out.euler = some e → IsLastStep e.keptVars t) := by
      cases hpo : plotOptimizer with
      | false => exact ⟨none, rfl, fun _ => rfl, fun _ _ h => (by cases h)⟩
      | true =>
        obtain ⟨o, ho, hvs⟩ := hp.optimizer hpo
        obtain ⟨dims, v, n, s, hv, hs, hw⟩ := hvs name hmem
        have huniq : ∀ t st, StarsShow v n s t st → ∀ dims' v' n' s', dget o.1 name = some (dims', v') →
            v'.shape = (n' + 1) :: s' → v'.WF → StarsShow v' n' s' t st := by
          intro t st hst dims' v' n' s' h' hs' _
          rw [hv] at h'
          cases h'
          rw [hs] at hs'
          cases hs'
          exact hst
        have ht : ∃ t, starStep (if plotEuler then out.euler.map EulerPass.keptVars else none) = .ok t ∧ (plotEuler = false → t = 1) ∧
            (∀ e, plotEuler = true → out.euler = some e → IsLastStep e.keptVars t) := by
          cases hpe : plotEuler with
          | false => exact ⟨1, rfl, fun _ => rfl, fun _ h => (by cases h)⟩
          | true =>
            obtain ⟨e, he, hne, -⟩ := hp.euler hpe
            obtain ⟨t, ht, hlast⟩ := maxLabel_isLast _ hne
            refine ⟨t, by simpa [he, starStep] using ht, fun h => (by cases h), ?_⟩
            intro e' _ he'
            rw [he] at he'
            cases he'
            exact hlast
        obtain ⟨t, ht1, ht2, ht3⟩ := ht
        obtain ⟨st, hst, hshow⟩ := starsOf_shows _ o name dims v n s t hv hs hw ht1
        refine ⟨some st, ?_, fun h => (by cases h), ?_⟩
        · rw [ho]
          simp only [opStars, hst, Except.map]
        · intro o' ho' _
          rw [ho] at ho'
          cases ho'
          exact ⟨st, t, rfl, huniq t st hshow, ht2, ht3⟩
    obtain ⟨ls, hls, hnl, hl⟩ := hE
    obtain ⟨st, hst, hns, hs⟩ := hO
    refine ⟨⟨panelLoc (min nCols names.length) names.length k,
      (dget (rename.getD []) name).getD name, ls, st⟩, ?_, hloc, ⟨rfl, hl, hnl, hs, hns⟩⟩
    simp only [listGetE, hloc, bind, Except.bind, hls, hst, pure, Except.pure])
  refine ⟨panels, _, ?_, hg, ?_, ?_⟩
  · simp only [h1, h2, hg, hcm, bind, Except.bind, Bool.false_eq_true, if_false, Bool.not_true]
    exact hpan
  · apply List.ext_getElem?
    intro k
    rw [List.getElem?_map]
    have hlen : panels.length = names.length := by
      have := hall.length_eq; simpa using this.symm
    by_cases hk : k < names.length
    · have hz : names.zipIdx[k]? = some (names[k], k) := by
        rw [List.getElem?_zipIdx, List.getElem?_eq_getElem hk]; simp
      have hq : panels[k]? = some (panels[k]'(by omega)) := List.getElem?_eq_getElem _
      have := (List.forall₂_iff_get.1 hall).2 k (by simpa using hk) (by omega)
      simp only [List.get_eq_getElem, List.getElem_zipIdx, Nat.zero_add] at this
      rw [hq, Option.map_some, ← this.1]
    · rw [List.getElem?_eq_none (by omega), List.getElem?_eq_none (by simpa using hk)]
      rfl
  · have : names = names.zipIdx.map Prod.fst := by simp
    rw [this, List.forall₂_map_left_iff]
    exact hall.imp fun _ _ h => h.2

/-! ### Refusals -/

/-- Without the group asked for there is an error, whatever else is given. -/
theorem C77_no_group (setList : List Str → List Str) (knownCmap : Str → Bool) (out : SimOut K)
    (modelNames : List Str) (nCols : Nat) (varNames : Option (List Str))
    (init : Option (Dict Str (NDArray K))) (plotEuler plotOptimizer : Bool)
    (rename : Option (Dict Str Str)) (legends : LegendArg) (cmap : Option Str)
    (h : (out.euler = none ∧ plotEuler = true) ∨ (out.optimizer = none ∧ plotOptimizer = true)) :
    plotLines setList knownCmap out modelNames nCols varNames init plotEuler plotOptimizer rename legends
      cmap = .error .valueError := by
  unfold plotLines
  rcases h with ⟨h, rfl⟩ | ⟨h, rfl⟩
  · simp [h]
  · simp only [h]
    cases (out.euler.isNone && plotEuler) <;> simp

/-- A colour map that matplotlib does not know is refused with `ValueError`, whatever else is asked for. -/
theorem C77_unknown_colours (setList : List Str → List Str) (knownCmap : Str → Bool) (out : SimOut K)
    (modelNames : List Str) (nCols : Nat) (varNames : Option (List Str))
    (init : Option (Dict Str (NDArray K))) (plotEuler plotOptimizer : Bool)
    (rename : Option (Dict Str Str)) (legends : LegendArg) (cmap : Option Str)
    (hc : 1 ≤ nCols) (hn : varNames.getD modelNames ≠ [])
    (h : knownCmap (cmap.getD "tab10".toList) = false) :
    plotLines setList knownCmap out modelNames nCols varNames init plotEuler plotOptimizer rename legends
      cmap = .error .valueError := by
  unfold plotLines
  dsimp only
  split
  · rfl
  split
  · rfl
  have hl : 1 ≤ (varNames.getD modelNames).length := List.length_pos_iff.2 hn
  rw [prepareGrid_eq (min nCols (varNames.getD modelNames).length)
    (varNames.getD modelNames).length (le_min hc hl) hl]
  simp only [h, Bool.not_false, if_true]
  rfl

/-- Nothing asked for is shown unless it is in the result: a panel was made only if every named variable
stands in the groups asked for. -/
theorem C77_only_known (setList : List Str → List Str) (knownCmap : Str → Bool) (out : SimOut K)
    (modelNames : List Str) (nCols : Nat) (varNames : Option (List Str))
    (init : Option (Dict Str (NDArray K))) (plotEuler plotOptimizer : Bool)
    (rename : Option (Dict Str Str)) (legends : LegendArg) (cmap : Option Str) (panels : List (LinePanel K))
    (h : plotLines setList knownCmap out modelNames nCols varNames init plotEuler plotOptimizer rename
      legends cmap = .ok panels) :
    varNames.getD modelNames ≠ [] ∧ 1 ≤ nCols ∧ knownCmap (cmap.getD "tab10".toList) = true ∧
    ∀ name ∈ varNames.getD modelNames,
      (plotEuler = true → ∃ e, out.euler = some e ∧ ∀ r ∈ e.keptVars, name ∈ dkeys r.2) ∧
      (plotOptimizer = true → ∃ o, out.optimizer = some o ∧ name ∈ dkeys o.1) := by
  unfold plotLines at h
  generalize hnames : varNames.getD modelNames = names at *
  dsimp only at h
  split at h
  · cases h
  rename_i h1
  split at h
  · cases h
  rename_i h2
  cases hg : prepareGrid (min nCols names.length) names.length with
  | error e => rw [hg] at h; cases h
  | ok g =>
    rw [hg] at h
    simp only [bind, Except.bind] at h
    split at h
    · cases h
    rename_i h3
    have hmin : min nCols names.length ≠ 0 := by
      intro h0
      rw [h0] at hg
      simp [prepareGrid] at hg
    have hn : names ≠ [] := by
      rintro rfl
      simp at hmin
    refine ⟨hn, by omega, by simpa using h3, ?_⟩
    intro name hname
    obtain ⟨k, hk, rfl⟩ := List.getElem_of_mem hname
    obtain ⟨q, hq⟩ := mapM_ok_each _ _ _ h (names[k], k) (by
      rw [List.mem_zipIdx_iff_getElem?]
      simp [List.getElem?_eq_getElem hk])
    dsimp only at hq
    cases hl : listGetE g.locs k with
    | error e => rw [hl] at hq; cases hq
    | ok loc =>
    rw [hl] at hq
    dsimp only at hq
    cases hE : euLines plotEuler (out.euler.map EulerPass.keptVars) (legendDict setList names legends)
        names[k] with
    | error e => rw [hE] at hq; cases hq
    | ok ls =>
    rw [hE] at hq
    dsimp only at hq
    cases hO : opStars plotEuler plotOptimizer (out.euler.map EulerPass.keptVars) out.optimizer
        names[k] with
    | error e => rw [hO] at hq; cases hq
    | ok st =>
    constructor
    · rintro rfl
      cases he : out.euler with
      | none => simp [he] at h1
      | some e =>
        refine ⟨e, rfl, ?_⟩
        rw [he] at hE
        intro r hr
        simp only [Option.map_some, euLines, linesOf, bind, Except.bind] at hE
        cases hf : listGetE e.keptVars 0 with
        | error e' => rw [hf] at hE; cases hE
        | ok first =>
        rw [hf] at hE
        dsimp only at hE
        cases ha : dgetE first.2 names[k] with
        | error e' => rw [ha] at hE; cases hE
        | ok a =>
        rw [ha] at hE
        dsimp only at hE
        cases hc : e.keptVars.mapM (fun r => (dgetE r.2 names[k]).map fun a => (r.1, a.data)) with
        | error e' => rw [hc] at hE; cases hE
        | ok cols =>
        obtain ⟨b, hb⟩ := mapM_ok_each _ _ _ hc r hr
        rw [mem_dkeys_iff]
        cases hd : dget r.2 names[k] with
        | none => simp [dgetE, hd, Except.map] at hb
        | some v => exact ⟨v, rfl⟩
    · rintro rfl
      cases ho : out.optimizer with
      | none => simp [ho] at h2
      | some o =>
        refine ⟨o, rfl, ?_⟩
        rw [ho] at hO
        rw [mem_dkeys_iff]
        cases hd : dget o.1 names[k] with
        | none => simp [opStars, starsOf, dgetE, hd, Except.map, bind, Except.bind] at hO
        | some v => exact ⟨v, rfl⟩

end General

section Composed

variable {K : Type} [Field K]

/-- What `simulate` computes for a well formed request. -/
theorem simulate_call (env : SamEnv K (List (NDArray K))) (isNan : K → Bool)
    (hm : EulerModel env.coords env.variables env.parameters)
    (hcomp : env.compiled ≠ []) (fl : SimFlags) (add mul : NDArray K → NDArray K → NDArray K)
    (h : Heap (NDArray K)) (c : SimCall K)
    (hr : RequestOK env.coords env.variables env.parameters add mul h c) :
    simulateCompute (simEnvOf env isNan fl add mul) h c =
        liftPy (simulateSolve env isNan fl (derefDict h c.initial)
          (wantedFlat add mul h c env.parameters) c) ∧
      EulerCall env.coords env.variables env.parameters (derefDict h c.initial)
        (wantedFlat add mul h c env.parameters) ∧
      (∀ o ∈ env.variables ++ env.parameters,
        dget (derefDict h c.initial) o.name = seen h c.initial o.name) ∧
      (∀ objs, (∀ o ∈ objs, o ∈ env.variables ++ env.parameters) →
        flatOf (derefDict h c.initial) objs = initialFlat h c objs) := by
  obtain ⟨thetas, hsim, hx0, hth⟩ := runs_requested_scenario
    (simEnvOf env isNan fl add mul) h c (by simp [simEnvOf, hcomp]) hm.someVar hm.someParam
    hr.nodup
    (fun n hn => (hr.exact n).2 (by simpa [simEnvOf] using hn))
    (fun n hn => by simpa [simEnvOf] using (hr.exact n).1 hn) hr.distinct hr.some_change hr.known
    hr.valid.1 hr.valid.2.1 hr.valid.2.2.1 hr.valid.2.2.2 hr.unshared
  have hkeys := initial_keys hr hm.labelled.names
  have hdata : ∀ o ∈ env.variables ++ env.parameters, DataFor env.coords (derefDict h c.initial) o := by
    intro o ho
    obtain ⟨a, h1, h2, h3⟩ := hr.shaped o ho
    exact ⟨a, by rw [hx0, h1], h2, h3⟩
  have hth' : thetas.map some = env.parameters.map fun p =>
      (wantedValue add mul h c p.name).map NDArray.data := hth
  have hthf : thetas = env.parameters.map fun o =>
      ((wantedValue add mul h c o.name).map NDArray.data).getD [] := by
    have := congrArg (List.map fun o : Option (List K) => o.getD []) hth'
    simpa [List.map_map, Function.comp_def] using this
  have hflat : thetas.flatten = wantedFlat add mul h c env.parameters := by
    rw [hthf, wantedFlat, List.flatMap_def]
  have htl : (wantedFlat add mul h c env.parameters).length =
      totalSize env.coords env.parameters := by
    unfold wantedFlat totalSize
    rw [List.length_flatMap]
    congr 1
    apply List.map_congr_left
    intro o ho
    obtain ⟨a, h1, h2⟩ := hr.sized o ho
    rw [h1]
    exact h2
  rw [hflat] at hsim
  refine ⟨hsim, hm.call hkeys hdata htl, fun o _ => hx0 o.name, ?_⟩
  intro objs hobjs
  unfold flatOf initialFlat
  rw [List.flatMap_def]
  simp only [hx0]

/-- The rows that are kept when no number is NaN: all of them, labelled 0, 1, …, and under each variable's
name the corresponding slice of its array. -/
theorem eulerPass_kept (env : SamEnv K (List (NDArray K))) (b : EulerBackend) (dx : StepSolve K)
    (he : EulerIs env b dx) (hm : EulerModel env.coords env.variables env.parameters)
    (hdx : LenOK dx (totalSize env.coords env.variables) (totalSize env.coords env.parameters))
    (x0 : Dict Str (NDArray K)) (theta : List K) (n : Nat)
    (hc : EulerCall env.coords env.variables env.parameters x0 theta) (outs : List (NDArray K))
    (h : runEuler b dx env.variables env.parameters env.coords theta n x0 = .ok outs)
    (e : EulerPass K) (hp : eulerPass env (fun _ => false) x0 theta n = .ok e) :
    e.keptVars.length = (if b.keepsStart then n + 1 else n) ∧
    ∀ i, i < (if b.keepsStart then n + 1 else n) → ∃ row, e.keptVars[i]? = some (i, row) ∧
      ∀ (k : Nat) o a, env.variables[k]? = some o → outs[k]? = some a →
        dget row o.name = some (stepSlice i a) := by
  obtain ⟨hlen, hshape⟩ := runEuler_arrays b dx _ _ _ _ _ n hc hdx outs h
  generalize (if b.keepsStart then n + 1 else n) = m at *
  have hv := hm.someVar
  obtain ⟨V, P, hid, hVk, hPk, hV, hP⟩ := C51_euler_partial env.coords env.variables env.parameters
    outs m hm.labelled hv hlen (fun k o a h1 h2 => (hshape k o a h1 h2).1)
  have hv0 : 0 < env.variables.length := List.length_pos_iff.2 hv
  have ha0 : 0 < outs.length := by omega
  have hfirst : listGetE outs 0 = .ok outs[0] := by
    unfold listGetE; rw [List.getElem?_eq_getElem ha0]
  have hnd : ndLen outs[0] = .ok m := by
    obtain ⟨o, ho⟩ : ∃ o, (env.variables ++ env.parameters)[0]? = some o :=
      ⟨env.variables[0], by rw [List.getElem?_append_left hv0, List.getElem?_eq_getElem hv0]⟩
    have := (hshape 0 o outs[0] ho (List.getElem?_eq_getElem ha0)).1
    simp [ndLen, this]
  have hrow : ∀ (ds : XDataset K) k, stepRow (fun _ => false) ds k =
      some (ds.map fun p => (p.1, stepSlice k p.2.2)) := by
    intro ds k
    unfold stepRow
    rw [if_neg]
    simp
  have e1 : ((trajectoryRows (fun _ => false) (V, P) m).map EulerRow.vars) =
      ((List.range m).map fun k => V.map fun p => (p.1, stepSlice k p.2.2)).map some ++
        List.replicate 0 none := by
    simp [trajectoryRows, List.map_map, Function.comp_def, hrow]
  have hkept : e.keptVars = survivors ((trajectoryRows (fun _ => false) (V, P) m).map EulerRow.vars) := by
    unfold eulerPass at hp
    rw [he] at hp
    simp only [h, bind, Except.bind, hid, hfirst, hnd] at hp
    split at hp
    · cases hp
    · cases hp; rfl
  rw [e1, survivors_replicate] at hkept
  have hnn := hm.labelled.names
  rw [List.map_append] at hnn
  obtain ⟨hn1, -, -⟩ := List.nodup_append.1 hnn
  refine ⟨by simp [hkept], ?_⟩
  intro i hi
  refine ⟨V.map fun p => (p.1, stepSlice i p.2.2), ?_, ?_⟩
  · rw [hkept, List.getElem?_map, List.getElem?_zipIdx, List.getElem?_map, List.getElem?_range hi]
    simp
  · intro k o a ho ha
    exact (stepRow_some (hrow V i)).2 _ _ (hV k o a ho ha) (hVk ▸ hn1)

/-- An element of row `i` of a trajectory. -/
theorem stateRow_get (b : EulerBackend) (dx : StepSolve K) (coords : Coords)
    (vars params : List ModelObject) (data : Dict Str (NDArray K)) (tf : List K) (n : Nat)
    (hc : EulerCall coords vars params data tf)
    (hdx : LenOK dx (totalSize coords vars) (totalSize coords params)) (outs : List (NDArray K))
    (h : runEuler b dx vars params coords tf n data = .ok outs) (i k : Nat)
    (hi : i < (if b.keepsStart then n + 1 else n)) (o : ModelObject) (a : NDArray K)
    (ho : (vars ++ params)[k]? = some o) (ha : outs[k]? = some a) (j : Nat) (hj : j < specSize coords o) :
    (stateRow outs i)[offsetOf coords (vars ++ params) k + j]? = (stepSlice i a).data[j]? := by
  obtain ⟨hlen, hshape⟩ := runEuler_arrays b dx _ _ _ _ _ n hc hdx outs h
  have hrl : ∀ (k : Nat) o a, (vars ++ params)[k]? = some o → outs[k]? = some a →
      (rowOf a i).length = specSize coords o ∧ rowOf a i = (stepSlice i a).data := by
    intro k o a ho ha
    obtain ⟨h1, h2⟩ := hshape k o a ho ha
    obtain ⟨h3, h4⟩ := stepSlice_data i _ a _ h1 h2 hi
    have e : rowOf a i = (stepSlice i a).data := by
      simp [stepSlice, rowOf, slice_eq]
    exact ⟨by rw [e, h4, h3]; rfl, e⟩
  unfold stateRow
  have hoff : (((outs.map fun a => rowOf a i).take k).map List.length).sum =
      offsetOf coords (vars ++ params) k := by
    unfold offsetOf totalSize
    congr 1
    apply List.ext_getElem?
    intro m
    rw [List.getElem?_map, List.getElem?_map, List.getElem?_take, List.getElem?_take]
    by_cases hm : m < k
    · rw [if_pos hm, if_pos hm, List.getElem?_map]
      cases hom : (vars ++ params)[m]? with
      | none =>
        rw [List.getElem?_eq_none (by rw [hlen]; simpa using hom)]
        rfl
      | some o' =>
        have hlt : m < outs.length := by
          rw [hlen]; have := (List.getElem?_eq_some_iff.1 hom).1; simpa using this
        rw [List.getElem?_eq_getElem hlt]
        simp [(hrl m o' _ hom (List.getElem?_eq_getElem hlt)).1]
    · rw [if_neg hm, if_neg hm]; rfl
  obtain ⟨h1, h2⟩ := hrl k o a ho ha
  rw [← hoff, ← h2]
  exact getElem?_flatten_block _ k _ (by rw [List.getElem?_map, ha]; rfl) j (by rw [h1]; exact hj)

theorem initialFlat_get (coords : Coords) (h : Heap (NDArray K)) (c : SimCall K) (objs : List ModelObject)
    (hs : ∀ o ∈ objs, ∃ a, seen h c.initial o.name = some a ∧ a.shape = specShape coords o ∧ a.WF)
    (k : Nat) (o : ModelObject) (ho : objs[k]? = some o) (a : NDArray K)
    (ha : seen h c.initial o.name = some a) (idx : List Nat) (hi : ValidIdx (specShape coords o) idx) :
    (initialFlat h c objs)[offsetOf coords objs k + ravelIndex (specShape coords o) idx]? = a.at? idx := by
  have hlen : ∀ o ∈ objs, (((seen h c.initial o.name).map NDArray.data).getD []).length =
      specSize coords o := by
    intro o ho
    obtain ⟨a, h1, h2, h3⟩ := hs o ho
    rw [h1]
    show a.data.length = _
    rw [h3, h2]; rfl
  obtain ⟨a', h1, h2, h3⟩ := hs o (List.mem_of_getElem? ho)
  rw [ha] at h1
  cases h1
  unfold initialFlat
  rw [List.flatMap_def]
  have hoff : (((objs.map fun o => ((seen h c.initial o.name).map NDArray.data).getD []).take k).map
      List.length).sum = offsetOf coords objs k := by
    unfold offsetOf totalSize
    rw [← List.map_take, List.map_map]
    congr 1
    apply List.map_congr_left
    intro o ho
    exact hlen o (List.mem_of_mem_take ho)
  have hj := ravelIndex_lt _ _ hi
  rw [← hoff, getElem?_flatten_block _ k a.data (by rw [List.getElem?_map, ho, Option.map_some, ha]; rfl) _
    (by rw [h3, h2]; exact hj), NDArray.at?, if_pos (h2 ▸ hi), h2]

/-- **C77, the figure of a simulation.**  After `simulate` with the Euler pass and the optimizer, when no
number is NaN, `plot_lines` draws for each element of each variable a line through the states of the Euler
pass, at 0, 1, …; a green star at 0 at the caller's initial value; and a red star above the last point of
the line at the optimizer's answer.  The line's points are the states after 0, 1, … steps for back-ends that
keep the start, and the states after 1, 2, … steps for those that do not. -/
theorem C77_simulated_partial (env : SamEnv K (List (NDArray K))) (b : EulerBackend) (dx : StepSolve K)
    (he : EulerIs env b dx) (hm : EulerModel env.coords env.variables env.parameters)
    (hdx : LenOK dx (totalSize env.coords env.variables) (totalSize env.coords env.parameters))
    (hcomp : env.compiled ≠ []) (fl : SimFlags) (add mul : NDArray K → NDArray K → NDArray K)
    (h : Heap (NDArray K)) (c : SimCall K)
    (hr : RequestOK env.coords env.variables env.parameters add mul h c)
    (heul : c.useEuler = true) (hopt : c.useOptimizer = true) (hn : 1 ≤ c.nIterEuler) (out : SimOut K)
    (hout : simulateCompute (simEnvOf env (fun _ => false) fl add mul) h c = .ok out)
    (hlen : ∀ res, out.optimRes = some res → res.x.length = totalSize env.coords env.variables)
    (setList : List Str → List Str) (hset : ∀ l x, x ∈ setList l ↔ x ∈ l) (knownCmap : Str → Bool)
    (nCols : Nat) (hc : 1 ≤ nCols) (init : Option (Dict Str (NDArray K)))
    (rename : Option (Dict Str Str)) (legends : LegendArg) (cmap : Option Str)
    (hcm : knownCmap (cmap.getD "tab10".toList) = true) :
    ∃ outs res panels, runEuler b dx env.variables env.parameters env.coords
        (wantedFlat add mul h c env.parameters) c.nIterEuler (derefDict h c.initial) = .ok outs ∧
      out.optimRes = some res ∧
      plotLines setList knownCmap out (env.variables.map ModelObject.name) nCols none init true true rename
        legends cmap = .ok panels ∧
      panels.length = env.variables.length ∧
      ∀ (k : Nat) o p, env.variables[k]? = some o → panels[k]? = some p →
        ∃ ls g r, p.lines = some (ls, wantsLegend legends o.name) ∧ p.stars = some (g, r) ∧
          ls.length = specSize env.coords o ∧ g.length = specSize env.coords o ∧
          r.length = specSize env.coords o ∧
          ∀ idx, ValidIdx (specShape env.coords o) idx → ∃ (pts : List (Nat × K)) (j at_ : Nat),
            j = ravelIndex (specShape env.coords o) idx ∧ at_ = offsetOf env.coords env.variables k + j ∧
            ls[j]? = some pts ∧ pts.length = (if b.keepsStart then c.nIterEuler + 1 else c.nIterEuler) ∧
            (∀ t, t < pts.length → ∃ y, (b.stateAfter env.variables env.parameters
                (derefDict h c.initial) outs (if b.keepsStart then t else t + 1))[at_]? = some y ∧
              pts[t]? = some (t, y)) ∧
            (∃ y, (initialFlat h c env.variables)[at_]? = some y ∧ g[j]? = some (0, y)) ∧
            (∃ y, res.x[at_]? = some y ∧ r[j]? = some (pts.length - 1, y)) := by
  obtain ⟨hsim, hcall, hx0, hinit⟩ := simulate_call env (fun _ => false) hm hcomp fl add mul h c hr
  rw [hsim] at hout
  have hsolve : simulateSolve env (fun _ => false) fl (derefDict h c.initial)
      (wantedFlat add mul h c env.parameters) c = .ok out := by
    cases hs : simulateSolve env (fun _ => false) fl (derefDict h c.initial)
      (wantedFlat add mul h c env.parameters) c with
    | error e => rw [hs] at hout; cases hout
    | ok o => rw [hs] at hout; cases hout; rfl
  unfold simulateSolve eulerPart at hsolve
  rw [if_pos heul] at hsolve
  cases hpass : eulerPass env (fun _ => false) (derefDict h c.initial)
      (wantedFlat add mul h c env.parameters) c.nIterEuler with
  | error e => rw [hpass] at hsolve; cases hsolve
  | ok e =>
  rw [hpass] at hsolve
  simp only [Except.map, bind, Except.bind, hopt, if_true, Option.map_some, Option.getD_some] at hsolve
  cases hsol : simOptimize env fl c.optimizerMode e.start (wantedFlat add mul h c env.parameters) with
  | error e' => rw [hsol] at hsolve; cases hsolve
  | ok res =>
  rw [hsol] at hsolve
  simp only at hsolve
  cases hid : optimizerResultToIdata res.x (wantedFlat add mul h c env.parameters) (derefDict h c.initial)
      env.variables env.parameters env.coords with
  | error e' => rw [hid] at hsolve; cases hsolve
  | ok VP =>
  rw [hid] at hsolve
  simp only [pure, Except.pure, Except.ok.injEq] at hsolve
  subst hsolve
  have hrl : res.x.length = totalSize env.coords env.variables := hlen res rfl
  obtain ⟨V, P, hid', -, -, hV, -⟩ := C51_optimizer_partial env.coords env.variables env.parameters res.x _
    (derefDict h c.initial) hm.labelled hrl hcall.final hcall.shaped
  rw [hid] at hid'
  cases hid'
  obtain ⟨outs, hrun⟩ : ∃ outs, runEuler b dx env.variables env.parameters env.coords
      (wantedFlat add mul h c env.parameters) c.nIterEuler (derefDict h c.initial) = .ok outs := by
    cases hrun : runEuler b dx env.variables env.parameters env.coords
      (wantedFlat add mul h c env.parameters) c.nIterEuler (derefDict h c.initial) with
    | ok outs => exact ⟨outs, rfl⟩
    | error e' =>
      unfold eulerPass at hpass
      rw [he] at hpass
      simp only [hrun, bind, Except.bind] at hpass
      cases hpass
  obtain ⟨hklen, hkept⟩ := eulerPass_kept env b dx he hm hdx _ _ c.nIterEuler hcall outs hrun e hpass
  obtain ⟨holen, hoshape⟩ := runEuler_arrays b dx _ _ _ _ _ c.nIterEuler hcall hdx outs hrun
  have hmpos : 1 ≤ (if b.keepsStart then c.nIterEuler + 1 else c.nIterEuler) := by split <;> omega
  have hne : e.keptVars ≠ [] := by
    intro h0
    rw [h0] at hklen
    simp only [List.length_nil] at hklen
    omega
  have hrows : ∀ (k : Nat) o, env.variables[k]? = some o →
      RowsHave e.keptVars o.name (specShape env.coords o) := by
    intro k o ho r hr'
    obtain ⟨i, hi, rfl⟩ := List.getElem_of_mem hr'
    obtain ⟨row, h1, h2⟩ := hkept i (by omega)
    have hk : k < outs.length := by
      rw [holen]
      have := (List.getElem?_eq_some_iff.1 ho).1
      omega
    have ho' : (env.variables ++ env.parameters)[k]? = some o := by
      rw [List.getElem?_append_left (List.getElem?_eq_some_iff.1 ho).1, ho]
    rw [List.getElem?_eq_getElem hi, Option.some.injEq] at h1
    have ha := List.getElem?_eq_getElem hk
    obtain ⟨h3, h4⟩ := hoshape k o _ ho' ha
    obtain ⟨h5, h6⟩ := stepSlice_data i _ outs[k] _ h3 h4 (by omega)
    exact ⟨_, by rw [h1]; exact h2 k o _ ho ha, h5, h6⟩
  have hopts : ∀ (k : Nat) o, env.variables[k]? = some o → ∃ a v, seen h c.initial o.name = some a ∧
      dget V o.name = some v ∧ TwoSteps env.coords o a res.x (offsetOf env.coords env.variables k) v := by
    intro k o ho
    have hmem : o ∈ env.variables ++ env.parameters := by simp [List.mem_of_getElem? ho]
    obtain ⟨a, ha, -, -⟩ := hr.shaped o hmem
    obtain ⟨v, h1, h2⟩ := hV k o a ho (by rw [hx0 o hmem, ha])
    exact ⟨a, v, ha, h1, h2⟩
  obtain ⟨panels, g, hplot, -, -, hall⟩ := C77_panels setList hset knownCmap
    ⟨some e, some (V, P), some res, !res.success⟩ (env.variables.map ModelObject.name) nCols none init true
    true rename legends cmap hc (by simpa using hm.someVar) hcm ⟨by
      intro _
      refine ⟨e, rfl, hne, ?_⟩
      intro name hname
      obtain ⟨o, ho, rfl⟩ := List.mem_map.1 hname
      obtain ⟨k, hk, rfl⟩ := List.getElem_of_mem ho
      exact ⟨_, hrows k _ (List.getElem?_eq_getElem hk)⟩, by
      intro _
      refine ⟨(V, P), rfl, ?_⟩
      intro name hname
      obtain ⟨o, ho, rfl⟩ := List.mem_map.1 hname
      obtain ⟨k, hk, rfl⟩ := List.getElem_of_mem ho
      obtain ⟨a, v, h1, h2, h3⟩ := hopts k _ (List.getElem?_eq_getElem hk)
      exact ⟨v.1, v.2, 1, _, h2, h3.shape, h3.wf⟩⟩
  have hpl : panels.length = env.variables.length := by simpa using hall.length_eq.symm
  refine ⟨outs, res, panels, hrun, rfl, hplot, hpl, ?_⟩
  intro k o p ho hp
  obtain ⟨hk1, hk2⟩ := List.getElem?_eq_some_iff.1 ho
  obtain ⟨hp1, hp2⟩ := List.getElem?_eq_some_iff.1 hp
  have hpanel := (List.forall₂_iff_get.1 hall).2 k (by simpa using hk1) hp1
  simp only [List.get_eq_getElem, Option.getD_none, List.getElem_map, hk2, hp2] at hpanel
  obtain ⟨ls, hls, hshow⟩ := hpanel.lines e rfl rfl
  obtain ⟨st, t, hst, hstars, -, hlast⟩ := hpanel.stars (V, P) rfl rfl
  obtain ⟨a, v, ha, hv, htwo⟩ := hopts k o ho
  have hS := hstars v.1 v.2 1 _ hv htwo.shape htwo.wf
  obtain ⟨hlcount, hlines⟩ := hshow _ (hrows k o ho)
  have ht : t = (if b.keepsStart then c.nIterEuler + 1 else c.nIterEuler) - 1 := by
    obtain ⟨⟨r, hr1, hr2⟩, hall'⟩ := hlast e rfl rfl
    obtain ⟨i, hi, rfl⟩ := List.getElem_of_mem hr1
    have hlab : ∀ i (hi : i < e.keptVars.length), e.keptVars[i].1 = i := by
      intro i hi
      obtain ⟨row, h1, -⟩ := hkept i (by omega)
      rw [List.getElem?_eq_getElem hi, Option.some.injEq] at h1
      rw [h1]
    rw [hlab i hi] at hr2
    have hl := hall' _ (List.getElem_mem (show e.keptVars.length - 1 < e.keptVars.length by omega))
    rw [hlab] at hl
    omega
  refine ⟨ls, st.1, st.2, hls, hst, hlcount, hS.count.1, hS.count.2, ?_⟩
  intro idx hi
  obtain ⟨pts, h1, h2, h3⟩ := hlines idx hi
  have hj := ravelIndex_lt _ _ hi
  refine ⟨pts, _, _, rfl, rfl, h1, by rw [h2, hklen], ?_, ?_, ?_⟩
  · intro i hi'
    obtain ⟨row, g1, g2⟩ := hkept i (by omega)
    have hk : k < outs.length := by rw [holen]; omega
    have ho' : (env.variables ++ env.parameters)[k]? = some o := by
      rw [List.getElem?_append_left hk1, ho]
    have hao := List.getElem?_eq_getElem hk
    obtain ⟨y, hy1, hy2⟩ := h3 i i row _ g1 (g2 k o _ ho hao)
    refine ⟨y, ?_, hy2⟩
    obtain ⟨g3, g4⟩ := hoshape k o _ ho' hao
    obtain ⟨g5, g6⟩ := stepSlice_data i _ outs[k] _ g3 g4 (by omega)
    have hrow := stateRow_get b dx env.coords env.variables env.parameters _ _ c.nIterEuler hcall hdx outs
      hrun i k (by omega) o _ ho' hao _ (show ravelIndex (specShape env.coords o) idx < _ from hj)
    have hoff : offsetOf env.coords (env.variables ++ env.parameters) k =
        offsetOf env.coords env.variables k := by
      unfold offsetOf
      rw [List.take_append_of_le_length (by omega)]
    rw [hoff] at hrow
    have hstate : b.stateAfter env.variables env.parameters (derefDict h c.initial) outs
        (if b.keepsStart then i else i + 1) = stateRow outs i := by
      unfold EulerBackend.stateAfter
      cases b.keepsStart <;> simp
    rw [hstate, hrow, ← hy1, NDArray.at?, if_pos (g5 ▸ hi), g5]
  · obtain ⟨y, hy1, hy2⟩ := hS.green idx hi
    refine ⟨y, ?_, hy2⟩
    rw [initialFlat_get env.coords h c env.variables (fun o ho => hr.shaped o (by simp [ho])) k o ho a ha
      idx hi, ← htwo.before idx, hy1]
  · obtain ⟨y, hy1, hy2⟩ := hS.red idx hi
    refine ⟨y, ?_, ?_⟩
    · rw [← htwo.after idx hi, hy1]
    · rw [hy2, ht, h2, hklen]

/-- **C77, where a line starts.**  For back-ends that keep the start, the first point of each line is the
green star. -/
theorem C77_starts_at_star_partial (env : SamEnv K (List (NDArray K))) (b : EulerBackend) (dx : StepSolve K)
    (he : EulerIs env b dx) (hm : EulerModel env.coords env.variables env.parameters)
    (hdx : LenOK dx (totalSize env.coords env.variables) (totalSize env.coords env.parameters))
    (hcomp : env.compiled ≠ []) (fl : SimFlags) (add mul : NDArray K → NDArray K → NDArray K)
    (h : Heap (NDArray K)) (c : SimCall K)
    (hr : RequestOK env.coords env.variables env.parameters add mul h c)
    (heul : c.useEuler = true) (hopt : c.useOptimizer = true) (hn : 1 ≤ c.nIterEuler) (out : SimOut K)
    (hout : simulateCompute (simEnvOf env (fun _ => false) fl add mul) h c = .ok out)
    (hlen : ∀ res, out.optimRes = some res → res.x.length = totalSize env.coords env.variables)
    (setList : List Str → List Str) (hset : ∀ l x, x ∈ setList l ↔ x ∈ l) (knownCmap : Str → Bool)
    (nCols : Nat) (hc : 1 ≤ nCols) (init : Option (Dict Str (NDArray K)))
    (rename : Option (Dict Str Str)) (legends : LegendArg) (cmap : Option Str)
    (hcm : knownCmap (cmap.getD "tab10".toList) = true) (hb : b.keepsStart = true) :
    ∃ panels, plotLines setList knownCmap out (env.variables.map ModelObject.name) nCols none init true true
        rename legends cmap = .ok panels ∧
      ∀ p ∈ panels, ∃ ls lg g r, p.lines = some (ls, lg) ∧ p.stars = some (g, r) ∧
        ∀ (j : Nat) pts star, ls[j]? = some pts → g[j]? = some star → pts[0]? = some star := by
  obtain ⟨-, hcall, -, hinit⟩ := simulate_call env (fun _ => false) hm hcomp fl add mul h c hr
  obtain ⟨outs, res, panels, hrun, -, hplot, hpl, hall⟩ := C77_simulated_partial env b dx he hm hdx hcomp fl
    add mul h c hr heul hopt hn out hout hlen setList hset knownCmap nCols hc init rename legends cmap hcm
  obtain ⟨S, hS0, hS, -⟩ := stateAfter_spec b dx _ _ _ _ _ _ hcall hdx outs hrun
  have hstart : b.stateAfter env.variables env.parameters (derefDict h c.initial) outs 0 =
      initialFlat h c env.variables ++ initialFlat h c env.parameters := by
    rw [(hS 0 (Nat.zero_le _)).1, hS0]
    rw [hinit _ (fun o ho => by simp [ho]), hinit _ (fun o ho => by simp [ho])]
  refine ⟨panels, hplot, ?_⟩
  intro p hp
  obtain ⟨k, hk, rfl⟩ := List.getElem_of_mem hp
  have hk' : k < env.variables.length := by omega
  obtain ⟨ls, g, r, h1, h2, h3, -, -, h4⟩ := hall k _ _ (List.getElem?_eq_getElem hk')
    (List.getElem?_eq_getElem hk)
  refine ⟨ls, _, g, r, h1, h2, ?_⟩
  intro j pts star hj hg
  have hjl : j < specSize env.coords env.variables[k] := by
    rw [← h3]; exact (List.getElem?_eq_some_iff.1 hj).1
  obtain ⟨pts', j', at_, rfl, hat, g1, g2, g3, ⟨y, g4, g5⟩, -⟩ := h4 _ (unravel_valid _ j hjl)
  rw [ravel_unravel _ j hjl] at g1 g5 hat
  rw [hj] at g1
  cases g1
  rw [hg] at g5
  cases g5
  rw [hb] at g2 g3
  obtain ⟨y', g6, g7⟩ := g3 0 (by rw [g2]; simp)
  rw [if_pos rfl, hstart, List.getElem?_append_left (List.getElem?_eq_some_iff.1 g4).1, g4] at g6
  cases g6
  exact g7

end Composed

/-! ### The model `x = p` from 1 to 2 in two steps -/

/-- One step of the model `x = p`: `x` moves with `p`. -/
def followStep : StepSolve ℚ := fun _ _ h => .ok h

def followEnv (b : EulerBackend) : SamEnv ℚ (List (NDArray ℚ)) :=
  ⟨gapVars, gapParams, [], ["euler".toList, "root".toList],
    .flat fun x t => .ok (List.zipWith (· - ·) x t),
    .flat fun _ _ => .error .attributeError, [], fun _ _ theta _ => .ok ⟨theta, true⟩,
    fun _ _ _ _ => .error .attributeError,
    fun x0 theta n => runEuler b followStep gapVars gapParams [] theta n x0⟩

def followCall : SimCall ℚ where
  initial := [("x".toList, .num ⟨[], [1]⟩), ("p".toList, .num ⟨[], [1]⟩)]
  finalValues := some [("p".toList, .num ⟨[], [2]⟩)]
  nIterEuler := 2

/-- The points of the line of the first panel with its stars, when `initial_values` is passed. -/
def firstLine (b : EulerBackend) (init : Option (Dict Str (NDArray ℚ))) :
    Option (List (Nat × ℚ) × List (Nat × ℚ) × List (Nat × ℚ)) :=
  match simulateCompute (simEnvOf (followEnv b) (fun _ => false) {} (fun a _ => a) fun a _ => a) []
      followCall with
  | .error _ => none
  | .ok out =>
    match plotLines id (fun _ => true) out ["x".toList] 5 none init true true none .none none with
    | .ok [⟨_, _, some ([l], _), some (g, r)⟩] => some (l, g, r)
    | _ => none

example : firstLine (.scan false) none = some ([(0, 1), (1, 3 / 2), (2, 2)], [(0, 1)], [(2, 2)]) := by
  decide +kernel

theorem followRequest (add mul : NDArray ℚ → NDArray ℚ → NDArray ℚ) :
    RequestOK [] gapVars gapParams add mul [] followCall where
  nodup := by simp [followCall, dkeys]
  exact := by intro n; simp [followCall, dkeys, gapVars, gapParams]
  distinct := by simp [followCall, dkeys]
  some_change := by simp [followCall, dkeys]
  known := by simp [followCall, dkeys]
  valid := by simp [followCall, ValidRefs, refsOf]
  unshared := by simp [followCall, refsOf]
  shaped := by
    intro o ho
    have : o = { name := "x" } ∨ o = { name := "p" } := by
      simpa [gapVars, gapParams] using ho
    rcases this with rfl | rfl
    · exact ⟨⟨[], [1]⟩, rfl, rfl, rfl⟩
    · exact ⟨⟨[], [1]⟩, rfl, rfl, rfl⟩
  sized := by
    intro o ho
    have : o = { name := "p" } := by simpa [gapParams] using ho
    subst this
    exact ⟨⟨[], [2]⟩, rfl, rfl⟩

/-- The hypotheses of the theorems about simulations are met by this model, with every back-end. -/
example (b : EulerBackend) (hb : b = .pytensorLoop ∨ b = .scan false ∨ b = .numba) :
    EulerIs (followEnv b) b followStep ∧ EulerModel [] gapVars gapParams ∧
    LenOK followStep (totalSize [] gapVars) (totalSize [] gapParams) ∧
    ∃ out, simulateCompute (simEnvOf (followEnv b) (fun _ => false) {} (fun a _ => a) fun a _ => a) []
        followCall = .ok out ∧
      ∀ res, out.optimRes = some res → res.x.length = totalSize [] gapVars := by
  refine ⟨rfl, gapModel, ?_, ?_⟩
  · intro x t h d _ _ h1 h2
    cases h2
    exact h1
  · have key : ((simulateCompute (simEnvOf (followEnv b) (fun _ => false) {} (fun a _ => a) fun a _ => a) []
        followCall).toOption.bind SimOut.optimRes) = some ⟨[2], true⟩ := by
      rcases hb with rfl | rfl | rfl <;> decide +kernel
    cases hs : simulateCompute (simEnvOf (followEnv b) (fun _ => false) {} (fun a _ => a) fun a _ => a) []
        followCall with
    | error e => rw [hs] at key; cases key
    | ok out =>
      rw [hs] at key
      refine ⟨out, rfl, ?_⟩
      intro res hres
      have key' : out.optimRes = some ⟨[2], true⟩ := key
      rw [key'] at hres
      cases hres
      rfl

/-- **A line that does not start at its star.**  For the same simulation with the python loop the first
point of the line is the state after one step, drawn at 0 above the green star, and the line ends at 1. -/
theorem C77_start_counterexample :
    firstLine .pytensorLoop none = some ([(0, 3 / 2), (1, 2)], [(0, 1)], [(1, 2)]) := by
  decide +kernel

/-- **`initial_values` does nothing.**  The docstring says that the initial values are taken from the result
only if `initial_values` is not given; with `x = 7` given, the green star is still at 1. -/
theorem C77_initial_values_counterexample :
    firstLine (.scan false) (some [("x".toList, ⟨[], [7]⟩)]) =
      some ([(0, 1), (1, 3 / 2), (2, 2)], [(0, 1)], [(2, 2)]) := by
  decide +kernel

end Verif
