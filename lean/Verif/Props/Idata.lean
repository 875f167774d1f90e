import Verif.Model.Idata
import Verif.Props.Flat
import Verif.Lemmas.Expand
import Mathlib.Tactic.ByContra
import Mathlib.Data.List.Nodup

/-!
# C51: results keep their labels

A data variable of the result is a pair: the names of its axes and its array.
-/

namespace Verif

variable {α : Type _}

/-- The names of a model that can be labelled: names of objects are distinct, no name is a coordinate
name or `step`, dims are known and no dim is called `step`. -/
structure Labelled (coords : Coords) (vars params : List ModelObject) : Prop where
  known : ∀ o ∈ vars ++ params, KnownDims coords o
  names : ((vars ++ params).map ModelObject.name).Nodup
  fresh : ∀ o ∈ vars ++ params, o.name ∉ dkeys coords ∧ o.name ≠ "step".toList
  noStep : ∀ o ∈ vars ++ params, "step".toList ∉ o.dims

theorem specShape_dset (coords : Coords) (o : ModelObject) (k : Str) (ls : List Str)
    (h : k ∉ o.dims) : specShape (dset coords k ls) o = specShape coords o := by
  unfold specShape labelsOf
  apply List.map_congr_left
  intro dim hd
  rw [dget_dset_ne]
  rintro rfl
  exact h hd

theorem knownDims_dset (coords : Coords) (o : ModelObject) (k : Str) (ls : List Str)
    (h : KnownDims coords o) : KnownDims (dset coords k ls) o := by
  intro dim hd
  rw [mem_dkeys_dset]
  exact Or.inr (h dim hd)

theorem totalSize_congr (c c' : Coords) (objs : List ModelObject)
    (h : ∀ o ∈ objs, specShape c o = specShape c' o) : totalSize c objs = totalSize c' objs := by
  unfold totalSize
  congr 1
  apply List.map_congr_left
  intro o ho
  unfold specSize
  rw [h o ho]

theorem zip_fits (coords : Coords) (ds : List Str) (h : ∀ d ∈ ds, d ∈ dkeys coords) :
    ((ds.zip (ds.map fun dim => (labelsOf coords dim).length)).all fun p =>
      match dget coords p.1 with
      | none => true
      | some labels => labels.length == p.2) = true := by
  induction ds with
  | nil => rfl
  | cons d ds ih =>
    obtain ⟨v, hv⟩ := (mem_dkeys_iff _ _).1 (h d (by simp))
    simp only [List.map_cons, List.zip_cons_cons, List.all_cons, Bool.and_eq_true]
    refine ⟨?_, ih fun d' hd => h d' (by simp [hd])⟩
    simp [labelsOf, hv]

theorem fitsCoords_step (coords : Coords) (o : ModelObject) (n : Nat) (a : NDArray α)
    (hk : KnownDims coords o) (hs : stepName ∉ o.dims) (ha : a.shape = n :: specShape coords o) :
    fitsCoords (dset coords stepName (rangeLabels n)) (stepName :: o.dims, a) = true := by
  unfold fitsCoords
  simp only [Bool.and_eq_true]
  constructor
  · simp [ha, specShape]
  · rw [ha, List.zip_cons_cons, List.all_cons, Bool.and_eq_true]
    constructor
    · simp [dget_dset_self, rangeLabels]
    · rw [← specShape_dset coords o stepName (rangeLabels n) hs]
      exact zip_fits _ _ (knownDims_dset _ _ _ _ hk)

theorem xrDataset_ok (vars : XDataset α) (coords : Coords)
    (h1 : ∀ p ∈ vars, p.1 ∉ dkeys coords) (h2 : ∀ p ∈ vars, fitsCoords coords p.2 = true) :
    xrDataset vars coords = .ok vars := by
  unfold xrDataset
  rw [if_neg, if_pos]
  · simpa [List.all_eq_true] using h2
  · simpa [List.any_eq_true] using h1

/-- Reading off one group: the pairs `f k o`, one for each object. -/
theorem group_dataset (objs : List ModelObject) (coords : Coords)
    (f : Nat → ModelObject → List Str × NDArray α)
    (hn : (objs.map ModelObject.name).Nodup)
    (hf : ∀ o ∈ objs, o.name ∉ dkeys coords)
    (hfit : ∀ (k : Nat) o, objs[k]? = some o → fitsCoords coords (f k o) = true) :
    ∃ ds, xrDataset (dofPairs (objs.zipIdx.map fun p => (p.1.name, f p.2 p.1))) coords = .ok ds ∧
      dkeys ds = objs.map ModelObject.name ∧
      ∀ (k : Nat) o, objs[k]? = some o → dget ds o.name = some (f k o) := by
  have hfst : (objs.zipIdx.map fun p => (p.1.name, f p.2 p.1)).map Prod.fst =
      objs.map ModelObject.name := by
    have h0 : (objs.zipIdx.map fun p => (p.1.name, f p.2 p.1)).map Prod.fst =
        (objs.zipIdx.map Prod.fst).map ModelObject.name := by
      simp only [List.map_map]; rfl
    rw [h0, List.zipIdx_map_fst]
  have hnd : ((objs.zipIdx.map fun p => (p.1.name, f p.2 p.1)).map Prod.fst).Nodup := by
    rw [hfst]; exact hn
  rw [dofPairs_of_nodup _ hnd]
  refine ⟨_, xrDataset_ok _ _ ?_ ?_, hfst, ?_⟩
  · intro p hp
    rw [List.mem_map] at hp
    obtain ⟨⟨o, k⟩, hq, rfl⟩ := hp
    exact hf o (List.mem_of_getElem? (List.mem_zipIdx_iff_getElem?.1 hq))
  · intro p hp
    rw [List.mem_map] at hp
    obtain ⟨⟨o, k⟩, hq, rfl⟩ := hp
    exact hfit k o (List.mem_zipIdx_iff_getElem?.1 hq)
  · intro k o ho
    apply dget_of_mem_nodup _ hnd
    rw [List.mem_map]
    exact ⟨(o, k), List.mem_zipIdx_iff_getElem?.2 ho, rfl⟩

theorem trajectoryPairs_ok (arrays : List (NDArray α)) (objs : List ModelObject) (shift : Nat)
    (h : objs.length + shift ≤ arrays.length) :
    trajectoryPairs arrays objs shift = .ok (objs.zipIdx.map fun p =>
      (p.1.name, (stepName :: p.1.dims, (arrays[p.2 + shift]?).getD ⟨[], []⟩))) := by
  apply mapM_ok_of_forall
  rintro ⟨o, k⟩ hp
  have hk : k < objs.length := by
    have := List.mem_zipIdx_iff_getElem?.1 hp
    exact (List.getElem?_eq_some_iff.1 this).1
  have : k + shift < arrays.length := by omega
  simp [listGetE, List.getElem?_eq_getElem this, Except.map]

theorem Labelled.fresh_dset {coords : Coords} {vars params : List ModelObject}
    (h : Labelled coords vars params) (ls : List Str) (o : ModelObject) (ho : o ∈ vars ++ params) :
    o.name ∉ dkeys (dset coords stepName ls) := by
  rw [mem_dkeys_dset]
  rintro (hs | hs)
  · exact (h.fresh o ho).2 hs
  · exact (h.fresh o ho).1 hs

/-- **C51 (Euler), for models whose names can be labelled.**  Let there be one array for each variable,
followed by one for each parameter, each with the steps as first axis and then the axes of its object.
Then the result is made, it has exactly the model's names, and under each name stands the array of that
variable or parameter, its axes named `step` and the object's dims. -/
theorem C51_euler_partial (coords : Coords) (vars params : List ModelObject)
    (arrays : List (NDArray α)) (n : Nat) (h : Labelled coords vars params) (hv : vars ≠ [])
    (hlen : arrays.length = vars.length + params.length)
    (hshape : ∀ (k : Nat) o a, (vars ++ params)[k]? = some o → arrays[k]? = some a →
      a.shape = n :: specShape coords o) :
    ∃ V P, listOfArrayToIdata arrays vars params coords = .ok (V, P) ∧
      dkeys V = vars.map ModelObject.name ∧ dkeys P = params.map ModelObject.name ∧
      (∀ (k : Nat) o a, vars[k]? = some o → arrays[k]? = some a →
        dget V o.name = some ("step".toList :: o.dims, a)) ∧
      (∀ (k : Nat) o a, params[k]? = some o → arrays[vars.length + k]? = some a →
        dget P o.name = some ("step".toList :: o.dims, a)) := by
  have hv0 : 0 < vars.length := List.length_pos_iff.2 hv
  have ha0 : 0 < arrays.length := by omega
  have hfirst : ndLen arrays[0] = .ok n := by
    obtain ⟨o, ho⟩ : ∃ o, (vars ++ params)[0]? = some o :=
      ⟨vars[0], by rw [List.getElem?_append_left hv0, List.getElem?_eq_getElem hv0]⟩
    have := hshape 0 o arrays[0] ho (List.getElem?_eq_getElem ha0)
    simp [ndLen, this]
  have hnn := h.names
  rw [List.map_append] at hnn
  obtain ⟨V, hV, hVk, hVg⟩ := group_dataset vars (dset coords stepName (rangeLabels n))
    (fun k o => (stepName :: o.dims, (arrays[k + 0]?).getD ⟨[], []⟩))
    (List.nodup_append.1 hnn).1
    (fun o ho => h.fresh_dset _ o (by simp [ho]))
    (by
      intro k o ho
      have hk : k < vars.length := (List.getElem?_eq_some_iff.1 ho).1
      have hm : o ∈ vars ++ params := by simp [List.mem_of_getElem? ho]
      apply fitsCoords_step _ _ _ _ (h.known o hm) (h.noStep o hm)
      have hka : k < arrays.length := by omega
      simp only [Nat.add_zero, List.getElem?_eq_getElem hka, Option.getD_some]
      exact hshape k o _ (by rw [List.getElem?_append_left hk]; exact ho)
        (List.getElem?_eq_getElem hka))
  obtain ⟨P, hP, hPk, hPg⟩ := group_dataset params (dset coords stepName (rangeLabels n))
    (fun k o => (stepName :: o.dims, (arrays[k + vars.length]?).getD ⟨[], []⟩))
    (List.nodup_append.1 hnn).2.1
    (fun o ho => h.fresh_dset _ o (by simp [ho]))
    (by
      intro k o ho
      have hk : k < params.length := (List.getElem?_eq_some_iff.1 ho).1
      have hm : o ∈ vars ++ params := by simp [List.mem_of_getElem? ho]
      apply fitsCoords_step _ _ _ _ (h.known o hm) (h.noStep o hm)
      have hka : k + vars.length < arrays.length := by omega
      simp only [List.getElem?_eq_getElem hka, Option.getD_some]
      exact hshape (k + vars.length) o _
        (by rw [List.getElem?_append_right (by omega), Nat.add_sub_cancel]; exact ho)
        (List.getElem?_eq_getElem hka))
  refine ⟨V, P, ?_, hVk, hPk, ?_, ?_⟩
  · simp only [listOfArrayToIdata, listGetE, List.getElem?_eq_getElem ha0, bind, Except.bind, hfirst,
      trajectoryPairs_ok arrays vars 0 (by omega),
      trajectoryPairs_ok arrays params vars.length (by omega), hV, hP, pure, Except.pure]
  · intro k o a ho ha
    rw [hVg k o ho, Nat.add_zero, ha]; rfl
  · intro k o a ho ha
    rw [hPg k o ho, Nat.add_comm, ha]; rfl

/-- The model of the examples of C01 can be labelled. -/
theorem exLabelled : Labelled exCoords exVars exParams :=
  ⟨by decide, by decide, by decide, by decide⟩

/-- A two-step path of the scalar `P`, the matrix `X` and the vector `alpha`. -/
def exPath : List (NDArray Nat) :=
  [⟨[2], [1, 2]⟩, ⟨[2, 2, 3], [1, 2, 3, 4, 5, 6, 11, 12, 13, 14, 15, 16]⟩, ⟨[2, 2], [7, 8, 17, 18]⟩]

example : Labelled exCoords exVars exParams ∧ exVars ≠ [] ∧
    exPath.length = exVars.length + exParams.length ∧
    ∀ (k : Nat) o a, (exVars ++ exParams)[k]? = some o → exPath[k]? = some a →
      a.shape = 2 :: specShape exCoords o := by
  refine ⟨exLabelled, by decide, by decide, ?_⟩
  intro k o a ho ha
  match k with
  | 0 => cases ho; cases ha; decide
  | 1 => cases ho; cases ha; decide
  | 2 => cases ho; cases ha; decide
  | k + 3 => simp [exPath] at ha

theorem mapM_ok_each {β γ ε : Type _} (f : β → Except ε γ) (l : List β) (r : List γ)
    (h : l.mapM f = .ok r) : ∀ a ∈ l, ∃ b, f a = .ok b := by
  induction l generalizing r with
  | nil => simp
  | cons a l ih =>
    rw [List.mapM_cons] at h
    simp only [bind, Except.bind, pure, Except.pure] at h
    intro c hc
    split at h
    · cases h
    · rename_i b hb
      split at h
      · cases h
      · rename_i r' hr'
        rcases List.mem_cons.1 hc with rfl | hc
        · exact ⟨b, hb⟩
        · exact ih r' hr' c hc

/-- **C51 (missing arrays).**  With fewer arrays than variables and parameters no result is made. -/
theorem C51_too_few_raises (coords : Coords) (vars params : List ModelObject)
    (arrays : List (NDArray α)) (hlen : arrays.length < vars.length + params.length) :
    ∃ e, listOfArrayToIdata arrays vars params coords = .error e := by
  have key : ∀ (objs : List ModelObject) (shift : Nat) r, trajectoryPairs arrays objs shift = .ok r →
      objs ≠ [] → shift + objs.length ≤ arrays.length := by
    intro objs shift r hr hne
    have hpos : 0 < objs.length := List.length_pos_iff.2 hne
    have hl : objs.length - 1 < objs.length := by omega
    by_contra hcon
    have hmem : (objs[objs.length - 1], objs.length - 1) ∈ objs.zipIdx :=
      List.mem_zipIdx_iff_getElem?.2 (List.getElem?_eq_getElem hl)
    obtain ⟨b, hb⟩ := mapM_ok_each _ _ _ hr _ hmem
    have hnone : arrays[objs.length - 1 + shift]? = none := by
      rw [List.getElem?_eq_none_iff]; omega
    simp [listGetE, hnone, Except.map] at hb
  cases hr : listOfArrayToIdata arrays vars params coords with
  | error e => exact ⟨e, rfl⟩
  | ok r =>
    exfalso
    simp only [listOfArrayToIdata, bind, Except.bind, pure, Except.pure] at hr
    repeat' (split at hr; · cases hr)
    rename_i hv _ _ hp _ _ _ _ _
    by_cases hpn : params = []
    · by_cases hvn : vars = []
      · simp [hpn, hvn] at hlen
      · have := key _ _ _ (by assumption : trajectoryPairs arrays vars 0 = .ok _) hvn
        simp [hpn] at hlen; omega
    · have := key _ _ _ (by assumption : trajectoryPairs arrays params vars.length = .ok _) hpn
      omega

example : exPath.tail.length < exVars.length + exParams.length := by decide

/-! ## Optimizer results -/

theorem offset_add_size_le (coords : Coords) (objs : List ModelObject) (k : Nat) (o : ModelObject)
    (ho : objs[k]? = some o) :
    offsetOf coords objs k + specSize coords o ≤ totalSize coords objs := by
  have h1 : totalSize coords objs =
      totalSize coords (objs.take (k + 1)) + totalSize coords (objs.drop (k + 1)) := by
    rw [← totalSize_append, List.take_append_drop]
  have h2 : totalSize coords (objs.take (k + 1)) = offsetOf coords objs k + specSize coords o := by
    rw [List.take_add_one, ho, totalSize_append]
    simp [offsetOf, totalSize]
  omega


theorem stack_at (a b : NDArray α) (s : NDArray α) (ha : a.WF) (h : npStack2 a b = .ok s)
    (idx : List Nat) : s.at? (0 :: idx) = a.at? idx ∧ s.at? (1 :: idx) = b.at? idx := by
  unfold npStack2 at h
  split at h
  · rename_i hs
    cases h
    unfold NDArray.at?
    constructor
    · by_cases hv : ValidIdx a.shape idx
      · rw [if_pos (show ValidIdx (2 :: a.shape) (0 :: idx) from ⟨by omega, hv⟩), if_pos hv]
        simp only [ravelIndex, Nat.zero_mul, Nat.zero_add]
        rw [List.getElem?_append_left (by rw [ha]; exact ravelIndex_lt _ _ hv)]
      · rw [if_neg (show ¬ ValidIdx (2 :: a.shape) (0 :: idx) from fun h => hv h.2), if_neg hv]
    · rw [← hs]
      by_cases hv : ValidIdx a.shape idx
      · rw [if_pos (show ValidIdx (2 :: a.shape) (1 :: idx) from ⟨by omega, hv⟩), if_pos hv]
        simp only [ravelIndex, Nat.one_mul]
        have hl : a.data.length = a.shape.prod := ha
        rw [List.getElem?_append_right (by omega)]
        congr 1; omega
      · rw [if_neg (show ¬ ValidIdx (2 :: a.shape) (1 :: idx) from fun h => hv h.2), if_neg hv]
  · cases h

/-- One data variable of the optimizer result: axes `step` and the dims; at step 0 the initial array,
at step 1 the block of `x` that starts at `off`; no other steps. -/
structure TwoSteps (coords : Coords) (o : ModelObject) (init : NDArray α) (x : List α) (off : Nat)
    (v : List Str × NDArray α) : Prop where
  axes : v.1 = "step".toList :: o.dims
  shape : v.2.shape = 2 :: specShape coords o
  wf : v.2.WF
  before : ∀ idx, v.2.at? (0 :: idx) = init.at? idx
  after : ∀ idx, ValidIdx (specShape coords o) idx →
    v.2.at? (1 :: idx) = x[off + ravelIndex (specShape coords o) idx]?

/-- **C51 (optimizer), for models whose names can be labelled.**  Given a correctly shaped initial value
for each object, a solution vector as long as the variables and a parameter vector as long as the
parameters, the result is made, it has exactly the model's names, and under each name stand two steps:
the initial value, and the solution's (or parameter vector's) block of that object, element for element
in the object's dims. -/
theorem C51_optimizer_partial (coords : Coords) (vars params : List ModelObject) (x theta : List α)
    (initial : Dict Str (NDArray α)) (h : Labelled coords vars params)
    (hx : x.length = totalSize coords vars) (ht : theta.length = totalSize coords params)
    (hi : ∀ o ∈ vars ++ params, DataFor coords initial o) :
    ∃ V P, optimizerResultToIdata x theta initial vars params coords = .ok (V, P) ∧
      dkeys V = vars.map ModelObject.name ∧ dkeys P = params.map ModelObject.name ∧
      (∀ (k : Nat) o a, vars[k]? = some o → dget initial o.name = some a →
        ∃ v, dget V o.name = some v ∧ TwoSteps coords o a x (offsetOf coords vars k) v) ∧
      (∀ (k : Nat) o a, params[k]? = some o → dget initial o.name = some a →
        ∃ v, dget P o.name = some v ∧ TwoSteps coords o a theta (offsetOf coords params k) v) := by
  have hss : ∀ o ∈ vars ++ params,
      specShape (dset coords stepName (rangeLabels 2)) o = specShape coords o :=
    fun o ho => specShape_dset _ _ _ _ (h.noStep o ho)
  have htot : totalSize (dset coords stepName (rangeLabels 2)) (vars ++ params) =
      (x ++ theta).length := by
    rw [totalSize_congr _ coords _ hss, totalSize_append, List.length_append]; omega
  generalize hc' : dset coords stepName (rangeLabels 2) = c' at hss htot
  have hfl : flatArrayToVariableDict (x ++ theta) (vars ++ params) c' =
      .ok (flatPairs c' (vars ++ params) (x ++ theta)) := by
    rw [flatArrayToVariableDict, flatToDictLoop_ok _ _ _ _ _ _ (by omega), List.drop_zero]
    · apply congrArg Except.ok
      apply dofPairs_of_nodup
      rw [map_fst_flatPairs]; exact h.names
    · intro o ho
      rw [← hc']
      exact knownDims_dset _ _ _ _ (h.known o ho)
  generalize hres : flatPairs c' (vars ++ params) (x ++ theta) = result at hfl
  have hget : ∀ (m : Nat) o, (vars ++ params)[m]? = some o → dget result o.name =
      some ⟨specShape coords o,
        ((x ++ theta).drop (offsetOf coords (vars ++ params) m)).take (specSize coords o)⟩ := by
    intro m o ho
    have := flatPairs_getElem? c' (vars ++ params) (x ++ theta) m o ho
    have hmo : o ∈ vars ++ params := List.mem_of_getElem? ho
    have ho' : offsetOf c' (vars ++ params) m = offsetOf coords (vars ++ params) m :=
      totalSize_congr _ _ _ fun o' ho' => hss o' (List.mem_of_mem_take ho')
    rw [ho', hss o hmo, show specSize c' o = specSize coords o by unfold specSize; rw [hss o hmo],
      hres] at this
    apply dget_of_mem_nodup
    · rw [← hres]; unfold dkeys; rw [map_fst_flatPairs]; exact h.names
    · exact List.mem_of_getElem? this
  -- one group
  have group : ∀ (objs : List ModelObject) (base : Nat) (y : List α),
      (∀ (k : Nat) o, objs[k]? = some o → (vars ++ params)[base + k]? = some o) →
      (∀ (k : Nat) o, objs[k]? = some o → ∀ j, j < specSize coords o →
        (x ++ theta)[offsetOf coords (vars ++ params) (base + k) + j]? =
          y[offsetOf coords objs k + j]?) →
      (objs.map ModelObject.name).Nodup →
      ∃ l ds, stackPairs initial result objs = .ok l ∧ xrDataset (dofPairs l) c' = .ok ds ∧
        dkeys ds = objs.map ModelObject.name ∧
        ∀ (k : Nat) o a, objs[k]? = some o → dget initial o.name = some a →
          ∃ v, dget ds o.name = some v ∧ TwoSteps coords o a y (offsetOf coords objs k) v := by
    intro objs base y hpos hval hnd
    have hmem : ∀ o ∈ objs, o ∈ vars ++ params := by
      intro o ho
      obtain ⟨k, hk, hk'⟩ := List.getElem_of_mem ho
      exact List.mem_of_getElem? (hpos k o (by rw [List.getElem?_eq_getElem hk, hk']))
    have hone : ∀ (k : Nat) o, objs[k]? = some o → ∃ s : NDArray α, (do
        let a ← dgetE initial o.name
        let b ← dgetE result o.name
        let s ← npStack2 a b
        pure (o.name, (stepName :: o.dims, s)) : Res _) = .ok (o.name, (stepName :: o.dims, s)) ∧
        s.shape = 2 :: specShape coords o ∧
        ∀ a, dget initial o.name = some a →
          TwoSteps coords o a y (offsetOf coords objs k) (stepName :: o.dims, s) := by
      intro k o ho
      obtain ⟨a, ha, hsh, hwf⟩ := hi o (hmem o (List.mem_of_getElem? ho))
      have hb := hget (base + k) o (hpos k o ho)
      generalize hbd : (⟨specShape coords o, ((x ++ theta).drop
        (offsetOf coords (vars ++ params) (base + k))).take (specSize coords o)⟩ : NDArray α) = b at hb
      have hbs : b.shape = specShape coords o := by rw [← hbd]
      have hst : npStack2 a b = .ok ⟨2 :: a.shape, a.data ++ b.data⟩ := by
        unfold npStack2; rw [if_pos (by rw [hsh, hbs])]
      have hboff := offset_add_size_le coords (vars ++ params) (base + k) o (hpos k o ho)
      have htot' : totalSize coords (vars ++ params) = (x ++ theta).length := by
        rw [totalSize_append, List.length_append]; omega
      have hwf2 : (⟨2 :: a.shape, a.data ++ b.data⟩ : NDArray α).WF := by
        have hla : a.data.length = a.shape.prod := hwf
        have hlb : b.data.length = specSize coords o := by
          rw [← hbd]
          simp only [List.length_take, List.length_drop]
          omega
        unfold NDArray.WF
        simp only [List.length_append, List.prod_cons]
        rw [hla, hlb, hsh, specSize]; omega
      refine ⟨⟨2 :: a.shape, a.data ++ b.data⟩, ?_, by rw [hsh], ?_⟩
      · simp only [dgetE, ha, hb, hst, bind, Except.bind, pure, Except.pure]
      · intro a' ha'
        rw [ha] at ha'; cases ha'
        refine ⟨rfl, by simp [hsh], hwf2, fun idx => (stack_at a b _ hwf hst idx).1, fun idx hv => ?_⟩
        rw [(stack_at a b _ hwf hst idx).2]
        have hlt : ravelIndex (specShape coords o) idx < specSize coords o := ravelIndex_lt _ _ hv
        rw [← hval k o ho _ hlt]
        unfold NDArray.at?
        rw [hbs, if_pos hv, ← hbd]
        simp only
        rw [List.getElem?_take_of_lt hlt, List.getElem?_drop]
    -- choose the stacked arrays
    have hex : ∀ k : Nat, ∃ s : NDArray α, ∀ o, objs[k]? = some o → (do
        let a ← dgetE initial o.name
        let b ← dgetE result o.name
        let s ← npStack2 a b
        pure (o.name, (stepName :: o.dims, s)) : Res _) = .ok (o.name, (stepName :: o.dims, s)) ∧
        s.shape = 2 :: specShape coords o ∧
        ∀ a, dget initial o.name = some a →
          TwoSteps coords o a y (offsetOf coords objs k) (stepName :: o.dims, s) := by
      intro k
      cases ho : objs[k]? with
      | none => exact ⟨⟨[], []⟩, fun o h => by cases h⟩
      | some o =>
        obtain ⟨s, hs⟩ := hone k o ho
        exact ⟨s, fun o' h => by cases h; exact hs⟩
    choose g hg using hex
    obtain ⟨ds, hds, hk, hgt⟩ := group_dataset objs c' (fun k o => (stepName :: o.dims, g k)) hnd
      (fun o ho => by rw [← hc']; exact h.fresh_dset _ o (hmem o ho))
      (by
        intro k o ho
        have hm := hmem o (List.mem_of_getElem? ho)
        rw [← hc']
        exact fitsCoords_step _ _ _ _ (h.known o hm) (h.noStep o hm) (hg k o ho).2.1)
    refine ⟨_, ds, ?_, hds, hk, ?_⟩
    · unfold stackPairs
      apply mapM_ok_pointwise
      · simp
      · intro j o ho
        refine ⟨_, ?_, (hg j o ho).1⟩
        rw [List.getElem?_map, List.getElem?_zipIdx, ho]
        simp
    · intro k o a ho ha
      exact ⟨_, hgt k o ho, (hg k o ho).2.2 a ha⟩
  have hnn := h.names
  rw [List.map_append] at hnn
  obtain ⟨l1, V, hl1, hV, hVk, hVg⟩ := group vars 0 x
    (by
      intro k o ho
      rw [Nat.zero_add, List.getElem?_append_left (List.getElem?_eq_some_iff.1 ho).1]; exact ho)
    (by
      intro k o ho j hj
      have hk := (List.getElem?_eq_some_iff.1 ho).1
      have h1 : offsetOf coords (vars ++ params) (0 + k) = offsetOf coords vars k := by
        unfold offsetOf
        rw [Nat.zero_add, List.take_append_of_le_length (by omega)]
      have h2 : offsetOf coords vars k + specSize coords o ≤ x.length := by
        rw [hx]; exact offset_add_size_le coords vars k o ho
      rw [h1, List.getElem?_append_left (by omega)])
    (List.nodup_append.1 hnn).1
  obtain ⟨l2, P, hl2, hP, hPk, hPg⟩ := group params vars.length theta
    (by
      intro k o ho
      rw [List.getElem?_append_right (by omega), Nat.add_sub_cancel_left]; exact ho)
    (by
      intro k o ho j hj
      have h1 : offsetOf coords (vars ++ params) (vars.length + k) =
          x.length + offsetOf coords params k := by
        unfold offsetOf
        rw [List.take_append, totalSize_append, hx, List.take_of_length_le (by omega),
          Nat.add_sub_cancel_left]
      rw [h1, List.getElem?_append_right (by omega)]
      congr 1; omega)
    (List.nodup_append.1 hnn).2.1
  refine ⟨V, P, ?_, hVk, hPk, hVg, hPg⟩
  simp only [optimizerResultToIdata, hc', hfl, hl1, hl2, hV, hP, bind, Except.bind, pure, Except.pure]

example : Labelled exCoords exVars exParams ∧
    ([9, 1, 2, 3, 4, 5, 6] : List Nat).length = totalSize exCoords exVars ∧
    ([7, 8] : List Nat).length = totalSize exCoords exParams ∧
    ∀ o ∈ exVars ++ exParams, DataFor exCoords exData o := by
  refine ⟨exLabelled, by decide, by decide, ?_⟩
  intro o ho
  simp only [exVars, exParams, List.cons_append, List.nil_append, List.mem_cons,
    List.not_mem_nil, or_false] at ho
  rcases ho with rfl | rfl | rfl
  · exact ⟨⟨[], [9]⟩, by decide, by decide, by decide⟩
  · exact ⟨⟨[2, 3], [1, 2, 3, 4, 5, 6]⟩, by decide, by decide, by decide⟩
  · exact ⟨⟨[2], [7, 8]⟩, by decide, by decide, by decide⟩

/-- **C51, a dim called `step`.**  The coordinates of a dim of that name are overwritten by the step
numbers, so a model that has such a dim gets no result, from Euler or from the optimizer, although the
arrays are of the right shapes. -/
theorem C51_step_dim_counterexample :
    ∃ (coords : Coords) (vars params : List ModelObject) (arrays : List (NDArray Nat))
      (x theta : List Nat) (initial : Dict Str (NDArray Nat)),
      (∀ o ∈ vars ++ params, KnownDims coords o) ∧
      ((vars ++ params).map ModelObject.name).Nodup ∧
      arrays.map NDArray.shape = (vars ++ params).map (fun o => 2 :: specShape coords o) ∧
      x.length = totalSize coords vars ∧ theta.length = totalSize coords params ∧
      (∀ o ∈ vars ++ params, DataFor coords initial o) ∧
      listOfArrayToIdata arrays vars params coords = .error .valueError ∧
      optimizerResultToIdata x theta initial vars params coords = .error .valueError := by
  refine ⟨[("step".toList, ["a".toList, "b".toList, "c".toList])],
    [{ name := "X".toList, dims := ["step".toList] }], [{ name := "p".toList }],
    [⟨[2, 3], [1, 2, 3, 4, 5, 6]⟩, ⟨[2], [7, 8]⟩], [1, 2, 3], [7],
    [("X".toList, ⟨[3], [1, 2, 3]⟩), ("p".toList, ⟨[], [7]⟩)],
    by decide, by decide, by decide, by decide, by decide, ?_, by rfl, by rfl⟩
  intro o ho
  simp only [List.cons_append, List.nil_append, List.mem_cons, List.not_mem_nil, or_false] at ho
  rcases ho with rfl | rfl
  · exact ⟨⟨[3], [1, 2, 3]⟩, by decide, by decide, by decide⟩
  · exact ⟨⟨[], [7]⟩, by decide, by decide, by decide⟩

/-- **C51, a variable called like a dim.**  Such a model can be solved but not labelled. -/
theorem C51_name_clash_counterexample :
    ∃ (coords : Coords) (vars params : List ModelObject) (arrays : List (NDArray Nat)),
      (∀ o ∈ vars ++ params, KnownDims coords o) ∧
      ((vars ++ params).map ModelObject.name).Nodup ∧
      arrays.map NDArray.shape = (vars ++ params).map (fun o => 2 :: specShape coords o) ∧
      listOfArrayToIdata arrays vars params coords = .error .valueError :=
  ⟨[("i".toList, ["a".toList])], [{ name := "i".toList }], [{ name := "p".toList }],
    [⟨[2], [1, 2]⟩, ⟨[2], [7, 8]⟩], by decide, by decide, by decide, by rfl⟩

end Verif
