import Verif.Spec.Layout
import Verif.Model.Flat

/-! # Helper lemmas about flat packing -/

namespace Verif

variable {α β : Type _}

theorem mapM_ok_of_forall {ε : Type _} (f : α → Except ε β) (g : α → β) (l : List α)
    (h : ∀ a ∈ l, f a = .ok (g a)) : l.mapM f = .ok (l.map g) := by
  induction l with
  | nil => rfl
  | cons a l ih =>
    rw [List.mapM_cons, h a (by simp), ih (fun b hb => h b (by simp [hb]))]
    rfl

theorem dgetE_of_some {κ ν : Type _} [DecidableEq κ] {d : Dict κ ν} {k : κ} {v : ν}
    (h : dget d k = some v) : dgetE d k = .ok v := by
  simp [dgetE, h]

theorem dgetE_of_none {κ ν : Type _} [DecidableEq κ] {d : Dict κ ν} {k : κ}
    (h : dget d k = none) : dgetE d k = .error .keyError := by
  simp [dgetE, h]

theorem dgetE_known {coords : Coords} {dim : Str} (h : dim ∈ dkeys coords) :
    dgetE coords dim = .ok (labelsOf coords dim) := by
  obtain ⟨v, hv⟩ := (mem_dkeys_iff _ _).1 h
  simp [dgetE, labelsOf, hv]

theorem inferShape_eq {coords : Coords} {o : ModelObject} (h : KnownDims coords o) :
    inferShape o coords = .ok (specShape coords o) := by
  unfold inferShape specShape
  apply mapM_ok_of_forall
  intro dim hd
  rw [dgetE_known (h dim hd)]
  rfl

theorem inferShape_unknown {coords : Coords} {o : ModelObject} (h : ¬ KnownDims coords o) :
    inferShape o coords = .error .keyError := by
  unfold KnownDims at h
  unfold inferShape
  generalize o.dims = l at h
  induction l with
  | nil => simp at h
  | cons a l ih =>
    rw [List.mapM_cons]
    by_cases ha : a ∈ dkeys coords
    · rw [dgetE_known ha]
      have : ¬ ∀ dim ∈ l, dim ∈ dkeys coords := by
        intro hl; apply h; intro dim hd
        rcases List.mem_cons.1 hd with h1 | h1
        · rw [h1]; exact ha
        · exact hl _ h1
      rw [ih this]
      rfl
    · rw [dgetE_of_none ((dget_eq_none_iff _ _).2 ha)]
      rfl

/-- Cut a list into consecutive blocks of the given sizes. -/
def splitBlocks : List Nat → List α → List (List α)
  | [], _ => []
  | n :: ns, l => l.take n :: splitBlocks ns (l.drop n)

theorem splitBlocks_flatten (bs : List (List α)) (rest : List α) :
    splitBlocks (bs.map List.length) (bs.flatten ++ rest) = bs := by
  induction bs with
  | nil => rfl
  | cons b bs ih =>
    simp only [List.map_cons, splitBlocks, List.flatten_cons, List.append_assoc]
    rw [List.take_left, List.drop_left, ih]

theorem flatten_splitBlocks (ns : List Nat) (l : List α) (h : ns.sum ≤ l.length) :
    (splitBlocks ns l).flatten = l.take ns.sum := by
  induction ns generalizing l with
  | nil => simp [splitBlocks]
  | cons n ns ih =>
    rw [List.sum_cons] at h
    simp only [splitBlocks, List.flatten_cons, List.sum_cons]
    rw [ih _ (by rw [List.length_drop]; omega), List.take_add]

theorem length_splitBlocks (ns : List Nat) (l : List α) : (splitBlocks ns l).length = ns.length := by
  induction ns generalizing l with
  | nil => rfl
  | cons n ns ih => simp [splitBlocks, ih]

theorem map_length_splitBlocks (ns : List Nat) (l : List α) (h : ns.sum ≤ l.length) :
    (splitBlocks ns l).map List.length = ns := by
  induction ns generalizing l with
  | nil => rfl
  | cons n ns ih =>
    rw [List.sum_cons] at h
    simp only [splitBlocks, List.map_cons, List.length_take]
    rw [ih _ (by rw [List.length_drop]; omega)]
    congr 1
    omega

/-- The pairs the unpacking loop stores, in order. -/
def flatPairs (coords : Coords) (objs : List ModelObject) (x : List α) :
    List (Str × NDArray α) :=
  List.zipWith (fun o b => (o.name, (⟨specShape coords o, b⟩ : NDArray α))) objs
    (splitBlocks (objs.map (specSize coords)) x)

theorem slice_eq (x : List α) (c s : Nat) : slice x c (c + s) = (x.drop c).take s := by
  simp [slice]

theorem flatToDictLoop_ok (x : List α) (coords : Coords) (objs : List ModelObject)
    (hk : ∀ o ∈ objs, KnownDims coords o) (c : Nat) (d : Dict Str (NDArray α))
    (hlen : c + totalSize coords objs ≤ x.length) :
    flatToDictLoop x coords objs c d = .ok (dupdate d (flatPairs coords objs (x.drop c))) := by
  induction objs generalizing c d with
  | nil => rfl
  | cons o objs ih =>
    have ho := hk o (by simp)
    simp only [totalSize, List.map_cons, List.sum_cons] at hlen
    have hsz : (specShape coords o).prod = specSize coords o := rfl
    simp only [flatToDictLoop, inferShape_eq ho, bind, Except.bind, slice_eq, reshape]
    rw [if_pos]
    · simp only
      rw [ih (fun o' h' => hk o' (by simp [h'])) _ _ (by simp only [hsz, totalSize]; omega)]
      simp only [flatPairs, List.map_cons, splitBlocks, List.zipWith_cons_cons, dupdate_cons, hsz,
        List.drop_drop]
    · rw [List.length_take, List.length_drop, hsz]; omega

theorem flatToDictLoop_short (x : List α) (coords : Coords) (objs : List ModelObject)
    (hk : ∀ o ∈ objs, KnownDims coords o) (c : Nat) (d : Dict Str (NDArray α))
    (hc : c ≤ x.length) (hlen : x.length < c + totalSize coords objs) :
    flatToDictLoop x coords objs c d = .error .valueError := by
  induction objs generalizing c d with
  | nil => simp [totalSize] at hlen; omega
  | cons o objs ih =>
    have ho := hk o (by simp)
    simp only [totalSize, List.map_cons, List.sum_cons] at hlen
    have hsz : (specShape coords o).prod = specSize coords o := rfl
    simp only [flatToDictLoop, inferShape_eq ho, bind, Except.bind, slice_eq, reshape, hsz]
    by_cases h : ((x.drop c).take (specSize coords o)).length = specSize coords o
    · rw [if_pos h]
      rw [List.length_take, List.length_drop] at h
      simp only
      exact ih (fun o' h' => hk o' (by simp [h'])) _ _ (by omega)
        (by simp only [totalSize]; omega)
    · rw [if_neg h]

theorem map_fst_flatPairs (coords : Coords) (objs : List ModelObject) (x : List α) :
    (flatPairs coords objs x).map Prod.fst = objs.map ModelObject.name := by
  induction objs generalizing x with
  | nil => rfl
  | cons o objs ih =>
    simp only [flatPairs, List.map_cons, splitBlocks, List.zipWith_cons_cons]
    congr 1
    exact ih _

theorem flatPairs_getElem? (coords : Coords) (objs : List ModelObject) (x : List α) (m : Nat)
    (o : ModelObject) (ho : objs[m]? = some o) :
    (flatPairs coords objs x)[m]? = some (o.name, ⟨specShape coords o,
      (x.drop (offsetOf coords objs m)).take (specSize coords o)⟩) := by
  induction objs generalizing x m with
  | nil => simp at ho
  | cons o' objs ih =>
    simp only [flatPairs, List.map_cons, splitBlocks, List.zipWith_cons_cons]
    cases m with
    | zero =>
      simp only [List.getElem?_cons_zero, Option.some.injEq] at ho
      subst ho
      simp [offsetOf, totalSize]
    | succ m =>
      rw [List.getElem?_cons_succ] at ho ⊢
      have := ih (x.drop (specSize coords o')) m ho
      simp only [flatPairs] at this
      rw [this]
      simp [offsetOf, totalSize, List.drop_drop]

theorem ravelNamed_ok (d : Dict Str (NDArray α)) (coords : Coords) (objs : List ModelObject)
    (h : ∀ o ∈ objs, DataFor coords d o) :
    ∃ bs, ravelNamed d objs = .ok bs ∧ bs.map List.length = objs.map (specSize coords) ∧
      ∀ (m : Nat) (o : ModelObject), objs[m]? = some o → ∃ a, dget d o.name = some a ∧ bs[m]? = some a.data := by
  induction objs with
  | nil => exact ⟨[], rfl, rfl, by simp⟩
  | cons o objs ih =>
    obtain ⟨bs, hb, hl, hg⟩ := ih (fun o' h' => h o' (by simp [h']))
    obtain ⟨a, ha, hs, hwf⟩ := h o (by simp)
    refine ⟨a.data :: bs, ?_, ?_, ?_⟩
    · unfold ravelNamed at hb ⊢
      rw [List.mapM_cons, dgetE_of_some ha, hb]
      rfl
    · simp only [List.map_cons, hl]
      congr 1
      unfold NDArray.WF at hwf
      rw [hwf, hs]; rfl
    · intro m o' ho'
      cases m with
      | zero =>
        simp only [List.getElem?_cons_zero, Option.some.injEq] at ho'
        subst ho'
        exact ⟨a, ha, rfl⟩
      | succ m =>
        rw [List.getElem?_cons_succ] at ho'
        obtain ⟨a', h1, h2⟩ := hg m o' ho'
        exact ⟨a', h1, by simpa using h2⟩

theorem npConcatenate_ok {ls : List (List α)} (h : ls ≠ []) : npConcatenate ls = .ok ls.flatten := by
  cases ls with
  | nil => exact absurd rfl h
  | cons a l => rfl

theorem getElem?_splitBlocks (ns : List Nat) (l : List α) (m : Nat) (hm : m < ns.length) :
    (splitBlocks ns l)[m]? = some ((l.drop (ns.take m).sum).take (ns[m])) := by
  induction ns generalizing l m with
  | nil => simp at hm
  | cons n ns ih =>
    cases m with
    | zero => simp [splitBlocks]
    | succ m =>
      simp only [List.length_cons, Nat.add_lt_add_iff_right] at hm
      simp [splitBlocks, ih _ _ hm, List.drop_drop]

theorem totalSize_append (coords : Coords) (a b : List ModelObject) :
    totalSize coords (a ++ b) = totalSize coords a + totalSize coords b := by
  simp [totalSize]

end Verif
