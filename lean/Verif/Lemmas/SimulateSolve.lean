import Verif.Spec.SimulateSolve
import Verif.Props.Idata
import Verif.Props.Simulate

/-!
# Lemmas about the numerical part of `simulate`
-/

namespace Verif

variable {α : Type _}

theorem TwoSteps.block0 {coords : Coords} {o : ModelObject} {a : NDArray α} {x : List α} {off : Nat}
    {v : List Str × NDArray α} (t : TwoSteps coords o a x off v) (hs : a.shape = specShape coords o)
    (hw : a.WF) (ds : XDataset α) (hd : dget ds o.name = some v) : blockAt 0 ds o = a.data := by
  unfold blockAt
  rw [hd]
  simp only [t.shape, List.tail_cons, Nat.zero_mul, List.drop_zero]
  have hl : v.2.data.length = 2 * (specShape coords o).prod := by
    have := t.wf; unfold NDArray.WF at this; rw [this, t.shape, List.prod_cons]
  have hla : a.data.length = (specShape coords o).prod := by
    unfold NDArray.WF at hw; rw [hw, hs]
  apply List.ext_getElem?
  intro i
  by_cases hi : i < (specShape coords o).prod
  · rw [List.getElem?_take, if_pos hi]
    have := t.before (unravelIndex (specShape coords o) i)
    have h2 := a.at?_unravel i (by rw [hs]; exact hi)
    rw [hs] at h2
    rw [h2] at this
    rw [← this]
    unfold NDArray.at?
    rw [if_pos (by rw [t.shape]; exact ⟨by omega, unravel_valid _ _ hi⟩), t.shape]
    simp [ravelIndex, ravel_unravel _ _ hi]
  · rw [List.getElem?_eq_none (by rw [List.length_take]; omega),
      List.getElem?_eq_none (by omega)]

theorem TwoSteps.block1 {coords : Coords} {o : ModelObject} {a : NDArray α} {x : List α} {off : Nat}
    {v : List Str × NDArray α} (t : TwoSteps coords o a x off v)
    (ds : XDataset α) (hd : dget ds o.name = some v) (hx : off + specSize coords o ≤ x.length) :
    blockAt 1 ds o = (x.drop off).take (specSize coords o) := by
  unfold blockAt
  rw [hd]
  simp only [t.shape, List.tail_cons, Nat.one_mul]
  have hl : v.2.data.length = 2 * (specShape coords o).prod := by
    have := t.wf; unfold NDArray.WF at this; rw [this, t.shape, List.prod_cons]
  unfold specSize at *
  apply List.ext_getElem?
  intro i
  by_cases hi : i < (specShape coords o).prod
  · rw [List.getElem?_take, if_pos hi, List.getElem?_take, if_pos hi, List.getElem?_drop,
      List.getElem?_drop]
    have := t.after (unravelIndex (specShape coords o) i) (unravel_valid _ _ hi)
    rw [ravel_unravel _ _ hi] at this
    rw [← this]
    unfold NDArray.at?
    rw [if_pos (by rw [t.shape]; exact ⟨by omega, unravel_valid _ _ hi⟩), t.shape]
    simp [ravelIndex, ravel_unravel _ _ hi]
  · rw [List.getElem?_eq_none (by rw [List.length_take]; omega),
      List.getElem?_eq_none (by rw [List.length_take]; omega)]

/-- Blocks put together. -/
theorem flatMap_blocks (coords : Coords) (g : ModelObject → List α) : ∀ (objs : List ModelObject)
    (x : List α), x.length = totalSize coords objs →
    (∀ (k : Nat) o, objs[k]? = some o → g o = (x.drop (offsetOf coords objs k)).take (specSize coords o)) →
    objs.flatMap g = x
  | [], x, hx, _ => by
      simp [totalSize] at hx
      simp [hx]
  | o :: objs, x, hx, h => by
      have h0 := h 0 o rfl
      simp only [offsetOf, List.take_zero] at h0
      have ht : totalSize coords ([] : List ModelObject) = 0 := rfl
      rw [ht, List.drop_zero] at h0
      have hx' : x.length = specSize coords o + totalSize coords objs := by
        rw [hx]; simp [totalSize]
      rw [List.flatMap_cons, h0, flatMap_blocks coords g objs (x.drop (specSize coords o))
        (by rw [List.length_drop]; omega) ?_, List.take_append_drop]
      intro k o' ho'
      rw [h (k + 1) o' (by simpa using ho'), List.drop_drop]
      simp [offsetOf, totalSize, List.take_succ_cons]

theorem mem_survivors {β : Type _} {l : List (Option β)} {k : Nat} {b : β}
    (h : (k, b) ∈ survivors l) : l[k]? = some (some b) := by
  unfold survivors at h
  obtain ⟨⟨o, j⟩, hm, hb⟩ := List.mem_filterMap.1 h
  rw [List.mem_zipIdx_iff_getElem?] at hm
  cases o with
  | none => cases hb
  | some b' =>
    simp only [Option.map_some, Option.some.injEq, Prod.mk.injEq] at hb
    obtain ⟨rfl, rfl⟩ := hb
    exact hm

theorem eulerHandoff_mem {β : Type _} {rows : List (EulerRow β)} {n : Nat} {v p : β} {w : Bool}
    (h : eulerHandoff rows n = .ok ((v, p), w)) :
    (∃ k : Nat, (rows.map EulerRow.vars)[k]? = some (some v)) ∧
    (∃ k : Nat, (rows.map EulerRow.params)[k]? = some (some p)) := by
  unfold eulerHandoff at h
  simp only [bind, Except.bind, pure, Except.pure] at h
  cases h1 : maxLabel (survivors (rows.map EulerRow.vars)) with
  | error e => rw [h1] at h; cases h
  | ok mv =>
    cases h2 : maxLabel (survivors (rows.map EulerRow.params)) with
    | error e => rw [h1] at h; simp only at h; rw [h2] at h; cases h
    | ok mp =>
      rw [h1] at h
      simp only at h
      rw [h2] at h
      simp only at h
      split at h
      · next v' p' e1 e2 =>
        cases h
        exact ⟨⟨v'.1, mem_survivors (List.mem_of_getElem? e1)⟩,
          ⟨p'.1, mem_survivors (List.mem_of_getElem? e2)⟩⟩
      · cases h

theorem stepRow_some {isNan : α → Bool} {ds : XDataset α} {k : Nat} {d : Dict Str (NDArray α)}
    (h : stepRow isNan ds k = some d) :
    dkeys d = dkeys ds ∧ ∀ n v, dget ds n = some v → (dkeys ds).Nodup →
      dget d n = some (stepSlice k v.2) := by
  unfold stepRow at h
  split at h
  · cases h
  · cases h
    constructor
    · simp [dkeys, List.map_map, Function.comp_def]
    · intro n v hv hn
      apply dget_of_mem_nodup
      · simpa [dkeys, List.map_map, Function.comp_def] using hn
      · exact List.mem_map.2 ⟨(n, v), mem_of_dget _ hv, rfl⟩

theorem stepSlice_data (k m : Nat) (a : NDArray α) (s : List Nat) (hs : a.shape = m :: s) (hw : a.WF)
    (hk : k < m) : (stepSlice k a).shape = s ∧ (stepSlice k a).WF := by
  refine ⟨by simp [stepSlice, hs], ?_⟩
  unfold NDArray.WF at *
  simp only [stepSlice, hs, List.tail_cons, slice_eq, List.length_take, List.length_drop]
  rw [hw, hs, List.prod_cons]
  have : (k + 1) * s.prod ≤ m * s.prod := Nat.mul_le_mul_right _ hk
  rw [Nat.add_mul, Nat.one_mul] at this
  omega

theorem euler_row {isNan : α → Bool} {ds : XDataset α} {n k : Nat} {d : Dict Str (NDArray α)}
    (h : ((List.range n).map fun k => stepRow isNan ds k)[k]? = some (some d)) :
    k < n ∧ stepRow isNan ds k = some d := by
  rw [List.getElem?_map] at h
  by_cases hk : k < n
  · rw [List.getElem?_range hk] at h
    exact ⟨hk, by simpa using h⟩
  · rw [List.getElem?_eq_none (by simpa using hk)] at h
    cases h

theorem dkeys_derefDict_sublist (h : Heap (NDArray α)) (d : Dict Str (PyVal (NDArray α))) :
    (dkeys (derefDict h d)).Sublist (dkeys d) := by
  induction d with
  | nil => exact .slnil
  | cons p d ih =>
    unfold derefDict dkeys at *
    rw [List.filterMap_cons, List.map_cons]
    cases readVal h p.2 with
    | none => exact ih.cons _
    | some a => exact ih.cons_cons _

/-- The keys of the dictionary the numerical part gets. -/
theorem initial_keys {coords : Coords} {vars params : List ModelObject}
    {add mul : NDArray α → NDArray α → NDArray α} {h : Heap (NDArray α)} {c : SimCall α}
    (hr : RequestOK coords vars params add mul h c)
    (hn : ((vars ++ params).map ModelObject.name).Nodup) :
    (dkeys (derefDict h c.initial)).Perm ((vars ++ params).map ModelObject.name) := by
  rw [List.perm_ext_iff_of_nodup ((dkeys_derefDict_sublist _ _).nodup hr.nodup) hn]
  intro n
  constructor
  · intro hm
    exact (hr.exact n).1 ((dkeys_derefDict_sublist _ _).subset hm)
  · intro hm
    obtain ⟨o, ho, rfl⟩ := List.mem_map.1 hm
    obtain ⟨a, ha, -⟩ := hr.shaped o ho
    rw [mem_dkeys_iff]
    exact ⟨a, by rw [dget_derefDict _ _ hr.nodup, ha]⟩

/-- The optimizer starts from correctly shaped data. -/
theorem eulerPass_start {env : SamEnv α (List (NDArray α))} {isNan : α → Bool}
    {x0 : Dict Str (NDArray α)} {theta : List α} {n : Nat} {e : EulerPass α}
    (hl : Labelled env.coords env.variables env.parameters) (hv : env.variables ≠ [])
    (hE : EulerArrays env)
    (hk : (dkeys x0).Perm ((env.variables ++ env.parameters).map ModelObject.name))
    (hd : ∀ o ∈ env.variables ++ env.parameters, DataFor env.coords x0 o)
    (ht : theta.length = totalSize env.coords env.parameters) (h : eulerPass env isNan x0 theta n = .ok e) :
    ∀ o ∈ env.variables ++ env.parameters, DataFor env.coords e.start o := by
  unfold eulerPass at h
  cases ha : env.euler x0 theta n with
  | error e => rw [ha] at h; cases h
  | ok arrays =>
    obtain ⟨m, hlen, hshape⟩ := hE _ _ _ _ hk hd ht ha
    obtain ⟨V, P, hid, hVk, hPk, hV, hP⟩ := C51_euler_partial env.coords env.variables env.parameters
      arrays m hl hv hlen (fun k o a h1 h2 => (hshape k o a h1 h2).1)
    have hv0 : 0 < env.variables.length := List.length_pos_iff.2 hv
    have ha0 : 0 < arrays.length := by omega
    have hfirst : listGetE arrays 0 = .ok arrays[0] := by
      unfold listGetE; rw [List.getElem?_eq_getElem ha0]
    have hnd : ndLen arrays[0] = .ok m := by
      obtain ⟨o, ho⟩ : ∃ o, (env.variables ++ env.parameters)[0]? = some o :=
        ⟨env.variables[0], by rw [List.getElem?_append_left hv0, List.getElem?_eq_getElem hv0]⟩
      have := (hshape 0 o arrays[0] ho (List.getElem?_eq_getElem ha0)).1
      simp [ndLen, this]
    rw [ha] at h
    simp only [bind, Except.bind, hid, hfirst, hnd, pure, Except.pure] at h
    cases hh : eulerHandoff (trajectoryRows isNan (V, P) m) n with
    | error e => rw [hh] at h; cases h
    | ok r =>
      obtain ⟨⟨rv, rp⟩, w⟩ := r
      rw [hh] at h
      cases h
      obtain ⟨⟨kv, h1⟩, ⟨kp, h2⟩⟩ := eulerHandoff_mem hh
      have e1 : (trajectoryRows isNan (V, P) m).map EulerRow.vars =
          (List.range m).map fun k => stepRow isNan V k := by
        simp [trajectoryRows, List.map_map, Function.comp_def]
      have e2 : (trajectoryRows isNan (V, P) m).map EulerRow.params =
          (List.range m).map fun k => stepRow isNan P k := by
        simp [trajectoryRows, List.map_map, Function.comp_def]
      rw [e1] at h1
      rw [e2] at h2
      obtain ⟨k1, r1⟩ := euler_row h1
      obtain ⟨k2, r2⟩ := euler_row h2
      obtain ⟨d1, g1⟩ := stepRow_some r1
      obtain ⟨d2, g2⟩ := stepRow_some r2
      have hnn := hl.names
      rw [List.map_append] at hnn
      obtain ⟨hn1, hn2, hn3⟩ := List.nodup_append.1 hnn
      intro o ho
      show DataFor env.coords (dupdate rv rp) o
      rcases List.mem_append.1 ho with ho | ho
      · obtain ⟨k, hk, rfl⟩ := List.getElem_of_mem ho
        have hk' := List.getElem?_eq_getElem hk
        have hka : k < arrays.length := by omega
        have hg := g1 _ _ (hV k _ _ hk' (List.getElem?_eq_getElem hka)) (hVk ▸ hn1)
        obtain ⟨s1, s2⟩ := hshape k _ _ (by rw [List.getElem?_append_left hk]; exact hk')
          (List.getElem?_eq_getElem hka)
        have hno : dget rp env.variables[k].name = none := by
          rw [dget_eq_none_iff, d2, hPk]
          intro hmem
          exact hn3 _ (List.mem_map_of_mem ho) _ hmem rfl
        obtain ⟨t1, t2⟩ := stepSlice_data kv m _ _ s1 s2 k1
        exact ⟨_, by rw [dget_dupdate _ _ (by rw [d2, hPk]; exact hn2), hno, hg]; rfl, t1, t2⟩
      · obtain ⟨k, hk, rfl⟩ := List.getElem_of_mem ho
        have hk' := List.getElem?_eq_getElem hk
        have hka : env.variables.length + k < arrays.length := by omega
        have hg := g2 _ _ (hP k _ _ hk' (List.getElem?_eq_getElem hka)) (hPk ▸ hn2)
        obtain ⟨s1, s2⟩ := hshape (env.variables.length + k) _ _
          (by rw [List.getElem?_append_right (by omega), Nat.add_sub_cancel_left]; exact hk')
          (List.getElem?_eq_getElem hka)
        obtain ⟨t1, t2⟩ := stepSlice_data kp m _ _ s1 s2 k2
        exact ⟨_, by rw [dget_dupdate _ _ (by rw [d2, hPk]; exact hn2), hg]; rfl, t1, t2⟩

theorem flatVars_length {coords : Coords} {d : Dict Str (NDArray α)} {vars params : List ModelObject}
    (h : ∀ o ∈ vars ++ params, DataFor coords d o) {x theta : List α}
    (hx : variableDictToFlatArray d vars params = .ok (x, theta)) : x.length = totalSize coords vars := by
  obtain ⟨bs, hb, hl, -⟩ := ravelNamed_ok d coords vars (fun o ho => h o (by simp [ho]))
  unfold variableDictToFlatArray at hx
  rw [hb] at hx
  simp only [bind, Except.bind] at hx
  cases hc : npConcatenate bs with
  | error e => rw [hc] at hx; cases hx
  | ok y =>
    rw [hc] at hx
    simp only at hx
    split at hx
    · cases hx
    · split at hx
      · cases hx
      · cases hx
        have : bs ≠ [] := by rintro rfl; cases hc
        rw [npConcatenate_ok this] at hc
        cases hc
        rw [List.length_flatten, hl]
        rfl

end Verif
