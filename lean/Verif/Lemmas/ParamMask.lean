import Verif.Lemmas.Mask

/-! # Helper lemmas about `flat_mask_from_param_names` -/

namespace Verif

variable {α : Type _}

theorem length_cumsumFrom (acc : Nat) (cs : List Nat) : (cumsumFrom acc cs).length = cs.length := by
  induction cs generalizing acc with
  | nil => rfl
  | cons c cs ih => simp [cumsumFrom, ih]

theorem getElem?_cumsumFrom (acc : Nat) (cs : List Nat) (m : Nat) (hm : m < cs.length) :
    (cumsumFrom acc cs)[m]? = some (acc + (cs.take m).sum + cs[m]) := by
  induction cs generalizing acc m with
  | nil => simp at hm
  | cons c cs ih =>
    cases m with
    | zero => simp [cumsumFrom]
    | succ m =>
      simp only [List.length_cons, Nat.add_lt_add_iff_right] at hm
      simp only [cumsumFrom, List.getElem?_cons_succ, ih _ _ hm, List.take_succ_cons,
        List.sum_cons, List.getElem_cons_succ]
      congr 1; omega

theorem dkeys_paramSlices (d : Dict Str (NDArray α)) : dkeys (paramSlices d) = dkeys d := by
  unfold paramSlices dkeys
  rw [List.map_fst_zip]
  simp [length_cumsumFrom]

theorem paramSlices_getElem? (d : Dict Str (NDArray α)) (m : Nat) (k : Str) (a : NDArray α)
    (h : d[m]? = some (k, a)) :
    (paramSlices d)[m]? = some (k, (((d.map fun p => p.2.shape.prod).take m).sum,
      ((d.map fun p => p.2.shape.prod).take m).sum + a.shape.prod)) := by
  have hm : m < d.length := by
    rcases Nat.lt_or_ge m d.length with h' | h'
    · exact h'
    · rw [List.getElem?_eq_none h'] at h; simp at h
  have hget : d[m] = (k, a) := by
    rw [List.getElem?_eq_getElem hm] at h; exact Option.some.inj h
  have hc := getElem?_cumsumFrom 0 (d.map fun p => p.2.shape.prod) m (by simpa using hm)
  simp only [paramSlices, dkeys, List.getElem?_zip_eq_some, List.getElem?_map, h, Option.map_some]
  refine ⟨trivial, ?_⟩
  rw [Option.map_eq_some_iff]
  refine ⟨(0 + ((d.map fun p => p.2.shape.prod).take m).sum + (d.map fun p => p.2.shape.prod)[m]'(by
    simpa using hm), a.shape.prod), List.getElem?_zip_eq_some.2 ⟨hc, by simp [h]⟩, ?_⟩
  simp [hget]

theorem dget_paramSlices (d : Dict Str (NDArray α)) (hn : (dkeys d).Nodup) (m : Nat) (k : Str)
    (a : NDArray α) (h : d[m]? = some (k, a)) :
    dget (paramSlices d) k = some (((d.map fun p => p.2.shape.prod).take m).sum,
      ((d.map fun p => p.2.shape.prod).take m).sum + a.shape.prod) := by
  apply dget_of_mem_nodup
  · rw [dkeys_paramSlices]; exact hn
  · exact List.mem_of_getElem? (paramSlices_getElem? d m k a h)

theorem maskNamesLoop_ok (slices : Dict Str (Nat × Nat)) (names : List Str)
    (h : ∀ n ∈ names, n ∈ dkeys slices) (mask : List Bool) :
    ∃ mask', maskNamesLoop slices names mask = .ok mask' ∧ mask'.length = mask.length ∧
      ∀ (p : Nat) (b : Bool), mask[p]? = some b →
        ∃ b', mask'[p]? = some b' ∧
          (b' = true ↔ b = true ∨ ∃ n ∈ names, ∃ ab, dget slices n = some ab ∧ ab.1 ≤ p ∧ p < ab.2) := by
  induction names generalizing mask with
  | nil => exact ⟨mask, rfl, rfl, fun p b hb => ⟨b, hb, by simp⟩⟩
  | cons n ns ih =>
    obtain ⟨ab, hab⟩ := (mem_dkeys_iff _ _).1 (h n (by simp))
    obtain ⟨mask', h1, h2, h3⟩ := ih (fun n' h' => h n' (by simp [h'])) (setSlice mask ab.1 ab.2 true)
    refine ⟨mask', ?_, ?_, ?_⟩
    · simp only [maskNamesLoop, dgetE_of_some hab, bind, Except.bind, h1]
    · rw [h2, length_setSlice]
    · intro p b hb
      have hs : (setSlice mask ab.1 ab.2 true)[p]?
          = some (if ab.1 ≤ p ∧ p < ab.2 then true else b) := by
        rw [getElem?_setSlice, hb]; rfl
      obtain ⟨b', hb', hiff⟩ := h3 p _ hs
      refine ⟨b', hb', hiff.trans ?_⟩
      constructor
      · rintro (hx | ⟨n', hn', ab', h1', h2'⟩)
        · split at hx
          · next hc => exact Or.inr ⟨n, by simp, ab, hab, hc⟩
          · exact Or.inl hx
        · exact Or.inr ⟨n', by simp [hn'], ab', h1', h2'⟩
      · rintro (hx | ⟨n', hn', ab', h1', h2'⟩)
        · left; simp [hx]
        · rcases List.mem_cons.1 hn' with rfl | hn'
          · rw [hab] at h1'; cases h1'
            left; simp [h2']
          · exact Or.inr ⟨n', hn', ab', h1', h2'⟩

theorem maskNamesLoop_error (slices : Dict Str (Nat × Nat)) (names : List Str)
    (h : ∃ n ∈ names, n ∉ dkeys slices) (mask : List Bool) :
    maskNamesLoop slices names mask = .error .keyError := by
  induction names generalizing mask with
  | nil => simp at h
  | cons n ns ih =>
    by_cases hn : n ∈ dkeys slices
    · obtain ⟨ab, hab⟩ := (mem_dkeys_iff _ _).1 hn
      simp only [maskNamesLoop, dgetE_of_some hab, bind, Except.bind]
      apply ih
      obtain ⟨n', h1, h2⟩ := h
      rcases List.mem_cons.1 h1 with rfl | h1
      · exact absurd hn h2
      · exact ⟨n', h1, h2⟩
    · simp only [maskNamesLoop, dgetE_of_none ((dget_eq_none_iff _ _).2 hn), bind, Except.bind]

end Verif
