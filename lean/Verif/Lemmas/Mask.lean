import Verif.Lemmas.Flat

/-! # Helper lemmas about masks -/

namespace Verif

variable {α β : Type _}

theorem length_setSlice (mask : List Bool) (a b : Nat) (v : Bool) :
    (setSlice mask a b v).length = mask.length := by simp [setSlice]

theorem getElem?_setSlice (mask : List Bool) (a b : Nat) (v : Bool) (i : Nat) :
    (setSlice mask a b v)[i]? = mask[i]?.map fun m => if a ≤ i ∧ i < b then v else m := by
  simp [setSlice, List.getElem?_mapIdx]

/-- The mask that repeats each flag over its block. -/
def blockMask (blocks : List (Nat × Bool)) : List Bool :=
  (blocks.map fun p => List.replicate p.1 p.2).flatten

theorem length_blockMask (blocks : List (Nat × Bool)) :
    (blockMask blocks).length = (blocks.map Prod.fst).sum := by
  induction blocks with
  | nil => rfl
  | cons p bs ih =>
    simp only [blockMask, List.map_cons, List.flatten_cons, List.length_append,
      List.length_replicate, List.sum_cons]
    rw [← ih]; rfl

theorem blockMask_get (blocks : List (Nat × Bool)) (p : Nat) (m n : Nat) (b : Bool)
    (hm : blocks[m]? = some (n, b))
    (h1 : ((blocks.take m).map Prod.fst).sum ≤ p) (h2 : p < ((blocks.take m).map Prod.fst).sum + n) :
    (blockMask blocks)[p]? = some b := by
  induction blocks generalizing p m with
  | nil => simp at hm
  | cons q bs ih =>
    have hc : blockMask (q :: bs) = List.replicate q.1 q.2 ++ blockMask bs := rfl
    rw [hc]
    cases m with
    | zero =>
      simp only [List.getElem?_cons_zero, Option.some.injEq] at hm
      subst hm
      simp only [List.take_zero, List.map_nil, List.sum_nil] at h1 h2
      rw [List.getElem?_append_left (by simpa using h2)]
      rw [List.getElem?_replicate, if_pos (by simpa using h2)]
    | succ m =>
      rw [List.getElem?_cons_succ] at hm
      simp only [List.take_succ_cons, List.map_cons, List.sum_cons] at h1 h2
      rw [List.getElem?_append_right (by rw [List.length_replicate]; omega), List.length_replicate]
      exact ih _ m hm (by omega) (by omega)

/-- Every position below the total lies in exactly one block. -/
theorem block_exists (sizes : List Nat) (p : Nat) (h : p < sizes.sum) :
    ∃ m, ∃ hm : m < sizes.length, (sizes.take m).sum ≤ p ∧ p < (sizes.take m).sum + sizes[m] := by
  induction sizes generalizing p with
  | nil => simp at h
  | cons n ns ih =>
    by_cases hp : p < n
    · exact ⟨0, by simp, by simp, by simpa using hp⟩
    · rw [List.sum_cons] at h
      obtain ⟨m, hm, h1, h2⟩ := ih (p - n) (by omega)
      refine ⟨m + 1, by simpa using hm, ?_, ?_⟩
      · simp only [List.take_succ_cons, List.sum_cons]; omega
      · simp only [List.take_succ_cons, List.sum_cons, List.getElem_cons_succ]; omega

theorem take_sum_mono (sizes : List Nat) {m m' : Nat} (h : m < m') (hm : m < sizes.length) :
    (sizes.take m).sum + sizes[m] ≤ (sizes.take m').sum := by
  induction sizes generalizing m m' with
  | nil => simp at hm
  | cons n ns ih =>
    cases m' with
    | zero => omega
    | succ m' =>
      cases m with
      | zero => simp
      | succ m =>
        simp only [List.length_cons, Nat.add_lt_add_iff_right] at h hm
        simp only [List.take_succ_cons, List.sum_cons, List.getElem_cons_succ]
        have := ih h hm
        omega

theorem block_unique (sizes : List Nat) (p m m' : Nat) (hm : m < sizes.length)
    (hm' : m' < sizes.length)
    (h1 : (sizes.take m).sum ≤ p) (h2 : p < (sizes.take m).sum + sizes[m])
    (h3 : (sizes.take m').sum ≤ p) (h4 : p < (sizes.take m').sum + sizes[m']) : m = m' := by
  rcases Nat.lt_trichotomy m m' with h | h | h
  · have := take_sum_mono sizes h hm; omega
  · exact h
  · have := take_sum_mono sizes h hm'; omega

theorem setSlice_mid (a b c : List Bool) (v : Bool) :
    setSlice (a ++ (b ++ c)) a.length (a.length + b.length) v
      = a ++ (List.replicate b.length v ++ c) := by
  apply List.ext_getElem?
  intro i
  rw [getElem?_setSlice]
  by_cases h1 : i < a.length
  · rw [List.getElem?_append_left h1, List.getElem?_append_left h1]
    rw [List.getElem?_eq_getElem h1]
    simp; omega
  · rw [List.getElem?_append_right (l₁ := a) (l₂ := b ++ c) (by omega),
      List.getElem?_append_right (l₁ := a) (l₂ := List.replicate b.length v ++ c) (by omega)]
    by_cases h2 : i - a.length < b.length
    · rw [List.getElem?_append_left h2, List.getElem?_append_left (by simpa using h2)]
      rw [List.getElem?_replicate, if_pos h2, List.getElem?_eq_getElem h2]
      simp only [Option.map_some]
      rw [if_pos (by omega)]
    · rw [List.getElem?_append_right (by omega),
        List.getElem?_append_right (by rw [List.length_replicate]; omega), List.length_replicate]
      have : ¬ (a.length ≤ i ∧ i < a.length + b.length) := by omega
      simp [this]

theorem returnMaskLoop_eq (omitted : List Str) (coords : Coords) (objs : List ModelObject)
    (hk : ∀ o ∈ objs, KnownDims coords o) (done : List Bool) (r : Nat) :
    returnMaskLoop omitted coords objs done.length
        (done ++ List.replicate (totalSize coords objs + r) true)
      = .ok (done ++ (blockMask (objs.map fun o => (specSize coords o, decide (o.name ∉ omitted)))
          ++ List.replicate r true)) := by
  induction objs generalizing done with
  | nil => simp [returnMaskLoop, totalSize, blockMask]
  | cons o objs ih =>
    have ho := hk o (by simp)
    have hsz : (specShape coords o).prod = specSize coords o := rfl
    simp only [returnMaskLoop, inferShape_eq ho, bind, Except.bind, hsz]
    have hT : totalSize coords (o :: objs) + r
        = specSize coords o + (totalSize coords objs + r) := by
      simp [totalSize, Nat.add_assoc]
    rw [hT, ← List.replicate_append_replicate]
    have key : (if o.name ∈ omitted then
          setSlice (done ++ (List.replicate (specSize coords o) true
              ++ List.replicate (totalSize coords objs + r) true))
            done.length (done.length + specSize coords o) false
        else done ++ (List.replicate (specSize coords o) true
              ++ List.replicate (totalSize coords objs + r) true))
        = (done ++ List.replicate (specSize coords o) (decide (o.name ∉ omitted)))
            ++ List.replicate (totalSize coords objs + r) true := by
      by_cases h : o.name ∈ omitted
      · rw [if_pos h]
        have := setSlice_mid done (List.replicate (specSize coords o) true)
          (List.replicate (totalSize coords objs + r) true) false
        rw [List.length_replicate] at this
        rw [this]
        simp [h]
      · rw [if_neg h]; simp [h]
    rw [key]
    have hl : done.length + specSize coords o
        = (done ++ List.replicate (specSize coords o) (decide (o.name ∉ omitted))).length := by simp
    rw [hl, ih (fun o' h' => hk o' (by simp [h']))]
    simp [blockMask]

theorem maskSelect_append (x y : List α) (m n : List Bool) (h : x.length = m.length) :
    maskSelect (x ++ y) (m ++ n) = maskSelect x m ++ maskSelect y n := by
  simp [maskSelect, List.zip_append h]

theorem maskSelect_replicate (x : List α) (b : Bool) :
    maskSelect x (List.replicate x.length b) = if b then x else [] := by
  induction x with
  | nil => cases b <;> rfl
  | cons a x ih =>
    cases b
    · simpa [maskSelect, List.replicate_succ] using ih
    · simpa [maskSelect, List.replicate_succ] using ih

/-- Selecting with a block mask keeps exactly the flagged blocks. -/
theorem maskSelect_blocks (blocks : List (List α × Bool)) :
    maskSelect (blocks.map Prod.fst).flatten
        (blockMask (blocks.map fun p => (p.1.length, p.2)))
      = ((blocks.filter Prod.snd).map Prod.fst).flatten := by
  induction blocks with
  | nil => rfl
  | cons p bs ih =>
    obtain ⟨l, b⟩ := p
    have : blockMask (((l, b) :: bs).map fun p => (p.1.length, p.2))
        = List.replicate l.length b ++ blockMask (bs.map fun p => (p.1.length, p.2)) := rfl
    rw [this, List.map_cons, List.flatten_cons, maskSelect_append _ _ _ _ (by simp), ih,
      maskSelect_replicate]
    cases b <;> simp

end Verif
