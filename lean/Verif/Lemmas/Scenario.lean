import Verif.Spec.Scenario

namespace Verif

variable {α : Type _}

/-! ## Counter -/

theorem dget_counter_foldl {κ : Type _} [DecidableEq κ] (l : List κ) (c : Dict κ Nat) (k : κ) :
    (dget (l.foldl (fun c k => dset c k ((dget c k).getD 0 + 1)) c) k).getD 0
      = (dget c k).getD 0 + l.count k := by
  induction l generalizing c with
  | nil => simp
  | cons a l ih =>
    rw [List.foldl_cons, ih, dget_dset]
    by_cases h : a = k
    · subst h; simp [List.count_cons]; omega
    · simp [h, List.count_cons]

theorem nodup_counter_foldl {κ : Type _} [DecidableEq κ] (l : List κ) (c : Dict κ Nat)
    (hc : (dkeys c).Nodup) :
    (dkeys (l.foldl (fun c k => dset c k ((dget c k).getD 0 + 1)) c)).Nodup := by
  induction l generalizing c with
  | nil => exact hc
  | cons a l ih => exact ih _ (nodup_dkeys_dset _ _ _ hc)

theorem counter_count {κ : Type _} [DecidableEq κ] (l : List κ) (k : κ) :
    (dget (counterOf l) k).getD 0 = l.count k := by
  unfold counterOf
  rw [dget_counter_foldl]; simp

/-- The "repeated arguments" test of the code is `¬ Nodup`. -/
theorem counter_repeated_iff {κ : Type _} [DecidableEq κ] (l : List κ) :
    0 < (((counterOf l).filter fun p => decide (1 < p.2)).map Prod.fst).length ↔ ¬ l.Nodup := by
  rw [List.length_pos_iff_exists_mem, List.nodup_iff_count]
  simp only [List.mem_map, List.mem_filter, decide_eq_true_eq, Nat.not_le, Classical.not_forall]
  have hn : (dkeys (counterOf l)).Nodup := nodup_counter_foldl l [] (by simp [dkeys])
  constructor
  · rintro ⟨k, ⟨a, n⟩, ⟨hm, hlt⟩, rfl⟩
    refine ⟨a, ?_⟩
    have := dget_of_mem_nodup _ hn hm
    have h2 := counter_count l a
    rw [this] at h2
    simp at h2 hlt
    omega
  · rintro ⟨k, hk⟩
    have h2 := counter_count l k
    cases hg : dget (counterOf l) k with
    | none => rw [hg] at h2; simp at h2; omega
    | some n =>
      rw [hg] at h2; simp at h2
      exact ⟨k, (k, n), ⟨mem_of_dget _ hg, by simp; omega⟩, rfl⟩

/-! ## deepcopy -/

theorem mem_refsOf {d : Dict Str (PyVal α)} {r : Nat} :
    r ∈ refsOf d ↔ ∃ k, (k, PyVal.ref r) ∈ d := by
  induction d with
  | nil => simp [refsOf]
  | cons p d ih =>
    obtain ⟨k, v⟩ := p
    cases v with
    | num a => simp [refsOf, ih]
    | ref r' =>
      simp only [refsOf, List.mem_cons, ih, Prod.mk.injEq, PyVal.ref.injEq]
      constructor
      · rintro (rfl | ⟨k', h⟩)
        · exact ⟨k, Or.inl ⟨rfl, rfl⟩⟩
        · exact ⟨k', Or.inr h⟩
      · rintro ⟨k', ⟨_, rfl⟩ | h⟩
        · exact Or.inl rfl
        · exact Or.inr ⟨k', h⟩

theorem deepcopyLoop_spec (n0 : Nat) (d : Dict Str (PyVal α)) (h : Heap α) (memo : Dict Nat Nat)
    (hn : n0 ≤ h.length) (hv : ∀ r ∈ refsOf d, r < n0)
    (hm : ∀ r r', dget memo r = some r' → n0 ≤ r' ∧ r' < h.length ∧ h[r']? = h[r]?) :
    (∃ t, (deepcopyLoop d h memo).1 = h ++ t) ∧
    dkeys (deepcopyLoop d h memo).2 = dkeys d ∧
    (∀ k, seen (deepcopyLoop d h memo).1 (deepcopyLoop d h memo).2 k = seen h d k) ∧
    (∀ r ∈ refsOf (deepcopyLoop d h memo).2, n0 ≤ r ∧ r < (deepcopyLoop d h memo).1.length) := by
  induction d generalizing h memo with
  | nil => exact ⟨⟨[], by simp [deepcopyLoop]⟩, rfl, fun k => rfl, by simp [deepcopyLoop, refsOf]⟩
  | cons p d ih =>
    obtain ⟨k, v⟩ := p
    cases v with
    | num a =>
      obtain ⟨⟨t, h1⟩, h2, h3, h4⟩ := ih h memo hn hv hm
      refine ⟨⟨t, h1⟩, by simpa [deepcopyLoop, dkeys] using h2, ?_, h4⟩
      intro k'
      simp only [seen, deepcopyLoop, dget_cons] at h3 ⊢
      by_cases hk : k = k'
      · simp [hk, readVal]
      · simpa [hk] using h3 k'
    | ref r =>
      have hr : r < n0 := hv r (by simp [refsOf])
      have hv' : ∀ r ∈ refsOf d, r < n0 := fun r hr => hv r (by simp [refsOf, hr])
      cases hg : dget memo r with
      | some r' =>
        obtain ⟨⟨t, h1⟩, h2, h3, h4⟩ := ih h memo hn hv' hm
        obtain ⟨m1, m2, m3⟩ := hm r r' hg
        simp only [deepcopyLoop, hg]
        refine ⟨⟨t, h1⟩, by simpa [dkeys] using h2, ?_, ?_⟩
        · intro k'
          simp only [seen, dget_cons] at h3 ⊢
          by_cases hk : k = k'
          · simp only [hk, if_true, Option.bind_some, readVal, h1]
            rw [List.getElem?_append_left m2, m3]
          · simpa [hk] using h3 k'
        · intro r'' hr''
          simp only [refsOf, List.mem_cons] at hr''
          rcases hr'' with rfl | hr''
          · refine ⟨m1, ?_⟩
            rw [h1, List.length_append]; omega
          · exact h4 _ hr''
      | none =>
        have hrl : r < h.length := by omega
        have ha : h[r]? = some h[r] := List.getElem?_eq_getElem hrl
        simp only [deepcopyLoop, hg, ha]
        have hm' : ∀ q q', dget (dset memo r h.length) q = some q' →
            n0 ≤ q' ∧ q' < (h ++ [h[r]]).length ∧ (h ++ [h[r]])[q']? = (h ++ [h[r]])[q]? := by
          intro q q' hq
          rw [dget_dset] at hq
          split at hq
          · next e =>
            subst e; cases hq
            refine ⟨hn, by simp, ?_⟩
            rw [List.getElem?_append_left hrl, ha]; simp
          · obtain ⟨m1, m2, m3⟩ := hm q q' hq
            refine ⟨m1, by simp; omega, ?_⟩
            rw [List.getElem?_append_left m2, m3]
            have : q < h.length := by
              rw [List.getElem?_eq_getElem m2] at m3
              exact (List.getElem?_eq_some_iff.1 m3.symm).1
            rw [List.getElem?_append_left this]
        obtain ⟨⟨t, h1⟩, h2, h3, h4⟩ := ih (h ++ [h[r]]) (dset memo r h.length)
          (by simp; omega) hv' hm'
        have hpre : ∀ k', seen (h ++ [h[r]]) d k' = seen h d k' := by
          intro k'
          unfold seen
          cases hd : dget d k' with
          | none => rfl
          | some v =>
            cases v with
            | num a => rfl
            | ref q =>
              have : q < n0 := hv' q (mem_refsOf.2 ⟨k', mem_of_dget _ hd⟩)
              simp only [Option.bind_some, readVal]
              rw [List.getElem?_append_left (by omega)]
        refine ⟨⟨h[r] :: t, by rw [h1]; simp⟩, by simpa [dkeys] using h2, ?_, ?_⟩
        · intro k'
          simp only [seen, dget_cons]
          by_cases hk : k = k'
          · simp only [hk, if_true, Option.bind_some, readVal, h1, ha]
            rw [List.getElem?_append_left (by simp)]
            simp
          · have := h3 k'
            rw [hpre] at this
            simpa [hk, seen] using this
        · intro r'' hr''
          simp only [refsOf, List.mem_cons] at hr''
          rcases hr'' with rfl | hr''
          · refine ⟨hn, ?_⟩
            rw [h1]; simp
          · exact h4 _ hr''

theorem deepcopyLoop_nodup (d : Dict Str (PyVal α)) (h : Heap α) (memo : Dict Nat Nat)
    (hv : ∀ r ∈ refsOf d, r < h.length ∧ dget memo r = none) (hn : (refsOf d).Nodup) :
    (refsOf (deepcopyLoop d h memo).2).Nodup ∧
    ∀ r ∈ refsOf (deepcopyLoop d h memo).2, h.length ≤ r := by
  induction d generalizing h memo with
  | nil => simp [deepcopyLoop, refsOf]
  | cons p d ih =>
    obtain ⟨k, v⟩ := p
    cases v with
    | num a => exact ih h memo hv hn
    | ref r =>
      obtain ⟨hr, hg⟩ := hv r (by simp [refsOf])
      simp only [refsOf, List.nodup_cons] at hn
      have ha : h[r]? = some h[r] := List.getElem?_eq_getElem hr
      simp only [deepcopyLoop, hg, ha, refsOf, List.nodup_cons, List.mem_cons]
      obtain ⟨i1, i2⟩ := ih (h ++ [h[r]]) (dset memo r h.length) (by
        intro q hq
        obtain ⟨q1, q2⟩ := hv q (by simp [refsOf, hq])
        refine ⟨by simp; omega, ?_⟩
        rw [dget_dset_ne _ _ (by rintro rfl; exact hn.1 hq)]
        exact q2) hn.2
      refine ⟨⟨?_, i1⟩, ?_⟩
      · intro hm
        have := i2 _ hm
        simp at this
        omega
      · rintro q (rfl | hq)
        · omega
        · have := i2 _ hq
          simp at this
          omega

/-! ## In-place updates -/

/-- Invariant of the scenario dictionary: references are valid; those stored under keys that may be
updated (`P`) are fresh, i.e. beyond the caller's `n0` cells. -/
structure FreshAt (n0 : Nat) (P : Str → Prop) (h : Heap α) (d : Dict Str (PyVal α)) : Prop where
  bound : ∀ k r, dget d k = some (.ref r) → r < h.length
  fresh : ∀ k r, P k → dget d k = some (.ref r) → n0 ≤ r

/-- No other key shares the array of an updatable key. -/
def UniqAt (P : Str → Prop) (d : Dict Str (PyVal α)) : Prop :=
  ∀ k k' r, P k → dget d k = some (.ref r) → dget d k' = some (.ref r) → k' = k

theorem readVal_some_of_bound {h : Heap α} {d : Dict Str (PyVal α)} {k : Str} {v : PyVal α}
    (hb : ∀ k r, dget d k = some (.ref r) → r < h.length) (hg : dget d k = some v) :
    ∃ x, readVal h v = some x := by
  cases v with
  | num a => exact ⟨a, rfl⟩
  | ref r => exact ⟨h[r]'(hb k r hg), List.getElem?_eq_getElem _⟩

/-- One in-place update never touches the caller's cells, whatever the aliasing. -/
theorem inplaceOp_fresh (op : α → α → α) (n0 : Nat) (P : Str → Prop) (h : Heap α)
    (d : Dict Str (PyVal α)) (k : Str) (v : PyVal α) (hn : n0 ≤ h.length)
    (hf : FreshAt n0 P h d) (hk : P k) :
    n0 ≤ (inplaceOp op h d k v).1.length ∧
    (∀ r, r < n0 → (inplaceOp op h d k v).1[r]? = h[r]?) ∧
    (∀ d', (inplaceOp op h d k v).2 = .ok d' → FreshAt n0 P (inplaceOp op h d k v).1 d') := by
  unfold inplaceOp
  cases hg : dget d k with
  | none => exact ⟨hn, fun _ _ => rfl, by intro d' h'; cases h'⟩
  | some cur =>
    dsimp only
    cases hc : readVal h cur with
    | none => exact ⟨hn, fun _ _ => rfl, by intro d' h'; cases h'⟩
    | some x =>
      cases hy : readVal h v with
      | none => exact ⟨hn, fun _ _ => rfl, by intro d' h'; cases h'⟩
      | some y =>
        dsimp only
        cases cur with
        | num a =>
          cases v with
          | num b =>
            refine ⟨hn, fun _ _ => rfl, ?_⟩
            intro d' h'; cases h'
            constructor
            · intro k' r hr
              rw [dget_dset] at hr
              split at hr
              · cases hr
              · exact hf.bound _ _ hr
            · intro k' r hp hr
              rw [dget_dset] at hr
              split at hr
              · cases hr
              · exact hf.fresh _ _ hp hr
          | ref q =>
            refine ⟨by simp; omega, ?_, ?_⟩
            · intro r hr
              exact List.getElem?_append_left (by omega)
            · intro d' h'; cases h'
              constructor
              · intro k' r hr
                rw [dget_dset] at hr
                split at hr
                · cases hr; simp
                · have := hf.bound _ _ hr; simp; omega
              · intro k' r hp hr
                rw [dget_dset] at hr
                split at hr
                · cases hr; exact hn
                · exact hf.fresh _ _ hp hr
        | ref q =>
          have hq := hf.fresh k q hk hg
          refine ⟨by simp; omega, ?_, ?_⟩
          · intro r hr
            rw [List.getElem?_set_ne (by omega)]
          · intro d' h'; cases h'
            constructor
            · intro k' r hr
              rw [dget_dset] at hr
              rw [List.length_set]
              split at hr
              · cases hr; exact hf.bound _ _ hg
              · exact hf.bound _ _ hr
            · intro k' r hp hr
              rw [dget_dset] at hr
              split at hr
              · cases hr; exact hq
              · exact hf.fresh _ _ hp hr

theorem inplaceLoop_fresh (op : α → α → α) (n0 : Nat) (P : Str → Prop)
    (cs : List (Str × PyVal α)) (h : Heap α) (d : Dict Str (PyVal α)) (hn : n0 ≤ h.length)
    (hf : FreshAt n0 P h d) (hk : ∀ c ∈ cs, P c.1) :
    n0 ≤ (inplaceLoop op cs h d).1.length ∧
    (∀ r, r < n0 → (inplaceLoop op cs h d).1[r]? = h[r]?) ∧
    (∀ d', (inplaceLoop op cs h d).2 = .ok d' → FreshAt n0 P (inplaceLoop op cs h d).1 d') := by
  induction cs generalizing h d with
  | nil => exact ⟨hn, fun _ _ => rfl, by intro d' h'; cases h'; exact hf⟩
  | cons c cs ih =>
    obtain ⟨k, v⟩ := c
    obtain ⟨i1, i2, i3⟩ := inplaceOp_fresh op n0 P h d k v hn hf (hk (k, v) (by simp))
    unfold inplaceLoop
    rcases hop : inplaceOp op h d k v with ⟨h1, r1⟩
    rw [hop] at i1 i2 i3
    cases r1 with
    | error e => exact ⟨i1, i2, by intro d' h'; cases h'⟩
    | ok d1 =>
      obtain ⟨j1, j2, j3⟩ := ih h1 d1 i1 (i3 d1 rfl) (fun c hc => hk c (by simp [hc]))
      exact ⟨j1, fun r hr => (j2 r hr).trans (i2 r hr), j3⟩

/-- The effect of one update when the array is not shared. -/
theorem inplaceOp_effect (op : α → α → α) (n0 : Nat) (P : Str → Prop) (h : Heap α)
    (d : Dict Str (PyVal α)) (k : Str) (v : PyVal α) (x y : α) (_hn : n0 ≤ h.length)
    (hf : FreshAt n0 P h d) (hu : UniqAt P d) (hk : P k)
    (hx : seen h d k = some x) (hy : readVal h v = some y) :
    ∃ h' d', inplaceOp op h d k v = (h', .ok d') ∧ UniqAt P d' ∧ dkeys d' = dkeys d ∧
      ∀ k', seen h' d' k' = if k' = k then some (op x y) else seen h d k' := by
  unfold seen at hx
  cases hg : dget d k with
  | none => rw [hg] at hx; cases hx
  | some cur =>
    rw [hg] at hx
    simp only [Option.bind_some] at hx
    have hkeys : ∀ w, dkeys (dset d k w) = dkeys d := by
      intro w
      rw [dkeys_dset, if_pos ((mem_dkeys_iff d k).2 ⟨cur, hg⟩)]
    have fin : ∀ (h' : Heap α) (w : PyVal α), readVal h' w = some (op x y) →
        (∀ k', k' ≠ k → seen h' d k' = seen h d k') →
        ∀ k', seen h' (dset d k w) k' = if k' = k then some (op x y) else seen h d k' := by
      intro h' w hw ho k'
      by_cases e : k' = k
      · subst e; simp [seen, dget_dset_self, hw]
      · have := ho k' e
        simp only [seen, dget_dset_ne d w (Ne.symm e), if_neg e] at this ⊢
        exact this
    unfold inplaceOp
    simp only [hg, hx, hy]
    cases cur with
    | num a =>
      cases v with
      | num b =>
        refine ⟨h, _, rfl, ?_, hkeys _, fin _ _ rfl (fun _ _ => rfl)⟩
        intro k1 k2 r hp h1 h2
        rw [dget_dset] at h1 h2
        split at h1
        · cases h1
        · split at h2
          · cases h2
          · exact hu k1 k2 r hp h1 h2
      | ref q =>
        refine ⟨_, _, rfl, ?_, hkeys _, fin _ _ (by simp [readVal]) ?_⟩
        · intro k1 k2 r hp h1 h2
          rw [dget_dset] at h1 h2
          split at h1 <;> split at h2
          · next e1 e2 => exact e2.symm.trans e1
          · cases h1
            have := hf.bound _ _ h2
            omega
          · cases h2
            have := hf.bound _ _ h1
            omega
          · exact hu k1 k2 r hp h1 h2
        · intro k' _
          unfold seen
          cases hd : dget d k' with
          | none => rfl
          | some w =>
            cases w with
            | num a => rfl
            | ref q' =>
              simp only [Option.bind_some, readVal]
              rw [List.getElem?_append_left (hf.bound _ _ hd)]
    | ref q =>
      have hq := hf.bound k q hg
      refine ⟨_, _, rfl, ?_, hkeys _, fin _ _ (by simp [readVal, hq]) ?_⟩
      · intro k1 k2 r hp h1 h2
        rw [dget_dset] at h1 h2
        split at h1 <;> split at h2
        · next e1 e2 => exact e2.symm.trans e1
        · next e1 _ => cases h1; exact hu k1 k2 q hp (by rw [← e1]; exact hg) h2
        · next e2 => cases h2; exact hu k1 k2 q hp h1 (by rw [← e2]; exact hg)
        · exact hu k1 k2 r hp h1 h2
      · intro k' hk'
        unfold seen
        cases hd : dget d k' with
        | none => rfl
        | some w =>
          cases w with
          | num a => rfl
          | ref q' =>
            have : q' ≠ q := by
              rintro rfl
              exact hk' (hu k k' q' hk hg hd)
            simp only [Option.bind_some, readVal]
            rw [List.getElem?_set_ne (Ne.symm this)]

/-- The effect of the whole loop: each change reads a value `chg k` that lives in the caller's
cells. -/
theorem inplaceLoop_effect (op : α → α → α) (n0 : Nat) (P : Str → Prop) (h0 : Heap α)
    (hn0 : h0.length = n0)
    (cs : List (Str × PyVal α)) (h : Heap α) (d : Dict Str (PyVal α)) (hn : n0 ≤ h.length)
    (hpre : ∀ r, r < n0 → h[r]? = h0[r]?)
    (hf : FreshAt n0 P h d) (hu : UniqAt P d) (hk : ∀ c ∈ cs, P c.1)
    (hnd : (dkeys cs).Nodup) (hv : ∀ r ∈ refsOf cs, r < n0)
    (hin : ∀ c ∈ cs, ∃ x, seen h d c.1 = some x) :
    ∃ h' d', inplaceLoop op cs h d = (h', .ok d') ∧ UniqAt P d' ∧ dkeys d' = dkeys d ∧
      ∀ k, seen h' d' k = match seen h0 cs k, seen h d k with
        | some y, some x => some (op x y)
        | _, x => x := by
  induction cs generalizing h d with
  | nil =>
    refine ⟨h, d, rfl, hu, rfl, ?_⟩
    intro k; simp [seen]
  | cons c cs ih =>
    obtain ⟨k, v⟩ := c
    obtain ⟨x, hx⟩ := hin (k, v) (by simp)
    have hrv : ∃ y, readVal h0 v = some y := by
      cases v with
      | num a => exact ⟨a, rfl⟩
      | ref r =>
        have : r < n0 := hv r (by simp [refsOf])
        exact ⟨h0[r]'(by omega), List.getElem?_eq_getElem _⟩
    obtain ⟨y, hy0⟩ := hrv
    have hy : readVal h v = some y := by
      cases v with
      | num a => exact hy0
      | ref r =>
        have : r < n0 := hv r (by simp [refsOf])
        simp only [readVal] at hy0 ⊢
        rw [hpre r this]; exact hy0
    obtain ⟨h1, d1, e1, u1, k1, s1⟩ :=
      inplaceOp_effect op n0 P h d k v x y hn hf hu (hk (k, v) (by simp)) hx hy
    obtain ⟨i1, i2, i3⟩ := inplaceOp_fresh op n0 P h d k v hn hf (hk (k, v) (by simp))
    rw [e1] at i1 i2 i3
    simp only [dkeys, List.map_cons, List.nodup_cons] at hnd
    have hv' : ∀ r ∈ refsOf cs, r < n0 := by
      intro r hr
      apply hv
      cases v <;> simp [refsOf, hr]
    obtain ⟨h2, d2, e2, u2, k2, s2⟩ := ih h1 d1 i1 (fun r hr => (i2 r hr).trans (hpre r hr))
      (i3 d1 rfl) u1 (fun c hc => hk c (by simp [hc])) hnd.2 hv' (by
        intro c hc
        obtain ⟨x', hx'⟩ := hin c (by simp [hc])
        refine ⟨x', ?_⟩
        rw [s1, if_neg, hx']
        rintro rfl
        exact hnd.1 (List.mem_map_of_mem (f := Prod.fst) hc))
    refine ⟨h2, d2, ?_, u2, k2.trans k1, ?_⟩
    · unfold inplaceLoop; rw [e1]; exact e2
    · intro k'
      rw [s2, s1]
      have hcs : ∀ k', seen h0 ((k, v) :: cs) k' = if k = k' then readVal h0 v else seen h0 cs k' := by
        intro k'
        unfold seen
        rw [dget_cons]
        split <;> rfl
      rw [hcs]
      by_cases e : k' = k
      · subst e
        have : seen h0 cs k' = none := by
          unfold seen
          rw [(dget_eq_none_iff cs k').2 hnd.1]; rfl
        simp only [this, if_true, hx, hy0]
      · simp only [if_neg e, if_neg (Ne.symm e)]

theorem uniq_of_nodup (d : Dict Str (PyVal α)) (hr : (refsOf d).Nodup) (P : Str → Prop) :
    UniqAt P d := by
  intro k k' r _ h1 h2
  induction d with
  | nil => simp at h1
  | cons p d ih =>
    obtain ⟨a, v⟩ := p
    cases v with
    | num x =>
      rw [dget_cons] at h1 h2
      split at h1
      · cases h1
      · split at h2
        · cases h2
        · exact ih hr h1 h2
    | ref q =>
      simp only [refsOf, List.nodup_cons] at hr
      rw [dget_cons] at h1 h2
      split at h1 <;> split at h2
      · next e1 e2 => exact e2.symm.trans e1
      · cases h1
        exact absurd (mem_refsOf.2 ⟨k', mem_of_dget _ h2⟩) hr.1
      · cases h2
        exact absurd (mem_refsOf.2 ⟨k, mem_of_dget _ h1⟩) hr.1
      · exact ih hr.2 h1 h2

/-- A successful loop keeps the key list and only ever touched keys that were present. -/
theorem inplaceLoop_keys (op : α → α → α) (cs : List (Str × PyVal α)) (h : Heap α)
    (d : Dict Str (PyVal α)) (h' : Heap α) (d' : Dict Str (PyVal α))
    (hok : inplaceLoop op cs h d = (h', .ok d')) :
    dkeys d' = dkeys d ∧ ∀ k ∈ dkeys cs, k ∈ dkeys d := by
  induction cs generalizing h d with
  | nil => cases hok; exact ⟨rfl, by simp [dkeys]⟩
  | cons c cs ih =>
    obtain ⟨k, v⟩ := c
    unfold inplaceLoop at hok
    split at hok
    · next h1 d1 e1 =>
      have key : dkeys d1 = dkeys d ∧ k ∈ dkeys d := by
        unfold inplaceOp at e1
        cases hg : dget d k with
        | none => rw [hg] at e1; cases e1
        | some cur =>
          have hm : k ∈ dkeys d := (mem_dkeys_iff d k).2 ⟨cur, hg⟩
          have hs : ∀ w, dkeys (dset d k w) = dkeys d := by
            intro w; rw [dkeys_dset, if_pos hm]
          rw [hg] at e1
          dsimp only at e1
          split at e1
          · split at e1 <;> (cases e1; exact ⟨hs _, hm⟩)
          · cases e1
      obtain ⟨i1, i2⟩ := ih h1 d1 hok
      refine ⟨i1.trans key.1, ?_⟩
      intro k' hk'
      simp only [dkeys, List.map_cons, List.mem_cons] at hk'
      rcases hk' with rfl | hk'
      · exact key.2
      · rw [← key.1]; exact i2 k' hk'
    · cases hok

theorem inplaceOp_ok (op : α → α → α) (n0 : Nat) (P : Str → Prop) (h : Heap α)
    (d : Dict Str (PyVal α)) (k : Str) (v : PyVal α) (hn : n0 ≤ h.length)
    (hf : FreshAt n0 P h d) (hv : ∀ r, v = .ref r → r < n0) (hin : k ∈ dkeys d) :
    ∃ h' d', inplaceOp op h d k v = (h', .ok d') := by
  obtain ⟨cur, hg⟩ := (mem_dkeys_iff d k).1 hin
  obtain ⟨x, hx⟩ := readVal_some_of_bound hf.bound hg
  have hy : ∃ y, readVal h v = some y := by
    cases v with
    | num a => exact ⟨a, rfl⟩
    | ref r => exact ⟨h[r]'(by have := hv r rfl; omega), List.getElem?_eq_getElem _⟩
  obtain ⟨y, hy⟩ := hy
  unfold inplaceOp
  simp only [hg, hx, hy]
  cases cur with
  | num a => cases v <;> exact ⟨_, _, rfl⟩
  | ref r => exact ⟨_, _, rfl⟩

/-- The loop succeeds when all names are present, shared arrays or not. -/
theorem inplaceLoop_ok (op : α → α → α) (n0 : Nat) (P : Str → Prop)
    (cs : List (Str × PyVal α)) (h : Heap α) (d : Dict Str (PyVal α)) (hn : n0 ≤ h.length)
    (hf : FreshAt n0 P h d) (hk : ∀ c ∈ cs, P c.1) (hv : ∀ r ∈ refsOf cs, r < n0)
    (hin : ∀ c ∈ cs, c.1 ∈ dkeys d) :
    ∃ h' d', inplaceLoop op cs h d = (h', .ok d') ∧ dkeys d' = dkeys d := by
  suffices hex : ∃ h' d', inplaceLoop op cs h d = (h', .ok d') by
    obtain ⟨h', d', e⟩ := hex
    exact ⟨h', d', e, (inplaceLoop_keys op cs h d h' d' e).1⟩
  induction cs generalizing h d with
  | nil => exact ⟨h, d, rfl⟩
  | cons c cs ih =>
    obtain ⟨k, v⟩ := c
    have hin0 := hin (k, v) (by simp)
    obtain ⟨h1, d1, e1⟩ := inplaceOp_ok op n0 P h d k v hn hf (by
      rintro r rfl; exact hv r (by simp [refsOf])) hin0
    obtain ⟨i1, _, i3⟩ := inplaceOp_fresh op n0 P h d k v hn hf (hk (k, v) (by simp))
    rw [e1] at i1 i3
    have hkeys : dkeys d1 = dkeys d := by
      have : inplaceLoop op [(k, v)] h d = (h1, .ok d1) := by simp [inplaceLoop, e1]
      exact (inplaceLoop_keys op _ _ _ _ _ this).1
    obtain ⟨h2, d2, e2⟩ := ih h1 d1 i1 (i3 d1 rfl) (fun c hc => hk c (by simp [hc])) (by
      intro r hr; apply hv; cases v <;> simp [refsOf, hr]) (by
      intro c hc; rw [hkeys]; exact hin c (by simp [hc]))
    refine ⟨h2, d2, ?_⟩
    unfold inplaceLoop; rw [e1]; exact e2

end Verif
