import Verif.Py.Basic

/-!
# Insertion-ordered Python dictionaries

A `dict` is an association list in insertion order.  Assigning to a present key keeps its place,
assigning to an absent key appends, exactly as CPython ≥ 3.7 guarantees.
-/

namespace Verif

/-- Python `dict` with insertion order; the key list is duplicate free for every dict built by
`dset`/`dofPairs` (theorem `nodup_dkeys_dset`). -/
abbrev Dict (κ ν : Type _) := List (κ × ν)

variable {κ ν μ : Type _} [DecidableEq κ]

/-- `d.get(k)` as an option. -/
def dget : Dict κ ν → κ → Option ν
  | [], _ => none
  | (k', v) :: d, k => if k' = k then some v else dget d k

/-- `d[k]`, raising `KeyError` when absent. -/
def dgetE (d : Dict κ ν) (k : κ) : Res ν :=
  match dget d k with
  | some v => .ok v
  | none => .error .keyError

/-- `list(d.keys())`. -/
def dkeys (d : Dict κ ν) : List κ := d.map Prod.fst

/-- `list(d.values())`. -/
def dvalues (d : Dict κ ν) : List ν := d.map Prod.snd

/-- `d[k] = v`. -/
def dset : Dict κ ν → κ → ν → Dict κ ν
  | [], k, v => [(k, v)]
  | (k', v') :: d, k, v => if k' = k then (k', v) :: d else (k', v') :: dset d k v

/-- `d.update(e)` for a sequence of pairs `e`. -/
def dupdate (d : Dict κ ν) (e : List (κ × ν)) : Dict κ ν :=
  e.foldl (fun d p => dset d p.1 p.2) d

/-- `dict(pairs)`. -/
def dofPairs (e : List (κ × ν)) : Dict κ ν := dupdate [] e

/-- `del d[k]` (no effect on an absent key; callers guard the `KeyError`). -/
def ddel (d : Dict κ ν) (k : κ) : Dict κ ν := d.filter (fun p => p.1 ≠ k)

@[simp] theorem dget_nil (k : κ) : dget ([] : Dict κ ν) k = none := rfl

theorem dget_cons (k' : κ) (v : ν) (d : Dict κ ν) (k : κ) :
    dget ((k', v) :: d) k = if k' = k then some v else dget d k := rfl

theorem dget_dset (d : Dict κ ν) (k : κ) (v : ν) (k' : κ) :
    dget (dset d k v) k' = if k = k' then some v else dget d k' := by
  induction d with
  | nil => simp [dset, dget]
  | cons p d ih =>
    obtain ⟨a, b⟩ := p
    by_cases h : a = k
    · subst h
      simp only [dset, if_true, dget_cons]
      split <;> simp_all
    · simp only [dset, if_neg h, dget_cons, ih]
      by_cases h2 : a = k'
      · subst h2
        simp [Ne.symm h]
      · simp [h2]

theorem dget_dset_self (d : Dict κ ν) (k : κ) (v : ν) : dget (dset d k v) k = some v := by
  simp [dget_dset]

theorem dget_dset_ne (d : Dict κ ν) {k k' : κ} (v : ν) (h : k ≠ k') :
    dget (dset d k v) k' = dget d k' := by
  simp [dget_dset, h]

theorem mem_dkeys_iff (d : Dict κ ν) (k : κ) : k ∈ dkeys d ↔ ∃ v, dget d k = some v := by
  induction d with
  | nil => simp [dkeys, dget]
  | cons p d ih =>
    obtain ⟨a, b⟩ := p
    simp only [dkeys, List.map_cons, List.mem_cons, dget_cons]
    by_cases h : a = k
    · subst h; simp
    · simp only [if_neg h]
      rw [← ih]
      simp [dkeys, Ne.symm h]

theorem dget_eq_none_iff (d : Dict κ ν) (k : κ) : dget d k = none ↔ k ∉ dkeys d := by
  rw [mem_dkeys_iff]
  cases dget d k <;> simp

theorem dget_isSome_iff (d : Dict κ ν) (k : κ) : (dget d k).isSome ↔ k ∈ dkeys d := by
  rw [mem_dkeys_iff, Option.isSome_iff_exists]

theorem dkeys_dset (d : Dict κ ν) (k : κ) (v : ν) :
    dkeys (dset d k v) = if k ∈ dkeys d then dkeys d else dkeys d ++ [k] := by
  induction d with
  | nil => simp [dset, dkeys]
  | cons p d ih =>
    obtain ⟨a, b⟩ := p
    by_cases h : a = k
    · subst h; simp [dset, dkeys]
    · have ih' : List.map Prod.fst (dset d k v) =
        if k ∈ List.map Prod.fst d then List.map Prod.fst d else List.map Prod.fst d ++ [k] := ih
      simp only [dset, if_neg h, dkeys, List.map_cons, ih', List.mem_cons, Ne.symm h, false_or]
      split <;> simp

theorem mem_dkeys_dset (d : Dict κ ν) (k : κ) (v : ν) (k' : κ) :
    k' ∈ dkeys (dset d k v) ↔ k' = k ∨ k' ∈ dkeys d := by
  rw [dkeys_dset]
  split
  · constructor
    · exact Or.inr
    · rintro (h | h)
      · subst h; assumption
      · exact h
  · simp [or_comm]

theorem nodup_dkeys_dset (d : Dict κ ν) (k : κ) (v : ν) (h : (dkeys d).Nodup) :
    (dkeys (dset d k v)).Nodup := by
  rw [dkeys_dset]
  split
  · exact h
  · rw [List.nodup_append]
    refine ⟨h, by simp, ?_⟩
    intro a ha b hb
    simp only [List.mem_singleton] at hb
    subst hb
    rintro rfl
    contradiction

theorem dset_of_not_mem (d : Dict κ ν) (k : κ) (v : ν) (h : k ∉ dkeys d) :
    dset d k v = d ++ [(k, v)] := by
  induction d with
  | nil => rfl
  | cons p d ih =>
    obtain ⟨a, b⟩ := p
    simp only [dkeys, List.map_cons, List.mem_cons, not_or] at h
    simp only [dset, if_neg (Ne.symm h.1), List.cons_append]
    rw [ih h.2]

@[simp] theorem dupdate_nil (d : Dict κ ν) : dupdate d [] = d := rfl

@[simp] theorem dupdate_cons (d : Dict κ ν) (p : κ × ν) (e : List (κ × ν)) :
    dupdate d (p :: e) = dupdate (dset d p.1 p.2) e := rfl

theorem dupdate_append (d : Dict κ ν) (e e' : List (κ × ν)) :
    dupdate d (e ++ e') = dupdate (dupdate d e) e' := by
  simp [dupdate, List.foldl_append]

theorem nodup_dkeys_dupdate (d : Dict κ ν) (e : List (κ × ν)) (h : (dkeys d).Nodup) :
    (dkeys (dupdate d e)).Nodup := by
  induction e generalizing d with
  | nil => exact h
  | cons p e ih => exact ih _ (nodup_dkeys_dset _ _ _ h)

theorem nodup_dkeys_dofPairs (e : List (κ × ν)) : (dkeys (dofPairs e)).Nodup :=
  nodup_dkeys_dupdate _ _ (by simp [dkeys])

theorem mem_dkeys_dupdate (d : Dict κ ν) (e : List (κ × ν)) (k : κ) :
    k ∈ dkeys (dupdate d e) ↔ k ∈ dkeys d ∨ k ∈ e.map Prod.fst := by
  induction e generalizing d with
  | nil => simp
  | cons p e ih =>
    rw [dupdate_cons, ih, mem_dkeys_dset, List.map_cons, List.mem_cons]
    constructor
    · rintro ((h | h) | h) <;> simp [h]
    · rintro (h | h | h) <;> simp [h]

theorem dget_dupdate_of_not_mem (d : Dict κ ν) (e : List (κ × ν)) (k : κ)
    (h : k ∉ e.map Prod.fst) : dget (dupdate d e) k = dget d k := by
  induction e generalizing d with
  | nil => rfl
  | cons p e ih =>
    simp only [List.map_cons, List.mem_cons, not_or] at h
    rw [dupdate_cons, ih _ h.2, dget_dset_ne _ _ (Ne.symm h.1)]

/-- Lookup after `update` with a dict (distinct keys): the new value wins. -/
theorem dget_dupdate (d : Dict κ ν) (e : Dict κ ν) (he : (dkeys e).Nodup) (k : κ) :
    dget (dupdate d e) k = (dget e k).or (dget d k) := by
  induction e generalizing d with
  | nil => simp
  | cons p e ih =>
    obtain ⟨a, b⟩ := p
    simp only [dkeys, List.map_cons, List.nodup_cons] at he
    rw [dupdate_cons, dget_cons]
    by_cases h : a = k
    · subst h
      rw [dget_dupdate_of_not_mem _ _ _ he.1, dget_dset_self]
      simp
    · rw [ih _ he.2, dget_dset_ne _ _ h]
      simp [h]

/-- A dict built from pairs with distinct keys is that list of pairs. -/
theorem dupdate_of_nodup (d : Dict κ ν) (e : List (κ × ν))
    (h : (dkeys d ++ e.map Prod.fst).Nodup) : dupdate d e = d ++ e := by
  induction e generalizing d with
  | nil => simp
  | cons p e ih =>
    have hp : p.1 ∉ dkeys d := by
      rw [List.map_cons, List.nodup_append] at h
      intro hm
      exact h.2.2 _ hm p.1 (by simp) rfl
    rw [dupdate_cons, dset_of_not_mem _ _ _ hp, ih]
    · simp
    · simpa [dkeys, List.append_assoc] using h

theorem dofPairs_of_nodup (e : List (κ × ν)) (h : (e.map Prod.fst).Nodup) : dofPairs e = e := by
  rw [dofPairs, dupdate_of_nodup]
  · rfl
  · simpa [dkeys] using h

theorem dget_of_mem_nodup (d : Dict κ ν) (h : (dkeys d).Nodup) {k : κ} {v : ν}
    (hm : (k, v) ∈ d) : dget d k = some v := by
  induction d with
  | nil => cases hm
  | cons p d ih =>
    obtain ⟨a, b⟩ := p
    simp only [dkeys, List.map_cons, List.nodup_cons] at h
    rcases List.mem_cons.1 hm with h1 | h1
    · cases h1; simp [dget_cons]
    · have : a ≠ k := by
        rintro rfl
        exact h.1 (List.mem_map_of_mem (f := Prod.fst) h1)
      rw [dget_cons, if_neg this]
      exact ih h.2 h1

theorem mem_of_dget (d : Dict κ ν) {k : κ} {v : ν} (h : dget d k = some v) : (k, v) ∈ d := by
  induction d with
  | nil => simp at h
  | cons p d ih =>
    obtain ⟨a, b⟩ := p
    rw [dget_cons] at h
    split at h
    · next hk => subst hk; cases h; simp
    · exact List.mem_cons_of_mem _ (ih h)

theorem dget_append (d e : Dict κ ν) (k : κ) : dget (d ++ e) k = (dget d k).or (dget e k) := by
  induction d with
  | nil => simp
  | cons p d ih =>
    obtain ⟨a, b⟩ := p
    rw [List.cons_append, dget_cons, dget_cons, ih]
    split <;> simp

theorem dget_ddel (d : Dict κ ν) (k k' : κ) :
    dget (ddel d k) k' = if k' = k then none else dget d k' := by
  induction d with
  | nil => simp [ddel]
  | cons p d ih =>
    obtain ⟨a, b⟩ := p
    by_cases ha : a = k
    · subst ha
      have : ddel ((a, b) :: d) a = ddel d a := by simp [ddel]
      rw [this, ih, dget_cons]
      by_cases h : k' = a
      · simp [h]
      · simp [h, Ne.symm h]
    · have : ddel ((a, b) :: d) k = (a, b) :: ddel d k := by simp [ddel, ha]
      rw [this, dget_cons, dget_cons, ih]
      by_cases h : a = k'
      · subst h; simp [ha]
      · simp [h]

theorem dkeys_ddel (d : Dict κ ν) (k : κ) : dkeys (ddel d k) = (dkeys d).filter (· ≠ k) := by
  simp [dkeys, ddel, List.filter_map, Function.comp_def]

end Verif
