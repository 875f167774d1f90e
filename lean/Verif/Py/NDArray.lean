import Verif.Py.Basic

/-!
# C-ordered numpy arrays and `itertools.product`

A numpy array is modelled by its shape and its elements in C (row-major) order.  Element access
goes through the mixed-radix position `ravelIndex`.
-/

namespace Verif

/-- A numpy array in C order.  Arrays made by numpy always satisfy `NDArray.WF`. -/
structure NDArray (α : Type _) where
  shape : List Nat
  data : List α
  deriving DecidableEq, Repr

/-- The number of stored elements is the product of the shape (`np.prod(()) = 1`). -/
def NDArray.WF {α : Type _} (a : NDArray α) : Prop := a.data.length = a.shape.prod

instance {α : Type _} (a : NDArray α) : Decidable a.WF := by unfold NDArray.WF; infer_instance

/-- `idx` is a valid multi-index for `shape`. -/
def ValidIdx : List Nat → List Nat → Prop
  | [], [] => True
  | n :: ns, i :: is => i < n ∧ ValidIdx ns is
  | _, _ => False

instance decValidIdx : (s i : List Nat) → Decidable (ValidIdx s i)
  | [], [] => isTrue trivial
  | [], _ :: _ => isFalse id
  | _ :: _, [] => isFalse id
  | n :: ns, i :: is => by
      unfold ValidIdx
      have := decValidIdx ns is
      infer_instance

/-- Row-major position of a multi-index: the mixed-radix number with digits `idx`. -/
def ravelIndex : List Nat → List Nat → Nat
  | _ :: ns, i :: is => i * ns.prod + ravelIndex ns is
  | _, _ => 0

/-- `np.unravel_index`: the multi-index at row-major position `k`. -/
def unravelIndex : List Nat → Nat → List Nat
  | [], _ => []
  | _ :: ns, k => k / ns.prod :: unravelIndex ns (k % ns.prod)

/-- `a[idx]` (`none` stands for `IndexError`). -/
def NDArray.at? {α : Type _} (a : NDArray α) (idx : List Nat) : Option α :=
  if ValidIdx a.shape idx then a.data[ravelIndex a.shape idx]? else none

/-- `l.reshape(shape)` for a flat array `l`: raises `ValueError` when the sizes differ. -/
def reshape {α : Type _} (l : List α) (shape : List Nat) : Res (NDArray α) :=
  if l.length = shape.prod then .ok ⟨shape, l⟩ else .error .valueError

/-- `np.concatenate(list_of_flat_arrays)`: numpy refuses an empty list. -/
def npConcatenate {α : Type _} : List (List α) → Res (List α)
  | [] => .error .valueError
  | l => .ok l.flatten

/-- `itertools.product(*ls)`: the rightmost list varies fastest. -/
def product {α : Type _} : List (List α) → List (List α)
  | [] => [[]]
  | l :: ls => l.flatMap fun a => (product ls).map (a :: ·)

/-! ## Row-major arithmetic -/

theorem ravelIndex_lt : ∀ (s i : List Nat), ValidIdx s i → ravelIndex s i < s.prod
  | [], [], _ => by simp [ravelIndex]
  | [], _ :: _, h => h.elim
  | _ :: _, [], h => h.elim
  | n :: ns, i :: is, h => by
      have h2 := ravelIndex_lt ns is h.2
      simp only [ravelIndex, List.prod_cons]
      calc i * ns.prod + ravelIndex ns is < i * ns.prod + ns.prod := by omega
        _ = (i + 1) * ns.prod := by rw [Nat.add_mul, Nat.one_mul]
        _ ≤ n * ns.prod := Nat.mul_le_mul_right _ h.1

theorem unravel_ravel : ∀ (s i : List Nat), ValidIdx s i → unravelIndex s (ravelIndex s i) = i
  | [], [], _ => rfl
  | [], _ :: _, h => h.elim
  | _ :: _, [], h => h.elim
  | n :: ns, i :: is, h => by
      have hlt := ravelIndex_lt ns is h.2
      have hpos : 0 < ns.prod := by omega
      simp only [ravelIndex, unravelIndex]
      rw [Nat.mul_comm, Nat.mul_add_div hpos, Nat.mul_add_mod, Nat.div_eq_of_lt hlt,
        Nat.mod_eq_of_lt hlt, unravel_ravel ns is h.2, Nat.add_zero]

theorem unravel_valid : ∀ (s : List Nat) (k : Nat), k < s.prod → ValidIdx s (unravelIndex s k)
  | [], _, _ => trivial
  | n :: ns, k, h => by
      rw [List.prod_cons] at h
      have hpos : 0 < ns.prod := by
        rcases Nat.eq_zero_or_pos ns.prod with h0 | h0
        · rw [h0] at h; omega
        · exact h0
      refine ⟨?_, unravel_valid ns _ (Nat.mod_lt _ hpos)⟩
      exact (Nat.div_lt_iff_lt_mul hpos).2 h

theorem ravel_unravel : ∀ (s : List Nat) (k : Nat), k < s.prod → ravelIndex s (unravelIndex s k) = k
  | [], k, h => by simp [ravelIndex] at *; omega
  | n :: ns, k, h => by
      rw [List.prod_cons] at h
      have hpos : 0 < ns.prod := by
        rcases Nat.eq_zero_or_pos ns.prod with h0 | h0
        · rw [h0] at h; omega
        · exact h0
      simp only [unravelIndex, ravelIndex]
      rw [ravel_unravel ns _ (Nat.mod_lt _ hpos), Nat.mul_comm]
      exact Nat.div_add_mod k ns.prod

theorem ravelIndex_inj (s i j : List Nat) (hi : ValidIdx s i) (hj : ValidIdx s j)
    (h : ravelIndex s i = ravelIndex s j) : i = j := by
  rw [← unravel_ravel s i hi, ← unravel_ravel s j hj, h]

theorem validIdx_length : ∀ (s i : List Nat), ValidIdx s i → i.length = s.length
  | [], [], _ => rfl
  | [], _ :: _, h => h.elim
  | _ :: _, [], h => h.elim
  | _ :: ns, _ :: is, h => by simp [validIdx_length ns is h.2]

/-! ## `itertools.product` -/

theorem length_product {α : Type _} (ls : List (List α)) :
    (product ls).length = (ls.map List.length).prod := by
  induction ls with
  | nil => rfl
  | cons l ls ih =>
    simp only [product, List.length_flatMap, List.length_map, List.map_cons, List.prod_cons, ih]
    induction l with
    | nil => simp
    | cons a l ihl => simp [ihl, Nat.add_mul, Nat.add_comm]

/-- Looking up position `i * m + j` in a `flatMap` whose blocks all have length `m`. -/
theorem getElem?_flatMap_block {α β : Type _} (l : List α) (f : α → List β) (m : Nat)
    (hm : ∀ a ∈ l, (f a).length = m) (i j : Nat) (hj : j < m) :
    (l.flatMap f)[i * m + j]? = (l[i]?).bind (fun a => (f a)[j]?) := by
  induction l generalizing i with
  | nil => simp
  | cons a l ih =>
    rw [List.flatMap_cons]
    have ha : (f a).length = m := hm a (by simp)
    cases i with
    | zero =>
      rw [Nat.zero_mul, Nat.zero_add, List.getElem?_append_left (by omega)]
      simp
    | succ i =>
      rw [List.getElem?_append_right (by rw [ha, Nat.add_mul]; omega)]
      have : (i + 1) * m + j - (f a).length = i * m + j := by rw [ha, Nat.add_mul]; omega
      rw [this, ih (fun b hb => hm b (by simp [hb])), List.getElem?_cons_succ]

/-- Component-wise choice from a list of lists: `[ls[0][i0], ls[1][i1], …]`. -/
def pick {α : Type _} : List (List α) → List Nat → Option (List α)
  | [], [] => some []
  | l :: ls, i :: is => (l[i]?).bind fun a => (pick ls is).map (a :: ·)
  | _, _ => none

/-- `product` enumerates the choices in row-major order. -/
theorem product_ravel {α : Type _} : ∀ (ls : List (List α)) (idx : List Nat),
    ValidIdx (ls.map List.length) idx →
    (product ls)[ravelIndex (ls.map List.length) idx]? = pick ls idx
  | [], [], _ => rfl
  | [], _ :: _, h => h.elim
  | _ :: _, [], h => h.elim
  | l :: ls, i :: is, h => by
      have h2 := product_ravel ls is h.2
      have hlt := ravelIndex_lt _ is h.2
      simp only [List.map_cons, ravelIndex, product, pick]
      rw [getElem?_flatMap_block l _ _ (fun a _ => by rw [List.length_map, length_product]) i _ hlt]
      congr 1
      funext a
      rw [List.getElem?_map, h2]

theorem pick_isSome {α : Type _} : ∀ (ls : List (List α)) (idx : List Nat),
    ValidIdx (ls.map List.length) idx → (pick ls idx).isSome
  | [], [], _ => rfl
  | [], _ :: _, h => h.elim
  | _ :: _, [], h => h.elim
  | l :: ls, i :: is, h => by
      have h2 := pick_isSome ls is h.2
      have h1 : i < l.length := h.1
      simp [pick, List.getElem?_eq_getElem h1, h2]

theorem mem_product_iff {α : Type _} : ∀ (ls : List (List α)) (x : List α),
    x ∈ product ls ↔ x.length = ls.length ∧ ∀ p ∈ x.zip ls, p.1 ∈ p.2
  | [], x => by
      cases x <;> simp [product]
  | l :: ls, [] => by simp [product]
  | l :: ls, a :: x => by
      simp only [product, List.mem_flatMap, List.mem_map, List.cons.injEq, List.length_cons,
        List.zip_cons_cons, List.forall_mem_cons, Nat.add_right_cancel_iff]
      constructor
      · rintro ⟨b, hb, y, hy, rfl, rfl⟩
        have := (mem_product_iff ls y).1 hy
        exact ⟨this.1, hb, this.2⟩
      · rintro ⟨hl, ha, hx⟩
        exact ⟨a, ha, x, (mem_product_iff ls x).2 ⟨hl, hx⟩, rfl, rfl⟩

theorem nodup_product {α : Type _} : ∀ (ls : List (List α)), (∀ l ∈ ls, l.Nodup) →
    (product ls).Nodup
  | [], _ => by simp [product]
  | l :: ls, h => by
      have ih := nodup_product ls (fun l hl => h l (by simp [hl]))
      have hl : l.Nodup := h l (by simp)
      simp only [product]
      rw [List.nodup_iff_pairwise_ne] at *
      rw [List.pairwise_flatMap]
      refine ⟨fun a _ => ?_, ?_⟩
      · rw [List.pairwise_map]
        exact ih.imp (fun hne heq => hne (by simpa using heq))
      · refine hl.imp ?_
        intro a b hab x hx y hy
        simp only [List.mem_map] at hx hy
        obtain ⟨x', _, rfl⟩ := hx
        obtain ⟨y', _, rfl⟩ := hy
        intro heq
        exact hab (by simpa using (List.cons.inj heq).1)

theorem pick_range : ∀ (s idx : List Nat), ValidIdx s idx →
    pick (s.map List.range) idx = some idx
  | [], [], _ => rfl
  | [], _ :: _, h => h.elim
  | _ :: _, [], h => h.elim
  | n :: ns, i :: is, h => by
      have h1 : i < n := h.1
      simp [pick, pick_range ns is h.2, h1]

/-- The row-major enumeration of all multi-indices is the lexicographic `product` of ranges. -/
theorem product_range_get (s : List Nat) (k : Nat) (h : k < s.prod) :
    (product (s.map List.range))[k]? = some (unravelIndex s k) := by
  have hs : (s.map List.range).map List.length = s := by
    simp [Function.comp_def]
  have hv := unravel_valid s k h
  have := product_ravel (s.map List.range) (unravelIndex s k) (by rw [hs]; exact hv)
  rw [hs, ravel_unravel s k h, pick_range s _ hv] at this
  exact this

theorem NDArray.at?_unravel {α : Type _} (a : NDArray α) (k : Nat) (h : k < a.shape.prod) :
    a.at? (unravelIndex a.shape k) = a.data[k]? := by
  simp [NDArray.at?, unravel_valid _ _ h, ravel_unravel _ _ h]

end Verif
