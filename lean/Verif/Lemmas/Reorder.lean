import Verif.Props.SimulateConverges

/-!
# Declaring the objects of a model in another order
-/

namespace Verif

open SymExpr

/-- The elements of `v` at the given positions. -/
def pickAt {α : Type _} (z : α) (idx : List Nat) (v : List α) : List α := idx.map fun k => v.getD k z

theorem length_pickAt {α : Type _} (z : α) (idx : List Nat) (v : List α) :
    (pickAt z idx v).length = idx.length := by simp [pickAt]

theorem getElem?_pickAt {α : Type _} (z : α) (idx : List Nat) (v : List α) (i k : Nat)
    (h : idx[i]? = some k) : (pickAt z idx v)[i]? = some (v.getD k z) := by
  simp [pickAt, h]

theorem pickAt_zipWith {α : Type _} (z : α) (idx : List Nat) (f : α → α → α) (a b : List α)
    (ha : ∀ k ∈ idx, k < a.length) (hb : ∀ k ∈ idx, k < b.length) :
    pickAt z idx (List.zipWith f a b) = List.zipWith f (pickAt z idx a) (pickAt z idx b) := by
  unfold pickAt
  rw [List.zipWith_map, List.zipWith_self]
  apply List.map_congr_left
  intro k hk
  have h1 := ha k hk
  have h2 := hb k hk
  simp only [List.getD_eq_getElem?_getD, List.getElem?_zipWith, List.getElem?_eq_getElem h1,
    List.getElem?_eq_getElem h2, Option.getD_some]

/-- A list of blocks of known sizes, in another order: the positions do not depend on the contents. -/
theorem perm_blocks {β α : Type _} (size : β → Nat) (z : α) {l₁ l₂ : List β} (h : l₂.Perm l₁) :
    ∃ idx : List Nat, idx.Perm (List.range (l₁.map size).sum) ∧
      ∀ f : β → List α, (∀ b ∈ l₁, (f b).length = size b) →
        (l₂.map f).flatten = pickAt z idx (l₁.map f).flatten := by
  induction h with
  | nil => exact ⟨[], by simp, fun f _ => rfl⟩
  | @cons b l₂ l₁ hp ih =>
    obtain ⟨idx, h1, h2⟩ := ih
    refine ⟨List.range (size b) ++ idx.map (size b + ·), ?_, ?_⟩
    · rw [List.map_cons, List.sum_cons, List.range_add]
      exact (List.Perm.refl _).append (h1.map _)
    · intro f hf
      have hb := hf b (by simp)
      rw [List.map_cons, List.flatten_cons, List.map_cons, List.flatten_cons,
        h2 f fun c hc => hf c (by simp [hc])]
      unfold pickAt
      rw [List.map_append, List.map_map]
      congr 1
      · apply List.ext_getElem?
        intro i
        rw [List.getElem?_map]
        rcases Nat.lt_or_ge i (size b) with hi | hi
        · rw [List.getElem?_range hi, Option.map_some, List.getD_eq_getElem?_getD,
            List.getElem?_append_left (by omega), List.getElem?_eq_getElem (by omega)]
          rfl
        · rw [List.getElem?_eq_none (by omega), List.getElem?_eq_none (by simpa using hi)]
          rfl
      · apply List.map_congr_left
        intro k _
        simp only [Function.comp_apply]
        rw [List.getD_eq_getElem?_getD, List.getD_eq_getElem?_getD, ← hb,
          List.getElem?_append_right (by omega), Nat.add_sub_cancel_left]
  | swap a b l =>
    -- `b :: a :: l` from `a :: b :: l`
    refine ⟨(List.range (size b)).map (size a + ·) ++ List.range (size a) ++
      (List.range (l.map size).sum).map (size a + size b + ·), ?_, ?_⟩
    · rw [List.map_cons, List.map_cons, List.sum_cons, List.sum_cons, ← Nat.add_assoc,
        List.range_add (n := size a + size b), List.range_add (n := size a)]
      exact List.perm_append_comm.append (List.Perm.refl _)
    · intro f hf
      have ha := hf a (by simp)
      have hb := hf b (by simp)
      have hl : ((l.map f).flatten).length = (l.map size).sum := by
        rw [List.length_flatten, List.map_map]
        congr 1
        apply List.map_congr_left
        intro c hc
        exact hf c (by simp [hc])
      have whole : ∀ (w : List α) (k : Nat) (u v : List α), u.length = k →
          (List.range w.length).map (fun i => (u ++ (w ++ v)).getD (k + i) z) = w := by
        intro w k u v hu
        apply List.ext_getElem?
        intro i
        rw [List.getElem?_map]
        rcases Nat.lt_or_ge i w.length with hi | hi
        · rw [List.getElem?_range hi, Option.map_some, List.getD_eq_getElem?_getD,
            List.getElem?_append_right (by omega), ← hu, Nat.add_sub_cancel_left,
            List.getElem?_append_left hi, List.getElem?_eq_getElem hi]
          rfl
        · rw [List.getElem?_eq_none hi, List.getElem?_eq_none (by simpa using hi)]
          rfl
      simp only [List.map_cons, List.flatten_cons]
      unfold pickAt
      rw [List.map_append, List.map_append, List.map_map, List.map_map]
      have e1 := whole (f b) (size a) (f a) (l.map f).flatten ha
      have e2 := whole (f a) 0 [] (f b ++ (l.map f).flatten) rfl
      have e3 := whole (l.map f).flatten (size a + size b) (f a ++ f b) []
        (by rw [List.length_append, ha, hb])
      rw [hb] at e1
      rw [ha] at e2
      rw [hl] at e3
      simp only [Nat.zero_add, List.nil_append] at e2
      simp only [List.append_nil, List.append_assoc] at e3
      show f b ++ (f a ++ (l.map f).flatten) =
        (List.range (size b)).map (fun i => (f a ++ (f b ++ (l.map f).flatten)).getD (size a + i) z) ++
          (List.range (size a)).map (fun i => (f a ++ (f b ++ (l.map f).flatten)).getD i z) ++
          (List.range (l.map size).sum).map
            (fun i => (f a ++ (f b ++ (l.map f).flatten)).getD (size a + size b + i) z)
      rw [e1, e2, e3, List.append_assoc]
  | @trans l₃ l₂ l₁ h32 h21 ih32 ih21 =>
    obtain ⟨i32, p32, f32⟩ := ih32
    obtain ⟨i21, p21, f21⟩ := ih21
    have hsum : (l₂.map size).sum = (l₁.map size).sum := (h21.map size).sum_eq
    refine ⟨i32.map fun k => i21.getD k 0, ?_, ?_⟩
    · have hl : i21.length = (l₂.map size).sum := by rw [p21.length_eq, List.length_range, hsum]
      refine (p32.map fun k => i21.getD k 0).trans ?_
      have : (List.range (l₂.map size).sum).map (fun k => i21.getD k 0) = i21 := by
        apply List.ext_getElem?
        intro i
        rw [List.getElem?_map]
        rcases Nat.lt_or_ge i i21.length with hi | hi
        · rw [List.getElem?_range (by omega), Option.map_some, List.getD_eq_getElem?_getD,
            List.getElem?_eq_getElem hi]
          rfl
        · rw [List.getElem?_eq_none hi, List.getElem?_eq_none (by simp; omega)]
          rfl
      rw [this]
      exact p21
    · intro f hf
      rw [f32 f fun b hb => hf b (h21.mem_iff.1 hb), f21 f hf]
      unfold pickAt
      rw [List.map_map]
      apply List.map_congr_left
      intro k hk
      have hk' : k < i21.length := by
        rw [p21.length_eq, List.length_range, ← hsum]
        exact List.mem_range.1 (p32.mem_iff.1 hk)
      simp only [Function.comp_apply, List.getD_eq_getElem?_getD, List.getElem?_map,
        List.getElem?_eq_getElem hk', Option.map_some, Option.getD_some]

variable {K : Type _} [Field K]

theorem totalSize_perm {coords : Coords} {l₁ l₂ : List ModelObject} (h : l₂.Perm l₁) :
    totalSize coords l₂ = totalSize coords l₁ := (h.map _).sum_eq

/-- Positions in the flat vector of the model declared in one order, for the model declared in the other. -/
theorem perm_flat (coords : Coords) {l₁ l₂ : List ModelObject} (h : l₂.Perm l₁) :
    ∃ idx : List Nat, idx.Perm (List.range (totalSize coords l₁)) ∧
      (∀ (f : ModelObject → List K), (∀ o ∈ l₁, (f o).length = specSize coords o) →
        (l₂.map f).flatten = pickAt 0 idx (l₁.map f).flatten) ∧
      ∀ d : Dict Str (NDArray K), (∀ o ∈ l₁, DataFor coords d o) →
        flatOf d l₂ = pickAt 0 idx (flatOf d l₁) := by
  obtain ⟨idx, h1, h2⟩ := perm_blocks (α := K) (specSize coords) 0 h
  refine ⟨idx, h1, h2, fun d hd => h2 _ ?_⟩
  intro o ho
  obtain ⟨a, g1, g2, g3⟩ := hd o ho
  rw [g1]
  show a.data.length = _
  rw [g3, g2]
  rfl

/-- Named arrays with given flat values. -/
theorem exists_data (coords : Coords) (objs : List ModelObject) (hn : (objs.map ModelObject.name).Nodup)
    (v : List K) (hv : v.length = totalSize coords objs) :
    ∃ d : Dict Str (NDArray K), (∀ o ∈ objs, DataFor coords d o) ∧ flatOf d objs = v := by
  have hk : dkeys (flatPairs coords objs v) = objs.map ModelObject.name := by
    unfold dkeys; rw [map_fst_flatPairs]
  have hget : ∀ (m : Nat) o, objs[m]? = some o → dget (flatPairs coords objs v) o.name =
      some ⟨specShape coords o, (v.drop (offsetOf coords objs m)).take (specSize coords o)⟩ := by
    intro m o hm
    exact dget_of_mem_nodup _ (by rw [hk]; exact hn)
      (List.mem_of_getElem? (flatPairs_getElem? coords _ v m o hm))
  refine ⟨flatPairs coords objs v, ?_, ?_⟩
  · intro o ho
    obtain ⟨m, hm⟩ := List.getElem?_of_mem ho
    refine ⟨_, hget m o hm, rfl, ?_⟩
    have hml := (List.getElem?_eq_some_iff.1 hm).1
    have h1 : offsetOf coords objs m + specSize coords o ≤ totalSize coords objs := by
      have : totalSize coords objs = totalSize coords (objs.take m) + totalSize coords (objs.drop m) := by
        rw [← totalSize_append, List.take_append_drop]
      rw [this, List.drop_eq_getElem_cons hml, totalSize_cons, (List.getElem?_eq_some_iff.1 hm).2]
      unfold offsetOf
      omega
    show (List.take _ _).length = _
    rw [List.length_take, List.length_drop, hv]
    show min (specSize coords o) _ = specSize coords o
    omega
  · conv_rhs => rw [← flatten_map_slices coords objs v hv]
    unfold flatOf
    congr 1
    apply List.ext_getElem?
    intro m
    rw [List.getElem?_map, List.getElem?_mapIdx]
    cases hm : objs[m]? with
    | none => rfl
    | some o => simp only [Option.map_some, hget m o hm, Option.getD_some]

/-- Correctly shaped named arrays with the same flat values are the same. -/
theorem flatOf_inj (coords : Coords) (objs : List ModelObject) (d e : Dict Str (NDArray K))
    (hd : ∀ o ∈ objs, DataFor coords d o) (he : ∀ o ∈ objs, DataFor coords e o)
    (h : flatOf d objs = flatOf e objs) : ∀ o ∈ objs, dget d o.name = dget e o.name := by
  induction objs with
  | nil => intro o ho; cases ho
  | cons a objs ih =>
    obtain ⟨b, g1, g2, g3⟩ := hd a (by simp)
    obtain ⟨c, k1, k2, k3⟩ := he a (by simp)
    have hfd : flatOf d (a :: objs) = b.data ++ flatOf d objs := by
      simp only [flatOf, List.map_cons, List.flatten_cons, g1, Option.map_some, Option.getD_some]
    have hfe : flatOf e (a :: objs) = c.data ++ flatOf e objs := by
      simp only [flatOf, List.map_cons, List.flatten_cons, k1, Option.map_some, Option.getD_some]
    rw [hfd, hfe] at h
    have hl : b.data.length = c.data.length := by rw [g3, k3, g2, k2]
    obtain ⟨h1, h2⟩ := List.append_inj h hl
    intro o ho
    rcases List.mem_cons.1 ho with rfl | ho
    · rw [g1, k1]
      congr 1
      cases b; cases c
      simp only at g2 k2 h1
      rw [g2, k2, h1]
    · exact ih (fun o ho => hd o (by simp [ho])) (fun o ho => he o (by simp [ho])) h2 o ho

/-! ### Conjugate steps -/

/-- If the second solver, at the reordered states, returns the reordered solutions, then the Euler rows are
the reordered rows. -/
theorem eulerRows_pick (dx₁ dx₂ : StepSolve K) (nx np : Nat) (hdx : LenOK dx₁ nx np) (ix it : List Nat)
    (hix : ∀ k ∈ ix, k < nx) (hit : ∀ k ∈ it, k < np) (h : List K) (hh : h.length = np)
    (P : List K → List K → Prop)
    (hop : ∀ x t d, x.length = nx → t.length = np → P x t → dx₁ x t h = .ok d →
      dx₂ (pickAt 0 ix x) (pickAt 0 it t) (pickAt 0 it h) = .ok (pickAt 0 ix d))
    (k : Nat) (x t : List K) (hx : x.length = nx) (ht : t.length = np) (R : List (List K × List K))
    (hR : eulerRows dx₁ h k x t = .ok R)
    (hP : ∀ (j : Nat) s, j < k → ((x, t) :: R)[j]? = some s → P s.1 s.2) :
    eulerRows dx₂ (pickAt 0 it h) k (pickAt 0 ix x) (pickAt 0 it t) =
      .ok (R.map fun r => (pickAt 0 ix r.1, pickAt 0 it r.2)) := by
  induction k generalizing x t R with
  | zero =>
    simp only [eulerRows, Except.ok.injEq] at hR
    subst hR
    rfl
  | succ k ih =>
    rw [eulerRows] at hR
    cases hd : dx₁ x t h with
    | error e => rw [hd] at hR; cases hR
    | ok d =>
      rw [hd] at hR
      dsimp only at hR
      have ld := hdx _ _ _ _ hx ht hh hd
      cases hr : eulerRows dx₁ h k (List.zipWith (· + ·) x d) (List.zipWith (· + ·) t h) with
      | error e => rw [hr] at hR; cases hR
      | ok r =>
        rw [hr] at hR
        injection hR with hR
        subst hR
        rw [eulerRows, hop x t d hx ht (hP 0 (x, t) (by omega) rfl) hd]
        dsimp only
        rw [← pickAt_zipWith 0 ix _ x d (fun k hk => by rw [hx]; exact hix k hk)
            (fun k hk => by rw [ld]; exact hix k hk),
          ← pickAt_zipWith 0 it _ t h (fun k hk => by rw [ht]; exact hit k hk)
            (fun k hk => by rw [hh]; exact hit k hk),
          ih _ _ (by rw [List.length_zipWith, hx, ld, min_self])
            (by rw [List.length_zipWith, ht, hh, min_self]) r hr ?_]
        · rfl
        · intro j s hj hs
          exact hP (j + 1) s (by omega) (by rw [List.getElem?_cons_succ]; exact hs)

end Verif
