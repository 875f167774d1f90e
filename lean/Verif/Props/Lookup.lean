import Verif.Model.Lookup
import Verif.Props.Registry

/-!
# C29: looking up everything at once
-/

namespace Verif

variable {E : Type}

theorem mapM_ok_map {α β : Type} (f : α → Res β) (g : α → β) (xs : List α) (h : ∀ x ∈ xs, f x = .ok (g x)) :
    xs.mapM f = .ok (xs.map g) := by
  induction xs with
  | nil => rfl
  | cons x xs ih => rw [List.mapM_cons, h x (by simp), ih fun y hy => h y (by simp [hy])]; rfl

theorem mapM_same_error {α β : Type} (f : α → Res β) (e : PyErr) (xs : List α)
    (hall : ∀ x ∈ xs, (∃ y, f x = .ok y) ∨ f x = .error e) (hex : ∃ x ∈ xs, f x = .error e) :
    xs.mapM f = .error e := by
  induction xs with
  | nil => obtain ⟨x, hx, -⟩ := hex; simp at hx
  | cons x xs ih =>
    rw [List.mapM_cons]
    rcases hall x (by simp) with ⟨y, hy⟩ | he
    · obtain ⟨z, hz, hze⟩ := hex
      rcases List.mem_cons.1 hz with rfl | hz
      · rw [hy] at hze; cases hze
      · rw [hy, ih (fun w hw => hall w (by simp [hw])) ⟨z, hz, hze⟩]; rfl
    · rw [he]; rfl

/-- **C29 is false** of `get_symbol()`: it raises `ValueError` for every model with a parameter, and gives nothing
for a model without parameters, whatever its variables are. -/
theorem C29_get_symbol_all (m : CGE E) :
    getSymbolAll m = if m.unpackedParameters = [] then .ok (.list []) else .error .valueError := by
  unfold getSymbolAll
  split
  · rename_i h; rw [h]; rfl
  · rename_i h
    rw [mapM_same_error _ .valueError]
    · rfl
    · intro x hx
      rcases List.mem_append.1 hx with hx | hx
      · obtain ⟨n, hn, rfl⟩ := List.mem_map.1 hx
        obtain ⟨o, ho⟩ := (mem_dkeys_iff _ _).1 hn
        left
        exact ⟨.parameter o, by simp only [getSymbolOne, ho]⟩
      · obtain ⟨o, -, rfl⟩ := List.mem_map.1 hx
        exact .inr rfl
    · obtain ⟨p, ps, hps⟩ := List.exists_cons_of_ne_nil h
      exact ⟨.inr p.2, by simp [hps, dvalues], rfl⟩

/-- **C29 (shape).**  `get_shape` gives the number of labels of every dim of the object that `get` finds, in the order of
the object's dims; it raises `KeyError`, when it is read, if a dim has no labels, and `ValueError` for an unknown
name. -/
theorem C29_get_shape (m : CGE E) (name : Str) :
    (∀ o, (getOne m.reg name = .ok (.variable o) ∨ getOne m.reg name = .ok (.parameter o)) →
      ((∀ d ∈ o.dims, ∃ labels, dget m.coords d = some labels) →
        ∃ shape, getShape m name = .ok shape ∧ shape.length = o.dims.length ∧
          ∀ (i : Nat) d labels, o.dims[i]? = some d → dget m.coords d = some labels →
            shape[i]? = some labels.length) ∧
      ((∃ d ∈ o.dims, dget m.coords d = none) → getShape m name = .error .keyError)) ∧
    (name ∉ dkeys m.reg.variables → name ∉ dkeys m.reg.parameters → getShape m name = .error .valueError) := by
  constructor
  · intro o ho
    have hs : getShape m name = o.dims.mapM fun d => match dget m.coords d with
      | some labels => .ok labels.length
      | none => .error .keyError := by
      unfold getShape
      rcases ho with ho | ho <;> (rw [ho]; rfl)
    rw [hs]
    constructor
    · intro h
      refine ⟨o.dims.map fun d => ((dget m.coords d).getD []).length, ?_, by simp, ?_⟩
      · apply mapM_ok_map
        intro d hd
        obtain ⟨l, hl⟩ := h d hd
        rw [hl]; rfl
      · intro i d labels hd hl
        rw [List.getElem?_map, hd, Option.map_some, hl]; rfl
    · rintro ⟨d, hd, hnone⟩
      apply mapM_same_error
      · intro x _
        cases h : dget m.coords x with
        | none => right; rfl
        | some l => left; exact ⟨_, rfl⟩
      · exact ⟨d, hd, by rw [hnone]⟩
  · intro h1 h2
    unfold getShape getOne
    rw [(dget_eq_none_iff _ _).2 h1]
    dsimp only
    rw [(dget_eq_none_iff _ _).2 h2]

/-- A model with one variable over two sectors and one parameter: `get_symbol()` raises, `get_shape` works. -/
example : ∃ m : CGE Unit,
    construct id (fun e _ _ => e) (some fun _ _ _ _ => .ok ((), ["i".toList]))
        [("i".toList, ["a".toList, "b".toList])]
        (some (.many [.variable { name := "x", dims := ["i".toList] }])) (some (.many [.parameter { name := "p" }]))
        (some (.many [.equation ⟨"eq <dim:i>", "x = p"⟩])) none = .ok m ∧
      getSymbolAll m = .error .valueError ∧ getShape m "x".toList = .ok [2] ∧
      getAll m.reg = .ok (.list [.parameter { name := "p" }, .variable { name := "x", dims := ["i".toList] }]) :=
  ⟨_, rfl, rfl, rfl, rfl⟩

end Verif
