import Verif.Model.UnpackStrings
import Verif.Props.Expand

/-!
# C89: the names that `unpack_string_inputs` makes
-/

namespace Verif

theorem joinLabels_strs (labels : List Str) (names : List Str) :
    (names.map StrArg.str).mapM (joinLabels labels) = .ok (names.map fun n => joinStr "_".toList (n :: labels)) := by
  induction names with
  | nil => rfl
  | cons n ns ih => rw [List.map_cons, List.mapM_cons, ih]; rfl

theorem unpackLoop_strs (names : List Str) (combos : List (List Str)) (f : Str → List Str) :
    unpackLoop (names.map StrArg.str) combos (names.map f) =
      .ok (names.map fun n => f n ++ combos.map fun labels => joinStr "_".toList (n :: labels)) := by
  induction combos generalizing f with
  | nil => simp [unpackLoop]
  | cons labels rest ih =>
    rw [unpackLoop, joinLabels_strs]
    dsimp only
    have : (names.map f).zipWith (fun out name => out ++ [name])
        (names.map fun n => joinStr "_".toList (n :: labels)) =
        names.map fun n => f n ++ [joinStr "_".toList (n :: labels)] := by
      rw [List.zipWith_map_left, List.zipWith_map_right, List.zipWith_self]
    rw [this, ih]
    simp

/-- **C89 (names).**  For inputs that are strings, `unpack_string_inputs` gives for every input the names, in order,
that a model gives to the scalars of an object with this name and these dims. -/
theorem C89_names (setList : List Str → List Str) (coords : Coords) (names dims : List Str) (hne : names ≠ [])
    (hnd : dims.Nodup) (hk : ∀ d ∈ dims, d ∈ dkeys coords) :
    ∃ outs, unpackStringInputs (names.map .str) (some (.list dims)) (some coords) = .ok outs ∧
      outs.length = names.length ∧
      ∀ (i : Nat) n, names[i]? = some n →
        ∃ us, unpackObjects setList coords [{ name := n, dims := dims }] = .ok us ∧
          outs[i]? = some (us.map makeIndexedName) := by
  have hunwrap : (names.map StrArg.str).map StrArg.unwrap = names.map StrArg.str := by
    rw [List.map_map]; rfl
  have hstr : ((names.map StrArg.str).all StrArg.isList) = false := by
    obtain ⟨n, ns, rfl⟩ := List.exists_cons_of_ne_nil hne
    rfl
  have hkeys : (dims.all fun key => (dkeys coords).contains key) = true := by
    rw [List.all_eq_true]
    intro d hd
    simpa using hk d hd
  have hrun : unpackStringInputs (names.map .str) (some (.list dims)) (some coords) =
      .ok (names.map fun n => (product (dims.map (labelsOf coords))).map fun labels =>
        joinStr "_".toList (n :: labels)) := by
    unfold unpackStringInputs
    dsimp only
    rw [hunwrap, hstr, if_neg (by decide)]
    rw [show (StrArg.list dims).iter = dims from rfl]
    rw [hkeys, if_neg (by decide), mapM_labels _ _ hk]
    dsimp only
    rw [List.map_map]
    have := unpackLoop_strs names (product (dims.map (labelsOf coords))) fun _ => []
    simpa [Function.comp_def] using this
  refine ⟨_, hrun, by simp, ?_⟩
  intro i n hi
  refine ⟨(product (dims.map (labelsOf coords))).map fun ls =>
      { name := n, dims := dims, dimVals := dupdate [] (dims.zip ls) }, ?_, ?_⟩
  · unfold unpackObjects
    rw [List.mapM_cons]
    have h1 : expandObjByIndices setList { name := n, dims := dims } coords none .ignore =
        expandObjByIndices setList { name := n, dims := dims } coords (some dims) .ignore := rfl
    rw [h1, expandObj_eq setList _ coords dims .ignore (fun d hd => hd) hk]
    simp [bind, Except.bind, pure, Except.pure, Except.map]
  · rw [List.getElem?_map, hi, Option.map_some, List.map_map]
    congr 1
    apply List.map_congr_left
    intro ls hls
    have hlen : ls.length = dims.length := by
      have := length_of_mem_product hls
      simpa using this
    simp only [Function.comp_apply, makeIndexedName]
    congr 2
    rw [dupdate_of_nodup [] (dims.zip ls) (by
      simp only [dkeys, List.map_nil, List.nil_append]
      rw [List.map_fst_zip (by omega)]
      exact hnd)]
    simp only [List.nil_append, dvalues]
    rw [List.map_snd_zip (by omega)]

/-- **C89 (lists).**  Lists of names, none of them a list of one, come back unchanged, whatever the dims are. -/
theorem C89_lists_partial (ls : List (List Str)) (h1 : ∀ l ∈ ls, l.length ≠ 1) (dims : Option StrArg)
    (coords : Option Coords) : unpackStringInputs (ls.map .list) dims coords = .ok ls := by
  have hunwrap : (ls.map StrArg.list).map StrArg.unwrap = ls.map StrArg.list := by
    rw [List.map_map]
    apply List.map_congr_left
    intro l hl
    match l, h1 l hl with
    | [], _ => rfl
    | [_], h => exact absurd rfl h
    | _ :: _ :: _, _ => rfl
  unfold unpackStringInputs
  dsimp only
  rw [hunwrap, if_pos]
  · rw [List.map_map]; simp [Function.comp_def, StrArg.atLeastList]
  · rw [List.all_eq_true]
    intro x hx
    obtain ⟨l, -, rfl⟩ := List.mem_map.1 hx
    rfl

/-- Without dims or without coords every input comes back as a list. -/
theorem C89_without_dims (inputs : List StrArg) (dims : Option StrArg) (coords : Option Coords)
    (h : dims = none ∨ coords = none) :
    unpackStringInputs inputs dims coords = .ok (inputs.map fun x => x.unwrap.atLeastList) := by
  unfold unpackStringInputs
  dsimp only
  rw [List.map_map]
  split
  · rfl
  · rcases h with rfl | rfl
    · cases coords <;> rfl
    · rfl

/-- **C89 is false** of a list of one name: with dims and coords it is not returned unchanged but expanded. -/
theorem C89_singleton_counterexample :
    unpackStringInputs [.list ["x".toList]] (some (.list ["i".toList])) (some [("i".toList, ["a".toList, "b".toList])]) =
      .ok [["x_a".toList, "x_b".toList]] := rfl

/-- **C89 is false** of a string beside a list: the call raises `TypeError`. -/
theorem C89_mixed_counterexample (a b c : Str) :
    unpackStringInputs [.str a, .list [b, c]] (some (.list ["i".toList]))
      (some [("i".toList, ["a".toList, "b".toList])]) = .error .typeError := rfl

/-- **C89 is false** of a dim given as a string of several letters, which the docstring allows: its letters are taken
for the dims, and the call raises `KeyError`. -/
theorem C89_dims_string_counterexample (a : Str) :
    unpackStringInputs [.str a] (some (.str "sector".toList))
      (some [("sector".toList, ["a".toList, "b".toList])]) = .error .keyError := rfl

/-- **C89 (unknown dims)** are refused. -/
theorem C89_unknown_dims (names dims : List Str) (coords : Coords) (hne : names ≠ [])
    (h : ∃ d ∈ dims, d ∉ dkeys coords) :
    unpackStringInputs (names.map .str) (some (.list dims)) (some coords) = .error .keyError := by
  have hunwrap : (names.map StrArg.str).map StrArg.unwrap = names.map StrArg.str := by
    rw [List.map_map]; rfl
  have hstr : ((names.map StrArg.str).all StrArg.isList) = false := by
    obtain ⟨n, ns, rfl⟩ := List.exists_cons_of_ne_nil hne
    rfl
  unfold unpackStringInputs
  dsimp only
  rw [hunwrap, hstr, if_neg (by decide)]
  rw [show (StrArg.list dims).iter = dims from rfl]
  rw [if_pos]
  rw [Bool.not_eq_true', ← Bool.not_eq_true, List.all_eq_true]
  intro hall
  obtain ⟨d, hd, hn⟩ := h
  exact hn (by simpa using hall d hd)

/-- Two names over two dims. -/
example : unpackStringInputs [.str "x".toList, .str "p".toList] (some (.list ["i".toList, "j".toList]))
    (some [("i".toList, ["a".toList, "b".toList]), ("j".toList, ["u".toList])]) =
    .ok [["x_a_u".toList, "x_b_u".toList], ["p_a_u".toList, "p_b_u".toList]] := rfl

end Verif
