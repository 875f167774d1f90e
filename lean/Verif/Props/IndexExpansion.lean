import Verif.Model.IndexExpansion
import Verif.Props.Expand
import Verif.Props.Names

/-!
# C93: writing out indexed symbols
-/

namespace Verif

/-! ## Specification -/

/-- Put values in for several index symbols at once. -/
def IRef.assign (r : IRef) (values : Dict Str SIdx) : IRef :=
  { r with args := r.args.map fun
      | .idx i => (dget values i).getD (.idx i)
      | a => a }

/-- The indices of `table` that occur in `r`, with their values. -/
def IRef.occurring (r : IRef) (table : List (Str × List SIdx)) : List (Str × List SIdx) :=
  table.filter fun p => decide (SIdx.idx p.1 ∈ r.args)

/-- All instances of `r`: one for each combination of values of the indices that occur in it, the last
index varying fastest. -/
def IRef.instances (r : IRef) (table : List (Str × List SIdx)) : List IRef :=
  (product ((r.occurring table).map Prod.snd)).map fun vs =>
    r.assign (((r.occurring table).map Prod.fst).zip vs)

/-- A label or a number, not an index symbol. -/
def SIdx.closed : SIdx → Bool
  | .idx _ => false
  | _ => true

/-! ## One index after the other -/

/-- The instances, one index after the other. -/
def stepwise : IRef → List (Str × List SIdx) → List IRef
  | r, [] => [r]
  | r, p :: t => if r.has p.1 then p.2.flatMap fun v => stepwise (r.subs p.1 v) t else stepwise r t

theorem assign_nil (r : IRef) : r.assign [] = r := by
  obtain ⟨b, as⟩ := r
  simp only [IRef.assign, IRef.mk.injEq, true_and]
  conv_rhs => rw [← List.map_id as]
  apply List.map_congr_left
  intro a _
  cases a <;> rfl

theorem subs_assign (r : IRef) (i : Str) (v : SIdx) (hv : v.closed = true) (t : Dict Str SIdx) :
    (r.subs i v).assign t = r.assign ((i, v) :: t) := by
  simp only [IRef.assign, IRef.subs, IRef.mk.injEq, true_and, List.map_map]
  apply List.map_congr_left
  intro a _
  simp only [Function.comp]
  cases a with
  | idx j =>
    by_cases h : j = i
    · subst h
      rw [if_pos rfl]
      cases v <;> simp_all [SIdx.closed, dget_cons]
    · rw [if_neg (by simpa using h)]
      simp [dget_cons, Ne.symm h]
  | num n => simp
  | lab l => simp

theorem mem_subs_args (r : IRef) (i j : Str) (v : SIdx) (hv : v.closed = true) (h : j ≠ i) :
    SIdx.idx j ∈ (r.subs i v).args ↔ SIdx.idx j ∈ r.args := by
  simp only [IRef.subs, List.mem_map]
  constructor
  · rintro ⟨a, ha, he⟩
    split at he
    · subst he; simp [SIdx.closed] at hv
    · exact he ▸ ha
  · intro hm
    exact ⟨_, hm, by rw [if_neg (by simpa using h)]⟩

theorem stepwise_eq (r : IRef) (table : List (Str × List SIdx)) (hn : (table.map Prod.fst).Nodup)
    (hc : ∀ p ∈ table, ∀ v ∈ p.2, v.closed = true) : stepwise r table = r.instances table := by
  induction table generalizing r with
  | nil => simp [stepwise, IRef.instances, IRef.occurring, product, assign_nil]
  | cons p t ih =>
    rw [List.map_cons, List.nodup_cons] at hn
    have ih' := fun r => ih r hn.2 fun q hq => hc q (by simp [hq])
    by_cases h : SIdx.idx p.1 ∈ r.args
    · have hocc : r.occurring (p :: t) = p :: r.occurring t := by
        simp [IRef.occurring, h]
      rw [stepwise, if_pos (by simpa [IRef.has] using h)]
      unfold IRef.instances
      rw [hocc]
      simp only [List.map_cons, product, List.map_flatMap]
      apply List.flatMap_congr
      intro v hv
      have hvc : v.closed = true := hc p (by simp) v hv
      have ho : (r.subs p.1 v).occurring t = r.occurring t := by
        unfold IRef.occurring
        apply List.filter_congr
        intro q hq
        have hne : q.1 ≠ p.1 := fun he => hn.1 (he ▸ List.mem_map_of_mem hq)
        simp only [mem_subs_args r p.1 q.1 v hvc hne]
      rw [ih', IRef.instances, ho, List.map_map]
      apply List.map_congr_left
      intro vs _
      simp only [Function.comp, List.map_cons, List.zip_cons_cons, subs_assign r p.1 v hvc]
    · have hocc : r.occurring (p :: t) = r.occurring t := by
        simp [IRef.occurring, h]
      rw [stepwise, if_neg (by simpa [IRef.has] using h), ih']
      simp only [IRef.instances, hocc]

/-! ## The loop -/

/-- What the loop makes of one expression, before repeated results are left out. -/
def oneStep (i : Str) (vs : List SIdx) (r : IRef) : List IRef :=
  if r.has i then vs.map (r.subs i) else [r]

theorem stepwise_cons (r : IRef) (i : Str) (vs : List SIdx) (t : List (Str × List SIdx)) :
    stepwise r ((i, vs) :: t) = (oneStep i vs r).flatMap fun s => stepwise s t := by
  simp only [stepwise, oneStep]
  split
  · rw [List.flatMap_map]
  · simp

theorem foldl_appendNew_flatMap (f : IRef → List IRef) (l acc rest : List IRef)
    (h : ((acc ++ l ++ rest).flatMap f).Nodup) :
    (l.foldl appendNew acc ++ rest).flatMap f = (acc ++ l ++ rest).flatMap f := by
  induction l generalizing acc with
  | nil => simp
  | cons a l ih =>
    rw [List.foldl_cons]
    by_cases ha : a ∈ acc
    · have hfa : f a = [] := by
        rw [show acc ++ a :: l ++ rest = acc ++ (a :: (l ++ rest)) by simp, List.flatMap_append,
          List.flatMap_cons, List.nodup_append] at h
        rcases hf : f a with _ | ⟨x, xs⟩
        · rfl
        · exfalso
          refine h.2.2 x ?_ x ?_ rfl
          · exact List.mem_flatMap.2 ⟨a, ha, by simp [hf]⟩
          · simp [hf]
      have he : (acc ++ a :: l ++ rest).flatMap f = (acc ++ l ++ rest).flatMap f := by
        simp [List.flatMap_append, List.flatMap_cons, hfa]
      rw [he] at h ⊢
      rw [appendNew, if_pos ha]
      exact ih acc h
    · have he : acc ++ a :: l ++ rest = (acc ++ [a]) ++ l ++ rest := by simp
      rw [he] at h ⊢
      rw [appendNew, if_neg ha]
      exact ih (acc ++ [a]) h

theorem foldl_expandStep_flatMap (f : IRef → List IRef) (i : Str) (vs : List SIdx)
    (exprs acc : List IRef) (h : ((acc ++ exprs.flatMap (oneStep i vs)).flatMap f).Nodup) :
    (exprs.foldl (expandStep i vs) acc).flatMap f
      = (acc ++ exprs.flatMap (oneStep i vs)).flatMap f := by
  induction exprs generalizing acc with
  | nil => simp
  | cons r rs ih =>
    rw [List.foldl_cons]
    rw [List.flatMap_cons, ← List.append_assoc] at h ⊢
    have hs : (expandStep i vs acc r ++ rs.flatMap (oneStep i vs)).flatMap f
        = (acc ++ oneStep i vs r ++ rs.flatMap (oneStep i vs)).flatMap f := by
      unfold expandStep oneStep at *
      split
      · rename_i hh
        simp only [hh, if_true] at h
        exact foldl_appendNew_flatMap f _ _ _ h
      · rfl
    rw [ih _ (by rw [hs]; exact h), hs]

theorem mem_foldl_appendNew (l acc : List IRef) (x : IRef) :
    x ∈ l.foldl appendNew acc ↔ x ∈ acc ∨ x ∈ l := by
  induction l generalizing acc with
  | nil => simp
  | cons a l ih =>
    rw [List.foldl_cons, ih, appendNew]
    split
    · rename_i h
      constructor
      · rintro (h' | h')
        · exact .inl h'
        · exact .inr (by simp [h'])
      · rintro (h' | h')
        · exact .inl h'
        · rcases List.mem_cons.1 h' with rfl | h'
          · exact .inl h
          · exact .inr h'
    · simp [or_assoc]

theorem mem_foldl_expandStep (i : Str) (vs : List SIdx) (exprs acc : List IRef) (x : IRef) :
    x ∈ exprs.foldl (expandStep i vs) acc ↔ x ∈ acc ∨ ∃ r ∈ exprs, x ∈ oneStep i vs r := by
  induction exprs generalizing acc with
  | nil => simp
  | cons r rs ih =>
    rw [List.foldl_cons, ih]
    have : x ∈ expandStep i vs acc r ↔ x ∈ acc ∨ x ∈ oneStep i vs r := by
      unfold expandStep oneStep
      split
      · rw [mem_foldl_appendNew]
      · simp
    rw [this]
    simp [or_assoc]

/-! ## C93 -/

/-- **C93 (what is there).**  Writing expressions out over distinct indices, each with a list of labels
or numbers, gives exactly the instances of the expressions: nothing is missing and nothing else is
there. -/
theorem C93_members (exprs : List IRef) (table : List (Str × List SIdx))
    (hn : (table.map Prod.fst).Nodup) (hc : ∀ p ∈ table, ∀ v ∈ p.2, v.closed = true) :
    ∃ out, expandIndices exprs (table.map Prod.fst) (table.map Prod.snd) = .ok out ∧
      ∀ x, x ∈ out ↔ ∃ r ∈ exprs, x ∈ r.instances table := by
  suffices h : ∀ exprs, ∃ out, expandIndices exprs (table.map Prod.fst) (table.map Prod.snd) = .ok out ∧
      ∀ x, x ∈ out ↔ ∃ r ∈ exprs, x ∈ stepwise r table by
    obtain ⟨out, h1, h2⟩ := h exprs
    refine ⟨out, h1, fun x => ?_⟩
    simp only [h2, stepwise_eq _ table hn hc]
  clear hn hc
  induction table with
  | nil => exact fun exprs => ⟨exprs, rfl, by simp [stepwise]⟩
  | cons p t ih =>
    intro exprs
    obtain ⟨out, h1, h2⟩ := ih (exprs.foldl (expandStep p.1 p.2) [])
    refine ⟨out, h1, fun x => ?_⟩
    rw [h2]
    obtain ⟨i, vs⟩ := p
    simp only [mem_foldl_expandStep, stepwise_cons, List.mem_flatMap]
    constructor
    · rintro ⟨s, (h | ⟨r, hr, hs⟩), hx⟩
      · simp at h
      · exact ⟨r, hr, s, hs, hx⟩
    · rintro ⟨r, hr, s, hs, hx⟩
      exact ⟨s, .inr ⟨r, hr, hs⟩, hx⟩

/-- **C93 (order and number), the part that holds.**  When no two of the instances are equal, they come
in the order of the expressions, those of one expression in row-major order of the given indices, so
that there is one for each combination of values of the indices that occur in the expression.
Missing: the documented number of results when instances coincide, see the counterexamples. -/
theorem C93_row_major_partial (exprs : List IRef) (table : List (Str × List SIdx))
    (hn : (table.map Prod.fst).Nodup) (hc : ∀ p ∈ table, ∀ v ∈ p.2, v.closed = true)
    (hd : (exprs.flatMap fun r => r.instances table).Nodup) :
    ∃ out, expandIndices exprs (table.map Prod.fst) (table.map Prod.snd) = .ok out ∧
      out = exprs.flatMap (fun r => r.instances table) ∧
      out.length
        = (exprs.map fun r => ((r.occurring table).map fun p => p.2.length).prod).sum := by
  have h : ∀ exprs : List IRef, (exprs.flatMap fun r => stepwise r table).Nodup →
      expandIndices exprs (table.map Prod.fst) (table.map Prod.snd)
        = .ok (exprs.flatMap fun r => stepwise r table) := by
    clear hn hc hd
    induction table with
    | nil => intro exprs _; simp [expandIndices, stepwise]
    | cons p t ih =>
      intro exprs hd
      obtain ⟨i, vs⟩ := p
      have he : (exprs.flatMap fun r => stepwise r ((i, vs) :: t))
          = (exprs.flatMap (oneStep i vs)).flatMap fun s => stepwise s t := by
        rw [List.flatMap_assoc]
        simp only [stepwise_cons]
      have hf := foldl_expandStep_flatMap (fun s => stepwise s t) i vs exprs []
        (by rw [List.nil_append, ← he]; exact hd)
      rw [List.nil_append, ← he] at hf
      simp only [List.map_cons, expandIndices]
      rw [ih _ (by rw [hf]; exact hd), hf]
  have he : (exprs.flatMap fun r => stepwise r table)
      = exprs.flatMap fun r => r.instances table := by
    simp only [stepwise_eq _ table hn hc]
  refine ⟨_, h exprs (by rw [he]; exact hd), he, ?_⟩
  rw [he, List.length_flatMap]
  congr 1
  apply List.map_congr_left
  intro r _
  rw [IRef.instances, List.length_map, length_product, List.map_map]
  rfl

/-- A table of index values as a test might give it. -/
def exIndexTable : List (Str × List SIdx) :=
  [("i".toList, [.lab "a", .lab "b"]), ("j".toList, [.lab "u", .lab "v", .lab "w"])]

example :
    (exIndexTable.map Prod.fst).Nodup ∧ (∀ p ∈ exIndexTable, ∀ v ∈ p.2, v.closed = true) ∧
    (([⟨"x", [.idx "j", .idx "i"]⟩, ⟨"y", [.idx "i"]⟩, ⟨"z", []⟩] : List IRef).flatMap
      fun r => r.instances exIndexTable).Nodup ∧
    ([⟨"x", [.idx "j", .idx "i"]⟩, ⟨"y", [.idx "i"]⟩, ⟨"z", []⟩] : List IRef).flatMap
      (fun r => r.instances exIndexTable)
    = [⟨"x", [.lab "u", .lab "a"]⟩, ⟨"x", [.lab "v", .lab "a"]⟩, ⟨"x", [.lab "w", .lab "a"]⟩,
      ⟨"x", [.lab "u", .lab "b"]⟩, ⟨"x", [.lab "v", .lab "b"]⟩, ⟨"x", [.lab "w", .lab "b"]⟩,
      ⟨"y", [.lab "a"]⟩, ⟨"y", [.lab "b"]⟩, ⟨"z", []⟩] := by decide

/-- **C93 (counterexamples).**  Two expressions with one index of two labels need not give four results:
an instance that is already in the list is left out, `[x[a], x[i]]` becomes `[x[a], x[b]]`.  In the
other order the same two expressions give a list with a repetition, `[x[a], x[b], x[a]]`, because
expressions without the index are kept whatever is in the list. -/
theorem C93_number_counterexample :
    expandIndices [⟨"x", [.lab "a"]⟩, ⟨"x", [.idx "i"]⟩] ["i"] [[.lab "a", .lab "b"]]
      = .ok [⟨"x", [.lab "a"]⟩, ⟨"x", [.lab "b"]⟩] ∧
    expandIndices [⟨"x", [.idx "i"]⟩, ⟨"x", [.lab "a"]⟩] ["i"] [[.lab "a", .lab "b"]]
      = .ok [⟨"x", [.lab "a"]⟩, ⟨"x", [.lab "b"]⟩, ⟨"x", [.lab "a"]⟩] ∧
    expandIndices [⟨"x", [.idx "i"]⟩, ⟨"x", [.idx "i"]⟩] ["i"] [[.lab "a", .lab "b"]]
      = .ok [⟨"x", [.lab "a"]⟩, ⟨"x", [.lab "b"]⟩] := by decide

/-- **C93 (numbers or labels).**  `enumerate_indexbase` with `expand_using="index"` gives the instances with
the keys of the index dicts, with any other text those with the labels; an index without dict is an
`IndexError`. -/
theorem C93_enumerate (exprs : List IRef) (ds : List (Str × Dict Nat Str)) (how : Str)
    (hn : (ds.map Prod.fst).Nodup) :
    (∃ out, enumerateIndexbase exprs (ds.map Prod.fst) (ds.map Prod.snd) how = .ok out ∧
      ∀ x, x ∈ out ↔ ∃ r ∈ exprs, x ∈ r.instances (ds.map fun d => (d.1,
        if how = "index".toList then d.2.map (fun e => SIdx.num e.1)
        else d.2.map (fun e => SIdx.lab e.2)))) ∧
    (∀ is : List Str, (ds.map Prod.fst).length < is.length →
      enumerateIndexbase exprs is (ds.map Prod.snd) how = .error .indexError) := by
  constructor
  · unfold enumerateIndexbase
    by_cases h : how = "index".toList
    · obtain ⟨out, h1, h2⟩ := C93_members exprs
        (ds.map fun d => (d.1, d.2.map fun e => SIdx.num e.1))
        (by simpa [List.map_map, Function.comp_def] using hn)
        (by simp only [List.mem_map]; rintro p ⟨d, _, rfl⟩ v hv
            obtain ⟨e, _, rfl⟩ := List.mem_map.1 hv; rfl)
      refine ⟨out, ?_, ?_⟩
      · rw [if_pos h, ← h1]
        simp [List.map_map, Function.comp_def, dkeys]
      · simpa only [if_pos h] using h2
    · obtain ⟨out, h1, h2⟩ := C93_members exprs
        (ds.map fun d => (d.1, d.2.map fun e => SIdx.lab e.2))
        (by simpa [List.map_map, Function.comp_def] using hn)
        (by simp only [List.mem_map]; rintro p ⟨d, _, rfl⟩ v hv
            obtain ⟨e, _, rfl⟩ := List.mem_map.1 hv; rfl)
      refine ⟨out, ?_, ?_⟩
      · rw [if_neg h, ← h1]
        simp [List.map_map, Function.comp_def, dvalues]
      · simpa only [if_neg h] using h2
  · have key : ∀ (is : List Str) (vss : List (List SIdx)) (es : List IRef), vss.length < is.length →
        expandIndices es is vss = .error .indexError := by
      intro is
      induction is with
      | nil => intro vss _ h; simp at h
      | cons i is ih =>
        intro vss es h
        cases vss with
        | nil => rfl
        | cons vs vss => exact ih vss _ (by simpa using h)
    intro is h
    unfold enumerateIndexbase
    split <;> exact key _ _ _ (by simpa using h)

example : enumerateIndexbase [⟨"x", [.idx "i"]⟩] ["i"] [[(1, "a"), (2, "b")]] "index"
    = .ok [⟨"x", [.num 1]⟩, ⟨"x", [.num 2]⟩] := by decide
example : enumerateIndexbase [⟨"x", [.idx "i"]⟩] ["i"] [[(1, "a"), (2, "b")]] "label"
    = .ok [⟨"x", [.lab "a"]⟩, ⟨"x", [.lab "b"]⟩] := by decide

/-- **C93 (names).**  The dictionary of `make_indexbase_sub_dict` has an entry for each expression and no
other, and the name of each symbol has no bracket, comma or blank.  Missing: that different
expressions get different names, see the counterexample. -/
theorem C93_sub_dict_partial (exprs : List IRef) :
    (∀ r, r ∈ dkeys (makeIndexbaseSubDict exprs) ↔ r ∈ exprs) ∧
    (∀ r ∈ exprs, ∃ n, dget (makeIndexbaseSubDict exprs) r = some n ∧
      n = r.name.flatMap snakeChar ∧ ∀ c ∈ n, c ≠ '[' ∧ c ≠ ']' ∧ c ≠ ',' ∧ c ≠ ' ') := by
  have hk : ∀ r, r ∈ dkeys (makeIndexbaseSubDict exprs) ↔ r ∈ exprs := by
    intro r
    unfold makeIndexbaseSubDict dofPairs
    rw [mem_dkeys_dupdate]
    simp [dkeys, List.map_map, Function.comp_def]
  have hval : ∀ (l : List IRef) (d : Dict IRef Str),
      (∀ r n, dget d r = some n → n = bracketsToSnakeCase r.name) →
      ∀ r n, dget (dupdate d (l.map fun r => (r, bracketsToSnakeCase r.name))) r = some n →
        n = bracketsToSnakeCase r.name := by
    intro l
    induction l with
    | nil => intro d h; exact h
    | cons a l ih =>
      intro d h
      refine ih (dset d a (bracketsToSnakeCase a.name)) fun r n hr => ?_
      rw [dget_dset] at hr
      split at hr
      · rename_i he
        first
          | (subst he; simpa using hr.symm)
      · exact h r n hr
  refine ⟨hk, fun r hr => ?_⟩
  obtain ⟨n, hn⟩ := (mem_dkeys_iff _ _).1 ((hk r).2 hr)
  have he := hval exprs [] (by simp [dget]) r n hn
  exact ⟨n, hn, by rw [he, bracketsToSnakeCase_eq], by rw [he]; exact C54_snake_clean _⟩

/-- **C93 (counterexample: names).**  `x[a, b]` and `x[a_b]` are both called `x_a_b`. -/
theorem C93_sub_dict_counterexample :
    makeIndexbaseSubDict [⟨"x", [.lab "a", .lab "b"]⟩, ⟨"x", [.lab "a_b"]⟩]
      = [(⟨"x", [.lab "a", .lab "b"]⟩, "x_a_b".toList), (⟨"x", [.lab "a_b"]⟩, "x_a_b".toList)] := by
  decide

/-! ## `_expand_var_by_index` -/

theorem foldl_expandByLabels (coords : Coords) (out : List DeclaredObj) :
    (coords.foldl (fun out p => expandByLabels p out) out).map DeclaredObj.obj
      = out.flatMap fun o => (product (coords.map Prod.snd)).map fun ls =>
          { o.obj with dimVals := dupdate o.obj.dimVals ((coords.map Prod.fst).zip ls) } := by
  induction coords generalizing out with
  | nil => simp [product, dupdate, List.map_eq_flatMap]
  | cons p ps ih =>
    rw [List.foldl_cons, ih, expandByLabels, List.flatMap_assoc]
    apply List.flatMap_congr
    intro o _
    rw [List.flatMap_map]
    simp only [List.map_cons, product, List.map_flatMap]
    apply List.flatMap_congr
    intro l _
    rw [List.map_map]
    apply List.map_congr_left
    intro ls _
    rfl

theorem foldl_expandByLabels_default (coords : Coords) (out : List DeclaredObj) (par : Bool)
    (hp : ∀ o ∈ out, o.isParameter = par) (hne : coords ≠ []) :
    ∀ o ∈ coords.foldl (fun out p => expandByLabels p out) out, o.isParameter = par ∧
      o.real = true ∧ o.positive = true ∧ o.extendSubscript = 0 := by
  have key : ∀ (coords : Coords) (out : List DeclaredObj), (∀ o ∈ out, o.isParameter = par ∧
      o.real = true ∧ o.positive = true ∧ o.extendSubscript = 0) →
      ∀ o ∈ coords.foldl (fun out p => expandByLabels p out) out, o.isParameter = par ∧
      o.real = true ∧ o.positive = true ∧ o.extendSubscript = 0 := by
    intro coords
    induction coords with
    | nil => intro out h; exact h
    | cons p ps ih =>
      intro out h
      refine ih _ ?_
      intro o ho
      obtain ⟨o', ho', hm⟩ := List.mem_flatMap.1 ho
      obtain ⟨l, _, rfl⟩ := List.mem_map.1 hm
      exact ⟨(h o' ho').1, rfl, rfl, rfl⟩
  cases coords with
  | nil => exact absurd rfl hne
  | cons p ps =>
    refine key ps _ ?_
    intro o ho
    obtain ⟨o', ho', hm⟩ := List.mem_flatMap.1 ho
    obtain ⟨l, _, rfl⟩ := List.mem_map.1 hm
    exact ⟨hp o' ho', rfl, rfl, rfl⟩

/-- **C93 (two ways to expand an object).**  As far as names, dims and labels go, `_expand_var_by_index`
does what `expand_obj_by_indices` does when it is asked for the dims of `coords` in their order: the
same objects in the same order or the same `ValueError`. -/
theorem C93_expand_var (setList : List Str → List Str) (o : DeclaredObj) (coords : Coords)
    (hc : (dkeys coords).Nodup) :
    (expandVarByIndex o coords).map (List.map DeclaredObj.obj)
      = expandObjByIndices setList o.obj coords (some (dkeys coords)) .raise := by
  by_cases h : ∀ d ∈ dkeys coords, d ∈ o.obj.dims
  · rw [expandObj_eq setList o.obj coords _ .raise h (fun _ h => h)]
    unfold expandVarByIndex
    rw [if_neg (by simpa using h)]
    have hl : (dkeys coords).map (labelsOf coords) = coords.map Prod.snd := by
      rw [dkeys, List.map_map]
      apply List.map_congr_left
      intro p hp
      simp [Function.comp, labelsOf, dget_of_mem_nodup coords hc (k := p.1) (v := p.2) hp]
    simp only [Except.map, foldl_expandByLabels, List.flatMap_cons, List.flatMap_nil, List.append_nil,
      hl]
    rfl
  · push Not at h
    obtain ⟨d, hd, hn⟩ := h
    rw [(C34_errors setList o.obj coords (dkeys coords) .raise).1 ⟨d, hd, hn⟩]
    unfold expandVarByIndex
    rw [if_pos (by simp only [List.any_eq_true, decide_eq_true_eq]; exact ⟨d, hd, hn⟩)]
    rfl

/-- **C93 (declared attributes are lost).**  Each object that `_expand_var_by_index` returns is of the class of
the given one, but real, positive and without extended subscript, whatever the given object was
declared to be. -/
theorem C93_expand_var_defaults (o : DeclaredObj) (coords : Coords) (out : List DeclaredObj)
    (hne : coords ≠ []) (h : expandVarByIndex o coords = .ok out) :
    ∀ u ∈ out, u.isParameter = o.isParameter ∧ u.real = true ∧ u.positive = true ∧
      u.extendSubscript = 0 := by
  unfold expandVarByIndex at h
  split at h
  · cases h
  · cases h
    exact foldl_expandByLabels_default coords [o] o.isParameter (by simp) hne

example : expandVarByIndex { obj := { name := "S", dims := ["i"] }, positive := false }
    [("i".toList, ["a".toList, "b".toList])]
    = .ok [{ obj := { name := "S", dims := ["i"], dimVals := [("i", "a")] }, positive := true },
      { obj := { name := "S", dims := ["i"], dimVals := [("i", "b")] }, positive := true }] := by decide

/-- **C93 (counterexample: the coordinates of the model).**  The docstring says that `coords` are the
coordinates known by the model; with such coordinates every object that lacks one of the model's dims
is refused, e.g. each scalar. -/
theorem C93_model_coords_counterexample (o : DeclaredObj) (coords : Coords)
    (h : ∃ d ∈ dkeys coords, d ∉ o.obj.dims) : expandVarByIndex o coords = .error .valueError := by
  unfold expandVarByIndex
  rw [if_pos (by simpa [List.any_eq_true] using h)]

example : ∃ d ∈ dkeys exCoords, d ∉ ({ obj := { name := "w" } } : DeclaredObj).obj.dims := by decide

end Verif
