import Verif.Props.ArrayModel
import Verif.Props.SimulateSolve

/-!
# C76: a model written for arrays and the same model written with indices

The pytensor back-end reads equations as arithmetic on arrays, the default back-end as sympy expressions
with indices.  For equations that are elementwise in objects whose axes fit, with sums over whole arrays, both
give the same residuals; texts outside of this are refused or mean different things.
-/

namespace Verif

open RExpr

variable {coords : Coords} {vars params : List ModelObject} {eqs : List TextEq}

theorem solved_without_numeraire (vars : List ModelObject) : solvedVars none vars = vars := by
  simp [solvedVars]

theorem mem_zipWith {α β γ : Type*} {R : α → β → Prop} {f : α → β → γ} {l : List α} {m : List β}
    (h : List.Forall₂ R l m) {c : γ} (hc : c ∈ List.zipWith f l m) :
    ∃ a ∈ l, ∃ b ∈ m, R a b ∧ c = f a b := by
  induction h with
  | nil => cases hc
  | @cons a b l m hab _ ih =>
    rw [List.zipWith_cons_cons, List.mem_cons] at hc
    rcases hc with rfl | hc
    · exact ⟨a, by simp, b, by simp, hab, rfl⟩
    · obtain ⟨a', ha', b', hb', hr⟩ := ih hc
      exact ⟨a', by simp [ha'], b', by simp [hb'], hr⟩

/-- The equations as sympy reads them make a model of the default back-end. -/
theorem indexed_model (h : ArrayModel coords vars params eqs) {ps : List ParsedEq}
    (hps : List.Forall₂ (ParsesTo coords (vars ++ params)) eqs ps) :
    IndexedModel coords vars params none (List.zipWith indexedEq eqs ps) where
  scalar := h.scalar
  coords_nodup := h.coords_nodup
  dim_names := h.dim_names
  label_names := h.label_names
  numeraire_mem := by rintro o ⟨⟩
  sides := by
    intro x hx
    obtain ⟨q, hq, p, -, hqp, rfl⟩ := mem_zipWith hps hx
    obtain ⟨_, _, _, _, ds, hok⟩ := h.sides q hq
    obtain ⟨-, h1, h2, h3, h4, -, -⟩ := parsed_spec h hok hqp
    rw [solved_without_numeraire]
    refine ⟨⟨h1, ?_, fun _ h => (nomatch h), fun _ h => (nomatch h)⟩,
      ⟨h2, ?_, fun _ h => (nomatch h), fun _ h => (nomatch h)⟩⟩
    · rw [Option.toList_none, List.append_nil]; exact h3
    · rw [Option.toList_none, List.append_nil]; exact h4
  clean := by
    intro x hx
    obtain ⟨q, hq, p, -, hqp, rfl⟩ := mem_zipWith hps hx
    obtain ⟨_, _, _, _, ds, hok⟩ := h.sides q hq
    exact hok.clean
  markers := by
    intro x hx d hd
    obtain ⟨q, hq, p, -, hqp, rfl⟩ := mem_zipWith hps hx
    obtain ⟨_, _, _, _, ds, hok⟩ := h.sides q hq
    obtain ⟨-, -, -, -, -, h5, -⟩ := parsed_spec h hok hqp
    show d ∈ freeDims coords [] p.lhs p.rhs
    rw [h5, ← hok.markers]
    exact hd
  names := by
    have key : ∀ (l : List TextEq) (ps : List ParsedEq), (∀ q ∈ l, q ∈ eqs) →
        List.Forall₂ (ParsesTo coords (vars ++ params)) l ps →
        ((List.zipWith indexedEq l ps).flatMap fun q =>
          (product ((freeDims coords [] q.lhs q.rhs).map (labelsOf coords))).map fun ls =>
            q.name.filled (chosen (freeDims coords [] q.lhs q.rhs) ls)) = l.flatMap (textNames coords) := by
      intro l ps hl hlp
      induction hlp with
      | nil => rfl
      | @cons q p l ps hqp _ ih =>
        obtain ⟨_, _, _, _, ds, hok⟩ := h.sides q (hl q (by simp))
        obtain ⟨-, -, -, -, -, h5, -⟩ := parsed_spec h hok hqp
        rw [List.zipWith_cons_cons, List.flatMap_cons, List.flatMap_cons,
          ih fun q' hq' => hl q' (List.mem_cons_of_mem _ hq')]
        congr 1
        show (product ((freeDims coords [] p.lhs p.rhs).map (labelsOf coords))).map _ = _
        unfold textNames
        rw [hok.markers, ← h5]
        rfl
    have := key eqs ps (fun _ h => h) hps
    show (List.flatMap (fun q : IndexedEq => (product ((freeDims coords [] q.lhs q.rhs).map (labelsOf coords))).map fun ls =>
      q.name.filled (chosen (freeDims coords [] q.lhs q.rhs) ls)) _).Nodup
    rw [this]
    exact h.distinct

/-- **C76 (both back-ends).**  A model written once for arrays and once with indices: the pytensor back-end
accepts the first text, and its residuals are, at all flat vectors, those of the functions that the default
back-end makes of the second. -/
theorem C76_back_ends_agree_partial (h : ArrayModel coords vars params eqs) {es : List PExpr}
    {ps : List ParsedEq} (hes : List.Forall₂ (fun q e => Reads (normalizeEq q.arrText) e) eqs es)
    (hps : List.Forall₂ (ParsesTo coords (vars ++ params)) eqs ps) :
    ∃ G, compileText coords (vars ++ params) (eqs.map fun q => q.name.text) es = .ok G ∧
      ∀ F vn x theta, BuiltFns coords vars params none (List.zipWith indexedEq eqs ps) F →
        x.length = totalSize coords vars → theta.length = totalSize coords params →
        ∃ r, wrapForScipy G vars params coords x theta = .ok r ∧
          wrapForScipy (callGraphs ((vars ++ params).map ModelObject.name) vn F.system) vars params coords
            x theta = .ok r := by
  obtain ⟨G, hG, hr⟩ := C76_array_residuals_partial h hes hps
  refine ⟨G, hG, ?_⟩
  intro F vn x theta hF hx ht
  refine ⟨_, hr x theta hx ht, ?_⟩
  have := hF.system (indexed_model h hps) vn x theta (by rw [solved_without_numeraire]; exact hx) ht
  simpa only [solved_without_numeraire, imbalances, Option.toList_none, List.map_nil] using this

/-- The texts are read and parsed: nothing is assumed about the model beyond `ArrayModel`. -/
theorem C76_texts_parse_partial (h : ArrayModel coords vars params eqs) :
    (∃ es, List.Forall₂ (fun q e => Reads (normalizeEq q.arrText) e) eqs es) ∧
      ∃ ps, List.Forall₂ (ParsesTo coords (vars ++ params)) eqs ps ∧
        (List.zipWith indexedEq eqs ps).map (fun q => (⟨q.name.text, q.lhs, q.rhs⟩ : ParsedEq)) = ps := by
  have key : ∀ l : List TextEq, (∀ q ∈ l, q ∈ eqs) →
      (∃ es, List.Forall₂ (fun q e => Reads (normalizeEq q.arrText) e) l es) ∧
      ∃ ps, List.Forall₂ (ParsesTo coords (vars ++ params)) l ps ∧
        (List.zipWith indexedEq l ps).map (fun q => (⟨q.name.text, q.lhs, q.rhs⟩ : ParsedEq)) = ps := by
    intro l hl
    induction l with
    | nil => exact ⟨⟨[], .nil⟩, [], .nil, rfl⟩
    | cons q l ih =>
      obtain ⟨⟨es, hes⟩, ps, hps, hmap⟩ := ih fun q' hq' => hl q' (List.mem_cons_of_mem _ hq')
      obtain ⟨lh, rh, _, _, ds, hok⟩ := h.sides q (hl q (by simp))
      obtain ⟨e, he, -⟩ := C32_value_is_difference q.arrLhs q.arrRhs lh rh hok.arrL hok.arrR hok.equals
      obtain ⟨dl, dr, tl, tr, -⟩ := hok.twins
      obtain ⟨rl, hl'⟩ := twins_facts (objects_ok h) tl
      obtain ⟨rr, hr'⟩ := twins_facts (objects_ok h) tr
      have hp : ParsesTo coords (vars ++ params) q ⟨q.name.text, rl, rr⟩ :=
        ⟨_, _, hok.symL, hok.symR, by simp [parseSympy, hl'.sympy, hr'.sympy, bind, Except.bind]⟩
      refine ⟨⟨e :: es, .cons he hes⟩, ⟨q.name.text, rl, rr⟩ :: ps, .cons hp hps, ?_⟩
      rw [List.zipWith_cons_cons, List.map_cons, hmap]
      rfl
  exact key eqs fun _ h => h

/-! ### What is refused -/

theorem mapM_ok_mem {α β : Type*} {f : α → Res β} {l : List α} {bs : List β} (h : l.mapM f = .ok bs)
    {a : α} (ha : a ∈ l) : ∃ b, f a = .ok b := by
  induction l generalizing bs with
  | nil => cases ha
  | cons c l ih =>
    rw [List.mapM_cons] at h
    simp only [bind, Except.bind] at h
    cases hc : f c with
    | error e => rw [hc] at h; cases h
    | ok b =>
      rw [hc] at h
      dsimp only at h
      cases hl : l.mapM f with
      | error e => rw [hl] at h; cases h
      | ok bs' =>
        rcases List.mem_cons.1 ha with rfl | ha
        · exact ⟨b, hc⟩
        · exact ih hl ha

/-- `Sum(…)` or `Product(…)` occurs in the expression. -/
def PExpr.HasSum : PExpr → Prop
  | .var _ => False
  | .num _ => False
  | .neg e => HasSum e
  | .pos e => HasSum e
  | .add a b => HasSum a ∨ HasSum b
  | .sub a b => HasSum a ∨ HasSum b
  | .mul a b => HasSum a ∨ HasSum b
  | .div a b => HasSum a ∨ HasSum b
  | .pow a b => HasSum a ∨ HasSum b
  | .post e _ => HasSum e
  | .sumOver _ _ _ _ => True
  | .prodOver _ _ _ _ => True

/-- `.subs(…)` occurs in the expression. -/
def PExpr.HasSubs : PExpr → Prop
  | .var _ => False
  | .num _ => False
  | .neg e => HasSubs e
  | .pos e => HasSubs e
  | .add a b => HasSubs a ∨ HasSubs b
  | .sub a b => HasSubs a ∨ HasSubs b
  | .mul a b => HasSubs a ∨ HasSubs b
  | .div a b => HasSubs a ∨ HasSubs b
  | .pow a b => HasSubs a ∨ HasSubs b
  | .post _ (.subs _ _) => True
  | .post _ (.subsNum _ _) => True
  | .post _ (.subsList _) => True
  | .post e _ => HasSubs e
  | .sumOver e _ _ _ => HasSubs e
  | .prodOver e _ _ _ => HasSubs e

/-- A method of arrays, or `None` as an index, occurs in the expression. -/
def PExpr.HasMethod : PExpr → Prop
  | .var _ => False
  | .num _ => False
  | .neg e => HasMethod e
  | .pos e => HasMethod e
  | .add a b => HasMethod a ∨ HasMethod b
  | .sub a b => HasMethod a ∨ HasMethod b
  | .mul a b => HasMethod a ∨ HasMethod b
  | .div a b => HasMethod a ∨ HasMethod b
  | .pow a b => HasMethod a ∨ HasMethod b
  | .post e (.subs _ _) => HasMethod e
  | .post e (.subsNum _ _) => HasMethod e
  | .post e (.subsList _) => HasMethod e
  | .post _ _ => True
  | .sumOver e _ _ _ => HasMethod e
  | .prodOver e _ _ _ => HasMethod e

theorem evalShape_ok {shapes : Str → Res (List Nat)} {e : PExpr} {s : List Nat}
    (h : evalShape shapes e = .ok s) : ¬ e.HasSum ∧ ¬ e.HasSubs ∧
      ∀ x, e.Names x → ∃ t, shapes x = .ok t := by
  induction e generalizing s with
  | var y =>
    refine ⟨fun h => h, fun h => h, ?_⟩
    rintro x rfl
    exact ⟨s, h⟩
  | num => exact ⟨fun h => h, fun h => h, fun _ h => h.elim⟩
  | neg e ih | pos e ih => exact ih h
  | add a b iha ihb | sub a b iha ihb | mul a b iha ihb | div a b iha ihb | pow a b iha ihb =>
    simp only [evalShape, bind, Except.bind] at h
    cases ha : evalShape shapes a with
    | error => rw [ha] at h; cases h
    | ok u =>
      rw [ha] at h
      dsimp only at h
      cases hb : evalShape shapes b with
      | error => rw [hb] at h; cases h
      | ok v =>
        exact ⟨fun hs => hs.elim (iha ha).1 (ihb hb).1, fun hs => hs.elim (iha ha).2.1 (ihb hb).2.1,
          fun x hx => hx.elim ((iha ha).2.2 x) ((ihb hb).2.2 x)⟩
  | post e q ih =>
    simp only [evalShape, bind, Except.bind] at h
    cases ha : evalShape shapes e with
    | error => rw [ha] at h; cases h
    | ok u =>
      rw [ha] at h
      refine ⟨(ih ha).1, ?_, (ih ha).2.2⟩
      cases q with
      | subs | subsNum | subsList => cases h
      | _ => exact (ih ha).2.1
  | sumOver | prodOver => cases h

theorem compileText_parts {coords : Coords} {objs : List ModelObject} {names : List Str} {es : List PExpr}
    {F : KwFun ℝ (List ℝ)} (h : compileText coords objs names es = .ok F) :
    ∃ unpacked cache shapes, unpackedEquationNames names coords = .ok unpacked ∧
      shapeCache coords objs = .ok cache ∧ es.mapM (evalShape (lookupName cache)) = .ok shapes ∧
      shapes ≠ [] ∧ validateParsing objs es = .ok () ∧
      F = callTextSystem (objs.map ModelObject.name) unpacked.length es := by
  unfold compileText at h
  simp only [bind, Except.bind] at h
  cases h1 : unpackedEquationNames names coords with
  | error => rw [h1] at h; cases h
  | ok unpacked =>
    cases h2 : shapeCache coords objs with
    | error => rw [h1, h2] at h; cases h
    | ok cache =>
      rw [h1, h2] at h
      dsimp only at h
      cases h3 : es.mapM (evalShape (lookupName cache)) with
      | error => rw [h3] at h; cases h
      | ok shapes =>
        rw [h3] at h
        dsimp only at h
        split at h
        · cases h
        · rename_i hc
          split at h
          · cases h
          · rename_i hv
            refine ⟨_, _, _, rfl, rfl, h3, ?_, hv, (Except.ok.inj h).symm⟩
            rintro rfl
            cases hc

theorem mem_shapeCache {coords : Coords} {objs : List ModelObject} {cache : Dict Str (List Nat)}
    (h : shapeCache coords objs = .ok cache) {x : Str} (hx : x ∈ dkeys cache) :
    x ∈ objs.map ModelObject.name := by
  unfold shapeCache at h
  cases hm : objs.mapM fun o => (inferShape o coords).map fun s => (o.name, s) with
  | error => rw [hm] at h; cases h
  | ok ps =>
    rw [hm] at h
    cases h
    unfold dofPairs at hx
    rw [mem_dkeys_dupdate] at hx
    have hfst : ps.map Prod.fst = objs.map ModelObject.name := by
      clear hx
      induction objs generalizing ps with
      | nil => cases hm; rfl
      | cons o objs ih =>
        rw [List.mapM_cons] at hm
        simp only [bind, Except.bind] at hm
        cases hs : inferShape o coords with
        | error => rw [hs] at hm; cases hm
        | ok s =>
          rw [hs] at hm
          simp only [Except.map] at hm
          cases hl : objs.mapM fun o => (inferShape o coords).map fun s => (o.name, s) with
          | error => simp only [Except.map] at hl; rw [hl] at hm; cases hm
          | ok ps' =>
            have hl' := hl
            simp only [Except.map] at hl
            rw [hl] at hm
            cases hm
            rw [List.map_cons, List.map_cons, ih ps' hl']
    rcases hx with hx | hx
    · cases hx
    · rw [← hfst]; exact hx

/-- **C76 (accepted models).**  If the pytensor back-end accepts a model, then there is an equation, the names
of the variables and parameters are distinct and none is `pt`, the equations use no other names, no `Sum(…)`,
no `Product(…)` and no `.subs(…)`, and every variable and parameter occurs in some equation. -/
theorem C76_accepted {coords : Coords} {objs : List ModelObject} {names : List Str} {es : List PExpr}
    {F : KwFun ℝ (List ℝ)} (h : compileText coords objs names es = .ok F) :
    es ≠ [] ∧ (objs.map ModelObject.name).Nodup ∧ "pt".toList ∉ objs.map ModelObject.name ∧
      (∀ e ∈ es, ¬ e.HasSum ∧ ¬ e.HasSubs ∧ ∀ x, e.Names x → x ∈ objs.map ModelObject.name) ∧
      ∀ o ∈ objs, ∃ e ∈ es, e.Names o.name := by
  obtain ⟨unpacked, cache, shapes, h1, h2, h3, h4, h5, -⟩ := compileText_parts h
  unfold validateParsing at h5
  split at h5
  · rename_i hv
    refine ⟨?_, hv.1, hv.2.1, ?_, ?_⟩
    · rintro rfl
      cases h3
      exact h4 rfl
    · intro e he
      obtain ⟨s, hs⟩ := mapM_ok_mem h3 he
      refine ⟨(evalShape_ok hs).1, (evalShape_ok hs).2.1, fun x hx => ?_⟩
      obtain ⟨t, ht⟩ := (evalShape_ok hs).2.2 x hx
      unfold lookupName at ht
      split at ht
      · cases ht
      · split at ht
        · rename_i hd
          exact mem_shapeCache h2 ((mem_dkeys_iff _ x).2 ⟨_, hd⟩)
        · cases ht
    · intro o ho
      obtain ⟨e, he, hx⟩ := List.mem_flatMap.1 (hv.2.2 o ho)
      exact ⟨e, he, (names_iff_vars _ _).2 hx⟩
  · cases h5

/-- **C76 (numeraire).**  A numeraire is no longer among the variables when the equations are read, but its
name is still in their texts: the pytensor back-end refuses every model that uses its numeraire. -/
theorem C76_numeraire_refused {coords : Coords} {vars params : List ModelObject} {num : ModelObject}
    (hnum : num.name ∉ params.map ModelObject.name) {names : List Str} {es : List PExpr} {e : PExpr}
    (he : e ∈ es) (hx : e.Names num.name) (F : KwFun ℝ (List ℝ)) :
    compileText coords (solvedVars (some num) vars ++ params) names es ≠ .ok F := by
  intro h
  have := ((C76_accepted h).2.2.2.1 e he).2.2 _ hx
  rw [List.map_append, List.mem_append] at this
  rcases this with h' | h'
  · obtain ⟨o, ho, hn⟩ := List.mem_map.1 h'
    have := (List.mem_filter.1 ho).2
    rw [hn] at this
    simp at this
  · exact hnum h'

example : compileText scCoords (solvedVars (some scNum) scVars ++ scParams) ["demand <dim:i>".toList]
    [.sub (.var "x".toList) (.mul (.var "A".toList) (.var "p".toList))] = .error .nameError := rfl

/-- **C76 (one residual per name).**  Every call of an accepted model returns one residual for every unpacked
equation name, or raises. -/
theorem C76_residual_count {coords : Coords} {objs : List ModelObject} {names : List Str} {es : List PExpr}
    {F : KwFun ℝ (List ℝ)} (h : compileText coords objs names es = .ok F) {d : Dict Str (NDArray ℝ)}
    {r : List ℝ} (hr : F d = .ok r) :
    ∃ unpacked, unpackedEquationNames names coords = .ok unpacked ∧ r.length = unpacked.length := by
  obtain ⟨unpacked, cache, shapes, h1, -, -, -, -, rfl⟩ := compileText_parts h
  refine ⟨unpacked, h1, ?_⟩
  unfold callTextSystem at hr
  split at hr
  · cases hr
  · simp only [bind, Except.bind] at hr
    split at hr
    · cases hr
    · split at hr
      · cases hr
      · split at hr
        · rename_i hl
          cases hr
          exact hl
        · cases hr

/-- **C76 (unused objects).**  A model whose equations all can be read, but with a variable or parameter that
occurs in none of them, is refused with `ValueError`. -/
theorem C76_unused_refused {coords : Coords} {objs : List ModelObject} {names unpacked : List Str}
    {es : List PExpr} {cache : Dict Str (List Nat)} {shapes : List (List Nat)}
    (hn : unpackedEquationNames names coords = .ok unpacked) (hc : shapeCache coords objs = .ok cache)
    (hs : es.mapM (evalShape (lookupName cache)) = .ok shapes) {o : ModelObject} (ho : o ∈ objs)
    (hu : ∀ e ∈ es, ¬ e.Names o.name) : compileText coords objs names es = .error .valueError := by
  have hv : validateParsing objs es = .error .valueError := by
    unfold validateParsing
    rw [if_neg]
    rintro ⟨-, -, h⟩
    obtain ⟨e, he, hx⟩ := List.mem_flatMap.1 (h o ho)
    exact hu e he ((names_iff_vars _ _).2 hx)
  unfold compileText
  simp only [bind, Except.bind, hn, hc, hs, hv]
  cases shapes with
  | nil => rfl
  | cons s ss => rfl

/-- **C76 (the name `pt`).**  In the texts `pt` is the module, also if a variable or parameter is called `pt`:
an equation with `pt` on the left of an operation is refused with `TypeError`. -/
theorem C76_pt_refused {coords : Coords} {objs : List ModelObject} {names unpacked : List Str}
    {es : List PExpr} {cache : Dict Str (List Nat)} (r : PExpr)
    (hn : unpackedEquationNames names coords = .ok unpacked) (hc : shapeCache coords objs = .ok cache) :
    compileText coords objs names (.sub (.var "pt".toList) r :: es) = .error .typeError := by
  unfold compileText
  simp only [bind, Except.bind, hn, hc, List.mapM_cons, evalShape]
  have : lookupName cache "pt".toList = .error .typeError := if_pos rfl
  rw [this]

/-- **C76 (bound indices).**  `.subs(i, j)` on a sum or product over `i` changes nothing: its index is
bound. On one over other indices it changes the body. -/
theorem C76_bound_index_kept (op : RedOp) (body : RExpr) (lims : List Lim) (i j : Str) :
    ((∃ l ∈ lims, l.i = i) → subsExpr (.sym i) (.sym j) (.red op body lims) = .red op body lims) ∧
    ((∀ l ∈ lims, l.i ≠ i) → subsExpr (.sym i) (.sym j) (.red op body lims) =
      .red op (subsExpr (.sym i) (.sym j) body) lims) := by
  constructor
  · rintro ⟨l, hl, h⟩
    simp only [subsExpr, renameSymbol]
    rw [if_pos (by simp only [List.any_eq_true, decide_eq_true_eq]; exact ⟨l, hl, h⟩)]
  · intro h
    simp only [subsExpr, renameSymbol]
    rw [if_neg (by simpa using h)]

/-- The parameter `A` is used, the variable `y` is not; `pt`; and a bound index. -/
example : compileText scCoords (solvedVars (some scNum) scVars ++ scParams) ["demand <dim:i>".toList]
      [.sub (.var "x".toList) (.var "A".toList)] = .error .valueError ∧
    compileText scCoords (solvedVars (some scNum) scVars ++ scParams) ["demand <dim:i>".toList]
      [.sub (.var "pt".toList) (.var "A".toList)] = .error .typeError := by
  constructor
  · exact C76_unused_refused (unpacked := _) (cache := _) (shapes := _) (by rfl) (by rfl) (by rfl)
      (o := { name := "y" }) (by decide) (by
        intro e he
        rw [List.mem_singleton] at he
        subst he
        rw [names_iff_vars]
        decide)
  · exact C76_pt_refused _ (unpacked := _) (cache := _) (by rfl) (by rfl)

/-- **C76 (methods).**  sympy reads `.subs(…)`, but no methods of arrays: a text with `.sum()` or `x[None]` is
refused. -/
theorem C76_methods_refused {coords : Coords} {objs : List ModelObject} (name : Str) {l r : PExpr}
    (h : l.HasMethod ∨ r.HasMethod) : parseSympy coords objs name l r = .error .valueError := by
  have key : ∀ (locals : Dict Str RExpr) (e : PExpr), (∃ v, sympyOf locals e = .ok v ∧ ¬ e.HasMethod) ∨
      sympyOf locals e = .error .valueError := by
    intro locals e
    induction e with
    | var x => exact Or.inl ⟨_, rfl, fun h => h⟩
    | num => exact Or.inl ⟨_, rfl, fun h => h⟩
    | neg e ih | sumOver e _ _ _ ih | prodOver e _ _ _ ih =>
      rcases ih with ⟨v, h1, h2⟩ | h1
      · exact Or.inl ⟨_, by simp only [sympyOf, h1, bind, Except.bind]; rfl, h2⟩
      · exact Or.inr (by simp only [sympyOf, h1, bind, Except.bind])
    | pos e ih => exact ih
    | add a b iha ihb | sub a b iha ihb | mul a b iha ihb | div a b iha ihb | pow a b iha ihb =>
      rcases iha with ⟨v, h1, h2⟩ | h1
      · rcases ihb with ⟨w, g1, g2⟩ | g1
        · exact Or.inl ⟨_, by simp only [sympyOf, h1, g1, bind, Except.bind]; rfl, fun h => h.elim h2 g2⟩
        · exact Or.inr (by simp only [sympyOf, h1, g1, bind, Except.bind])
      · exact Or.inr (by simp only [sympyOf, h1, bind, Except.bind])
    | post e q ih =>
      rcases ih with ⟨v, h1, h2⟩ | h1
      · cases q with
        | subs | subsList =>
          exact Or.inl ⟨_, by simp only [sympyOf, h1, bind, Except.bind]; rfl, h2⟩
        | subsNum i k =>
          by_cases hk : '.' ∈ k
          · exact Or.inr (by simp only [sympyOf, h1, bind, Except.bind, subsNumber, if_pos hk])
          · cases hs : symbolOf locals i <;>
              exact Or.inl ⟨_, by simp only [sympyOf, h1, bind, Except.bind, subsNumber, if_neg hk, hs]; rfl, h2⟩
        | _ => exact Or.inr (by simp only [sympyOf, h1, bind, Except.bind])
      · exact Or.inr (by simp only [sympyOf, h1, bind, Except.bind])
  unfold parseSympy
  rcases key (localDict coords objs) l with ⟨v, h1, h2⟩ | h1
  · rcases key (localDict coords objs) r with ⟨w, g1, g2⟩ | g1
    · exact absurd h (not_or.2 ⟨h2, g2⟩)
    · simp only [h1, g1, bind, Except.bind]
  · simp only [h1, bind, Except.bind]

/-! ### An example -/

/-- Variables `x[i]` and `y`. -/
def baVars : List ModelObject := [{ name := "x", dims := ["i".toList] }, { name := "y" }]

/-- The parameter `A[i]`. -/
def baParams : List ModelObject := [{ name := "A", dims := ["i".toList] }]

/-- `x = A * y` and `y = (x).sum()`, for sympy `y = Sum(x, (i, 0, 1))`. -/
def baEqs : List TextEq :=
  [⟨[.lit "demand ".toList, .dim "i".toList], "x".toList, "A * y".toList, "x".toList, "A * y".toList⟩,
   ⟨[.lit "total".toList], "y".toList, "(x).sum()".toList, "y".toList, "Sum(x, (i, 0, 1))".toList⟩]

theorem baModel : ArrayModel scCoords baVars baParams baEqs where
  scalar :=
    { known := by decide +kernel
      dims := by decide +kernel
      fresh := by decide +kernel
      labels := by decide +kernel
      names := by decide +kernel
      scalars := by decide +kernel }
  coords_nodup := by decide +kernel
  dim_names := by decide +kernel
  label_names := scModel.label_names
  labels := by decide +kernel
  names := by decide +kernel
  nonempty := by simp [baEqs]
  sides := by
    have hx : ({ name := "x", dims := ["i".toList] } : ModelObject) ∈ baVars ++ baParams := by
      simp [baVars, baParams]
    have hy : ({ name := "y" } : ModelObject) ∈ baVars ++ baParams := by simp [baVars, baParams]
    have hA : ({ name := "A", dims := ["i".toList] } : ModelObject) ∈ baVars ++ baParams := by
      simp [baVars, baParams]
    intro q hq
    simp only [baEqs, List.mem_cons, List.not_mem_nil, or_false] at hq
    rcases hq with rfl | rfl
    · refine ⟨.var "x".toList, .mul (.var "A".toList) (.var "y".toList), .var "x".toList,
        .mul (.var "A".toList) (.var "y".toList), ["i".toList], ⟨_, rfl, 20, rfl⟩, ⟨_, rfl, 20, rfl⟩,
        ⟨_, rfl, 20, rfl⟩, ⟨_, rfl, 20, rfl⟩, onlyAxisEquals_of_none (by decide +kernel), ?_,
        by decide +kernel, by decide +kernel, rfl⟩
      exact ⟨[some "i".toList], [some "i".toList], .var hx, .mul (.var hA) (.var hy) .right, .cons .same .left⟩
    · refine ⟨.var "y".toList, .post (.var "x".toList) (.call "sum".toList), .var "y".toList,
        .sumOver (.var "x".toList) "i".toList "0".toList "1".toList, [], ⟨_, rfl, 20, rfl⟩, ⟨_, rfl, 20, rfl⟩,
        ⟨_, rfl, 20, rfl⟩, ⟨_, rfl, 20, rfl⟩, onlyAxisEquals_of_none (by decide +kernel), ?_,
        by decide +kernel, by decide +kernel, rfl⟩
      exact ⟨[], [], .var hy, .reduce (op := .sum) (ds := ["i".toList]) (.var hx) (by simp) (by simp)
        (.cons .nil ⟨rfl, rfl⟩), .left⟩
  used := by
    intro o ho
    refine ⟨_, List.mem_cons_self, .var "x".toList, .mul (.var "A".toList) (.var "y".toList),
      ⟨_, rfl, 20, rfl⟩, ⟨_, rfl, 20, rfl⟩, ?_⟩
    simp only [baVars, baParams, List.cons_append, List.nil_append, List.mem_cons, List.not_mem_nil,
      or_false] at ho
    rcases ho with rfl | rfl | rfl
    · exact Or.inl rfl
    · exact Or.inr (Or.inr rfl)
    · exact Or.inr (Or.inl rfl)
  distinct := by decide +kernel

/-- The parsed equations of the example. -/
def baParsed : List ParsedEq :=
  [⟨"demand <dim:i>".toList, .indexed "x".toList [.idx "i".toList],
      .mul (.indexed "A".toList [.idx "i".toList]) (.sym "y".toList)⟩,
   ⟨"total".toList, .sym "y".toList, .red .sum (.indexed "x".toList [.idx "i".toList]) [⟨"i".toList, 0, 2⟩]⟩]

theorem baParses : List.Forall₂ (ParsesTo scCoords (baVars ++ baParams)) baEqs baParsed :=
  .cons ⟨_, _, ⟨_, rfl, 20, rfl⟩, ⟨_, rfl, 20, rfl⟩, rfl⟩
    (.cons ⟨_, _, ⟨_, rfl, 20, rfl⟩, ⟨_, rfl, 20, rfl⟩, rfl⟩ .nil)

/-- The default back-end makes functions of the example. -/
example : ∃ F, BuiltFns scCoords baVars baParams none (List.zipWith indexedEq baEqs baParsed) F :=
  ⟨_, id, id, id, id, _, _, _, _, fun _ _ => Iff.rfl, fun _ _ => Iff.rfl, fun _ _ => Iff.rfl, rfl, rfl,
    rfl, rfl, rfl⟩

/-- The residuals of the example. -/
example (x0 x1 y a0 a1 : ℝ) : (List.zipWith indexedEq baEqs baParsed).flatMap
    (demanded scCoords [] (baVars ++ baParams) [x0, x1, y, a0, a1]) =
      [x0 - a0 * y, x1 - a1 * y, y - (x0 + x1)] := by
  have h : (List.zipWith indexedEq baEqs baParsed).flatMap
    (demanded scCoords [] (baVars ++ baParams) [x0, x1, y, a0, a1]) =
      [x0 - a0 * y, x1 - a1 * y, y - (x0 + (x1 + 0))] := rfl
  rw [h, add_zero]

/-! ### Where the two readings differ -/

/-- Labels `a`, `b` for `i` and `c`, `d` for `j`. -/
def bbCoords : Coords := [("i".toList, ["a".toList, "b".toList]), ("j".toList, ["c".toList, "d".toList])]

/-- **C76 (counterexample).**  `y = x` with `x` over `i` and `y` over `i` and `j`, where `i` and `j` have as
many labels: sympy demands `y[i, j] = x[i]`, the arrays `y[i, j] = x[j]`.  Both back-ends accept the text,
and nothing is said. -/
theorem C76_alignment_counterexample :
    let objs : List ModelObject := [{ name := "x", dims := ["i".toList] },
      { name := "y", dims := ["i".toList, "j".toList] }]
    let name : Template := [.lit "copy ".toList, .dim "i".toList, .dim "j".toList]
    ∃ e l r p F, Reads (normalizeEq "y = x".toList) e ∧ Reads "y".toList l ∧ Reads "x".toList r ∧
      parseSympy bbCoords objs name.text l r = .ok p ∧ compileText bbCoords objs [name.text] [e] = .ok F ∧
      ∀ x0 x1 y0 y1 y2 y3 : ℝ,
        wrapForScipy F objs [] bbCoords [x0, x1, y0, y1, y2, y3] [] = .ok [y0 - x0, y1 - x1, y2 - x0, y3 - x1] ∧
        demanded bbCoords [] objs [x0, x1, y0, y1, y2, y3] ⟨name, p.lhs, p.rhs⟩ =
          [y0 - x0, y1 - x0, y2 - x1, y3 - x1] := by
  refine ⟨.sub (.var "y".toList) (.var "x".toList), .var "y".toList, .var "x".toList, _, _,
    ⟨_, rfl, 20, rfl⟩, ⟨_, rfl, 20, rfl⟩, ⟨_, rfl, 20, rfl⟩, rfl, rfl, ?_⟩
  intro x0 x1 y0 y1 y2 y3
  exact ⟨rfl, rfl⟩

/-- **C76 (counterexample).**  `y = x` with `x` over `j` and `y` over `i`: sympy reads one equation for every
pair of labels, the pytensor back-end pairs the entries by position. -/
theorem C76_pairing_counterexample :
    let objs : List ModelObject := [{ name := "x", dims := ["j".toList] }, { name := "y", dims := ["i".toList] }]
    let name : Template := [.lit "copy ".toList, .dim "i".toList]
    ∃ e l r p F, Reads (normalizeEq "y = x".toList) e ∧ Reads "y".toList l ∧ Reads "x".toList r ∧
      parseSympy bbCoords objs name.text l r = .ok p ∧ compileText bbCoords objs [name.text] [e] = .ok F ∧
      ∀ x0 x1 y0 y1 : ℝ,
        wrapForScipy F objs [] bbCoords [x0, x1, y0, y1] [] = .ok [y0 - x0, y1 - x1] ∧
        demanded bbCoords [] objs [x0, x1, y0, y1] ⟨name, p.lhs, p.rhs⟩ =
          [y0 - x0, y0 - x1, y1 - x0, y1 - x1] := by
  refine ⟨.sub (.var "y".toList) (.var "x".toList), .var "y".toList, .var "x".toList, _, _,
    ⟨_, rfl, 20, rfl⟩, ⟨_, rfl, 20, rfl⟩, ⟨_, rfl, 20, rfl⟩, rfl, rfl, ?_⟩
  intro x0 x1 y0 y1
  exact ⟨rfl, rfl⟩

/-- **C76 (counterexample).**  Objects whose dims are not in the order of the coordinates: the residuals are
the same but in another order, and only those of sympy are in the order of the names of the equations. -/
theorem C76_order_counterexample :
    let objs : List ModelObject := [{ name := "x", dims := ["j".toList, "i".toList] }, { name := "y" }]
    let name : Template := [.lit "copy ".toList, .dim "i".toList, .dim "j".toList]
    ∃ e l r p F, Reads (normalizeEq "x = y".toList) e ∧ Reads "x".toList l ∧ Reads "y".toList r ∧
      parseSympy bbCoords objs name.text l r = .ok p ∧ compileText bbCoords objs [name.text] [e] = .ok F ∧
      unpackedEquationNames [name.text] bbCoords =
        .ok ["copy ac".toList, "copy ad".toList, "copy bc".toList, "copy bd".toList] ∧
      ∀ x0 x1 x2 x3 y : ℝ,
        wrapForScipy F objs [] bbCoords [x0, x1, x2, x3, y] [] = .ok [x0 - y, x1 - y, x2 - y, x3 - y] ∧
        demanded bbCoords [] objs [x0, x1, x2, x3, y] ⟨name, p.lhs, p.rhs⟩ =
          [x0 - y, x2 - y, x1 - y, x3 - y] := by
  refine ⟨.sub (.var "x".toList) (.var "y".toList), .var "x".toList, .var "y".toList, _, _,
    ⟨_, rfl, 20, rfl⟩, ⟨_, rfl, 20, rfl⟩, ⟨_, rfl, 20, rfl⟩, rfl, rfl, by decide +kernel, ?_⟩
  intro x0 x1 x2 x3 y
  exact ⟨rfl, rfl⟩

/-- **C76 (counterexample).**  Without markers in its name a vector equation is accepted by the pytensor
back-end and compiled, but every call raises. -/
theorem C76_missing_marker_counterexample :
    let objs : List ModelObject := [{ name := "x", dims := ["i".toList] }, { name := "y", dims := ["i".toList] }]
    ∃ e F, Reads (normalizeEq "y = x".toList) e ∧ compileText bbCoords objs ["copy".toList] [e] = .ok F ∧
      ∀ x0 x1 y0 y1 : ℝ, wrapForScipy F objs [] bbCoords [x0, x1, y0, y1] [] = .error .assertion := by
  refine ⟨.sub (.var "y".toList) (.var "x".toList), _, ⟨_, rfl, 20, rfl⟩, rfl, ?_⟩
  intro x0 x1 y0 y1
  rfl

end Verif
