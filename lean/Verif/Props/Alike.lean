import Verif.Props.Rename

/-!
# C106: labels that are alike stay alike
-/

namespace Verif

open SymExpr

/-- The entry of `s₂` for any labels is the entry of `s` for their images under `π`. -/
def Mirrored (π : Str → Str) (coords : Coords) (objs : List ModelObject) (s s₂ : List ℝ) : Prop :=
  s.length = totalSize coords objs ∧ s₂.length = totalSize coords objs ∧
    ∀ o ∈ objs, ∀ ls ∈ product (o.dims.map (labelsOf coords)),
      arrayEntry coords objs s₂ o.name (ls.map sympifyLabel) =
        arrayEntry coords objs s o.name ((ls.map π).map sympifyLabel)

/-- The entries of the arrays are the same for all labels and their images under `π`. -/
abbrev Alike (π : Str → Str) (coords : Coords) (objs : List ModelObject) (s : List ℝ) : Prop :=
  Mirrored π coords objs s s

/-- New labels only. -/
def onLabels (π : Str → Str) (hπ : Function.Injective π) : Renaming :=
  ⟨id, id, π, Function.injective_id, Function.injective_id, hπ⟩

/-- Every label that is picked in the expression is left alone by `π`. -/
def PicksFixed (π : Str → Str) (e : RExpr) : Prop :=
  ∀ v ∈ e.indexeds, ∀ s ∈ v.2, (∃ i, s = .idx i) ∨ ∃ l, s = sympifyLabel l ∧ ReadsBack l ∧ π l = l

section
variable {π : Str → Str} (hπ : Function.Injective π) {coords : Coords}

theorem onLabels_obj (o : ModelObject) : (onLabels π hπ).obj o = o := by
  cases o
  simp [Renaming.obj, onLabels]

theorem onLabels_objs (l : List ModelObject) : l.map (onLabels π hπ).obj = l := by
  have : (onLabels π hπ).obj = id := funext (onLabels_obj hπ)
  rw [this, List.map_id]

theorem onLabels_expr {e : RExpr} (h : PicksFixed π e) : (onLabels π hπ).expr e = e := by
  induction e with
  | num q => rfl
  | sym x => rfl
  | indexed b ix =>
    have h' := h (b, ix) (by simp [RExpr.indexeds])
    show RExpr.indexed b (ix.map _) = _
    congr 1
    conv => rhs; rw [← List.map_id ix]
    refine List.map_congr_left fun s hs => ?_
    rcases h' s hs with ⟨i, rfl⟩ | ⟨l, rfl, hl, hf⟩
    · rfl
    · rw [index_label _ hl]
      show sympifyLabel (π l) = _
      rw [hf]
      rfl
  | add a b iha ihb =>
    simp only [Renaming.expr]
    rw [iha fun v hv => h v (by simp [RExpr.indexeds, hv]), ihb fun v hv => h v (by simp [RExpr.indexeds, hv])]
  | mul a b iha ihb =>
    simp only [Renaming.expr]
    rw [iha fun v hv => h v (by simp [RExpr.indexeds, hv]), ihb fun v hv => h v (by simp [RExpr.indexeds, hv])]
  | pow a b iha ihb =>
    simp only [Renaming.expr]
    rw [iha fun v hv => h v (by simp [RExpr.indexeds, hv]), ihb fun v hv => h v (by simp [RExpr.indexeds, hv])]
  | log a iha =>
    simp only [Renaming.expr]
    rw [iha h]
  | exp a iha =>
    simp only [Renaming.expr]
    rw [iha h]
  | red op body lims ih =>
    simp only [Renaming.expr]
    rw [ih h]
    congr 1
    conv => rhs; rw [← List.map_id lims]
    rfl

theorem onLabels_eqs {eqs : List IndexedEq} (h : ∀ q ∈ eqs, PicksFixed π q.lhs ∧ PicksFixed π q.rhs) :
    eqs.map (onLabels π hπ).equation = eqs := by
  conv => rhs; rw [← List.map_id eqs]
  refine List.map_congr_left fun q hq => ?_
  obtain ⟨h1, h2⟩ := h q hq
  unfold Renaming.equation
  rw [onLabels_expr hπ h1, onLabels_expr hπ h2]
  cases q with
  | mk nm l r' =>
    show IndexedEq.mk _ _ _ = IndexedEq.mk _ _ _
    congr 1
    conv => rhs; rw [← List.map_id nm]
    refine List.map_congr_left fun g _ => ?_
    cases g <;> rfl

theorem onLabels_same (hp : ∀ d, ((labelsOf coords d).map π).Perm (labelsOf coords d)) :
    SameLabels coords ((onLabels π hπ).coords coords) where
  dims := by
    rw [dkeys_rename]
    show ((dkeys coords).map id).Perm _
    rw [List.map_id]
  labels := by
    intro d
    have := labelsOf_rename (onLabels π hπ) (coords := coords) d
    have e : labelsOf ((onLabels π hπ).coords coords) d = (labelsOf coords d).map π := this
    rw [e]
    exact hp d

theorem product_image (hp : ∀ d, ((labelsOf coords d).map π).Perm (labelsOf coords d)) (ds : List Str) :
    ((product (ds.map (labelsOf coords))).map (List.map π)).Perm (product (ds.map (labelsOf coords))) := by
  rw [← product_map]
  apply product_perm
  induction ds with
  | nil => exact .nil
  | cons d ds ih => exact .cons (hp d) ih

/-- Mirrored arrays are arrays with the same entries in the model with the labels exchanged. -/
theorem mirrored_iff (hp : ∀ d, ((labelsOf coords d).map π).Perm (labelsOf coords d)) (objs : List ModelObject)
    (hr : ∀ d, ∀ l ∈ labelsOf coords d, ReadsBack l) (s s₂ : List ℝ) :
    Mirrored π coords objs s s₂ ↔ SameEntries coords ((onLabels π hπ).coords coords) objs s s₂ := by
  have size : totalSize ((onLabels π hπ).coords coords) objs = totalSize coords objs :=
    (onLabels_same hπ hp).size objs
  have entry : ∀ (o : ModelObject), ∀ ls ∈ product (o.dims.map (labelsOf coords)),
      arrayEntry ((onLabels π hπ).coords coords) objs s₂ o.name ((ls.map π).map sympifyLabel) =
        arrayEntry coords objs s₂ o.name (ls.map sympifyLabel) := by
    intro o ls hls
    have hread : ∀ l ∈ ls, ReadsBack l ∧ ReadsBack (π l) := by
      intro l hl
      obtain ⟨d, -, hd⟩ := mem_product_label hls l hl
      exact ⟨hr d l hd, hr d _ ((hp d).mem_iff.1 (List.mem_map_of_mem hd))⟩
    have := arrayEntry_rename (coords := coords) (onLabels π hπ) objs s₂ o.name (ls.map sympifyLabel) (by
      intro t ht
      obtain ⟨l, hl, rfl⟩ := List.mem_map.1 ht
      obtain ⟨h1, h2⟩ := hread l hl
      rw [index_label _ h1, show labelText (sympifyLabel l) = l from h1]
      exact h2)
    rw [onLabels_objs] at this
    rw [← this]
    show arrayEntry _ _ _ o.name _ = arrayEntry _ _ _ o.name _
    congr 1
    rw [List.map_map, List.map_map]
    refine List.map_congr_left fun l hl => ?_
    exact (index_label (onLabels π hπ) (hread l hl).1).symm
  constructor
  · rintro ⟨hl, hl₂, h⟩
    refine ⟨hl, by rw [size]; exact hl₂, fun o ho ls hls => ?_⟩
    obtain ⟨ls', hls', rfl⟩ := List.mem_map.1 ((product_image hp o.dims).mem_iff.2 hls)
    rw [entry o ls' hls', h o ho ls' hls']
  · rintro ⟨hl, hl₂, h⟩
    refine ⟨hl, by rw [← size]; exact hl₂, fun o ho ls hls => ?_⟩
    rw [← entry o ls hls]
    exact h o ho _ ((product_image hp o.dims).mem_iff.1 (List.mem_map_of_mem hls))

end

variable {coords : Coords} {vars params : List ModelObject} {numeraire : Option ModelObject} {eqs : List IndexedEq}

theorem readsBack_exchanged {π : Str → Str} (hπ : Function.Injective π)
    (hp : ∀ d, ((labelsOf coords d).map π).Perm (labelsOf coords d))
    (h : IndexedModel coords vars params numeraire eqs) :
    (∀ d, ∀ l ∈ labelsOf coords d, ReadsBack l) ∧
      ∀ d, ∀ l ∈ labelsOf ((onLabels π hπ).coords coords) d, ReadsBack l := by
  have hread : ∀ d, ∀ l ∈ labelsOf coords d, ReadsBack l := fun d l hl =>
    (labels_readBack h.label_names d l hl).1
  exact ⟨hread, fun d l hm => hread d l (((onLabels_same hπ hp).labels d).mem_iff.1 hm)⟩

theorem imbalances_exchanged {π : Str → Str} (hπ : Function.Injective π)
    (hp : ∀ d, ((labelsOf coords d).map π).Perm (labelsOf coords d))
    (hpick : ∀ q ∈ eqs, PicksFixed π q.lhs ∧ PicksFixed π q.rhs)
    (h : IndexedModel coords vars params numeraire eqs) (s : List ℝ) :
    imbalances ((onLabels π hπ).coords coords) vars params numeraire eqs s =
      imbalances coords vars params numeraire eqs s := by
  have := imbalances_rename (onLabels π hπ) h (readsBack_exchanged hπ hp h).2 s
  rw [onLabels_objs, onLabels_objs, onLabels_eqs hπ hpick] at this
  have hn : numeraire.map (onLabels π hπ).obj = numeraire := by
    cases numeraire with
    | none => rfl
    | some o => rw [Option.map_some, onLabels_obj]
  rwa [hn] at this

/-- **C106 (equations).**  Let `π` exchange labels within their dims; the equations pick no label that `π` moves, and
their sums and products range over all labels.  At mirrored arrays the equations are off by the same amounts, up to their
order; so the mirror image of an equilibrium is an equilibrium. -/
theorem C106_equations {π : Str → Str} (hπ : Function.Injective π)
    (hp : ∀ d, ((labelsOf coords d).map π).Perm (labelsOf coords d))
    (hpick : ∀ q ∈ eqs, PicksFixed π q.lhs ∧ PicksFixed π q.rhs)
    (hw : ∀ q ∈ eqs, WholeRange coords q.lhs ∧ WholeRange coords q.rhs)
    (h : IndexedModel coords vars params numeraire eqs) (s s₂ : List ℝ)
    (hs : Mirrored π coords (solvedVars numeraire vars ++ params) s s₂) :
    (imbalances coords vars params numeraire eqs s₂).Perm (imbalances coords vars params numeraire eqs s) ∧
    ((∀ r ∈ imbalances coords vars params numeraire eqs s₂, r = 0) ↔
      ∀ r ∈ imbalances coords vars params numeraire eqs s, r = 0) := by
  have hl := onLabels_same hπ hp
  have hsame := (mirrored_iff hπ hp _ (readsBack_exchanged hπ hp h).1 s s₂).1 hs
  have hperm := allChoices_perm (numeraire := numeraire) (eqs := eqs) hl h.coords_nodup
  have key : (imbalances coords vars params numeraire eqs s₂).Perm (imbalances coords vars params numeraire eqs s) := by
    rw [← imbalances_exchanged hπ hp hpick h s₂, imbalances_relabel h hl hw s s₂ hsame, imbalances_choices coords]
    exact hperm.map _
  exact ⟨key, fun H r hr => H r (key.mem_iff.2 hr), fun H r hr => H r (key.mem_iff.1 hr)⟩

/-- **C106 (simulations).**  Let `π` exchange labels within their dims; the equations pick no label that `π` moves, and
their sums and products range over all labels.  A request and its mirror image give results that are each other's mirror
image: `simulate` with Euler steps only, when the Euler function returns for the first request and the equations can be
differentiated at the points it evaluates them at and at their mirror images. -/
theorem C106_simulate {π : Str → Str} (hπ : Function.Injective π)
    (hp : ∀ d, ((labelsOf coords d).map π).Perm (labelsOf coords d))
    (hpick : ∀ q ∈ eqs, PicksFixed π q.lhs ∧ PicksFixed π q.rhs)
    (hw : ∀ q ∈ eqs, WholeRange coords q.lhs ∧ WholeRange coords q.rhs)
    {es : List (SymExpr Str)} {b : EulerBackend} {dx : StepSolve ℝ} {env : SamEnv ℝ (List (NDArray ℝ))}
    (hm : BuiltOn coords vars params numeraire eqs es b dx env)
    (hsquare : es.length = totalSize coords (solvedVars numeraire vars))
    (fl : SimFlags) (add mul : NDArray ℝ → NDArray ℝ → NDArray ℝ) (h h₂ : Heap (NDArray ℝ)) (c c₂ : SimCall ℝ)
    (hr : RequestOK coords (solvedVars numeraire vars) params add mul h c)
    (hr₂ : RequestOK coords (solvedVars numeraire vars) params add mul h₂ c₂)
    (hini : Mirrored π coords (solvedVars numeraire vars ++ params)
      (initialFlat h c (solvedVars numeraire vars ++ params))
      (initialFlat h₂ c₂ (solvedVars numeraire vars ++ params)))
    (hfin : Mirrored π coords params (wantedFlat add mul h c params) (wantedFlat add mul h₂ c₂ params))
    (heul : c.useEuler = true) (hopt : c.useOptimizer = false) (h1 : 1 ≤ c.nIterEuler)
    (heul₂ : c₂.useEuler = true) (hopt₂ : c₂.useOptimizer = false) (hn₂ : c₂.nIterEuler = c.nIterEuler)
    (outs : List (NDArray ℝ))
    (hrun : env.euler (derefDict h c.initial) (wantedFlat add mul h c params) c.nIterEuler = .ok outs)
    (hreg : ∀ t, t < c.nIterEuler → ∀ s ∈ b.points dx (totalSize coords (solvedVars numeraire vars))
        (b.stateAfter (solvedVars numeraire vars) params (derefDict h c.initial) outs t)
        (stepVec c.nIterEuler (wantedFlat add mul h c params) (initialFlat h c params)),
      ∀ e ∈ es, Regular (flatPoint (scalarNames coords (solvedVars numeraire vars ++ params)) s) e ∧
        ∀ s₂, Mirrored π coords (solvedVars numeraire vars ++ params) s s₂ →
          Regular (flatPoint (scalarNames coords (solvedVars numeraire vars ++ params)) s₂) e) :
    ∃ e e₂ outs₂,
      simulateCompute (simEnvOf env (fun _ => false) fl add mul) h c = .ok ⟨some e, none, none, false⟩ ∧
      simulateCompute (simEnvOf env (fun _ => false) fl add mul) h₂ c₂ = .ok ⟨some e₂, none, none, false⟩ ∧
      env.euler (derefDict h₂ c₂.initial) (wantedFlat add mul h₂ c₂ params) c.nIterEuler = .ok outs₂ ∧
      (∀ t, t ≤ c.nIterEuler → Mirrored π coords (solvedVars numeraire vars ++ params)
        (b.stateAfter (solvedVars numeraire vars) params (derefDict h c.initial) outs t)
        (b.stateAfter (solvedVars numeraire vars) params (derefDict h₂ c₂.initial) outs₂ t)) ∧
      Mirrored π coords (solvedVars numeraire vars ++ params)
        (flatOf e.start (solvedVars numeraire vars ++ params))
        (flatOf e₂.start (solvedVars numeraire vars ++ params)) := by
  have hmod := (hm.stepsFrom hsquare).1
  have hcount := hm.count
  have hl := onLabels_same hπ hp
  have hread := (readsBack_exchanged hπ hp hmod).1
  have len : (allChoices coords numeraire eqs).length = (eqs.map (scalarCount coords numeraire)).sum := by
    rw [← length_imbalances coords vars params numeraire eqs [], imbalances_choices, List.length_map]
  obtain ⟨M, hM, hMG⟩ := relabel_matrix (params := params) hmod hl hw (by rw [len, ← hcount, hsquare])
  simp only [imbalances_exchanged hπ hp hpick hmod] at hMG
  have iff := fun objs hsub s s₂ => (mirrored_iff hπ hp objs hread s s₂).trans
    (model_same_iff hmod hl objs hsub s s₂)
  have hN := (solvedModel (numeraire := numeraire) hmod.scalar).scalars
  have i1 := (iff _ (List.Sublist.refl _) _ _).1 hini
  have i2 := (iff _ (List.sublist_append_right _ _) _ _).1 hfin
  have back := fun s s₂ => (iff (solvedVars numeraire vars ++ params) (List.Sublist.refl _) s s₂).2
  clear iff hini hfin
  obtain ⟨-, dx', A, B, hpts, hs⟩ := hm.stepsFrom hsquare
  simp only [← hpts] at hreg
  clear hm hpts dx
  rename' dx' => dx
  obtain ⟨hem, hce, hve, hpe, hcomp, hsteps, hsolve, hder⟩ := id hs
  have hlen := hs.lenOK
  clear hs
  generalize solvedVars numeraire vars = vs at *
  subst hve hpe
  have hce' := hce
  subst hce'
  obtain ⟨hcall, hinit, hsim⟩ := simulate_euler_only env b _ hsteps hem hlen hcomp fl add mul h c hr heul hopt h1
  obtain ⟨hcall₂, hinit₂, hsim₂⟩ := simulate_euler_only env b _ hsteps hem hlen hcomp fl add mul h₂ c₂ hr₂ heul₂ hopt₂
    (by rw [hn₂]; exact h1)
  rw [hn₂] at hsim₂
  rw [← hinit env.parameters (by simp +contextual)] at hreg
  rw [← hinit _ (fun _ ho => ho), ← hinit₂ _ (fun _ ho => ho)] at i1
  rw [hsteps] at hrun
  dsimp only at hrun
  obtain ⟨e, g1, -, -, g4⟩ := hsim outs hrun
  have split := fun x t hx => placeIn_append hl hN x t hx
  have hNv : (scalarNames env.coords env.variables).Nodup := by
    rw [scalarNames_append] at hN; exact (List.nodup_append.1 hN).1
  have hNp : (scalarNames env.coords env.parameters).Nodup := by
    rw [scalarNames_append] at hN; exact (List.nodup_append.1 hN).2.1
  have px := placeIn_perm hl hNv
  have lx := (flatOf_spec env.coords (derefDict h c.initial) env.variables fun o ho => hcall.shaped o (by simp [ho])).1
  have lx₂ := (flatOf_spec env.coords (derefDict h₂ c₂.initial) env.variables fun o ho =>
    hcall₂.shaped o (by simp [ho])).1
  have lall : totalSize env.coords (env.variables ++ env.parameters) =
    totalSize env.coords env.variables + totalSize env.coords env.parameters := totalSize_append _ _ _
  have hd := i1.2
  rw [flatOf_append, flatOf_append, split _ _ lx] at hd
  obtain ⟨fx, ft⟩ := List.append_inj hd (by rw [length_pickAt, px.length_eq, List.length_range, lx₂])
  obtain ⟨outs₂, hrun₂, hst⟩ := runs_placed rfl rfl px (placeIn_perm hl hNp) b b rfl dx dx _ _ _ _ A B A B
    hsolve hsolve hder hder
    ⟨M, hM, fun x t hx ht => by
      rw [← split x t hx]
      exact hMG _ (by rw [List.length_append, lall, hx, ht])⟩
    (derefDict h c.initial) (derefDict h₂ c₂.initial) _ _ c.nIterEuler hcall hcall₂ fx ft i2.2 outs hrun
    (fun t ht s hs => ⟨fun e he => (hreg t ht s hs e he).1, fun x y he hx hy => by
      rw [← split x y hx, ← he]
      intro e hmem
      exact (hreg t ht s hs e hmem).2 _ (back s _ ⟨by rw [he, List.length_append, lall, hx, hy], rfl⟩)⟩)
  obtain ⟨e₂, k1, -, -, k4⟩ := hsim₂ outs₂ hrun₂
  have hall : ∀ t, t ≤ c.nIterEuler → Mirrored π env.coords (env.variables ++ env.parameters)
      (b.stateAfter env.variables env.parameters (derefDict h c.initial) outs t)
      (b.stateAfter env.variables env.parameters (derefDict h₂ c₂.initial) outs₂ t) := by
    intro t ht
    obtain ⟨x, y, hx, hy, e1, e2⟩ := hst t ht
    refine back _ _ ⟨by rw [e1, List.length_append, lall, hx, hy], ?_⟩
    rw [e1, split x y hx, e2]
  refine ⟨e, e₂, outs₂, g1, k1, ?_, hall, by rw [g4, k4]; exact hall _ le_rfl⟩
  rw [hsteps]
  exact hrun₂

/-- **C106 (labels that are alike).**  When the initial and the final values are the same for all labels and their images,
then so are all states of the simulation. -/
theorem C106_alike {π : Str → Str} (hπ : Function.Injective π)
    (hp : ∀ d, ((labelsOf coords d).map π).Perm (labelsOf coords d))
    (hpick : ∀ q ∈ eqs, PicksFixed π q.lhs ∧ PicksFixed π q.rhs)
    (hw : ∀ q ∈ eqs, WholeRange coords q.lhs ∧ WholeRange coords q.rhs)
    {es : List (SymExpr Str)} {b : EulerBackend} {dx : StepSolve ℝ} {env : SamEnv ℝ (List (NDArray ℝ))}
    (hm : BuiltOn coords vars params numeraire eqs es b dx env)
    (hsquare : es.length = totalSize coords (solvedVars numeraire vars))
    (fl : SimFlags) (add mul : NDArray ℝ → NDArray ℝ → NDArray ℝ) (h : Heap (NDArray ℝ)) (c : SimCall ℝ)
    (hr : RequestOK coords (solvedVars numeraire vars) params add mul h c)
    (hini : Alike π coords (solvedVars numeraire vars ++ params)
      (initialFlat h c (solvedVars numeraire vars ++ params)))
    (hfin : Alike π coords params (wantedFlat add mul h c params))
    (heul : c.useEuler = true) (hopt : c.useOptimizer = false) (h1 : 1 ≤ c.nIterEuler)
    (outs : List (NDArray ℝ))
    (hrun : env.euler (derefDict h c.initial) (wantedFlat add mul h c params) c.nIterEuler = .ok outs)
    (hreg : ∀ t, t < c.nIterEuler → ∀ s ∈ b.points dx (totalSize coords (solvedVars numeraire vars))
        (b.stateAfter (solvedVars numeraire vars) params (derefDict h c.initial) outs t)
        (stepVec c.nIterEuler (wantedFlat add mul h c params) (initialFlat h c params)),
      ∀ e ∈ es, Regular (flatPoint (scalarNames coords (solvedVars numeraire vars ++ params)) s) e ∧
        ∀ s₂, Mirrored π coords (solvedVars numeraire vars ++ params) s s₂ →
          Regular (flatPoint (scalarNames coords (solvedVars numeraire vars ++ params)) s₂) e) :
    ∃ e, simulateCompute (simEnvOf env (fun _ => false) fl add mul) h c = .ok ⟨some e, none, none, false⟩ ∧
      (∀ t, t ≤ c.nIterEuler → Alike π coords (solvedVars numeraire vars ++ params)
        (b.stateAfter (solvedVars numeraire vars) params (derefDict h c.initial) outs t)) ∧
      Alike π coords (solvedVars numeraire vars ++ params) (flatOf e.start (solvedVars numeraire vars ++ params)) := by
  obtain ⟨e, e₂, outs₂, g1, g2, g3, g4, g5⟩ := C106_simulate hπ hp hpick hw hm hsquare fl add mul h h c c hr hr hini hfin
    heul hopt h1 heul hopt rfl outs hrun hreg
  have he : e₂ = e := by
    have := g2.symm.trans g1
    simp only [Except.ok.injEq] at this
    injection this with this
    exact Option.some.inj this
  have ho : outs₂ = outs := Except.ok.inj (g3.symm.trans hrun)
  subst he ho
  exact ⟨_, g1, g4, g5⟩

end Verif
