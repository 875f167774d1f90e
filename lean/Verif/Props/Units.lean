import Verif.Lemmas.Units
import Verif.Props.ReorderModels

/-!
# C92: simulations do not depend on the units of measurement
-/

namespace Verif

open SymExpr Filter Topology

/-! ### What is compared -/

/-- An array in other units, given one conversion factor for each of its cells. -/
def arrayInUnits (w : List ℝ) (a : NDArray ℝ) : NDArray ℝ := ⟨a.shape, inUnits w a.data⟩

/-- `u` has a conversion factor for each cell of each of the objects. -/
def UnitsFor (coords : Coords) (objs : List ModelObject) (u : Str → List ℝ) : Prop :=
  ∀ o ∈ objs, (u o.name).length = specSize coords o

/-- The conversion factors of a flat state. -/
def flatUnits (u : Str → List ℝ) (objs : List ModelObject) : List ℝ := objs.flatMap fun o => u o.name

/-- A state in other units: each of the named arrays is converted. -/
def ConvertedTo (coords : Coords) (objs : List ModelObject) (u : Str → List ℝ) (s s₂ : List ℝ) : Prop :=
  ∃ d d₂ : Dict Str (NDArray ℝ), (∀ o ∈ objs, DataFor coords d o) ∧ s = flatOf d objs ∧ s₂ = flatOf d₂ objs ∧
    ∀ o ∈ objs, dget d₂ o.name = (dget d o.name).map (arrayInUnits (u o.name))

/-- The `n` residuals do not care about the units: those of a converted state are one and the same invertible
combination of those of the state, for all states in `U`.  (For an equation all of whose terms are in one
unit, the combination multiplies its residual by the conversion factor of that unit.) -/
def UnitFree (coords : Coords) (objs : List ModelObject) (n : Nat) (u : Str → List ℝ) (U : List ℝ → Prop)
    (G : List ℝ → List ℝ) : Prop :=
  ∃ R : Matrix (Fin n) (Fin n) ℝ, IsUnit R.det ∧ ∀ s s₂, ConvertedTo coords objs u s s₂ → U s →
    toVec n (G s₂) = R.mulVec (toVec n (G s))

/-! ### Flat states -/

theorem flatUnits_append (u : Str → List ℝ) (as bs : List ModelObject) :
    flatUnits u (as ++ bs) = flatUnits u as ++ flatUnits u bs := by simp [flatUnits]

theorem length_flatUnits {coords : Coords} {objs : List ModelObject} {u : Str → List ℝ}
    (hu : UnitsFor coords objs u) : (flatUnits u objs).length = totalSize coords objs := by
  induction objs with
  | nil => rfl
  | cons o objs ih =>
    have h1 := hu o (by simp)
    have h2 := ih fun o ho => hu o (by simp [ho])
    simp only [flatUnits, totalSize, List.flatMap_cons, List.length_append, List.map_cons, List.sum_cons]
      at h2 ⊢
    rw [h1, h2]

theorem flatOf_inUnits {coords : Coords} {objs : List ModelObject} {u : Str → List ℝ}
    (hu : UnitsFor coords objs u) (d d₂ : Dict Str (NDArray ℝ)) (hd : ∀ o ∈ objs, DataFor coords d o)
    (h : ∀ o ∈ objs, dget d₂ o.name = (dget d o.name).map (arrayInUnits (u o.name))) :
    flatOf d₂ objs = inUnits (flatUnits u objs) (flatOf d objs) := by
  induction objs with
  | nil => rfl
  | cons o objs ih =>
    obtain ⟨a, g1, g2, g3⟩ := hd o (by simp)
    have e2 : flatOf d₂ (o :: objs) = inUnits (u o.name) a.data ++ flatOf d₂ objs := by
      have := h o (by simp)
      rw [g1] at this
      simp [flatOf, this, arrayInUnits]
    have e1 : flatOf d (o :: objs) = a.data ++ flatOf d objs := by simp [flatOf, g1]
    rw [e2, e1, ih (fun o ho => hu o (by simp [ho])) (fun o ho => hd o (by simp [ho]))
      fun o ho => h o (by simp [ho])]
    have : flatUnits u (o :: objs) = u o.name ++ flatUnits u objs := by simp [flatUnits]
    rw [this, inUnits_append]
    rw [hu o (by simp), g3, g2]
    rfl

theorem length_data_arrayInUnits {coords : Coords} {o : ModelObject} {w : List ℝ}
    (hw : w.length = specSize coords o) {a : NDArray ℝ} (h1 : a.shape = specShape coords o) (h2 : a.WF) :
    (arrayInUnits w a).shape = specShape coords o ∧ (arrayInUnits w a).WF := by
  refine ⟨h1, ?_⟩
  have : a.data.length = specSize coords o := by rw [h2, h1]; rfl
  show (inUnits w a.data).length = a.shape.prod
  rw [length_inUnits w a.data hw this, h1]
  rfl

theorem convertedTo_iff {coords : Coords} {objs : List ModelObject} {u : Str → List ℝ}
    (hn : (objs.map ModelObject.name).Nodup)
    (hu : UnitsFor coords objs u) (s s₂ : List ℝ) :
    ConvertedTo coords objs u s s₂ ↔ s.length = totalSize coords objs ∧ s₂ = inUnits (flatUnits u objs) s := by
  constructor
  · rintro ⟨d, d₂, hd, rfl, rfl, h⟩
    exact ⟨(flatOf_spec coords d objs hd).1, flatOf_inUnits hu d d₂ hd h⟩
  · rintro ⟨hl, rfl⟩
    obtain ⟨d, hd, rfl⟩ := exists_data coords objs hn s hl
    obtain ⟨d₂, hd₂, h₂⟩ := exists_data coords objs hn (inUnits (flatUnits u objs) (flatOf d objs))
      (length_inUnits _ _ (length_flatUnits hu) hl)
    refine ⟨d, d₂, hd, rfl, h₂.symm, ?_⟩
    have key := flatOf_inj coords objs d₂ (objs.map fun o => (o.name, arrayInUnits (u o.name)
      ((dget d o.name).getD ⟨[], []⟩))) hd₂
    have hget : ∀ o ∈ objs, dget (objs.map fun o => (o.name, arrayInUnits (u o.name)
        ((dget d o.name).getD ⟨[], []⟩))) o.name = (dget d o.name).map (arrayInUnits (u o.name)) := by
      intro o ho
      obtain ⟨a, g1, -, -⟩ := hd o ho
      rw [g1]
      refine dget_of_mem_nodup _ ?_ ?_
      · unfold dkeys; rw [List.map_map]; exact hn
      · exact List.mem_map.2 ⟨o, ho, by rw [g1]; rfl⟩
    intro o ho
    rw [key (by
      intro o ho
      obtain ⟨a, g1, g2, g3⟩ := hd o ho
      exact ⟨arrayInUnits (u o.name) a, by rw [hget o ho, g1]; rfl, length_data_arrayInUnits (hu o ho) g2 g3⟩)
      (by rw [h₂, flatOf_inUnits hu d _ hd hget]) o ho, hget o ho]

/-! ### The runs -/

theorem inUnits_zipWith {K : Type _} [Field K] (f : K → K → K) (hf : ∀ c a b, c * f a b = f (c * a) (c * b))
    (w a b : List K) : inUnits w (List.zipWith f a b) = List.zipWith f (inUnits w a) (inUnits w b) := by
  induction w generalizing a b with
  | nil => simp [inUnits]
  | cons c w ih =>
    cases a with
    | nil => simp [inUnits]
    | cons x a =>
      cases b with
      | nil => simp [inUnits]
      | cons y b =>
        have := ih a b
        simp only [inUnits, List.zipWith_cons_cons] at this ⊢
        rw [this, hf]

theorem inUnits_combines {K : Type _} [Field K] {n : Nat} (w : List K) (hw : w.length = n) :
    Combines n n (inUnits w) :=
  ⟨fun a ha => length_inUnits w a hw ha,
    fun a b _ _ => inUnits_zipWith _ (fun c a b => by ring) w a b,
    fun a b _ _ => inUnits_zipWith _ (fun c a b => by ring) w a b,
    fun a b _ _ => inUnits_zipWith _ (fun c a b => by ring) w a b,
    fun a b _ _ => inUnits_zipWith _ (fun c a b => by ring) w a b⟩

/-- A call with converted data gives the converted trajectory. -/
theorem runs_units (coords : Coords) {vs ps : List ModelObject} (b : EulerBackend)
    (dx : StepSolve ℝ) (G : List ℝ → List ℝ) (ok : List ℝ → Prop)
    (A : (Fin (totalSize coords vs) → ℝ) → (Fin (totalSize coords ps) → ℝ) →
      Matrix (Fin (totalSize coords vs)) (Fin (totalSize coords vs)) ℝ)
    (B : (Fin (totalSize coords vs) → ℝ) → (Fin (totalSize coords ps) → ℝ) →
      Matrix (Fin (totalSize coords vs)) (Fin (totalSize coords ps)) ℝ)
    (e : ∀ x t h, x.length = totalSize coords vs → t.length = totalSize coords ps →
      h.length = totalSize coords ps → dx x t h = (vecJac A B).solve x t h)
    (D : DerivativesOf G ok A B) (w v : List ℝ) (hw : w.length = totalSize coords vs)
    (hv : v.length = totalSize coords ps) (U : List ℝ → Prop) (hU : Movable U)
    (R : Matrix (Fin (totalSize coords vs)) (Fin (totalSize coords vs)) ℝ) (hR : IsUnit R.det)
    (hG : ∀ x t, x.length = totalSize coords vs → t.length = totalSize coords ps → U (x ++ t) →
      toVec _ (G (inUnits w x ++ inUnits v t)) = R.mulVec (toVec _ (G (x ++ t))))
    (data data₂ : Dict Str (NDArray ℝ)) (tf tf₂ : List ℝ) (n : Nat)
    (hc : EulerCall coords vs ps data tf) (hc₂ : EulerCall coords vs ps data₂ tf₂)
    (hx : flatOf data₂ vs = inUnits w (flatOf data vs)) (ht : flatOf data₂ ps = inUnits v (flatOf data ps))
    (htf : tf₂ = inUnits v tf)
    (outs : List (NDArray ℝ)) (hrun : runEuler b dx vs ps coords tf n data = .ok outs)
    (hP : ∀ t, t < n → ∀ s ∈ b.points dx (totalSize coords vs) (b.stateAfter vs ps data outs t)
      (stepVec n tf (flatOf data ps)), U s ∧ ok s ∧
        (s.length = totalSize coords (vs ++ ps) → ok (inUnits (w ++ v) s))) :
    ∃ outs₂, runEuler b dx vs ps coords tf₂ n data₂ = .ok outs₂ ∧
      ∀ t, t ≤ n → (b.stateAfter vs ps data outs t).length = totalSize coords (vs ++ ps) ∧
        b.stateAfter vs ps data₂ outs₂ t = inUnits (w ++ v) (b.stateAfter vs ps data outs t) := by
  have hdx : LenOK dx (totalSize coords vs) (totalSize coords ps) := by
    intro x t h d hx ht hh hd
    rw [e x t h hx ht hh] at hd
    exact (vecJac A B).lenOK x t h d hx ht hh hd
  have sh1 : ∀ o ∈ vs, DataFor coords data o := fun o ho => hc.shaped o (by simp [ho])
  have sh2 : ∀ o ∈ ps, DataFor coords data o := fun o ho => hc.shaped o (by simp [ho])
  have lx := (flatOf_spec coords data vs sh1).1
  have lt := (flatOf_spec coords data ps sh2).1
  have hs : (stepVec n tf (flatOf data ps)).length = totalSize coords ps := by
    simp [stepVec, lt, hc.final]
  have hstep : stepVec n tf₂ (flatOf data₂ ps) = inUnits v (stepVec n tf (flatOf data ps)) := by
    rw [ht, htf]
    exact stepVec_inUnits n v tf (flatOf data ps) (by rw [hc.final, lt]) (by rw [hv, hc.final])
  have hrun' := hrun
  rw [runEuler_eq b dx coords vs ps data tf n hc hdx] at hrun'
  cases hR₁ : eulerRows (jaxIncrement dx b.rk4) (stepVec n tf (flatOf data ps)) n (flatOf data vs)
      (flatOf data ps) with
  | error e => rw [hR₁] at hrun'; cases hrun'
  | ok rows =>
  have hrows := stateAfter_rows b dx coords vs ps data tf n hc hdx outs hrun rows hR₁
  have hR₂ := eulerRows_units (jaxIncrement dx b.rk4) (jaxIncrement dx b.rk4) _ _
    (jaxIncrement_len dx _ _ hdx _) w v hw hv _ hs
    (fun x t => ∀ p ∈ solvedAt dx b.rk4 x t (stepVec n tf (flatOf data ps)),
      U (p.1 ++ p.2) ∧ ok (p.1 ++ p.2) ∧ ok (inUnits w p.1 ++ inUnits v p.2))
    (by
      intro x t d hx ht hok hd
      refine jaxIncrement_map dx dx _ _ _ _ hdx _ _ (inUnits_combines w hw) (inUnits_combines v hv) _ x t _ d
        hx ht hs (fun p hp d hd => ?_) hd
      obtain ⟨hx, ht⟩ := solvedAt_len dx _ _ hdx _ x t _ hx ht hs p hp
      have hok := hok p hp
      rw [e _ _ _ hx ht hs] at hd
      rw [e _ _ _ (length_inUnits w _ hw hx) (length_inUnits v _ hv ht) (length_inUnits v _ hv hs)]
      exact solve_units w v hw hv G ok A B D R hR U hU hG _ _ _ d hx ht hs hok.1 hok.2.1 hok.2.2 hd)
    n _ _ lx lt rows hR₁
    (by
      intro j s hj hsj p hp
      obtain ⟨s', k1, k2, k3, k4⟩ := hrows j (by omega)
      rw [hsj, Option.some.injEq] at k1
      subst k1
      obtain ⟨l1, l2⟩ := solvedAt_len dx _ _ hdx _ _ _ _ k3 k4 hs p hp
      have hin : p.1 ++ p.2 ∈ b.points dx (totalSize coords vs) (b.stateAfter vs ps data outs j)
          (stepVec n tf (flatOf data ps)) := by
        unfold EulerBackend.points
        rw [k2, List.take_left' k3, List.drop_left' k3]
        exact List.mem_map.2 ⟨p, hp, rfl⟩
      obtain ⟨o1, o2, o3⟩ := hP j hj _ hin
      have o3 := o3 (by rw [List.length_append, totalSize_append, l1, l2])
      rw [inUnits_append _ _ _ _ (by rw [hw, l1])] at o3
      exact ⟨o1, o2, o3⟩)
  rw [← hstep, ← hx, ← ht] at hR₂
  obtain ⟨outs₂, hrun₂⟩ := runEuler_ok_of_rows b dx coords vs ps data₂ tf₂ n hc₂ hdx _ hR₂
  have hrows₂ := stateAfter_rows b dx coords vs ps data₂ tf₂ n hc₂ hdx outs₂ hrun₂ _ hR₂
  refine ⟨outs₂, hrun₂, fun t ht' => ?_⟩
  obtain ⟨s₁, k1, k2, k3, k4⟩ := hrows t ht'
  obtain ⟨s₂, m1, m2, -, -⟩ := hrows₂ t ht'
  have hs₂ : s₂ = (inUnits w s₁.1, inUnits v s₁.2) := by
    rw [hx, ht] at m1
    have : ((inUnits w (flatOf data vs), inUnits v (flatOf data ps)) ::
        rows.map fun r => (inUnits w r.1, inUnits v r.2)) =
        ((flatOf data vs, flatOf data ps) :: rows).map fun r => (inUnits w r.1, inUnits v r.2) := rfl
    rw [this, List.getElem?_map, k1, Option.map_some, Option.some.injEq] at m1
    exact m1.symm
  rw [k2, m2, hs₂]
  exact ⟨by rw [List.length_append, totalSize_append, k3, k4],
    (inUnits_append _ _ _ _ (by rw [hw, k3])).symm⟩

/-! ### The requests -/

/-- Two `simulate` calls for one model that ask for the same thing in different units, with the same options
for the Euler steps. -/
structure SameInUnits (vs ps : List ModelObject) (u : Str → List ℝ)
    (add mul : NDArray ℝ → NDArray ℝ → NDArray ℝ) (h : Heap (NDArray ℝ)) (c : SimCall ℝ)
    (h₂ : Heap (NDArray ℝ)) (c₂ : SimCall ℝ) : Prop where
  initial : ∀ o ∈ vs ++ ps,
    seen h₂ c₂.initial o.name = (seen h c.initial o.name).map (arrayInUnits (u o.name))
  wanted : ∀ p ∈ ps,
    wantedValue add mul h₂ c₂ p.name = (wantedValue add mul h c p.name).map (arrayInUnits (u p.name))
  steps : c₂.nIterEuler = c.nIterEuler
  euler : c.useEuler = true ∧ c₂.useEuler = true
  noOptimizer : c.useOptimizer = false ∧ c₂.useOptimizer = false

/-- Addition and multiplication of numpy arrays: cell by cell for two arrays of one shape, and an array times
a number. -/
structure CellByCell (add mul : NDArray ℝ → NDArray ℝ → NDArray ℝ) : Prop where
  add_same : ∀ a b : NDArray ℝ, a.shape = b.shape → add a b = ⟨a.shape, List.zipWith (· + ·) a.data b.data⟩
  mul_same : ∀ a b : NDArray ℝ, a.shape = b.shape → mul a b = ⟨a.shape, List.zipWith (· * ·) a.data b.data⟩
  mul_number : ∀ (a : NDArray ℝ) (k : ℝ), mul a ⟨[], [k]⟩ = ⟨a.shape, a.data.map (· * k)⟩

theorem inUnits_mul (w a b : List ℝ) :
    List.zipWith (· * ·) (inUnits w a) b = inUnits w (List.zipWith (· * ·) a b) := by
  induction w generalizing a b with
  | nil => simp [inUnits]
  | cons x w ih =>
    cases a with
    | nil => simp [inUnits]
    | cons y a =>
      cases b with
      | nil => simp [inUnits]
      | cons z b =>
        have := ih a b
        simp only [inUnits, List.zipWith_cons_cons] at this ⊢
        rw [this, mul_assoc]

theorem inUnits_map_mul (w a : List ℝ) (k : ℝ) :
    (inUnits w a).map (· * k) = inUnits w (a.map (· * k)) := by
  unfold inUnits
  rw [List.map_zipWith, List.zipWith_map_right]
  simp only [mul_assoc]

/-- **C92 (requests).**  New values and offsets given in the new units, and the same relative changes, ask for
the new values in the new units. -/
theorem C92_request {coords : Coords} {vs ps : List ModelObject} {u : Str → List ℝ}
    (hu : UnitsFor coords (vs ++ ps) u) {add mul : NDArray ℝ → NDArray ℝ → NDArray ℝ}
    (hops : CellByCell add mul) (h h₂ : Heap (NDArray ℝ)) (c c₂ : SimCall ℝ)
    (hr : RequestOK coords vs ps add mul h c)
    (hinit : ∀ o ∈ vs ++ ps,
      seen h₂ c₂.initial o.name = (seen h c.initial o.name).map (arrayInUnits (u o.name)))
    (hval : ∀ p ∈ ps, seen h₂ (c₂.finalValues.getD []) p.name =
      (seen h (c.finalValues.getD []) p.name).map (arrayInUnits (u p.name)))
    (hdelta : ∀ p ∈ ps, seen h₂ (c₂.finalDelta.getD []) p.name =
      (seen h (c.finalDelta.getD []) p.name).map (arrayInUnits (u p.name)))
    (hpct : ∀ p ∈ ps, seen h₂ (c₂.finalPct.getD []) p.name = seen h (c.finalPct.getD []) p.name)
    (hdshape : ∀ p ∈ ps, ∀ a, seen h (c.finalDelta.getD []) p.name = some a →
      a.shape = specShape coords p ∧ a.WF)
    (hpshape : ∀ p ∈ ps, ∀ a, seen h (c.finalPct.getD []) p.name = some a →
      a.shape = specShape coords p ∨ ∃ k, a = ⟨[], [k]⟩) :
    ∀ p ∈ ps, wantedValue add mul h₂ c₂ p.name =
      (wantedValue add mul h c p.name).map (arrayInUnits (u p.name)) := by
  intro p hp
  obtain ⟨x, x1, x2, x3⟩ := hr.shaped p (by simp [hp])
  have hi := hinit p (by simp [hp])
  have hlen := hu p (by simp [hp])
  have hxl : x.data.length = specSize coords p := by rw [x3, x2]; rfl
  unfold wantedValue wantedScenario
  rw [hval p hp, hdelta p hp, hpct p hp, hi, x1]
  cases hv : seen h (c.finalValues.getD []) p.name with
  | some v => rfl
  | none =>
    cases hd : seen h (c.finalDelta.getD []) p.name with
    | some a =>
      obtain ⟨a1, a2⟩ := hdshape p hp a hd
      have hal : a.data.length = specSize coords p := by rw [a2, a1]; rfl
      show some (add _ _) = some (arrayInUnits _ (add x a))
      rw [hops.add_same x a (by rw [x2, a1]), hops.add_same _ _ (by show x.shape = a.shape; rw [x2, a1])]
      show some (NDArray.mk x.shape _) = some (NDArray.mk x.shape _)
      rw [inUnits_add _ _ _ (by rw [hxl, hal]) (by rw [hlen, hxl])]
      rfl
    | none =>
      cases hk : seen h (c.finalPct.getD []) p.name with
      | none => rfl
      | some a =>
        show some (mul _ _) = some (arrayInUnits _ (mul x a))
        rcases hpshape p hp a hk with a1 | ⟨k, rfl⟩
        · rw [hops.mul_same x a (by rw [x2, a1]), hops.mul_same _ _ (by show x.shape = a.shape; rw [x2, a1])]
          show some (NDArray.mk x.shape _) = some (NDArray.mk x.shape _)
          rw [← inUnits_mul]
          rfl
        · rw [hops.mul_number, hops.mul_number]
          show some (NDArray.mk x.shape _) = some (NDArray.mk x.shape _)
          rw [← inUnits_map_mul]
          rfl

/-! ### The theorems -/

variable {coords : Coords} {vars params : List ModelObject} {numeraire : Option ModelObject}
  {eqs : List IndexedEq}

/-- **C92 (simulations).**  One model, built for any back-end, whose residuals do not care about the units, and
two `simulate` calls that ask for the same thing in different units.  Let the Euler function, called as the
first `simulate` calls it, return, and let the powers and logarithms be defined at the points at which it
solved for a direction (with Euler steps, the states it went through), in both units.  Then both `simulate` calls return, and every state of the second
trajectory, the final one included, is the state of the first in the other units. -/
theorem C92_simulate {es : List (SymExpr Str)} {b : EulerBackend} {dx : StepSolve ℝ}
    {env : SamEnv ℝ (List (NDArray ℝ))}
    (hm : BuiltOn coords vars params numeraire eqs es b dx env)
    (hsquare : es.length = totalSize coords (solvedVars numeraire vars))
    (u : Str → List ℝ) (hu : UnitsFor coords (solvedVars numeraire vars ++ params) u)
    (U : List ℝ → Prop) (hU : Movable U)
    (hfree : UnitFree coords (solvedVars numeraire vars ++ params) es.length u U
      (imbalances coords vars params numeraire eqs))
    (fl : SimFlags) (add mul : NDArray ℝ → NDArray ℝ → NDArray ℝ)
    (h : Heap (NDArray ℝ)) (c : SimCall ℝ) (h₂ : Heap (NDArray ℝ)) (c₂ : SimCall ℝ)
    (hr : RequestOK coords (solvedVars numeraire vars) params add mul h c)
    (hr₂ : RequestOK coords (solvedVars numeraire vars) params add mul h₂ c₂)
    (hsame : SameInUnits (solvedVars numeraire vars) params u add mul h c h₂ c₂)
    (h1 : 1 ≤ c.nIterEuler) (outs : List (NDArray ℝ))
    (hrun : env.euler (derefDict h c.initial) (wantedFlat add mul h c params) c.nIterEuler = .ok outs)
    (hreg : ∀ t, t < c.nIterEuler → ∀ s ∈ b.points dx (totalSize coords (solvedVars numeraire vars))
        (b.stateAfter (solvedVars numeraire vars) params (derefDict h c.initial) outs t)
        (stepVec c.nIterEuler (wantedFlat add mul h c params) (initialFlat h c params)),
      U s ∧ ∀ s₂, (s₂ = s ∨ ConvertedTo coords (solvedVars numeraire vars ++ params) u s s₂) →
        ∀ e ∈ es, Regular (flatPoint (scalarNames coords (solvedVars numeraire vars ++ params)) s₂) e) :
    ∃ e e₂ outs₂,
      simulateCompute (simEnvOf env (fun _ => false) fl add mul) h c = .ok ⟨some e, none, none, false⟩ ∧
      simulateCompute (simEnvOf env (fun _ => false) fl add mul) h₂ c₂ = .ok ⟨some e₂, none, none, false⟩ ∧
      env.euler (derefDict h₂ c₂.initial) (wantedFlat add mul h₂ c₂ params) c.nIterEuler = .ok outs₂ ∧
      (∀ t, t ≤ c.nIterEuler → ConvertedTo coords (solvedVars numeraire vars ++ params) u
        (b.stateAfter (solvedVars numeraire vars) params (derefDict h c.initial) outs t)
        (b.stateAfter (solvedVars numeraire vars) params (derefDict h₂ c₂.initial) outs₂ t)) ∧
      ∀ o ∈ solvedVars numeraire vars ++ params, DataFor coords e.start o ∧
        dget e₂.start o.name = (dget e.start o.name).map (arrayInUnits (u o.name)) := by
  obtain ⟨hmod, dx', A, B, hpts, hs⟩ := hm.stepsFrom hsquare
  simp only [← hpts] at hreg
  clear hm hpts dx
  rename' dx' => dx
  obtain ⟨M, hM, hMG⟩ := hfree
  have hn := (solvedModel (numeraire := numeraire) hmod.scalar).names
  obtain ⟨hem, hce, hve, hpe, hcomp, hsteps, hsolve, hder⟩ := id hs
  have hl := hs.lenOK
  obtain ⟨sinit, swant, ssteps, ⟨heul, heul₂⟩, hopt, hopt₂⟩ := hsame
  generalize solvedVars numeraire vars = vs at *
  subst hce hve hpe
  revert M
  rw [hsquare]
  intro M hM hMG
  have hu1 : UnitsFor env.coords env.variables u := fun o ho => hu o (by simp [ho])
  have hu2 : UnitsFor env.coords env.parameters u := fun o ho => hu o (by simp [ho])
  have hconv := convertedTo_iff hn hu
  obtain ⟨hcall, hini, hsim⟩ := simulate_euler_only env b _ hsteps hem hl hcomp fl add mul h c hr heul hopt h1
  obtain ⟨hcall₂, hini₂, hsim₂⟩ := simulate_euler_only env b _ hsteps hem hl hcomp fl add mul h₂ c₂ hr₂ heul₂
    hopt₂ (by rw [ssteps]; exact h1)
  rw [hsteps] at hrun
  dsimp only at hrun
  obtain ⟨e, g1, g2, g3, g4⟩ := hsim outs hrun
  -- the converted data
  have hflat : ∀ (objs : List ModelObject), (∀ o ∈ objs, o ∈ env.variables ++ env.parameters) →
      flatOf (derefDict h₂ c₂.initial) objs =
        inUnits (flatUnits u objs) (flatOf (derefDict h c.initial) objs) := by
    intro objs hobjs
    rw [hini objs hobjs, hini₂ objs hobjs]
    unfold initialFlat
    induction objs with
    | nil => rfl
    | cons o objs ih =>
      have ho := hobjs o (by simp)
      obtain ⟨a, a1, a2, a3⟩ := hr.shaped o ho
      have e := sinit o ho
      have hf : flatUnits u (o :: objs) = u o.name ++ flatUnits u objs := by simp [flatUnits]
      rw [List.flatMap_cons, List.flatMap_cons, ih fun o ho => hobjs o (by simp [ho]), e, a1, hf,
        inUnits_append]
      · rfl
      · show (u o.name).length = a.data.length
        rw [hu o ho, a3, a2]
        rfl
  have hwant : wantedFlat add mul h₂ c₂ env.parameters =
      inUnits (flatUnits u env.parameters) (wantedFlat add mul h c env.parameters) := by
    have hp : ∀ objs : List ModelObject, (∀ o ∈ objs, o ∈ env.parameters) →
        wantedFlat add mul h₂ c₂ objs = inUnits (flatUnits u objs) (wantedFlat add mul h c objs) := by
      intro objs hobjs
      unfold wantedFlat
      induction objs with
      | nil => rfl
      | cons o objs ih =>
        have ho := hobjs o (by simp)
        obtain ⟨a, a1, a2⟩ := hr.sized o ho
        have e := swant o ho
        have hf : flatUnits u (o :: objs) = u o.name ++ flatUnits u objs := by simp [flatUnits]
        rw [List.flatMap_cons, List.flatMap_cons, ih fun o ho => hobjs o (by simp [ho]), e, a1, hf,
          inUnits_append]
        · rfl
        · show (u o.name).length = a.data.length
          rw [hu2 o ho, a2]
    exact hp _ fun _ ho => ho
  have hlu := length_flatUnits hu1
  obtain ⟨outs₂, hrun₂, hst⟩ := runs_units env.coords b dx _ _ A B hsolve hder
    (flatUnits u env.variables) (flatUnits u env.parameters) hlu (length_flatUnits hu2)
    U hU M hM
    (by
      intro x t hx ht hxt
      refine hMG _ _ ((hconv _ _).2 ⟨by rw [List.length_append, totalSize_append, hx, ht], ?_⟩) hxt
      rw [flatUnits_append, inUnits_append _ _ _ _ (by rw [hlu, hx])])
    (derefDict h c.initial) (derefDict h₂ c₂.initial) _ _ c.nIterEuler hcall hcall₂
    (hflat _ (by simp +contextual)) (hflat _ (by simp +contextual)) hwant outs hrun
    (by
      intro t ht s hs
      rw [hini env.parameters (by simp +contextual)] at hs
      obtain ⟨q1, q2⟩ := hreg t ht s hs
      exact ⟨q1, q2 _ (Or.inl rfl), fun hlen => q2 _ (Or.inr ((hconv _ _).2 ⟨hlen, by rw [flatUnits_append]⟩))⟩)
  have hst' : ∀ t, t ≤ c.nIterEuler → ConvertedTo env.coords (env.variables ++ env.parameters) u
      (b.stateAfter env.variables env.parameters (derefDict h c.initial) outs t)
      (b.stateAfter env.variables env.parameters (derefDict h₂ c₂.initial) outs₂ t) := by
    intro t ht
    rw [hconv, flatUnits_append]
    exact hst t ht
  obtain ⟨e₂, k1, k2, k3, k4⟩ := hsim₂ outs₂ (by rw [ssteps]; exact hrun₂)
  refine ⟨e, e₂, outs₂, g1, k1, ?_, hst', ?_⟩
  · rw [hsteps]
    exact hrun₂
  · obtain ⟨d, d₂, w1, w2, w3, w4⟩ := hst' _ le_rfl
    rw [w2] at g4
    rw [ssteps, w3] at k4
    have i1 := flatOf_inj env.coords _ e.start d g3 w1 g4
    have i2 := flatOf_inj env.coords _ e₂.start d₂ k3
      (by
        intro o ho
        obtain ⟨a, a1, a2, a3⟩ := w1 o ho
        exact ⟨arrayInUnits (u o.name) a, by rw [w4 o ho, a1]; rfl, length_data_arrayInUnits (hu o ho) a2 a3⟩)
      k4
    intro o ho
    exact ⟨g3 o ho, by rw [i1 o ho, i2 o ho, w4 o ho]⟩

/-- **C92 (solutions).**  A state solves the equations if and only if it solves them in the other units. -/
theorem C92_solutions (n : Nat) (hcount : (eqs.map (scalarCount coords numeraire)).sum = n)
    (u : Str → List ℝ) (U : List ℝ → Prop)
    (hfree : UnitFree coords (solvedVars numeraire vars ++ params) n u U
      (imbalances coords vars params numeraire eqs))
    (s s₂ : List ℝ) (hs : ConvertedTo coords (solvedVars numeraire vars ++ params) u s s₂) (hin : U s) :
    (∀ r ∈ imbalances coords vars params numeraire eqs s₂, r = 0) ↔
      ∀ r ∈ imbalances coords vars params numeraire eqs s, r = 0 := by
  obtain ⟨R, hR, hG⟩ := hfree
  have hg := hG s s₂ hs hin
  have hl := fun s => (length_imbalances coords vars params numeraire eqs s).trans hcount
  have zero : ∀ l : List ℝ, l.length = n → ((∀ r ∈ l, r = 0) ↔ toVec n l = 0) := by
    intro l hl
    constructor
    · intro h
      funext i
      have hi : i.val < l.length := by rw [hl]; exact i.isLt
      simp only [toVec, List.getElem?_eq_getElem hi, Option.getD_some]
      exact h _ (List.getElem_mem hi)
    · intro h r hr
      obtain ⟨i, hi, rfl⟩ := List.getElem_of_mem hr
      have := congrFun h ⟨i, by rw [← hl]; exact hi⟩
      simpa [toVec, List.getElem?_eq_getElem hi] using this
  rw [zero _ (hl s₂), zero _ (hl s), hg]
  constructor
  · intro h
    exact mulVec_inj_of_isUnit R hR _ _ (by rw [h, Matrix.mulVec_zero])
  · intro h
    rw [h, Matrix.mulVec_zero]

/-- States with any numbers can be moved. -/
theorem movable_all : Movable fun _ => True := fun _ _ _ _ => Filter.Eventually.of_forall fun _ => trivial

/-- So can states with positive numbers. -/
theorem movable_pos : Movable fun s => ∀ x ∈ s, 0 < x := by
  intro s hs k hk
  have : 0 < s.getD k 0 := by
    rw [List.getD_eq_getElem?_getD, List.getElem?_eq_getElem hk]
    exact hs _ (List.getElem_mem hk)
  filter_upwards [lt_mem_nhds this] with v hv x hx
  rcases List.mem_or_eq_of_mem_set hx with h | rfl
  · exact hs x h
  · exact hv

/-! ### Examples: `x * x = p` with `x` in halves and `p` in quarters -/

/-- Two of the new units make one old unit of `x`, four make one of `p`. -/
def sqUnits (n : Str) : List ℝ := if n = "x".toList then [2] else [4]

theorem sqUnitsFor : UnitsFor [] (solvedVars none sqVars ++ sqParams) sqUnits := by
  intro o ho
  have : o = { name := "x" } ∨ o = { name := "p" } := by
    simpa [sqVars, sqParams, solvedVars] using ho
  rcases this with rfl | rfl <;> simp [sqUnits, specSize, specShape]

theorem sqUnits_flat : flatUnits sqUnits (solvedVars none sqVars ++ sqParams) = [2, 4] := by
  simp [flatUnits, sqUnits, sqVars, sqParams, solvedVars]

theorem sqUnitFree : UnitFree [] (solvedVars none sqVars ++ sqParams) 1 sqUnits (fun _ => True)
    (imbalances [] sqVars sqParams none sqEqs) := by
  refine ⟨Matrix.diagonal fun _ => 4, by simp, ?_⟩
  intro s s₂ hs _
  obtain ⟨hl, rfl⟩ := (convertedTo_iff (by decide +kernel) sqUnitsFor _ _).1 hs
  rw [sqUnits_flat]
  obtain ⟨x, p, rfl⟩ : ∃ x p, s = [x, p] := by
    match s, hl with
    | [x, p], _ => exact ⟨x, p, rfl⟩
  show toVec 1 (imbalances [] sqVars sqParams none sqEqs [2 * x, 4 * p]) = _
  rw [sqImbalances, sqImbalances]
  funext i
  rw [Matrix.mulVec_diagonal]
  have : i = 0 := Subsingleton.elim _ _
  subst this
  show 2 * x * (2 * x) - 4 * p = 4 * (x * x - p)
  ring

/-- The call `riseCall` in one step. -/
def stepCall : SimCall ℝ := { riseCall with nIterEuler := 1 }

/-- The same in the new units: `x = 2`, `p` from 4 to 16. -/
def stepCall₂ : SimCall ℝ where
  initial := [("x".toList, .num ⟨[], [2]⟩), ("p".toList, .num ⟨[], [4]⟩)]
  finalValues := some [("p".toList, .num ⟨[], [16]⟩)]
  useOptimizer := false
  nIterEuler := 1

theorem stepRequest₂ (add mul : NDArray ℝ → NDArray ℝ → NDArray ℝ) :
    RequestOK [] (solvedVars none sqVars) sqParams add mul [] stepCall₂ where
  nodup := by simp [stepCall₂, dkeys]
  exact := by intro n; simp [stepCall₂, dkeys, sqVars, sqParams, solvedVars]
  distinct := by simp [stepCall₂, dkeys]
  some_change := by simp [stepCall₂, dkeys]
  known := by simp [stepCall₂, dkeys]
  valid := by simp [stepCall₂, ValidRefs, refsOf]
  unshared := by simp [stepCall₂, refsOf]
  shaped := by
    intro o ho
    have : o = { name := "x" } ∨ o = { name := "p" } := by
      simpa [sqVars, sqParams, solvedVars] using ho
    rcases this with rfl | rfl
    · exact ⟨⟨[], [2]⟩, rfl, rfl, rfl⟩
    · exact ⟨⟨[], [4]⟩, rfl, rfl, rfl⟩
  sized := by
    intro o ho
    have : o = { name := "p" } := by simpa [sqParams] using ho
    subst this
    exact ⟨⟨[], [16]⟩, rfl, rfl⟩

theorem stepSame (add mul : NDArray ℝ → NDArray ℝ → NDArray ℝ) :
    SameInUnits (solvedVars none sqVars) sqParams sqUnits add mul [] stepCall [] stepCall₂ where
  initial := by
    intro o ho
    have : o = { name := "x" } ∨ o = { name := "p" } := by
      simpa [sqVars, sqParams, solvedVars] using ho
    rcases this with rfl | rfl
    · show some (NDArray.mk [] [(2 : ℝ)]) = some (arrayInUnits (sqUnits "x".toList) ⟨[], [1]⟩)
      simp [arrayInUnits, sqUnits, inUnits]
    · show some (NDArray.mk [] [(4 : ℝ)]) = some (arrayInUnits (sqUnits "p".toList) ⟨[], [1]⟩)
      simp [arrayInUnits, sqUnits, inUnits]
  wanted := by
    intro o ho
    have : o = { name := "p" } := by simpa [sqParams] using ho
    subst this
    show some (NDArray.mk [] [(16 : ℝ)]) = some (arrayInUnits (sqUnits "p".toList) ⟨[], [4]⟩)
    simp [arrayInUnits, sqUnits, inUnits]
    norm_num
  steps := rfl
  euler := ⟨rfl, rfl⟩
  noOptimizer := ⟨rfl, rfl⟩

theorem sq_solve (x t d : ℝ) (hx : x ≠ 0) : (vecJac sqA sqB).solve [x] [t] [d] = .ok [d / (2 * x)] := by
  have hdet : ((vecJac sqA sqB).A [x] [t]).det = 2 * x := Matrix.det_unique (n := Fin 1) _
  have hu : IsUnit ((vecJac sqA sqB).A [x] [t]).det := by
    rw [hdet, isUnit_iff_ne_zero]
    exact mul_ne_zero two_ne_zero hx
  rw [(vecJac sqA sqB).solve_of_isUnit [x] [t] [d] hu]
  have key : ((vecJac sqA sqB).A [x] [t]).mulVec (fun _ => d / (2 * x)) =
      -(((vecJac sqA sqB).B [x] [t]).mulVec (toVec (totalSize [] sqParams) [d])) := by
    funext i
    show ∑ j : Fin 1, 2 * x * (d / (2 * x)) = -∑ k : Fin 1, (-1 : ℝ) * toVec 1 [d] k
    simp [toVec]
    field_simp
  have : -(((vecJac sqA sqB).A [x] [t])⁻¹.mulVec (((vecJac sqA sqB).B [x] [t]).mulVec
      (toVec (totalSize [] sqParams) [d]))) = fun _ => d / (2 * x) := by
    rw [← Matrix.mulVec_neg, ← key, Matrix.mulVec_mulVec, Matrix.nonsing_inv_mul _ hu, Matrix.one_mulVec]
  rw [this]
  rfl

theorem vzip_one (f : ℝ → ℝ → ℝ) (a b : ℝ) : vzip f [a] [b] = .ok [f a b] := rfl

/-- One step of either kind from `x = p = 1` succeeds. -/
theorem sq_increment (rk4 : Bool) : ∃ d, jaxIncrement (vecJac sqA sqB).solve rk4 [1] [1] [3] = .ok d := by
  cases rk4 with
  | false => exact ⟨_, sq_solve 1 1 3 one_ne_zero⟩
  | true =>
    unfold jaxIncrement
    rw [if_pos rfl, sq_solve 1 1 3 one_ne_zero]
    dsimp only [Bind.bind, Except.bind]
    rw [vzip_one, vzip_one]
    dsimp only [List.zipWith_cons_cons, List.zipWith_nil_left]
    rw [sq_solve _ _ _ (by norm_num)]
    dsimp only
    rw [vzip_one]
    dsimp only [List.zipWith_cons_cons, List.zipWith_nil_left]
    rw [sq_solve _ _ _ (by norm_num)]
    dsimp only
    rw [vzip_one, vzip_one]
    dsimp only [List.zipWith_cons_cons, List.zipWith_nil_left]
    rw [sq_solve _ _ _ (by norm_num)]
    exact ⟨_, rfl⟩

/-- The two simulations, on any back-end that differentiates the residuals: `x` in the second is twice `x` in
the first. -/
example (b : EulerBackend) (hb : b ≠ .numba) (fl : SimFlags) (add mul : NDArray ℝ → NDArray ℝ → NDArray ℝ) :
    ∃ env e e₂,
      simulateCompute (simEnvOf env (fun _ => false) fl add mul) [] stepCall =
        .ok ⟨some e, none, none, false⟩ ∧
      simulateCompute (simEnvOf env (fun _ => false) fl add mul) [] stepCall₂ =
        .ok ⟨some e₂, none, none, false⟩ ∧
      ∃ a, dget e.start "x".toList = some a ∧ dget e₂.start "x".toList = some (arrayInUnits [2] a) := by
  obtain ⟨F, hF⟩ := sqBuiltFrom
  have hmod := riseModelOn b hb F hF
  have hm : BuiltOn [] sqVars sqParams none sqEqs sqEs b (vecJac sqA sqB).solve (riseEnvOn b F) :=
    Or.inl ⟨sqA, sqB, rfl, hmod⟩
  have hr : RequestOK [] (solvedVars none sqVars) sqParams add mul [] stepCall := by
    obtain ⟨a1, a2, a3, a4, a5, a6, a7, a8, a9⟩ := riseRequest add mul
    exact ⟨a1, a2, a3, a4, a5, a6, a7, a8, a9⟩
  have hl : LenOK (vecJac sqA sqB).solve (totalSize [] (solvedVars none sqVars)) (totalSize [] sqParams) :=
    (vecJac sqA sqB).lenOK
  have hcall := (euler_setup b (vecJac sqA sqB).solve (riseEnvOn b F) hmod.steps hmod.euler hl rfl rfl
    rfl (List.cons_ne_nil _ _) fl add mul [] stepCall hr rfl rfl).1
  obtain ⟨outs, hrun⟩ : ∃ outs, (riseEnvOn b F).euler (derefDict [] stepCall.initial)
      (wantedFlat add mul [] stepCall sqParams) stepCall.nIterEuler = .ok outs := by
    have h3 : stepVec 1 [4] [1] = [(3 : ℝ)] := by norm_num [stepVec]
    obtain ⟨d, hd⟩ := sq_increment b.rk4
    obtain ⟨rows, hrows⟩ : ∃ rows, eulerRows (jaxIncrement (vecJac sqA sqB).solve b.rk4) (stepVec 1 [4] [1]) 1
        [1] [1] = .ok rows := by
      rw [h3, eulerRows, hd]
      exact ⟨_, rfl⟩
    exact runEuler_ok_of_rows b _ _ _ _ _ _ _ hcall hl rows hrows
  obtain ⟨e, e₂, outs₂, g1, g2, -, -, g5⟩ := C92_simulate hm rfl sqUnits sqUnitsFor _ movable_all sqUnitFree fl
    add mul [] stepCall [] stepCall₂ hr (stepRequest₂ add mul) (stepSame add mul) (by decide) outs hrun
    (fun _ _ _ _ => ⟨trivial, fun _ _ => sqRegular _⟩)
  refine ⟨_, e, e₂, g1, g2, ?_⟩
  obtain ⟨⟨a, a1, -, -⟩, h2⟩ := g5 { name := "x" } (by simp [sqVars, solvedVars])
  refine ⟨a, a1, ?_⟩
  rw [a1] at h2
  exact h2

/-- The hypotheses of `C92_request`: the price rises by a half in both units. -/
example {add mul : NDArray ℝ → NDArray ℝ → NDArray ℝ} (hops : CellByCell add mul) :
    wantedValue add mul [] { stepCall₂ with finalValues := none, finalPct := some [("p".toList, .num ⟨[], [1.5]⟩)] }
        "p".toList =
      (wantedValue add mul [] { stepCall with finalValues := none, finalPct := some [("p".toList, .num ⟨[], [1.5]⟩)] }
        "p".toList).map (arrayInUnits [4]) := by
  have hs := stepSame add mul
  have := C92_request (coords := []) sqUnitsFor hops [] []
    { stepCall with finalValues := none, finalPct := some [("p".toList, .num ⟨[], [1.5]⟩)] }
    { stepCall₂ with finalValues := none, finalPct := some [("p".toList, .num ⟨[], [1.5]⟩)] }
    (by
      obtain ⟨a1, a2, a3, a4, a5, a6, a7, a8, a9⟩ := riseRequest add mul
      refine ⟨a1, a2, by simp [dkeys, stepCall, riseCall], by simp [dkeys], by simp [dkeys, stepCall, riseCall],
        ⟨a6.1, by simp [ValidRefs, refsOf], by simp [ValidRefs, refsOf, stepCall, riseCall],
          by simp [ValidRefs, refsOf]⟩, a7, a8, ?_⟩
      intro o ho
      have : o = { name := "p" } := by simpa [sqParams] using ho
      subst this
      refine ⟨mul ⟨[], [1]⟩ ⟨[], [1.5]⟩, rfl, ?_⟩
      rw [hops.mul_number]
      rfl)
    hs.initial (fun _ _ => rfl) (fun _ _ => rfl) (fun _ _ => rfl)
    (by intro p _ a h; simp [seen, stepCall, riseCall] at h)
    (by
      intro p hp a h
      have : p = { name := "p" } := by simpa [sqParams] using hp
      subst this
      right
      refine ⟨1.5, ?_⟩
      have h' : some (NDArray.mk [] [(1.5 : ℝ)]) = some a := h
      injection h' with h'
      exact h'.symm)
    { name := "p" } (by simp [sqParams])
  exact this

/-- The hypotheses of `C92_solutions`: `x = 3`, `p = 9` is a solution, and so is `x = 6`, `p = 36`. -/
example : ∀ r ∈ imbalances [] sqVars sqParams none sqEqs [6, 36], r = 0 := by
  refine (C92_solutions 1 rfl sqUnits (fun _ => True) sqUnitFree [3, 9] [6, 36] ?_ trivial).2 ?_
  · rw [convertedTo_iff (by decide +kernel) sqUnitsFor, sqUnits_flat]
    refine ⟨rfl, ?_⟩
    simp [inUnits]
    norm_num
  · rw [sqImbalances]
    norm_num

/-- **The verdict of the equilibrium check depends on the units**: with all quantities in thousands the state
`x = 1.001`, `y = 1`, `p = 2.001` passes with the tolerance `0.0001`; in single units, `x = 1001`, `y = 1000`,
`p = 2001`, it is reported not to be an equilibrium.  The equations are `x + y = p` and `x = y`. -/
theorem C92_check_counterexample :
    UnitFree [] (solvedVars none duoVars ++ sqParams) 2 (fun _ => [1000]) (fun _ => True)
      (imbalances [] duoVars sqParams none duoEqs) ∧
    checkForEquilibrium (fun v t => imbalances [] duoVars sqParams none duoEqs (v ++ t)) true
      (solvedVars none duoVars) sqParams [] (duoEqs.flatMap (filledNames [] none))
      (.dict (duoState 1.001 1 2.001)) 0.0001 = .ok .found ∧
    ∃ l, checkForEquilibrium (fun v t => imbalances [] duoVars sqParams none duoEqs (v ++ t)) true
      (solvedVars none duoVars) sqParams [] (duoEqs.flatMap (filledNames [] none))
      (.dict (duoState 1001 1000 2001)) 0.0001 = .ok (.notFound l) := by
  have hval : ∀ x y p : ℝ, imbalances [] duoVars sqParams none duoEqs [x, y, p] = [x + y - p, x - y] :=
    fun _ _ _ => rfl
  have hsc := solvedModel (numeraire := none) duoModel.scalar
  have hpk := fun x y p => pack_flat [] (duoState x y p) (solvedVars none duoVars) sqParams (List.cons_ne_nil _ _)
    (List.cons_ne_nil _ _) (duoState_ok x y p).data
  refine ⟨⟨Matrix.diagonal fun _ => 1000, by simp, ?_⟩, ?_, ?_⟩
  · intro s s₂ hs _
    have huf : UnitsFor [] (solvedVars none duoVars ++ sqParams) fun _ => [1000] := by
      intro o ho
      have : o = { name := "x" } ∨ o = { name := "y" } ∨ o = { name := "p" } := by
        simpa [duoVars, sqParams, solvedVars] using ho
      rcases this with rfl | rfl | rfl <;> rfl
    obtain ⟨hl, rfl⟩ := (convertedTo_iff (by decide +kernel) huf _ _).1 hs
    obtain ⟨x, y, p, rfl⟩ : ∃ x y p, s = [x, y, p] := by
      match s, hl with
      | [x, y, p], _ => exact ⟨x, y, p, rfl⟩
    show toVec 2 (imbalances [] duoVars sqParams none duoEqs [1000 * x, 1000 * y, 1000 * p]) = _
    rw [hval, hval]
    funext i
    rw [Matrix.mulVec_diagonal]
    fin_cases i
    · show 1000 * x + 1000 * y - 1000 * p = 1000 * (x + y - p)
      ring
    · show 1000 * x - 1000 * y = 1000 * (x - y)
      ring
  · rw [check_eq _ true [] _ sqParams _ _ (.dict (duoState 1.001 1 2.001)) _ hsc.known hsc.names
      (List.cons_ne_nil _ _) (List.cons_ne_nil _ _) (duoState_ok _ _ _) rfl _ _ (hpk _ _ _)]
    have : imbalances [] duoVars sqParams none duoEqs (flatOf (duoState 1.001 1 2.001) (solvedVars none duoVars) ++
        flatOf (duoState 1.001 1 2.001) sqParams) = [(1.001 + 1 - 2.001 : ℝ), 1.001 - 1] := rfl
    rw [this]
    unfold eqReport
    rw [if_pos]
    simp only [sumSq, List.map_cons, List.map_nil, List.sum_cons, List.sum_nil]
    norm_num
  · rw [check_eq _ true [] _ sqParams _ _ (.dict (duoState 1001 1000 2001)) _ hsc.known hsc.names
      (List.cons_ne_nil _ _) (List.cons_ne_nil _ _) (duoState_ok _ _ _) rfl _ _ (hpk _ _ _)]
    have : imbalances [] duoVars sqParams none duoEqs (flatOf (duoState 1001 1000 2001) (solvedVars none duoVars) ++
        flatOf (duoState 1001 1000 2001) sqParams) = [(1001 + 1000 - 2001 : ℝ), 1001 - 1000] := rfl
    rw [this]
    unfold eqReport
    rw [if_neg, if_neg]
    · exact ⟨_, rfl⟩
    · exact List.cons_ne_nil _ _
    · simp only [sumSq, List.map_cons, List.map_nil, List.sum_cons, List.sum_nil]
      norm_num

end Verif
