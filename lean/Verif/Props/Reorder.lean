import Verif.Lemmas.ReorderEqs
import Verif.Lemmas.EulerPoints

/-!
# C83: the order of declarations and the form of the equations do not matter
-/

namespace Verif

open SymExpr

/-! ### What is compared -/

/-- Two flat vectors with the same named arrays, each in the order of its own declarations. -/
def SameArrays {K : Type _} [Field K] (coords : Coords) (objs₁ objs₂ : List ModelObject) (s₁ s₂ : List K) :
    Prop :=
  ∃ d : Dict Str (NDArray K), (∀ o ∈ objs₁, DataFor coords d o) ∧ s₁ = flatOf d objs₁ ∧ s₂ = flatOf d objs₂

/-- At the same named arrays, the values `G₂` are one and the same invertible combination of the values
`G₁`: `n` numbers each. -/
def Recombined (coords : Coords) (objs₁ objs₂ : List ModelObject) (n : Nat) (G₁ G₂ : List ℝ → List ℝ) :
    Prop :=
  ∃ R : Matrix (Fin n) (Fin n) ℝ, IsUnit R.det ∧ ∀ d : Dict Str (NDArray ℝ),
    (∀ o ∈ objs₁, DataFor coords d o) →
      toVec n (G₂ (flatOf d objs₂)) = R.mulVec (toVec n (G₁ (flatOf d objs₁)))

/-! ### The runs -/

section
variable {K : Type _} [Field K]

/-- The states a caller reads off are the rows of the recursion. -/
theorem stateAfter_rows (b : EulerBackend) (dx : StepSolve K) (coords : Coords)
    (vars params : List ModelObject) (data : Dict Str (NDArray K)) (tf : List K) (n : Nat)
    (hc : EulerCall coords vars params data tf)
    (hdx : LenOK dx (totalSize coords vars) (totalSize coords params)) (outs : List (NDArray K))
    (h : runEuler b dx vars params coords tf n data = .ok outs) (R : List (List K × List K))
    (hR : eulerRows (jaxIncrement dx b.rk4) (stepVec n tf (flatOf data params)) n (flatOf data vars)
      (flatOf data params) = .ok R) :
    ∀ t, t ≤ n → ∃ s, ((flatOf data vars, flatOf data params) :: R)[t]? = some s ∧
      b.stateAfter vars params data outs t = s.1 ++ s.2 ∧
      s.1.length = totalSize coords vars ∧ s.2.length = totalSize coords params := by
  obtain ⟨S, h0, h1, h2⟩ := stateAfter_spec b dx coords vars params data tf n hc hdx outs h
  have key : ∀ t, t ≤ n → ((flatOf data vars, flatOf data params) :: R)[t]? = some (S t) := by
    intro t
    induction t with
    | zero => intro _; rw [h0]; rfl
    | succ t ih =>
      intro ht
      obtain ⟨x1, t1, d, g1, g2, g3⟩ := eulerRows_steps _ _ n _ _ R hR t (by omega)
      obtain ⟨d', k1, k2⟩ := h2 t (by omega)
      rw [ih (by omega), Option.some.injEq] at g1
      rw [g1] at k1 k2
      rw [g2, Except.ok.injEq] at k1
      rw [List.getElem?_cons_succ, g3, k2, k1]
  exact fun t ht => ⟨S t, key t ht, (h1 t ht).1, (h1 t ht).2⟩

end

theorem pickAt_combines {K : Type _} [Field K] {idx : List Nat} {n : Nat} (h : ∀ k ∈ idx, k < n) :
    Combines (K := K) n idx.length (pickAt 0 idx) := by
  have key : ∀ (f : K → K → K) (a b : List K), a.length = n → b.length = n →
      pickAt 0 idx (List.zipWith f a b) = List.zipWith f (pickAt 0 idx a) (pickAt 0 idx b) :=
    fun f a b ha hb => pickAt_zipWith 0 idx f a b (fun k hk => by rw [ha]; exact h k hk)
      (fun k hk => by rw [hb]; exact h k hk)
  exact ⟨fun a _ => length_pickAt 0 idx a, key _, key _, key _, key _⟩

/-- A well formed call of one model is one of the model declared in another order. -/
theorem runs_pick (coords : Coords) {vs₁ ps₁ vs₂ ps₂ : List ModelObject} (hv : vs₂.Perm vs₁)
    (hp : ps₂.Perm ps₁) (b₁ b₂ : EulerBackend) (hb : b₂.rk4 = b₁.rk4)
    (dx₁ dx₂ : StepSolve ℝ) (G₁ G₂ : List ℝ → List ℝ) (ok₁ ok₂ : List ℝ → Prop)
    (A₁ : (Fin (totalSize coords vs₁) → ℝ) → (Fin (totalSize coords ps₁) → ℝ) →
      Matrix (Fin (totalSize coords vs₁)) (Fin (totalSize coords vs₁)) ℝ)
    (B₁ : (Fin (totalSize coords vs₁) → ℝ) → (Fin (totalSize coords ps₁) → ℝ) →
      Matrix (Fin (totalSize coords vs₁)) (Fin (totalSize coords ps₁)) ℝ)
    (A₂ : (Fin (totalSize coords vs₂) → ℝ) → (Fin (totalSize coords ps₂) → ℝ) →
      Matrix (Fin (totalSize coords vs₂)) (Fin (totalSize coords vs₂)) ℝ)
    (B₂ : (Fin (totalSize coords vs₂) → ℝ) → (Fin (totalSize coords ps₂) → ℝ) →
      Matrix (Fin (totalSize coords vs₂)) (Fin (totalSize coords ps₂)) ℝ)
    (e₁ : ∀ x t h, x.length = totalSize coords vs₁ → t.length = totalSize coords ps₁ →
      h.length = totalSize coords ps₁ → dx₁ x t h = (vecJac A₁ B₁).solve x t h)
    (e₂ : ∀ x t h, x.length = totalSize coords vs₂ → t.length = totalSize coords ps₂ →
      h.length = totalSize coords ps₂ → dx₂ x t h = (vecJac A₂ B₂).solve x t h)
    (D₁ : DerivativesOf G₁ ok₁ A₁ B₁) (D₂ : DerivativesOf G₂ ok₂ A₂ B₂)
    (hG : Recombined coords (vs₁ ++ ps₁) (vs₂ ++ ps₂) (totalSize coords vs₁) G₁ G₂)
    (data : Dict Str (NDArray ℝ)) (tf₁ tf₂ : List ℝ) (n : Nat)
    (hc₁ : EulerCall coords vs₁ ps₁ data tf₁) (hc₂ : EulerCall coords vs₂ ps₂ data tf₂)
    (hn : ((vs₁ ++ ps₁).map ModelObject.name).Nodup)
    (f : ModelObject → List ℝ) (hf : ∀ o ∈ ps₁, (f o).length = specSize coords o)
    (ht₁ : tf₁ = (ps₁.map f).flatten) (ht₂ : tf₂ = (ps₂.map f).flatten)
    (outs₁ : List (NDArray ℝ)) (hrun : runEuler b₁ dx₁ vs₁ ps₁ coords tf₁ n data = .ok outs₁)
    (hP : ∀ t, t < n → ∀ s ∈ b₁.points dx₁ (totalSize coords vs₁) (b₁.stateAfter vs₁ ps₁ data outs₁ t)
      (stepVec n tf₁ (flatOf data ps₁)), ok₁ s ∧
        ∀ s₂, SameArrays coords (vs₁ ++ ps₁) (vs₂ ++ ps₂) s s₂ → ok₂ s₂) :
    ∃ outs₂, runEuler b₂ dx₂ vs₂ ps₂ coords tf₂ n data = .ok outs₂ ∧
      ∀ t, t ≤ n → SameArrays coords (vs₁ ++ ps₁) (vs₂ ++ ps₂) (b₁.stateAfter vs₁ ps₁ data outs₁ t)
        (b₂.stateAfter vs₂ ps₂ data outs₂ t) := by
  obtain ⟨ix, px, -, fx⟩ := perm_flat (K := ℝ) coords hv
  obtain ⟨it, pt, gt, ft⟩ := perm_flat (K := ℝ) coords hp
  have hdx₁ : LenOK dx₁ (totalSize coords vs₁) (totalSize coords ps₁) := by
    intro x t h d hx ht hh hd
    rw [e₁ x t h hx ht hh] at hd
    exact (vecJac A₁ B₁).lenOK x t h d hx ht hh hd
  have hdx₂ : LenOK dx₂ (totalSize coords vs₂) (totalSize coords ps₂) := by
    intro x t h d hx ht hh hd
    rw [e₂ x t h hx ht hh] at hd
    exact (vecJac A₂ B₂).lenOK x t h d hx ht hh hd
  have sh1 : ∀ o ∈ vs₁, DataFor coords data o := fun o ho => hc₁.shaped o (by simp [ho])
  have sh2 : ∀ o ∈ ps₁, DataFor coords data o := fun o ho => hc₁.shaped o (by simp [ho])
  have lx := (flatOf_spec coords data vs₁ sh1).1
  have lt := (flatOf_spec coords data ps₁ sh2).1
  have hlx : ∀ k ∈ ix, k < totalSize coords vs₁ := fun k hk => List.mem_range.1 (px.mem_iff.1 hk)
  have hlt : ∀ k ∈ it, k < totalSize coords ps₁ := fun k hk => List.mem_range.1 (pt.mem_iff.1 hk)
  have lix : ix.length = totalSize coords vs₁ := by rw [px.length_eq, List.length_range]
  have lit : it.length = totalSize coords ps₁ := by rw [pt.length_eq, List.length_range]
  have svx := totalSize_perm (coords := coords) hv
  have svp := totalSize_perm (coords := coords) hp
  have hs : (stepVec n tf₁ (flatOf data ps₁)).length = totalSize coords ps₁ := by
    simp [stepVec, lt, hc₁.final]
  have hstep : stepVec n tf₂ (flatOf data ps₂) = pickAt 0 it (stepVec n tf₁ (flatOf data ps₁)) := by
    unfold stepVec
    rw [pickAt_zipWith 0 it _ _ _ (fun k hk => by rw [hc₁.final]; exact hlt k hk)
      (fun k hk => by rw [lt]; exact hlt k hk), ← ft data sh2, ht₂, gt f hf, ← ht₁]
  -- the rows of the first run
  have hrun' := hrun
  rw [runEuler_eq b₁ dx₁ coords vs₁ ps₁ data tf₁ n hc₁ hdx₁] at hrun'
  cases hR : eulerRows (jaxIncrement dx₁ b₁.rk4) (stepVec n tf₁ (flatOf data ps₁)) n (flatOf data vs₁)
      (flatOf data ps₁) with
  | error e => rw [hR] at hrun'; cases hrun'
  | ok R =>
  have hrows₁ := stateAfter_rows b₁ dx₁ coords vs₁ ps₁ data tf₁ n hc₁ hdx₁ outs₁ hrun R hR
  have same : ∀ x t, x.length = totalSize coords vs₁ → t.length = totalSize coords ps₁ →
      ∃ d : Dict Str (NDArray ℝ), (∀ o ∈ vs₁ ++ ps₁, DataFor coords d o) ∧
        x ++ t = flatOf d (vs₁ ++ ps₁) ∧ pickAt 0 ix x ++ pickAt 0 it t = flatOf d (vs₂ ++ ps₂) := by
    intro x t hx ht
    obtain ⟨d, hd, hflat⟩ := exists_data coords (vs₁ ++ ps₁) hn (x ++ t)
      (by rw [List.length_append, totalSize_append, hx, ht])
    have hd1 : ∀ o ∈ vs₁, DataFor coords d o := fun o ho => hd o (by simp [ho])
    have hd2 : ∀ o ∈ ps₁, DataFor coords d o := fun o ho => hd o (by simp [ho])
    have l1 := (flatOf_spec coords d vs₁ hd1).1
    rw [flatOf_append] at hflat
    obtain ⟨q1, q2⟩ := List.append_inj hflat (by rw [l1, hx])
    exact ⟨d, hd, by rw [flatOf_append, q1, q2], by rw [flatOf_append, fx d hd1, ft d hd2, q1, q2]⟩
  obtain ⟨M, hM, hMG⟩ := hG
  have hR₂ := eulerRows_pick (jaxIncrement dx₁ b₁.rk4) (jaxIncrement dx₂ b₁.rk4) _ _
    (jaxIncrement_len dx₁ _ _ hdx₁ _) ix it hlx hlt _ hs
    (fun x t => ∀ p ∈ solvedAt dx₁ b₁.rk4 x t (stepVec n tf₁ (flatOf data ps₁)),
      ok₁ (p.1 ++ p.2) ∧ ok₂ (pickAt 0 ix p.1 ++ pickAt 0 it p.2))
    (by
      intro x t d hx ht hok hd
      refine jaxIncrement_map dx₁ dx₂ _ _ _ _ hdx₁ _ _ (pickAt_combines hlx) (pickAt_combines hlt) _ x t _ d
        hx ht hs (fun p hp d hd => ?_) hd
      obtain ⟨hx, ht⟩ := solvedAt_len dx₁ _ _ hdx₁ _ x t _ hx ht hs p hp
      have hok := hok p hp
      rw [e₁ _ _ _ hx ht hs] at hd
      rw [e₂ _ _ _ (by rw [length_pickAt, lix, svx]) (by rw [length_pickAt, lit, svp])
        (by rw [length_pickAt, lit, svp])]
      revert A₂ B₂ D₂
      rw [svx, svp]
      intro A₂ B₂ _ D₂
      exact solve_pick px pt G₁ G₂ ok₁ ok₂ A₁ A₂ B₁ B₂ D₁ D₂ M hM
        (by
          intro x' t' hx' ht'
          obtain ⟨d', w1, w2, w3⟩ := same x' t' hx' ht'
          rw [w2, w3]
          exact hMG d' w1) _ _ _ d hx ht hs hok.1 hok.2 hd)
    n _ _ lx lt R hR
    (by
      intro j s hj hsj p hp
      obtain ⟨s', k1, k2, k3, k4⟩ := hrows₁ j (by omega)
      rw [hsj, Option.some.injEq] at k1
      subst k1
      obtain ⟨l1, l2⟩ := solvedAt_len dx₁ _ _ hdx₁ _ _ _ _ k3 k4 hs p hp
      have hin : p.1 ++ p.2 ∈ b₁.points dx₁ (totalSize coords vs₁) (b₁.stateAfter vs₁ ps₁ data outs₁ j)
          (stepVec n tf₁ (flatOf data ps₁)) := by
        unfold EulerBackend.points
        rw [k2, List.take_left' k3, List.drop_left' k3]
        exact List.mem_map.2 ⟨p, hp, rfl⟩
      obtain ⟨o1, o2⟩ := hP j hj _ hin
      obtain ⟨d', w1, w2, w3⟩ := same p.1 p.2 l1 l2
      exact ⟨o1, o2 _ ⟨d', w1, w2, w3⟩⟩)
  rw [← hstep, ← fx data sh1, ← ft data sh2] at hR₂
  rw [← hb] at hR₂
  obtain ⟨outs₂, hrun₂⟩ := runEuler_ok_of_rows b₂ dx₂ coords vs₂ ps₂ data tf₂ n hc₂ hdx₂ _ hR₂
  have hrows₂ := stateAfter_rows b₂ dx₂ coords vs₂ ps₂ data tf₂ n hc₂ hdx₂ outs₂ hrun₂ _ hR₂
  refine ⟨outs₂, hrun₂, fun t ht => ?_⟩
  obtain ⟨s₁, k1, k2, k3, k4⟩ := hrows₁ t ht
  obtain ⟨s₂, m1, m2, -, -⟩ := hrows₂ t ht
  have hs₂ : s₂ = (pickAt 0 ix s₁.1, pickAt 0 it s₁.2) := by
    rw [fx data sh1, ft data sh2] at m1
    have : ((pickAt 0 ix (flatOf data vs₁), pickAt 0 it (flatOf data ps₁)) ::
        R.map fun r => (pickAt 0 ix r.1, pickAt 0 it r.2)) =
        ((flatOf data vs₁, flatOf data ps₁) :: R).map fun r => (pickAt 0 ix r.1, pickAt 0 it r.2) := rfl
    rw [this, List.getElem?_map, k1, Option.map_some, Option.some.injEq] at m1
    exact m1.symm
  obtain ⟨d', w1, w2, w3⟩ := same s₁.1 s₁.2 k3 k4
  rw [k2, m2, hs₂]
  exact ⟨d', w1, w2, w3⟩

/-! ### The models -/

/-- A model given by indexed equations, built for one of the back-ends: `es` are its scalar equations.  The
steps come from differentiating the residual graph (`dx` solves for the direction of a step), or from numba,
where they are derived symbolically and `dx` plays no role. -/
def BuiltOn (coords : Coords) (vars params : List ModelObject) (numeraire : Option ModelObject)
    (eqs : List IndexedEq) (es : List (SymExpr Str)) (b : EulerBackend) (dx : StepSolve ℝ)
    (env : SamEnv ℝ (List (NDArray ℝ))) : Prop :=
  (∃ A B, dx = (vecJac A B).solve ∧ EulerOnGraphs coords vars params numeraire eqs es b A B env) ∨
    (b = .numba ∧ numeraire = none ∧ ∃ order, EulerOnNumba coords vars params eqs es order env)

/-- What the back-ends have in common. -/
structure StepsFrom (coords : Coords) (vs ps : List ModelObject) (G : List ℝ → List ℝ)
    (ok : List ℝ → Prop) (b : EulerBackend) (env : SamEnv ℝ (List (NDArray ℝ))) (dx : StepSolve ℝ)
    (A : (Fin (totalSize coords vs) → ℝ) → (Fin (totalSize coords ps) → ℝ) →
      Matrix (Fin (totalSize coords vs)) (Fin (totalSize coords vs)) ℝ)
    (B : (Fin (totalSize coords vs) → ℝ) → (Fin (totalSize coords ps) → ℝ) →
      Matrix (Fin (totalSize coords vs)) (Fin (totalSize coords ps)) ℝ) : Prop where
  euler : EulerModel coords vs ps
  coords_eq : env.coords = coords
  variables_eq : env.variables = vs
  parameters_eq : env.parameters = ps
  compiled : env.compiled ≠ []
  steps : EulerIs env b dx
  solves : ∀ x t h, x.length = totalSize coords vs → t.length = totalSize coords ps →
    h.length = totalSize coords ps → dx x t h = (vecJac A B).solve x t h
  derivatives : DerivativesOf G ok A B

variable {coords : Coords} {vars params : List ModelObject} {numeraire : Option ModelObject}
  {eqs : List IndexedEq}

theorem BuiltOn.stepsFrom {es : List (SymExpr Str)} {b : EulerBackend} {dx : StepSolve ℝ}
    {env : SamEnv ℝ (List (NDArray ℝ))}
    (h : BuiltOn coords vars params numeraire eqs es b dx env)
    (hsquare : es.length = totalSize coords (solvedVars numeraire vars)) :
    IndexedModel coords vars params numeraire eqs ∧
    ∃ dx' A B, (∀ nx s h, b.points dx' nx s h = b.points dx nx s h) ∧
      StepsFrom coords (solvedVars numeraire vars) params
        (imbalances coords vars params numeraire eqs)
        (fun flat => ∀ e ∈ es, Regular (flatPoint (scalarNames coords
          (solvedVars numeraire vars ++ params)) flat) e) b env dx' A B := by
  have hlen := fun objs => length_scalarNames coords objs
  rcases h with ⟨A, B, rfl, hm⟩ | ⟨rfl, rfl, order, hm⟩
  · have hder := hm.imbalanceDerivatives
    rw [← scalarNames_append] at hder
    exact ⟨hm.model, _, A, B, fun _ _ _ => rfl, hm.euler, hm.coords_eq, hm.variables_eq, hm.parameters_eq,
      hm.compiled, hm.steps, fun _ _ _ _ _ _ => rfl, hder⟩
  · obtain ⟨hmod, hnames, hem, horder, hce, hve, hpe, hcomp, uv, up, K, hK, hsteps⟩ := hm
    obtain ⟨g1, g2, g3, g4⟩ := hK.values hmod
    have hsa := scalarNames_append coords vars params
    rw [g2, g3] at hsteps
    rw [hsa] at hnames g1 horder
    simp only [hsa] at g4
    have hdecl : ∀ e ∈ es, ∀ a, Mentions a e → a ∈ scalarNames coords vars ++ scalarNames coords params :=
      fun e he a ha => g1 e he a ((mem_atoms_iff a e).2 ha)
    rw [solvedVars_none] at hsquare ⊢
    refine ⟨hmod, _, symA _ _ (scalarNames coords vars) (scalarNames coords params) es,
      symB _ _ (scalarNames coords vars) (scalarNames coords params) es,
      fun _ _ _ => by rw [EulerBackend.points_plain _ rfl, EulerBackend.points_plain _ rfl],
      hem, hce, hve, hpe, hcomp, hsteps, ?_, ?_⟩
    · intro x t s hx ht hs
      exact numbaDX_eq order _ _ es hnames horder hdecl (hlen vars) (hlen params) hsquare x t s hx ht hs
    · rw [hsa]
      exact sym_derivativesOf _ _ es hnames.nodup (hlen vars) (hlen params) hsquare _ (fun flat _ => g4 flat)

theorem StepsFrom.lenOK {vs ps : List ModelObject} {G : List ℝ → List ℝ}
    {ok : List ℝ → Prop} {b : EulerBackend} {env : SamEnv ℝ (List (NDArray ℝ))} {dx : StepSolve ℝ}
    {A : (Fin (totalSize coords vs) → ℝ) → (Fin (totalSize coords ps) → ℝ) →
      Matrix (Fin (totalSize coords vs)) (Fin (totalSize coords vs)) ℝ}
    {B : (Fin (totalSize coords vs) → ℝ) → (Fin (totalSize coords ps) → ℝ) →
      Matrix (Fin (totalSize coords vs)) (Fin (totalSize coords ps)) ℝ}
    (h : StepsFrom coords vs ps G ok b env dx A B) :
    LenOK dx (totalSize coords vs) (totalSize coords ps) := by
  intro x t s d hx ht hs hd
  rw [h.solves x t s hx ht hs] at hd
  exact (vecJac A B).lenOK x t s d hx ht hs hd

/-- A request for one model is one for the model declared in another order. -/
theorem RequestOK.perm {vs₁ ps₁ vs₂ ps₂ : List ModelObject} (hv : vs₂.Perm vs₁) (hp : ps₂.Perm ps₁)
    {add mul : NDArray ℝ → NDArray ℝ → NDArray ℝ} {h : Heap (NDArray ℝ)} {c : SimCall ℝ}
    (hr : RequestOK coords vs₁ ps₁ add mul h c) : RequestOK coords vs₂ ps₂ add mul h c :=
  ⟨hr.nodup, fun n => (hr.exact n).trans (((hv.append hp).map _).mem_iff).symm, hr.distinct,
    hr.some_change, hr.known, hr.valid, hr.unshared, fun o ho => hr.shaped o ((hv.append hp).mem_iff.1 ho),
    fun p hpm => hr.sized p (hp.mem_iff.1 hpm)⟩

variable {vars₂ params₂ : List ModelObject} {eqs₂ : List IndexedEq}

/-- **C83 (simulations).**  Two models with the same objects, declared in any order, whose equations at the
same named arrays are off by amounts of which the ones are a fixed invertible combination of the others; each
built for any back-end, but both with Euler or both with Runge-Kutta steps.  Let the Euler function of the
first, called as `simulate` calls it, return, and let the powers and logarithms of both be defined at the
points at which it solved for a direction (with Euler steps, the states it went through).  Then
`simulate` with Euler steps only returns for both models, the states of the two trajectories are the same
arrays by name, and so are the final states. -/
theorem C83_simulate {es es₂ : List (SymExpr Str)} {b b₂ : EulerBackend} {dx dx₂ : StepSolve ℝ}
    {env env₂ : SamEnv ℝ (List (NDArray ℝ))}
    (hm : BuiltOn coords vars params numeraire eqs es b dx env)
    (hm₂ : BuiltOn coords vars₂ params₂ numeraire eqs₂ es₂ b₂ dx₂ env₂) (hb : b₂.rk4 = b.rk4)
    (hsquare : es.length = totalSize coords (solvedVars numeraire vars)) (hsame : es₂.length = es.length)
    (hv : vars₂.Perm vars) (hp : params₂.Perm params)
    (heqs : Recombined coords (solvedVars numeraire vars ++ params) (solvedVars numeraire vars₂ ++ params₂)
      es.length (imbalances coords vars params numeraire eqs)
      (imbalances coords vars₂ params₂ numeraire eqs₂))
    (fl : SimFlags) (add mul : NDArray ℝ → NDArray ℝ → NDArray ℝ) (h : Heap (NDArray ℝ)) (c : SimCall ℝ)
    (hr : RequestOK coords (solvedVars numeraire vars) params add mul h c)
    (heul : c.useEuler = true) (hopt : c.useOptimizer = false) (h1 : 1 ≤ c.nIterEuler)
    (outs : List (NDArray ℝ))
    (hrun : env.euler (derefDict h c.initial) (wantedFlat add mul h c params) c.nIterEuler = .ok outs)
    (hreg : ∀ t, t < c.nIterEuler → ∀ s ∈ b.points dx (totalSize coords (solvedVars numeraire vars))
        (b.stateAfter (solvedVars numeraire vars) params (derefDict h c.initial) outs t)
        (stepVec c.nIterEuler (wantedFlat add mul h c params) (initialFlat h c params)),
      ∀ e ∈ es ++ es₂, Regular (flatPoint (scalarNames coords (solvedVars numeraire vars ++ params)) s) e) :
    ∃ e e₂ outs₂,
      simulateCompute (simEnvOf env (fun _ => false) fl add mul) h c = .ok ⟨some e, none, none, false⟩ ∧
      simulateCompute (simEnvOf env₂ (fun _ => false) fl add mul) h c = .ok ⟨some e₂, none, none, false⟩ ∧
      env₂.euler (derefDict h c.initial) (wantedFlat add mul h c params₂) c.nIterEuler = .ok outs₂ ∧
      (∀ t, t ≤ c.nIterEuler → SameArrays coords (solvedVars numeraire vars ++ params)
        (solvedVars numeraire vars₂ ++ params₂)
        (b.stateAfter (solvedVars numeraire vars) params (derefDict h c.initial) outs t)
        (b₂.stateAfter (solvedVars numeraire vars₂) params₂ (derefDict h c.initial) outs₂ t)) ∧
      ∀ o ∈ solvedVars numeraire vars ++ params, DataFor coords e.start o ∧
        dget e₂.start o.name = dget e.start o.name := by
  have hsv := solved_perm (numeraire := numeraire) hv
  have hall := hsv.append hp
  obtain ⟨hmod, dx', A, B, hpts, hs⟩ := hm.stepsFrom hsquare
  simp only [← hpts] at hreg
  clear hm hpts dx
  rename' dx' => dx
  obtain ⟨hmod₂, dx₂', A₂, B₂, -, hs₂⟩ := hm₂.stepsFrom (by rw [hsame, hsquare, totalSize_perm hsv])
  clear hm₂ dx₂
  rename' dx₂' => dx₂
  rw [hsquare] at heqs
  have hr₂ := hr.perm hsv hp
  have hn := (solvedModel (numeraire := numeraire) hmod.scalar).names
  have hN := (solvedModel (numeraire := numeraire) hmod.scalar).scalars
  obtain ⟨hem, hce, hve, hpe, hcomp, hsteps, hsolve, hder⟩ := id hs
  obtain ⟨hem₂, hce₂, hve₂, hpe₂, hcomp₂, hsteps₂, hsolve₂, hder₂⟩ := id hs₂
  have hl := hs.lenOK
  have hl₂ := hs₂.lenOK
  generalize solvedVars numeraire vars = vs at *
  generalize solvedVars numeraire vars₂ = vs₂ at *
  subst hce hve hpe hve₂ hpe₂
  obtain ⟨hcall, hini, hsim⟩ := simulate_euler_only env b _ hsteps hem hl hcomp fl add mul h c hr heul hopt h1
  rw [← hini env.parameters (by simp +contextual)] at hreg
  rw [hsteps] at hrun
  dsimp only at hrun
  obtain ⟨e, g1, g2, g3, g4⟩ := hsim outs hrun
  have hem₂' : EulerModel env₂.coords env₂.variables env₂.parameters := by rw [hce₂]; exact hem₂
  have hl₂' : LenOK dx₂ (totalSize env₂.coords env₂.variables) (totalSize env₂.coords env₂.parameters) := by
    rw [hce₂]; exact hl₂
  have hr₂' : RequestOK env₂.coords env₂.variables env₂.parameters add mul h c := by rw [hce₂]; exact hr₂
  obtain ⟨hcall₂, -, hsim₂⟩ := simulate_euler_only env₂ b₂ _ hsteps₂ hem₂' hl₂' hcomp₂ fl add mul h c hr₂'
    heul hopt h1
  rw [hce₂] at hcall₂ hsim₂
  have hsized : ∀ o ∈ env.parameters, (((wantedValue add mul h c o.name).map NDArray.data).getD []).length =
      specSize env.coords o := by
    intro o ho
    obtain ⟨a, w1, w2⟩ := hr.sized o ho
    rw [w1]
    exact w2
  obtain ⟨outs₂, hrun₂, hst⟩ := runs_pick env.coords hsv hp b b₂ hb dx dx₂ _ _ _ _ A B A₂ B₂ hsolve
    hsolve₂ hder hder₂ heqs (derefDict h c.initial) _ _ c.nIterEuler hcall hcall₂ hn
    (fun o => ((wantedValue add mul h c o.name).map NDArray.data).getD []) hsized
    (by unfold wantedFlat; rw [List.flatMap_def]) (by unfold wantedFlat; rw [List.flatMap_def]) outs hrun
    (by
      intro t ht s hs
      refine ⟨fun e he => hreg t ht s hs e (by simp [he]), ?_⟩
      rintro s₂ ⟨d, w1, w2, rfl⟩ e he
      rw [flatPoint_perm hall hN d w1, ← w2]
      exact hreg t ht s hs e (by simp [he]))
  obtain ⟨e₂, k1, k2, k3, k4⟩ := hsim₂ outs₂ hrun₂
  refine ⟨e, e₂, outs₂, g1, k1, ?_, hst, ?_⟩
  · rw [hsteps₂]
    dsimp only
    rw [hce₂]
    exact hrun₂
  · obtain ⟨d, w1, w2, w3⟩ := hst _ le_rfl
    rw [w2] at g4
    rw [w3] at k4
    have i1 := flatOf_inj env.coords _ e.start d g3 w1 g4
    have i2 := flatOf_inj env.coords _ e₂.start d k3 (fun o ho => w1 o (hall.mem_iff.1 ho)) k4
    intro o ho
    exact ⟨g3 o ho, by rw [i1 o ho, i2 o (hall.mem_iff.2 ho)]⟩

end Verif
