import Verif.Model.Equilibrium
import Verif.Props.Idata
import Mathlib.Algebra.Order.BigOperators.Group.List
import Mathlib.Algebra.Order.Ring.Abs
import Mathlib.Tactic.Linarith
import Mathlib.Tactic.NormNum
import Mathlib.Algebra.Order.Field.Rat

/-!
# C53: the equilibrium check
-/

namespace Verif

variable {K : Type _}

/-- The dictionary `ref` gives, for every object of the model and nothing else, an array of its shape. -/
structure ModelState (coords : Coords) (vars params : List ModelObject) (ref : Dict Str (NDArray K)) :
    Prop where
  data : ∀ o ∈ vars ++ params, DataFor coords ref o
  only : ∀ n ∈ dkeys ref, n ∈ (vars ++ params).map ModelObject.name

/-- The last step of the data variable `v` is the array `a`, with axes `dims`. -/
structure LastStepIs (v : List Str × NDArray K) (dims : List Str) (a : NDArray K) : Prop where
  axes : v.1 = "step".toList :: dims
  wf : v.2.WF
  last : ∃ n, v.2.shape = (n + 1) :: a.shape ∧
    ∀ idx, ValidIdx a.shape idx → v.2.at? (n :: idx) = a.at? idx

/-- The given data stand for the state `ref`: the dictionary itself; an `InferenceData` with exactly the
model's names whose last step (or whose only values, when there is no axis `step`) is `ref`; a dataset
containing the values of `ref`; an optimizer result whose vectors are the packed `ref`. -/
def Represents (vars params : List ModelObject) (ref : Dict Str (NDArray K)) : EqData K → Prop
  | .dict d => d = ref
  | .idataOther => False
  | .idata V P =>
    (dkeys V = vars.map ModelObject.name ∧ dkeys P = params.map ModelObject.name) ∧
    ((∀ (ds : XDataset K) (objs : List ModelObject), (ds = V ∧ objs = vars) ∨ (ds = P ∧ objs = params) →
        ∀ o ∈ objs, ∃ v a, dget ds o.name = some v ∧ dget ref o.name = some a ∧
          LastStepIs v o.dims a) ∨
     (∀ (ds : XDataset K) (objs : List ModelObject), (ds = V ∧ objs = vars) ∨ (ds = P ∧ objs = params) →
        ∀ o ∈ objs, "step".toList ∉ o.dims ∧ ∃ a, dget ds o.name = some (o.dims, a) ∧
          dget ref o.name = some a))
  | .dataset ds => ∀ o ∈ vars ++ params, ∃ axes a, dget ds o.name = some (axes, a) ∧
      dget ref o.name = some a
  | .optRes x args => variableDictToFlatArray ref vars params = .ok (x, args)

/-! ## Lemmas -/

theorem ravelNamed_congr (d d' : Dict Str (NDArray K)) (objs : List ModelObject)
    (h : ∀ o ∈ objs, dget d o.name = dget d' o.name) : ravelNamed d objs = ravelNamed d' objs := by
  induction objs with
  | nil => rfl
  | cons o objs ih =>
    have h0 := h o (by simp)
    have ih' := ih fun o' ho' => h o' (by simp [ho'])
    unfold ravelNamed at ih' ⊢
    rw [List.mapM_cons, List.mapM_cons, ih']
    simp only [dgetE, h0]

theorem pack_congr (d d' : Dict Str (NDArray K)) (vars params : List ModelObject)
    (h : ∀ o ∈ vars ++ params, dget d o.name = dget d' o.name) :
    variableDictToFlatArray d vars params = variableDictToFlatArray d' vars params := by
  unfold variableDictToFlatArray
  rw [ravelNamed_congr d d' vars (fun o ho => h o (by simp [ho])),
    ravelNamed_congr d d' params (fun o ho => h o (by simp [ho]))]

theorem lastStep_of (v : List Str × NDArray K) (dims : List Str) (a : NDArray K) (ha : a.WF)
    (h : LastStepIs v dims a) : lastStep v = .ok (dims, a) := by
  obtain ⟨h1, hwf, n, hs, hl⟩ := h
  obtain ⟨axes, arr⟩ := v
  simp only at h1 hwf hs hl
  unfold lastStep
  simp only [h1, hs]
  rw [if_pos (by rfl), if_neg (by omega)]
  congr 2
  obtain ⟨shape, data⟩ := a
  simp only [NDArray.WF] at ha hwf hs hl
  congr 1
  rw [hs, List.prod_cons] at hwf
  have hlen : ((arr.data.drop ((n + 1 - 1) * shape.prod)).take shape.prod).length = shape.prod := by
    rw [List.length_take, List.length_drop, hwf, Nat.add_mul, Nat.one_mul, Nat.add_sub_cancel]
    omega
  apply List.ext_getElem?
  intro k
  by_cases hk : k < shape.prod
  · have hv := unravel_valid shape k hk
    have := hl _ hv
    unfold NDArray.at? at this
    rw [hs, if_pos (show ValidIdx ((n + 1) :: shape) (n :: unravelIndex shape k) from ⟨by omega, hv⟩),
      if_pos hv] at this
    simp only [ravelIndex] at this
    rw [ravel_unravel shape k hk] at this
    rw [← this, List.getElem?_take_of_lt hk, List.getElem?_drop, Nat.add_sub_cancel]
  · have h1 : ((arr.data.drop ((n + 1 - 1) * shape.prod)).take shape.prod)[k]? = none :=
      List.getElem?_eq_none_iff.2 (by omega)
    have h2 : data[k]? = none := List.getElem?_eq_none_iff.2 (by omega)
    exact h1.trans h2.symm

theorem mapM_group (ds : XDataset K) (objs : List ModelObject) (g : ModelObject → NDArray K)
    (hkeys : dkeys ds = objs.map ModelObject.name)
    (hn : (objs.map ModelObject.name).Nodup)
    (h : ∀ o ∈ objs, ∃ v, dget ds o.name = some v ∧ lastStep v = .ok (o.dims, g o)) :
    iselLast ds = .ok (objs.map fun o => (o.name, (o.dims, g o))) := by
  unfold iselLast
  induction objs generalizing ds with
  | nil =>
    cases ds with
    | nil => rfl
    | cons p ds => simp [dkeys] at hkeys
  | cons o objs ih =>
    cases ds with
    | nil => simp [dkeys] at hkeys
    | cons p ds =>
      simp only [dkeys, List.map_cons, List.cons.injEq] at hkeys
      obtain ⟨v, hv, hl⟩ := h o (by simp)
      rw [dget_cons, if_pos hkeys.1] at hv
      have hp : p.2 = v := Option.some.inj hv
      rw [List.map_cons, List.nodup_cons] at hn
      have ih' := ih ds hkeys.2 hn.2 (by
        intro o' ho'
        obtain ⟨v', hv', hl'⟩ := h o' (by simp [ho'])
        refine ⟨v', ?_, hl'⟩
        rw [dget_cons, if_neg] at hv'
        · exact hv'
        · intro hc
          apply hn.1
          rw [← hkeys.1, hc]
          exact List.mem_map_of_mem ho')
      rw [List.mapM_cons, ih', hp, hl, List.map_cons, ← hkeys.1]
      rfl

theorem dget_map_objs (objs : List ModelObject) (g : ModelObject → NDArray K)
    (hn : (objs.map ModelObject.name).Nodup) (o : ModelObject) (ho : o ∈ objs) :
    dget (objs.map fun o => (o.name, g o)) o.name = some (g o) := by
  apply dget_of_mem_nodup
  · unfold dkeys; rw [List.map_map]; exact hn
  · exact List.mem_map.2 ⟨o, ho, rfl⟩

theorem dkeys_map_objs (objs : List ModelObject) (g : ModelObject → NDArray K) :
    dkeys (objs.map fun o => (o.name, g o)) = objs.map ModelObject.name := by
  unfold dkeys; rw [List.map_map]; rfl

/-- Joining the two groups: each name keeps the value of its own group. -/
theorem join_groups (dv dp ref : Dict Str (NDArray K)) (vars params : List ModelObject)
    (hn : ((vars ++ params).map ModelObject.name).Nodup)
    (hkv : dkeys dv = vars.map ModelObject.name) (hkp : dkeys dp = params.map ModelObject.name)
    (hv : ∀ o ∈ vars, dget dv o.name = dget ref o.name)
    (hp : ∀ o ∈ params, dget dp o.name = dget ref o.name) :
    (∀ o ∈ vars ++ params, dget (dupdate dv dp) o.name = dget ref o.name) ∧
    ∀ n, n ∈ dkeys (dupdate dv dp) ↔ n ∈ (vars ++ params).map ModelObject.name := by
  rw [List.map_append] at hn
  have hnd := List.nodup_append.1 hn
  constructor
  · intro o ho
    rw [dget_dupdate _ _ (hkp ▸ hnd.2.1)]
    rcases List.mem_append.1 ho with ho | ho
    · have : dget dp o.name = none := by
        rw [dget_eq_none_iff, hkp]
        intro hc
        exact hnd.2.2 _ (List.mem_map_of_mem ho) _ hc rfl
      rw [this, ← hv o ho]; rfl
    · have hm : o.name ∈ dkeys dp := by rw [hkp]; exact List.mem_map_of_mem ho
      obtain ⟨a, ha⟩ := (mem_dkeys_iff _ _).1 hm
      rw [← hp o ho, ha]; rfl
  · intro n
    rw [mem_dkeys_dupdate, hkv, List.map_append, List.mem_append]
    have : (n ∈ List.map Prod.fst dp) ↔ n ∈ params.map ModelObject.name := by rw [← hkp]; rfl
    rw [this]

theorem eqDataToDict_represents (coords : Coords) (vars params : List ModelObject)
    (ref : Dict Str (NDArray K)) (data : EqData K)
    (hk : ∀ o ∈ vars ++ params, KnownDims coords o)
    (hn : ((vars ++ params).map ModelObject.name).Nodup) (hv : vars ≠ []) (hp : params ≠ [])
    (hs : ModelState coords vars params ref) (hr : Represents vars params ref data) :
    ∃ d, eqDataToDict vars params coords data = .ok d ∧
      (∀ o ∈ vars ++ params, dget d o.name = dget ref o.name) ∧
      ∀ n, n ∈ dkeys d ↔ n ∈ (vars ++ params).map ModelObject.name := by
  have hn' := hn
  rw [List.map_append] at hn'
  have hnd := List.nodup_append.1 hn'
  have hwf : ∀ o ∈ vars ++ params, ∀ a, dget ref o.name = some a → a.WF := by
    intro o ho a ha
    obtain ⟨a', ha', -, hw⟩ := hs.data o ho
    rw [ha] at ha'; cases ha'; exact hw
  cases data with
  | dict d =>
    simp only [Represents] at hr
    subst hr
    refine ⟨d, rfl, fun _ _ => rfl, fun n => ⟨hs.only n, fun hm => ?_⟩⟩
    rw [List.mem_map] at hm
    obtain ⟨o, ho, rfl⟩ := hm
    obtain ⟨a, ha, -⟩ := hs.data o ho
    exact (mem_dkeys_iff _ _).2 ⟨a, ha⟩
  | idataOther => exact hr.elim
  | idata V P =>
    obtain ⟨⟨hkV, hkP⟩, hr⟩ := hr
    let g : ModelObject → NDArray K := fun o => (dget ref o.name).getD ⟨[], []⟩
    have hg : ∀ o ∈ vars ++ params, dget ref o.name = some (g o) := by
      intro o ho
      obtain ⟨a, ha, -⟩ := hs.data o ho
      simp [g, ha]
    rcases hr with hr | hr
    · have hany : (V.any fun p => decide (stepName ∈ p.2.1)) = true := by
        obtain ⟨o, ho⟩ := List.exists_mem_of_ne_nil _ hv
        obtain ⟨v, a, h1, -, h3⟩ := hr V vars (Or.inl ⟨rfl, rfl⟩) o ho
        rw [List.any_eq_true]
        refine ⟨_, mem_of_dget _ h1, ?_⟩
        rw [decide_eq_true_eq, h3.axes]
        exact List.mem_cons_self
      have hone : ∀ (ds : XDataset K) (objs : List ModelObject),
          (ds = V ∧ objs = vars) ∨ (ds = P ∧ objs = params) →
          iselLast ds = .ok (objs.map fun o => (o.name, (o.dims, g o))) := by
        intro ds objs hc
        have hsub : ∀ o ∈ objs, o ∈ vars ++ params := by
          rcases hc with ⟨-, rfl⟩ | ⟨-, rfl⟩ <;> intro o ho <;> simp [ho]
        apply mapM_group
        · rcases hc with ⟨rfl, rfl⟩ | ⟨rfl, rfl⟩ <;> assumption
        · rcases hc with ⟨rfl, rfl⟩ | ⟨rfl, rfl⟩
          · exact hnd.1
          · exact hnd.2.1
        · intro o ho
          obtain ⟨v, a, h1, h2, h3⟩ := hr ds objs hc o ho
          refine ⟨v, h1, ?_⟩
          have : g o = a := by
            have := hg o (hsub o ho); rw [h2] at this; exact (Option.some.inj this).symm
          rw [this]
          exact lastStep_of v o.dims a (hwf o (hsub o ho) a h2) h3
      have hgv : ∀ objs : List ModelObject,
          groupValues (objs.map fun o => (o.name, (o.dims, g o))) =
            objs.map fun o => (o.name, g o) := by
        intro objs; unfold groupValues; rw [List.map_map]; rfl
      refine ⟨dupdate (vars.map fun o => (o.name, g o)) (params.map fun o => (o.name, g o)), ?_, ?_⟩
      · unfold eqDataToDict
        dsimp only
        rw [if_pos hany, hone V vars (Or.inl ⟨rfl, rfl⟩), hone P params (Or.inr ⟨rfl, rfl⟩)]
        simp only [bind, Except.bind, pure, Except.pure, hgv]
      · apply join_groups _ _ _ _ _ hn (dkeys_map_objs _ _) (dkeys_map_objs _ _)
        · intro o ho
          rw [dget_map_objs vars g hnd.1 o ho, hg o (by simp [ho])]
        · intro o ho
          rw [dget_map_objs params g hnd.2.1 o ho, hg o (by simp [ho])]
    · have hnot : ¬ (V.any fun p => decide (stepName ∈ p.2.1)) = true := by
        rw [List.any_eq_true]
        rintro ⟨⟨n, v⟩, hm, hst⟩
        have hkn : (dkeys V).Nodup := hkV ▸ hnd.1
        have hmem : n ∈ dkeys V := List.mem_map.2 ⟨(n, v), hm, rfl⟩
        rw [hkV, List.mem_map] at hmem
        obtain ⟨o, ho, rfl⟩ := hmem
        obtain ⟨h1, a, h2, -⟩ := hr V vars (Or.inl ⟨rfl, rfl⟩) o ho
        have h3 := dget_of_mem_nodup V hkn hm
        rw [h2] at h3
        cases h3
        exact h1 (of_decide_eq_true hst)
      have hget : ∀ (ds : XDataset K) (n : Str),
          dget (groupValues ds) n = (dget ds n).map Prod.snd := by
        intro ds n
        induction ds with
        | nil => rfl
        | cons p ds ih =>
          obtain ⟨m, v⟩ := p
          have h0 : groupValues ((m, v) :: ds) = (m, v.2) :: groupValues ds := rfl
          rw [h0, dget_cons, dget_cons]
          by_cases h : m = n
          · rw [if_pos h, if_pos h]; rfl
          · rw [if_neg h, if_neg h]; exact ih
      have hkeys : ∀ ds : XDataset K, dkeys (groupValues ds) = dkeys ds := by
        intro ds; unfold dkeys groupValues; rw [List.map_map]; rfl
      refine ⟨dupdate (groupValues V) (groupValues P), ?_, ?_⟩
      · unfold eqDataToDict
        dsimp only
        rw [if_neg hnot]
      · apply join_groups _ _ _ _ _ hn ((hkeys V).trans hkV) ((hkeys P).trans hkP)
        · intro o ho
          obtain ⟨-, a, h2, h3⟩ := hr V vars (Or.inl ⟨rfl, rfl⟩) o ho
          rw [hget, h2, h3]; rfl
        · intro o ho
          obtain ⟨-, a, h2, h3⟩ := hr P params (Or.inr ⟨rfl, rfl⟩) o ho
          rw [hget, h2, h3]; rfl
  | dataset ds =>
    let g : ModelObject → NDArray K := fun o => (dget ref o.name).getD ⟨[], []⟩
    refine ⟨(vars ++ params).map fun o => (o.name, g o), ?_, ?_, ?_⟩
    · unfold eqDataToDict
      have : ((vars ++ params).mapM fun o => (dgetE ds o.name).map fun v => (o.name, v.2)) =
          .ok ((vars ++ params).map fun o => (o.name, g o)) := by
        apply mapM_ok_of_forall
        intro o ho
        obtain ⟨axes, a, h1, h2⟩ := hr o ho
        simp [dgetE, h1, Except.map, g, h2]
      simp only [this, bind, Except.bind, pure, Except.pure]
      rw [dofPairs_of_nodup]
      rw [List.map_map]; exact hn
    · intro o ho
      rw [dget_map_objs _ g hn o ho]
      obtain ⟨a, ha, -⟩ := hs.data o ho
      simp [g, ha]
    · intro n
      rw [dkeys_map_objs]
  | optRes x args =>
    simp only [Represents] at hr
    obtain ⟨x', th', dx, dt, _, h1, h2, h3, -, h5, h6, -, h8, h9, -⟩ :=
      C01_unpack_of_pack coords vars params ref hk hn hv hp hs.data
    rw [hr] at h1
    cases h1
    refine ⟨dupdate dx dt, ?_, join_groups dx dt ref vars params hn h8 h9 h5 h6⟩
    unfold eqDataToDict
    simp only [h2, h3, bind, Except.bind, pure, Except.pure]

/-! ## C53 -/

section Check

variable [Ring K] [LinearOrder K]

theorem check_eq (sys : List K → List K → List K) (byName : Bool) (coords : Coords)
    (vars params : List ModelObject) (names : List Str) (ref : Dict Str (NDArray K)) (data : EqData K)
    (tol : K) (hk : ∀ o ∈ vars ++ params, KnownDims coords o)
    (hn : ((vars ++ params).map ModelObject.name).Nodup) (hv : vars ≠ []) (hp : params ≠ [])
    (hs : ModelState coords vars params ref) (hr : Represents vars params ref data)
    (x theta : List K) (hpack : variableDictToFlatArray ref vars params = .ok (x, theta)) :
    checkForEquilibrium sys byName vars params coords names data tol =
      eqReport names (sys x theta) tol := by
  obtain ⟨d, h1, h2, h3⟩ := eqDataToDict_represents coords vars params ref data hk hn hv hp hs hr
  have hp' := (pack_congr d ref vars params h2).trans hpack
  unfold checkForEquilibrium
  cases byName with
  | false => simp [h1, hp', bind, Except.bind, Except.map]
  | true =>
    have hc : callSystem sys vars params d = .ok (sys x theta) := by
      unfold callSystem
      rw [if_pos]
      · simp only [hp', bind, Except.bind, pure, Except.pure]
      · simp only [Bool.and_eq_true, List.all_eq_true, decide_eq_true_eq]
        exact ⟨fun n hn => (h3 n).1 hn, fun n hn => (h3 n).2 hn⟩
    simp [h1, hc, bind, Except.bind]

/-- **C53 (success).**  For every model, residual function, backend and tolerance, and every state given
in any of the accepted forms: success is reported exactly when the sum of the squared residuals at that
state is below the tolerance. -/
theorem C53_success_iff (sys : List K → List K → List K) (byName : Bool) (coords : Coords)
    (vars params : List ModelObject) (names : List Str) (ref : Dict Str (NDArray K)) (data : EqData K)
    (tol : K) (hk : ∀ o ∈ vars ++ params, KnownDims coords o)
    (hn : ((vars ++ params).map ModelObject.name).Nodup) (hv : vars ≠ []) (hp : params ≠ [])
    (hs : ModelState coords vars params ref) (hr : Represents vars params ref data)
    (x theta : List K) (hpack : variableDictToFlatArray ref vars params = .ok (x, theta)) :
    checkForEquilibrium sys byName vars params coords names data tol = .ok .found ↔
      ((sys x theta).map fun r => r ^ 2).sum < tol := by
  rw [check_eq sys byName coords vars params names ref data tol hk hn hv hp hs hr x theta hpack]
  unfold eqReport sumSq
  by_cases h : ((sys x theta).map fun r => r ^ 2).sum < tol
  · rw [if_pos h]; exact ⟨fun _ => h, fun _ => rfl⟩
  · rw [if_neg h]
    refine ⟨fun hc => ?_, fun hc => absurd hc h⟩
    split at hc <;> cases hc

/-- **C53 (failure).**  Otherwise, provided the residual function gives one residual for each equation
name, the report lists exactly the equations whose residual is larger in absolute value than the
tolerance, each with its own residual, in the order of the equations. -/
theorem C53_listed_iff (sys : List K → List K → List K) (byName : Bool) (coords : Coords)
    (vars params : List ModelObject) (names : List Str) (ref : Dict Str (NDArray K)) (data : EqData K)
    (tol : K) (hk : ∀ o ∈ vars ++ params, KnownDims coords o)
    (hn : ((vars ++ params).map ModelObject.name).Nodup) (hv : vars ≠ []) (hp : params ≠ [])
    (hs : ModelState coords vars params ref) (hr : Represents vars params ref data)
    (x theta : List K) (hpack : variableDictToFlatArray ref vars params = .ok (x, theta))
    (hlen : (sys x theta).length = names.length) (hne : names ≠ [])
    (hfail : ¬ ((sys x theta).map fun r => r ^ 2).sum < tol) :
    ∃ listed, checkForEquilibrium sys byName vars params coords names data tol =
        .ok (.notFound listed) ∧
      (∀ (k : Nat) n r, names[k]? = some n → (sys x theta)[k]? = some r →
        (tol < |r| → (n, r) ∈ listed)) ∧
      (∀ n r, (n, r) ∈ listed → tol < |r| ∧
        ∃ k : Nat, names[k]? = some n ∧ (sys x theta)[k]? = some r) ∧
      (listed.map Prod.fst).Sublist names ∧
      listed.length = (sys x theta).countP fun r => decide (tol < |r|) := by
  rw [check_eq sys byName coords vars params names ref data tol hk hn hv hp hs hr x theta hpack]
  unfold eqReport sumSq
  rw [if_neg hfail, if_neg hne]
  refine ⟨_, rfl, ?_, ?_, ?_, ?_⟩
  · intro k n r h1 h2 h3
    rw [List.mem_filter]
    refine ⟨List.mem_of_getElem? (List.getElem?_zip_eq_some.2 ⟨h1, h2⟩), by simpa using h3⟩
  · intro n r h
    rw [List.mem_filter] at h
    refine ⟨by simpa using h.2, ?_⟩
    obtain ⟨k, hk, hk'⟩ := List.getElem_of_mem h.1
    exact ⟨k, List.getElem?_zip_eq_some.1 (by rw [List.getElem?_eq_getElem hk, hk'])⟩
  · have h1 : ((names.zip (sys x theta)).filter fun p => decide (tol < |p.2|)).Sublist
        (names.zip (sys x theta)) := List.filter_sublist
    have h2 := h1.map Prod.fst
    rwa [List.map_fst_zip (by omega)] at h2
  · rw [← List.countP_eq_length_filter]
    have : (sys x theta) = (names.zip (sys x theta)).map Prod.snd := by
      rw [List.map_snd_zip (by omega)]
    conv_rhs => rw [this, List.countP_map]
    rfl

end Check

/-- **C53 (what success means for one equation).**  After success every single residual, squared, is
below the tolerance. -/
theorem C53_success_bounds [Field K] [LinearOrder K] [IsStrictOrderedRing K] (errors : List K)
    (names : List Str) (tol : K) (h : eqReport names errors tol = .ok .found) :
    ∀ r ∈ errors, r ^ 2 < tol := by
  have hlt : (errors.map fun r => r ^ 2).sum < tol := by
    unfold eqReport sumSq at h
    by_contra hc
    rw [if_neg hc] at h
    split at h <;> cases h
  intro r hr
  have : r ^ 2 ≤ (errors.map fun r => r ^ 2).sum :=
    List.single_le_sum (by
      intro y hy
      rw [List.mem_map] at hy
      obtain ⟨z, -, rfl⟩ := hy
      exact sq_nonneg z) _ (List.mem_map_of_mem hr)
  exact lt_of_le_of_lt this hlt

/-- **C53 (optimizer results).**  The labelled result of an optimizer run is checked at the solution:
the residuals are those at `res.x` and the parameter vector, not those at the initial values. -/
theorem C53_optimizer_result [Ring K] [LinearOrder K] (sys : List K → List K → List K) (byName : Bool)
    (coords : Coords) (vars params : List ModelObject) (names : List Str)
    (initial : Dict Str (NDArray K)) (tol : K) (h : Labelled coords vars params)
    (hv : vars ≠ []) (hp : params ≠ []) (x theta : List K)
    (hx : x.length = totalSize coords vars) (ht : theta.length = totalSize coords params)
    (hi : ∀ o ∈ vars ++ params, DataFor coords initial o) :
    ∃ V P, optimizerResultToIdata x theta initial vars params coords = .ok (V, P) ∧
      checkForEquilibrium sys byName vars params coords names (.idata V P) tol =
        eqReport names (sys x theta) tol := by
  obtain ⟨V, P, h1, hkV, hkP, hV, hP⟩ :=
    C51_optimizer_partial coords vars params x theta initial h hx ht hi
  obtain ⟨ref, hf, hpack⟩ := C01_pack_of_unpack coords vars params x theta h.known h.names hv hp hx ht
  refine ⟨V, P, h1, ?_⟩
  have hlen : totalSize coords (vars ++ params) = (x ++ theta).length := by
    rw [totalSize_append, List.length_append]; omega
  have href : ref = flatPairs coords (vars ++ params) (x ++ theta) := by
    rw [flatArrayToVariableDict, flatToDictLoop_ok _ _ _ h.known _ _ (by omega), List.drop_zero] at hf
    have := Except.ok.inj hf
    rw [← this]
    apply dofPairs_of_nodup
    rw [map_fst_flatPairs]; exact h.names
  have hget : ∀ (m : Nat) o, (vars ++ params)[m]? = some o → dget ref o.name =
      some ⟨specShape coords o,
        ((x ++ theta).drop (offsetOf coords (vars ++ params) m)).take (specSize coords o)⟩ := by
    intro m o ho
    rw [href]
    apply dget_of_mem_nodup
    · unfold dkeys; rw [map_fst_flatPairs]; exact h.names
    · exact List.mem_of_getElem? (flatPairs_getElem? coords (vars ++ params) (x ++ theta) m o ho)
  have hwf : ∀ (m : Nat) o, (vars ++ params)[m]? = some o →
      ((((x ++ theta).drop (offsetOf coords (vars ++ params) m)).take (specSize coords o)).length =
        specSize coords o) := by
    intro m o ho
    have := offset_add_size_le coords (vars ++ params) m o ho
    rw [List.length_take, List.length_drop]; omega
  have hstate : ModelState coords vars params ref := by
    constructor
    · intro o ho
      obtain ⟨m, hm, hm'⟩ := List.getElem_of_mem ho
      have hmo : (vars ++ params)[m]? = some o := by rw [List.getElem?_eq_getElem hm, hm']
      exact ⟨_, hget m o hmo, rfl, hwf m o hmo⟩
    · intro n hn
      rw [href] at hn
      unfold dkeys at hn
      rwa [map_fst_flatPairs] at hn
  -- the element of the reference state, by position
  have hat : ∀ (m : Nat) o idx, (vars ++ params)[m]? = some o → ValidIdx (specShape coords o) idx →
      ∀ a, dget ref o.name = some a → a.at? idx =
        (x ++ theta)[offsetOf coords (vars ++ params) m + ravelIndex (specShape coords o) idx]? := by
    intro m o idx ho hidx a ha
    rw [hget m o ho] at ha
    cases ha
    unfold NDArray.at?
    rw [if_pos hidx]
    simp only
    rw [List.getElem?_take_of_lt (show _ < specSize coords o from ravelIndex_lt _ _ hidx),
      List.getElem?_drop]
  apply check_eq sys byName coords vars params names ref (.idata V P) tol h.known h.names hv hp hstate
    _ x theta hpack
  refine ⟨⟨hkV, hkP⟩, Or.inl ?_⟩
  rintro ds objs (⟨rfl, rfl⟩ | ⟨rfl, rfl⟩) o ho
  · obtain ⟨k, hk, hk'⟩ := List.getElem_of_mem ho
    have hko : objs[k]? = some o := by rw [List.getElem?_eq_getElem hk, hk']
    have hpo : (objs ++ params)[k]? = some o := by rw [List.getElem?_append_left hk]; exact hko
    obtain ⟨a0, ha0, -⟩ := hi o (by simp [ho])
    obtain ⟨v, hv1, hv2⟩ := hV k o a0 hko ha0
    refine ⟨v, _, hv1, hget k o hpo, hv2.axes, hv2.wf, 1, hv2.shape, ?_⟩
    intro idx hidx
    rw [hv2.after idx hidx, hat k o idx hpo hidx _ (hget k o hpo)]
    have hoff : offsetOf coords (objs ++ params) k = offsetOf coords objs k := by
      unfold offsetOf
      rw [List.take_append_of_le_length (by omega)]
    have hle := offset_add_size_le coords objs k o hko
    have hlt : ravelIndex (specShape coords o) idx < specSize coords o := ravelIndex_lt _ _ hidx
    rw [hoff, List.getElem?_append_left (by omega)]
  · obtain ⟨k, hk, hk'⟩ := List.getElem_of_mem ho
    have hko : objs[k]? = some o := by rw [List.getElem?_eq_getElem hk, hk']
    have hpo : (vars ++ objs)[vars.length + k]? = some o := by
      rw [List.getElem?_append_right (by omega), Nat.add_sub_cancel_left]; exact hko
    obtain ⟨a0, ha0, -⟩ := hi o (by simp [ho])
    obtain ⟨v, hv1, hv2⟩ := hP k o a0 hko ha0
    refine ⟨v, _, hv1, hget _ o hpo, hv2.axes, hv2.wf, 1, hv2.shape, ?_⟩
    intro idx hidx
    rw [hv2.after idx hidx, hat _ o idx hpo hidx _ (hget _ o hpo)]
    have hoff : offsetOf coords (vars ++ objs) (vars.length + k) =
        x.length + offsetOf coords objs k := by
      unfold offsetOf
      rw [List.take_append, totalSize_append, hx, List.take_of_length_le (by omega),
        Nat.add_sub_cancel_left]
    rw [hoff, List.getElem?_append_right (by omega)]
    congr 1; omega

/-- A one-equation model: `x ^ 2 - a`, at `x = 3`, `a = 4`. -/
def exEqState : Dict Str (NDArray ℚ) := [("x".toList, ⟨[], [3]⟩), ("a".toList, ⟨[], [4]⟩)]

theorem exEqState_ok : ModelState [] [{ name := "x".toList }] [{ name := "a".toList }] exEqState ∧
    Represents [{ name := "x".toList }] [{ name := "a".toList }] exEqState (.dict exEqState) ∧
    Represents [{ name := "x".toList }] [{ name := "a".toList }] exEqState (.optRes [3] [4]) ∧
    Represents [{ name := "x".toList }] [{ name := "a".toList }] exEqState
      (.idata [("x".toList, (["step".toList], ⟨[2], [1, 3]⟩))]
        [("a".toList, (["step".toList], ⟨[2], [5, 4]⟩))]) := by
  refine ⟨⟨?_, by decide⟩, rfl, rfl, ⟨rfl, rfl⟩, Or.inl ?_⟩
  · intro o ho
    simp only [List.cons_append, List.nil_append, List.mem_cons, List.not_mem_nil, or_false] at ho
    rcases ho with rfl | rfl
    · exact ⟨⟨[], [3]⟩, rfl, rfl, rfl⟩
    · exact ⟨⟨[], [4]⟩, rfl, rfl, rfl⟩
  · rintro ds objs (⟨rfl, rfl⟩ | ⟨rfl, rfl⟩) o ho <;>
      (rw [List.mem_singleton] at ho; subst ho)
    · refine ⟨_, ⟨[], [3]⟩, rfl, rfl, rfl, rfl, 1, rfl, ?_⟩
      intro idx hidx
      cases idx with
      | nil => rfl
      | cons i is => exact hidx.elim
    · refine ⟨_, ⟨[], [4]⟩, rfl, rfl, rfl, rfl, 1, rfl, ?_⟩
      intro idx hidx
      cases idx with
      | nil => rfl
      | cons i is => exact hidx.elim

/-- The check of that state, given as a dictionary, finds an equilibrium just if `(3² - 4)² = 25` is below the
tolerance … -/
example (tol : ℚ) : checkForEquilibrium (K := ℚ) (fun x a => [x.sum ^ 2 - a.sum]) true [{ name := "x".toList }]
    [{ name := "a".toList }] [] ["square".toList] (.dict exEqState) tol = .ok .found ↔ 25 < tol := by
  rw [C53_success_iff _ true [] _ _ _ exEqState _ tol (by decide) (by decide) (by simp) (by simp) exEqState_ok.1
    exEqState_ok.2.1 [3] [4] rfl]
  norm_num

/-- … and in steps, with tolerance 1, it is one equation that is listed. -/
example := C53_listed_iff (K := ℚ) (fun x a => [x.sum ^ 2 - a.sum]) true [] [{ name := "x".toList }]
  [{ name := "a".toList }] ["square".toList] exEqState _ 1 (by decide) (by decide) (by simp) (by simp) exEqState_ok.1
  exEqState_ok.2.2.2 [3] [4] rfl rfl (by simp) (by norm_num)

/-- The check of that state with tolerance 1 fails and lists the equation with residual 5. -/
example : checkForEquilibrium (K := ℚ) (fun x a => [x.sum ^ 2 - a.sum]) true [{ name := "x".toList }]
    [{ name := "a".toList }] [] ["square".toList] (.optRes [3] [4]) 1 =
      .ok (.notFound [("square".toList, 5)]) := by
  have h5 : checkForEquilibrium (K := ℚ) (fun x a => [x.sum ^ 2 - a.sum]) true
      [{ name := "x".toList }] [{ name := "a".toList }] [] ["square".toList] (.optRes [3] [4]) 1 =
      eqReport ["square".toList] [([3] : List ℚ).sum ^ 2 - ([4] : List ℚ).sum] 1 := rfl
  rw [h5]
  unfold eqReport sumSq
  norm_num

/-- **C53 (wrong names).**  With the backends that take the data by name, a dictionary that leaves out a
variable or a parameter, or holds another name, is refused. -/
theorem C53_wrong_names_refused [Ring K] [LinearOrder K] (sys : List K → List K → List K)
    (coords : Coords) (vars params : List ModelObject) (names : List Str) (d : Dict Str (NDArray K))
    (tol : K)
    (h : (∃ o ∈ vars ++ params, o.name ∉ dkeys d) ∨
      ∃ n ∈ dkeys d, n ∉ (vars ++ params).map ModelObject.name) :
    checkForEquilibrium sys true vars params coords names (.dict d) tol = .error .typeError := by
  unfold checkForEquilibrium
  simp only [eqDataToDict, bind, Except.bind, if_true]
  unfold callSystem
  rw [if_neg]
  rw [Bool.and_eq_true, List.all_eq_true, List.all_eq_true]
  rintro ⟨h1, h2⟩
  rcases h with ⟨o, ho, hn⟩ | ⟨n, hn, hnn⟩
  · exact hn (of_decide_eq_true (h2 o.name (List.mem_map_of_mem ho)))
  · exact hnn (of_decide_eq_true (h1 n hn))

example : ∃ n ∈ dkeys [("z".toList, (⟨[], [1]⟩ : NDArray ℚ))],
    n ∉ ([{ name := "x".toList }] : List ModelObject).map ModelObject.name :=
  ⟨"z".toList, by decide, by decide⟩

end Verif
