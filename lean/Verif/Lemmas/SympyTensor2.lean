import Verif.Lemmas.SympyTensor
import Verif.Props.Objective

/-!
# Calling the functions of the default backend through their wrappers
-/

namespace Verif

open SymExpr

variable {coords : Coords} {vars params : List ModelObject} {setList : List Str → List Str}
  {uv up : Dict Str ModelObject} {eqs : List (SymExpr Str)} {F : SympyTensorFns}

theorem atoms_sum {α : Type} (l : List (SymExpr α)) (a : α) :
    a ∈ (SymExpr.sum l).atoms ↔ ∃ e ∈ l, a ∈ e.atoms := by
  have key : ∀ (l : List (SymExpr α)) (s : SymExpr α), a ∈ (l.foldl add s).atoms ↔
      a ∈ s.atoms ∨ ∃ e ∈ l, a ∈ e.atoms := by
    intro l
    induction l with
    | nil => intro s; simp
    | cons e l ih =>
      intro s
      rw [List.foldl_cons, ih]
      simp only [atoms, List.mem_append, List.mem_cons, exists_eq_or_imp]
      tauto
  unfold SymExpr.sum
  rw [key]
  simp [atoms]

theorem atoms_squaredLoss {α : Type} (eqs : List (SymExpr α)) (a : α)
    (h : a ∈ (squaredLoss eqs).atoms) : a ∈ eqs.flatMap atoms := by
  unfold squaredLoss at h
  simp only [atoms, List.nil_append] at h
  rw [atoms_sum] at h
  obtain ⟨e, he, ha⟩ := h
  obtain ⟨e', he', rfl⟩ := List.mem_map.1 he
  simp only [atoms, List.append_nil] at ha
  exact List.mem_flatMap.2 ⟨e', he', ha⟩

/-- The graphs of a model that compiles. -/
theorem compile_shape (h : ScalarModel coords vars params)
    (huv : unpackGroup setList coords vars = .ok uv) (hup : unpackGroup setList coords params = .ok up)
    (hF : compileSympytensor ((vars ++ params).map ModelObject.name) coords uv up eqs = .ok F) :
    ∃ m hp, (∀ n ∈ eqs.flatMap atoms, SlotOf coords (vars ++ params) m n) ∧
      makeHessp (makeGradient (squaredLoss eqs) (scalarNames coords vars)) (scalarNames coords vars) = .ok hp ∧
      F = ⟨eqs.map (packedGraph m),
        (makeJacobian eqs (scalarNames coords vars)).map fun row => row.map (packedGraph m),
        packedGraph m (squaredLoss eqs),
        (makeGradient (squaredLoss eqs) (scalarNames coords vars)).map (packedGraph m),
        (makeJacobian (makeGradient (squaredLoss eqs) (scalarNames coords vars))
          (scalarNames coords vars)).map fun row => row.map (packedGraph m),
        hp.map (packedHessp m)⟩ := by
  have hnames : ∀ n ∈ eqs.flatMap atoms, n ∈ scalarNames coords (vars ++ params) := by
    by_contra hno
    push Not at hno
    unfold compileSympytensor at hF
    rw [packedMap_unknown h huv hup _ hno] at hF
    cases hF
  obtain ⟨m, hm, hs⟩ := packedMap_slots h huv hup _ hnames
  obtain ⟨hp, hhp, -⟩ := C37_hessp eqs (scalarNames coords vars)
  refine ⟨m, hp, hs, hhp, ?_⟩
  have hdk := (dkeys_unpacked h huv hup).1
  unfold compileSympytensor at hF
  rw [hm] at hF
  simp only [bind, Except.bind] at hF
  split at hF
  · cases hF
  · rw [hdk, hhp] at hF
    rcases (validateInputs_iff h m eqs hs).1 with hv | hv
    · rw [hv] at hF
      simp only [pure, Except.pure, Except.ok.injEq] at hF
      exact hF.symm
    · rw [hv] at hF
      cases hF

/-- Calling graphs of which every atom can be read. -/
theorem callGraphs_of_reads (inputs vn : List Str) (outs : List (SymExpr PtAtom))
    (d : Dict Str (NDArray ℝ)) (env : PtAtom → ℝ) (hkeys : ∀ n, n ∈ dkeys d ↔ n ∈ inputs)
    (hread : ∀ e ∈ outs, ∀ a ∈ e.atoms, readAtom vn d a = some (env a)) :
    callGraphs inputs vn outs d = .ok (outs.map fun e => e.eval env) := by
  unfold callGraphs
  rw [if_neg, if_neg]
  · congr 1
    apply List.map_congr_left
    intro e he
    apply eval_congr
    intro a ha
    rw [hread e he a ha]
    rfl
  · rw [List.any_eq_true]
    rintro ⟨a, ha, hnone⟩
    obtain ⟨e, he, hae⟩ := List.mem_flatMap.1 ha
    rw [hread e he a hae] at hnone
    cases hnone
  · simp only [Bool.not_eq_true', Bool.and_eq_false_iff, not_or, Bool.not_eq_false,
      List.all_eq_true, decide_eq_true_eq]
    exact ⟨fun n hn => (hkeys n).1 hn, fun n hn => (hkeys n).2 hn⟩

theorem wrap_graphs (h : ScalarModel coords vars params) (m : Dict Str (Str × List Nat))
    (hs : ∀ n ∈ eqs.flatMap atoms, SlotOf coords (vars ++ params) m n) (vn : List Str)
    (outs : List (SymExpr Str)) (hsub : ∀ e ∈ outs, ∀ n ∈ e.atoms, n ∈ eqs.flatMap atoms)
    (x theta : List ℝ) (hx : x.length = totalSize coords vars) (ht : theta.length = totalSize coords params) :
    wrapForScipy (callGraphs ((vars ++ params).map ModelObject.name) vn (outs.map (packedGraph m)))
        vars params coords x theta =
      .ok (outs.map fun e => e.eval (flatPoint (scalarNames coords (vars ++ params)) (x ++ theta))) := by
  have hlen : (x ++ theta).length = totalSize coords (vars ++ params) := by
    rw [totalSize_append, List.length_append]; omega
  unfold wrapForScipy
  rw [flatArrayToVariableDict_flatPairs _ _ h.known h.names _ hlen]
  exact callGraphs_flat h.names h.scalars _ hlen vn m outs (fun e he n hn => hs n (hsub e he n hn))

theorem wrap_matrix (h : ScalarModel coords vars params) (m : Dict Str (Str × List Nat))
    (hs : ∀ n ∈ eqs.flatMap atoms, SlotOf coords (vars ++ params) m n) (vn : List Str)
    (rows : List (List (SymExpr Str)))
    (hsub : ∀ row ∈ rows, ∀ e ∈ row, ∀ n ∈ e.atoms, n ∈ eqs.flatMap atoms)
    (x theta : List ℝ) (hx : x.length = totalSize coords vars) (ht : theta.length = totalSize coords params) :
    wrapForScipy (callMatrix ((vars ++ params).map ModelObject.name) vn
        (rows.map fun row => row.map (packedGraph m))) vars params coords x theta =
      .ok (rows.map fun row => row.map fun e =>
        e.eval (flatPoint (scalarNames coords (vars ++ params)) (x ++ theta))) := by
  have hlen : (x ++ theta).length = totalSize coords (vars ++ params) := by
    rw [totalSize_append, List.length_append]; omega
  unfold wrapForScipy
  rw [flatArrayToVariableDict_flatPairs _ _ h.known h.names _ hlen]
  simp only [bind, Except.bind, callMatrix]
  rw [List.mapM_map]
  apply mapM_ok_of_forall
  intro row hrow
  exact callGraphs_flat h.names h.scalars _ hlen vn m row
    (fun e he n hn => hs n (hsub row hrow e he n hn))

theorem pointName_injective : Function.Injective pointName := fun _ _ h => List.append_cancel_right h

theorem flatPairs_data {β : Type} (coords : Coords) (objs : List ModelObject) (p : List β)
    (hp : p.length = totalSize coords objs) :
    (flatPairs coords objs p).flatMap (fun kv => kv.2.data) = p := by
  induction objs generalizing p with
  | nil =>
    simp only [totalSize, List.map_nil, List.sum_nil, List.length_eq_zero_iff] at hp
    subst hp; rfl
  | cons o objs ih =>
    simp only [totalSize, List.map_cons, List.sum_cons] at hp
    simp only [flatPairs, List.map_cons, splitBlocks, List.zipWith_cons_cons, List.flatMap_cons]
    have := ih (p.drop (specSize coords o)) (by simp only [List.length_drop, totalSize]; omega)
    unfold flatPairs at this
    rw [this, List.take_append_drop]

theorem wrap_hessp (h : ScalarModel coords vars params) (m : Dict Str (Str × List Nat))
    (hs : ∀ n ∈ eqs.flatMap atoms, SlotOf coords (vars ++ params) m n)
    (hclash : ∀ v ∈ vars, pointName v.name ∉ (vars ++ params).map ModelObject.name)
    (outs : List (SymExpr (HAtom Str)))
    (hmodel : ∀ e ∈ outs, ∀ n, .model n ∈ e.atoms → n ∈ eqs.flatMap atoms)
    (hpoint : ∀ e ∈ outs, ∀ i, .point i ∈ e.atoms → i < totalSize coords vars)
    (x p theta : List ℝ) (hx : x.length = totalSize coords vars) (hp : p.length = totalSize coords vars)
    (ht : theta.length = totalSize coords params) :
    wrapForScipyP (callGraphs ((vars ++ params).map ModelObject.name ++
          vars.map fun v => pointName v.name) (vars.map ModelObject.name)
          (outs.map (packedHessp m))) vars params coords x p theta =
      .ok (outs.map fun e => e.eval (hesspEnv
        (flatPoint (scalarNames coords (vars ++ params)) (x ++ theta)) fun i => p.getD i 0)) := by
  have hlen : (x ++ theta).length = totalSize coords (vars ++ params) := by
    rw [totalSize_append, List.length_append]; omega
  have hnv : (vars.map ModelObject.name).Nodup := by
    have := h.names
    rw [List.map_append, List.nodup_append] at this
    exact this.1
  obtain ⟨P, hP⟩ : ∃ P, P = (flatPairs coords vars p).map fun kv => (pointName kv.1, kv.2) := ⟨_, rfl⟩
  have hPk : dkeys P = vars.map fun v => pointName v.name := by
    have hmf := congrArg (List.map pointName) (map_fst_flatPairs coords vars p)
    rw [hP]
    simpa only [dkeys, List.map_map, Function.comp_def] using hmf
  have hPn : (dkeys P).Nodup := by
    have := hnv.map pointName_injective
    rw [hPk]
    simpa only [List.map_map, Function.comp_def] using this
  unfold wrapForScipyP
  rw [flatArrayToVariableDict_flatPairs _ _ h.known h.names _ hlen,
    flatArrayToVariableDict_flatPairs _ _ (fun o ho => h.known o (by simp [ho])) hnv _ hp]
  simp only [bind, Except.bind]
  rw [← hP, dofPairs_of_nodup _ hPn]
  obtain ⟨D, hD⟩ : ∃ D, D = dupdate (flatPairs coords (vars ++ params) (x ++ theta)) P := ⟨_, rfl⟩
  rw [← hD]
  have hDP : ∀ q ∈ P, dget D q.1 = some q.2 := by
    intro q hq
    rw [hD, dget_dupdate _ _ hPn, dget_of_mem_nodup P hPn hq]
    rfl
  have hDx : ∀ o ∈ vars ++ params, dget D o.name =
      dget (flatPairs coords (vars ++ params) (x ++ theta) : Dict Str (NDArray ℝ)) o.name := by
    intro o ho
    rw [hD, dget_dupdate_of_not_mem]
    intro hmem
    have : o.name ∈ dkeys P := hmem
    rw [hPk] at this
    obtain ⟨v, hv, hvo⟩ := List.mem_map.1 this
    exact hclash v hv (hvo ▸ List.mem_map_of_mem ho)
  have hpts : ((vars.map ModelObject.name).flatMap fun v =>
      ((dget D (pointName v)).map NDArray.data).getD []) = p := by
    conv_rhs => rw [← flatPairs_data coords vars p hp]
    rw [← map_fst_flatPairs coords vars p, List.flatMap_map]
    apply List.flatMap_congr
    intro kv hkv
    rw [hDP (pointName kv.1, kv.2) (by rw [hP]; exact List.mem_map_of_mem (f := fun kv : Str × NDArray ℝ => (pointName kv.1, kv.2)) hkv)]
    rfl
  obtain ⟨N, hN⟩ : ∃ N, N = scalarNames coords (vars ++ params) := ⟨_, rfl⟩
  have hslot : ∀ n ∈ eqs.flatMap atoms, ∃ b idx, dget m n = some (b, idx) ∧
      readAtom (vars.map ModelObject.name) D (.elem b idx) = some (flatPoint N (x ++ theta) n) := by
    intro n hn
    obtain ⟨k, j, o, idx, h1, h2, h3, h4, h5⟩ := hs n hn
    refine ⟨o.name, idx, h5, ?_⟩
    show ((dget D o.name).bind fun a => a.at? idx) = _
    rw [hDx o (List.mem_of_getElem? h2), flatPairs_at _ h.names _ j o idx h2 h3, h4, hN,
      flatPoint_at h.scalars _ h1]
    have hk : k < (x ++ theta).length := by
      rw [hlen, ← length_scalarNames]; exact (List.getElem?_eq_some_iff.1 h1).1
    rw [List.getD_eq_getElem?_getD, List.getElem?_eq_getElem hk]
    rfl
  have hreadP : ∀ i, i < totalSize coords vars →
      readAtom (vars.map ModelObject.name) D (.point i) = some (p.getD i 0) := by
    intro i hi
    show (((vars.map ModelObject.name).flatMap fun v =>
      ((dget D (pointName v)).map NDArray.data).getD []))[i]? = _
    rw [hpts, List.getD_eq_getElem?_getD, List.getElem?_eq_getElem (by omega)]
    rfl
  rw [callGraphs_of_reads _ _ _ _ (fun a => (readAtom (vars.map ModelObject.name) D a).getD 0)]
  · congr 1
    rw [List.map_map]
    apply List.map_congr_left
    intro e he
    simp only [Function.comp, packedHessp]
    rw [eval_mapAtoms]
    apply eval_congr
    intro a ha
    cases a with
    | model n =>
      obtain ⟨b, idx, h1, h2⟩ := hslot n (hmodel e he n ha)
      simp only [Function.comp, replaceScalar, h1, h2, Option.getD_some, hesspEnv, hN]
    | point i =>
      simp only [Function.comp, hreadP i (hpoint e he i ha), Option.getD_some, hesspEnv]
  · intro n
    have hPk' : P.map Prod.fst = _ := hPk
    rw [hD, mem_dkeys_dupdate, hPk', List.mem_append]
    unfold dkeys
    rw [map_fst_flatPairs]
  · intro g hg a ha
    obtain ⟨e, he, rfl⟩ := List.mem_map.1 hg
    obtain ⟨b, hb, rfl⟩ := mem_atoms_mapAtoms _ _ _ ha
    cases b with
    | model n =>
      obtain ⟨b, idx, h1, h2⟩ := hslot n (hmodel e he n hb)
      simp only [replaceScalar, h1, h2, Option.getD_some]
    | point i =>
      simp only [hreadP i (hpoint e he i hb), Option.getD_some]

theorem hessp_atoms (wrt : List Str) (hp : List (SymExpr (HAtom Str)))
    (hhp : makeHessp (makeGradient (squaredLoss eqs) wrt) wrt = .ok hp) :
    (∀ e ∈ hp, ∀ n, .model n ∈ e.atoms → n ∈ eqs.flatMap atoms) ∧
    ∀ e ∈ hp, ∀ i, .point i ∈ e.atoms → i < wrt.length := by
  have hlen : wrt.length = (makeGradient (squaredLoss eqs) wrt).length := by simp [makeGradient]
  rw [makeHessp, hesspTerms_ok _ _ hlen] at hhp
  simp only [Except.map, Except.ok.injEq] at hhp
  subst hhp
  have key : ∀ e ∈ makeGradient (SymExpr.sum ((makeGradient (squaredLoss eqs) wrt).zipIdx.map fun q =>
      mul (mapAtoms HAtom.model q.1) (sym (HAtom.point q.2)))) (wrt.map HAtom.model),
      ∀ a ∈ e.atoms, (∃ n ∈ eqs.flatMap atoms, HAtom.model n = a) ∨
        ∃ i, i < wrt.length ∧ a = HAtom.point i := by
    intro e he a ha
    obtain ⟨z, -, rfl⟩ := List.mem_map.1 he
    have ha' := atoms_diff_subset _ _ a ha
    rw [atoms_sum] at ha'
    obtain ⟨t, ht, hat⟩ := ha'
    obtain ⟨q, hq, rfl⟩ := List.mem_map.1 ht
    have hq' := List.mem_zipIdx hq
    simp only [atoms, List.mem_append, List.mem_singleton] at hat
    rcases hat with hat | hat
    · left
      obtain ⟨n, hn, hna⟩ := mem_atoms_mapAtoms _ _ _ hat
      refine ⟨n, ?_, hna⟩
      have hmem : q.1 ∈ makeGradient (squaredLoss eqs) wrt := by
        have := hq'.2.2
        rw [this]; exact List.getElem_mem _
      obtain ⟨y, -, hy⟩ := List.mem_map.1 hmem
      rw [← hy] at hn
      exact atoms_squaredLoss eqs n (atoms_diff_subset _ _ n hn)
    · right
      exact ⟨q.2, by omega, hat⟩
  constructor
  · intro e he n hn
    rcases key e he _ hn with ⟨n', hn', heq⟩ | ⟨i, -, heq⟩
    · cases heq; exact hn'
    · cases heq
  · intro e he i hi
    rcases key e he _ hi with ⟨n', hn', heq⟩ | ⟨i', hi', heq⟩
    · cases heq
    · cases heq; exact hi'

end Verif
