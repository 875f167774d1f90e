import Verif.Model.TensorJacobian
import Verif.Props.Flat
import Mathlib.Analysis.Calculus.Deriv.Basic
import Mathlib.Analysis.Calculus.Deriv.Comp
import Mathlib.Analysis.Calculus.Deriv.Pow
import Mathlib.Analysis.Calculus.ContDiff.Basic
import Mathlib.Analysis.Calculus.FDeriv.Symmetric

/-!
# C60: derivative functions of the tensor back-ends are derivatives in flat order

Contract of the libraries: for each variable, pytensor gives the array of partial derivatives of every
residual with respect to every element of the variable; JAX gives the matrix of partial derivatives of
the function it is handed.
-/

namespace Verif

/-! ## Vocabulary -/

/-- The arrays with element `idx` of array number `m` replaced. -/
def setElem {α : Type _} (arrs : List (NDArray α)) (m : Nat) (idx : List Nat) (v : α) :
    List (NDArray α) :=
  arrs.modify m fun a => ⟨a.shape, a.data.set (ravelIndex a.shape idx) v⟩

/-- `columns` holds the partial derivatives of residuals `0 … n-1` of `F` with respect to every element
of every array: entry `[i, idx]` of array `m` belongs to residual `i` and element `idx` of array `m`. -/
def IsBlockJacobian (F : List (NDArray ℝ) → Nat → ℝ) (arrs : List (NDArray ℝ)) (n : Nat)
    (columns : List (NDArray ℝ)) : Prop :=
  columns.length = arrs.length ∧
  ∀ (m : Nat) (a c : NDArray ℝ), arrs[m]? = some a → columns[m]? = some c →
    c.shape = n :: a.shape ∧ c.WF ∧
    ∀ (i : Nat) (idx : List Nat), i < n → ValidIdx a.shape idx →
      ∃ d v, c.at? (i :: idx) = some d ∧ a.at? idx = some v ∧
        HasDerivAt (fun t => F (setElem arrs m idx t) i) d v

/-- `J` is the Jacobian matrix of residuals `0 … n-1` of `G` at the flat vector `x`: entry `[i, k]` is
the partial derivative of residual `i` with respect to element `k`. -/
def IsFlatJacobian (G : List ℝ → Nat → ℝ) (x : List ℝ) (n : Nat) (J : NDArray ℝ) : Prop :=
  J.shape = [n, x.length] ∧ J.WF ∧
  ∀ (i k : Nat) (v : ℝ), i < n → x[k]? = some v →
    ∃ d, J.at? [i, k] = some d ∧ HasDerivAt (fun t => G (x.set k t) i) d v

/-- `g` is the gradient of `L` at the flat vector `x`. -/
def IsFlatGradient (L : List ℝ → ℝ) (x g : List ℝ) : Prop :=
  g.length = x.length ∧
  ∀ (k : Nat) (v : ℝ), x[k]? = some v → ∃ d, g[k]? = some d ∧ HasDerivAt (fun t => L (x.set k t)) d v

/-- The function behind flat arguments (variables only; parameters are held fixed). -/
def flatArg {β : Type _} (F : List (NDArray ℝ) → β) (shapes : List (List Nat)) (dflt : β)
    (x : List ℝ) : β :=
  match flatTensorToRaggedList x shapes with
  | .ok arrs => F arrs
  | .error _ => dflt

/-! ## Cutting a vector into arrays -/

section
variable {α : Type _}

/-- The arrays cut out of a vector. -/
def raggedOf : List (List Nat) → List α → List (NDArray α)
  | [], _ => []
  | s :: ss, x => ⟨s, x.take s.prod⟩ :: raggedOf ss (x.drop s.prod)

theorem raggedLoop_eq (x : List α) (shapes : List (List Nat)) (c : Nat)
    (h : c + (shapes.map List.prod).sum ≤ x.length) :
    raggedLoop x shapes c = .ok (raggedOf shapes (x.drop c)) := by
  induction shapes generalizing c with
  | nil => rfl
  | cons s ss ih =>
    simp only [List.map_cons, List.sum_cons] at h
    unfold raggedLoop
    dsimp only
    rw [slice_eq]
    have hl : ((x.drop c).take s.prod).length = s.prod := by
      rw [List.length_take, List.length_drop]; omega
    have hr : reshape ((x.drop c).take s.prod) s = .ok ⟨s, (x.drop c).take s.prod⟩ := by
      unfold reshape; rw [if_pos hl]
    rw [hr]
    dsimp only [Bind.bind, Except.bind]
    rw [ih (c + s.prod) (by omega)]
    simp only [raggedOf, List.drop_drop]
    rfl

theorem ragged_eq (x : List α) (shapes : List (List Nat))
    (h : (shapes.map List.prod).sum ≤ x.length) :
    flatTensorToRaggedList x shapes = .ok (raggedOf shapes x) := by
  unfold flatTensorToRaggedList
  rw [raggedLoop_eq x shapes 0 (by omega)]
  simp

theorem raggedOf_getElem? (shapes : List (List Nat)) (x : List α) (m : Nat) (s : List Nat)
    (hm : shapes[m]? = some s) :
    (raggedOf shapes x)[m]?
      = some ⟨s, (x.drop ((shapes.map List.prod).take m).sum).take s.prod⟩ := by
  induction shapes generalizing x m with
  | nil => simp at hm
  | cons s' ss ih =>
    cases m with
    | zero => simp at hm; subst hm; simp [raggedOf]
    | succ m =>
      rw [List.getElem?_cons_succ] at hm
      simp only [raggedOf, List.getElem?_cons_succ, List.map_cons, List.take_succ_cons, List.sum_cons]
      rw [ih _ _ hm, List.drop_drop]

theorem length_raggedOf (shapes : List (List Nat)) (x : List α) :
    (raggedOf shapes x).length = shapes.length := by
  induction shapes generalizing x with
  | nil => rfl
  | cons s ss ih => simp [raggedOf, ih]

theorem raggedOf_set (shapes : List (List Nat)) (x : List α) (m : Nat) (s idx : List Nat)
    (hm : shapes[m]? = some s) (hidx : ValidIdx s idx) (t : α) :
    raggedOf shapes (x.set (((shapes.map List.prod).take m).sum + ravelIndex s idx) t)
      = setElem (raggedOf shapes x) m idx t := by
  induction shapes generalizing x m with
  | nil => simp at hm
  | cons s' ss ih =>
    cases m with
    | zero =>
      simp at hm
      subst hm
      have hlt := ravelIndex_lt s' idx hidx
      simp only [List.take_zero, List.sum_nil, Nat.zero_add, raggedOf, setElem, List.modify_zero_cons]
      rw [List.take_set, List.drop_set_of_lt hlt]
    | succ m =>
      rw [List.getElem?_cons_succ] at hm
      simp only [List.map_cons, List.take_succ_cons, List.sum_cons, raggedOf, setElem,
        List.modify_succ_cons]
      have ih' := ih (x.drop s'.prod) m hm
      unfold setElem at ih'
      rw [← ih', List.take_set, List.drop_set]
      congr 1
      · congr 1
        rw [List.set_eq_of_length_le]
        rw [List.length_take]; omega
      · congr 1
        rw [if_neg (by omega)]
        congr 1
        omega

/-- Looking up a position in a concatenation of pieces of different lengths. -/
theorem getElem?_flatMap_offset {β γ : Type _} (l : List β) (f : β → List γ) (m r : Nat) (b : β)
    (hm : l[m]? = some b) (hr : r < (f b).length) :
    (l.flatMap f)[((l.map fun b => (f b).length).take m).sum + r]? = (f b)[r]? := by
  induction l generalizing m with
  | nil => simp at hm
  | cons a l ih =>
    rw [List.flatMap_cons]
    cases m with
    | zero =>
      simp at hm
      subst hm
      simp only [List.take_zero, List.sum_nil, Nat.zero_add]
      rw [List.getElem?_append_left hr]
    | succ m =>
      rw [List.getElem?_cons_succ] at hm
      simp only [List.map_cons, List.take_succ_cons, List.sum_cons]
      rw [List.getElem?_append_right (by omega), ← ih m hm]
      congr 1
      omega

end

/-! ## The claim -/

/-- **C60 (pytensor Jacobian).**  If `pytensor.gradient.jacobian` returned the partial derivatives of the
residuals with respect to every element of every variable, `make_jacobian` returns the Jacobian matrix
of the residuals as a function of the flat vector: row `i` is residual `i`, column `k` is the scalar at
flat address `k`. -/
theorem C60_pytensor_jacobian (F : List (NDArray ℝ) → Nat → ℝ) (shapes : List (List Nat))
    (hs : shapes ≠ []) (n : Nat) (hn : 0 < n) (x : List ℝ)
    (hx : x.length = (shapes.map List.prod).sum) (arrs columns : List (NDArray ℝ))
    (ha : flatTensorToRaggedList x shapes = .ok arrs) (hc : IsBlockJacobian F arrs n columns) :
    ∃ J, makeTensorJacobian n columns = .ok J ∧
      IsFlatJacobian (flatArg F shapes fun _ => 0) x n J := by
  have harrs : arrs = raggedOf shapes x := by
    rw [ragged_eq x shapes (by omega)] at ha
    cases ha; rfl
  obtain ⟨hlen, hcol⟩ := hc
  have hlen' : columns.length = shapes.length := by rw [hlen, harrs, length_raggedOf]
  -- each column block
  have hblock : ∀ (m : Nat) (s : List Nat) (c : NDArray ℝ), shapes[m]? = some s →
      columns[m]? = some c → c.shape = n :: s ∧ c.data.length = n * s.prod := by
    intro m s c hm hcm
    have hra := raggedOf_getElem? shapes x m s hm
    rw [← harrs] at hra
    obtain ⟨h1, h2, -⟩ := hcol m _ c hra hcm
    refine ⟨h1, ?_⟩
    have : c.data.length = c.shape.prod := h2
    rw [this, h1, List.prod_cons]
  set bs : List (NDArray ℝ) := columns.map fun c => ⟨[n, c.data.length / n], c.data⟩ with hbs
  have hmapM : columns.mapM (blockReshape n) = .ok bs := by
    apply mapM_ok_of_forall
    intro c hcmem
    obtain ⟨m, hmlt, hmc⟩ := List.mem_iff_getElem.1 hcmem
    have hcm : columns[m]? = some c := by rw [List.getElem?_eq_getElem hmlt, hmc]
    have hms : m < shapes.length := by omega
    obtain ⟨-, h2⟩ := hblock m shapes[m] c (List.getElem?_eq_getElem hms) hcm
    unfold blockReshape
    rw [if_neg]
    rintro (h0 | h0)
    · omega
    · rw [h2, Nat.mul_mod_right] at h0
      exact h0 rfl
  have hbne : bs ≠ [] := by
    intro h0
    have : columns.length = 0 := by rw [← List.length_map (f := fun c : NDArray ℝ =>
      (⟨[n, c.data.length / n], c.data⟩ : NDArray ℝ)), ← hbs, h0]; rfl
    have h3 := List.length_pos_iff.2 hs
    omega
  have hcols : bs.map nCols = shapes.map List.prod := by
    apply List.ext_getElem?
    intro m
    by_cases hm : m < shapes.length
    · have hmc : m < columns.length := by omega
      obtain ⟨-, h2⟩ := hblock m shapes[m] columns[m] (List.getElem?_eq_getElem hm)
        (List.getElem?_eq_getElem hmc)
      rw [hbs]
      simp only [List.getElem?_map, List.getElem?_eq_getElem hm, List.getElem?_eq_getElem hmc,
        Option.map_some, nCols]
      simp [h2, hn]
    · rw [List.getElem?_eq_none (by simp [hbs]; omega), List.getElem?_eq_none (by simp; omega)]
  have hrowlen : ∀ i, i < n → ∀ b ∈ bs, (matRow b i).length = nCols b := by
    intro i hi b hb
    rw [hbs] at hb
    obtain ⟨c, hcmem, rfl⟩ := List.mem_map.1 hb
    obtain ⟨m, hmlt, hmc⟩ := List.mem_iff_getElem.1 hcmem
    have hcm : columns[m]? = some c := by rw [List.getElem?_eq_getElem hmlt, hmc]
    obtain ⟨-, h2⟩ := hblock m shapes[m] c (List.getElem?_eq_getElem (by omega)) hcm
    unfold matRow nCols
    simp only [List.getD_cons_succ, List.getD_cons_zero, List.length_take, List.length_drop, h2]
    rw [Nat.mul_div_cancel_left _ hn]
    have : (i + 1) * (shapes[m]).prod ≤ n * (shapes[m]).prod := Nat.mul_le_mul_right _ hi
    rw [Nat.add_mul] at this
    omega
  have hrowtot : ∀ i, i < n → (bs.flatMap fun b => matRow b i).length = x.length := by
    intro i hi
    rw [List.length_flatMap, hx, ← hcols]
    congr 1
    apply List.map_congr_left
    intro b hb
    exact hrowlen i hi b hb
  refine ⟨⟨[n, x.length], (List.range n).flatMap fun i => bs.flatMap fun b => matRow b i⟩, ?_, rfl, ?_, ?_⟩
  · unfold makeTensorJacobian
    rw [hmapM]
    dsimp only [Bind.bind, Except.bind]
    unfold concatLast
    rw [if_neg hbne, hcols, ← hx]
  · unfold NDArray.WF
    simp only [List.length_flatMap, List.prod_cons, List.prod_nil, Nat.mul_one]
    have : (List.range n).map (fun i => (bs.map fun b => (matRow b i).length).sum)
        = (List.range n).map fun _ => x.length := by
      apply List.map_congr_left
      intro i hi
      have := hrowtot i (List.mem_range.1 hi)
      rwa [List.length_flatMap] at this
    rw [this]
    simp
  · intro i k v hi hk
    have hkx : k < x.length := by
      by_contra hcon
      rw [List.getElem?_eq_none (by omega)] at hk
      cases hk
    obtain ⟨m, hm, h1, h2⟩ := block_exists (shapes.map List.prod) k (by rw [← hx]; exact hkx)
    have hms : m < shapes.length := by simpa using hm
    have hmc : m < columns.length := by omega
    simp only [List.getElem_map] at h2
    set s := shapes[m] with hsdef
    have hsm : shapes[m]? = some s := List.getElem?_eq_getElem hms
    set off := ((shapes.map List.prod).take m).sum with hoff
    set idx := unravelIndex s (k - off) with hidx
    have hr : k - off < s.prod := by omega
    have hvalid : ValidIdx s idx := unravel_valid s _ hr
    have hrav : ravelIndex s idx = k - off := ravel_unravel s _ hr
    have hkoff : k = off + ravelIndex s idx := by rw [hrav]; omega
    have hra := raggedOf_getElem? shapes x m s hsm
    obtain ⟨hshape, hwf, hd⟩ := hcol m _ columns[m] (by rw [harrs]; exact hra)
      (List.getElem?_eq_getElem hmc)
    obtain ⟨d, v', hdc, hv', hderiv⟩ := hd i idx hi hvalid
    obtain ⟨hcs, hcl⟩ := hblock m s columns[m] hsm (List.getElem?_eq_getElem hmc)
    -- the value
    have hvv : v' = v := by
      have h3 : (⟨s, (x.drop off).take s.prod⟩ : NDArray ℝ).at? idx = some v := by
        unfold NDArray.at?
        dsimp only
        rw [if_pos hvalid, List.getElem?_take_of_lt (by omega), List.getElem?_drop, ← hkoff]
        exact hk
      rw [h3] at hv'
      cases hv'; rfl
    subst hvv
    refine ⟨d, ?_, ?_⟩
    · -- the entry
      unfold NDArray.at? at hdc ⊢
      rw [hcs] at hdc
      rw [if_pos (show ValidIdx (n :: s) (i :: idx) from ⟨hi, hvalid⟩)] at hdc
      rw [if_pos (show ValidIdx [n, x.length] [i, k] from ⟨hi, hkx, trivial⟩)]
      simp only [ravelIndex, List.prod_cons, List.prod_nil, Nat.mul_one, Nat.add_zero] at hdc ⊢
      have hbig := getElem?_flatMap_block (List.range n) (fun i => bs.flatMap fun b => matRow b i)
        x.length (fun j hj => hrowtot j (List.mem_range.1 hj)) i k hkx
      rw [hbig, List.getElem?_range hi, Option.bind_some]
      have hbm : bs[m]? = some ⟨[n, columns[m].data.length / n], columns[m].data⟩ := by
        rw [hbs]; simp [hmc]
      have hnc : nCols (⟨[n, columns[m].data.length / n], columns[m].data⟩ : NDArray ℝ) = s.prod := by
        unfold nCols
        simp only [List.getD_cons_succ, List.getD_cons_zero, hcl]
        exact Nat.mul_div_cancel_left _ hn
      have hlen2 : (bs.map fun b => (matRow b i).length) = shapes.map List.prod := by
        rw [← hcols]
        exact List.map_congr_left fun b hb => hrowlen i hi b hb
      have hoffset := getElem?_flatMap_offset bs (fun b => matRow b i) m (ravelIndex s idx) _ hbm (by
        rw [hrowlen i hi _ (List.mem_of_getElem? hbm), hnc]; omega)
      rw [hlen2, ← hoff, ← hkoff] at hoffset
      rw [hoffset]
      unfold matRow
      rw [hnc, List.getElem?_take_of_lt (by omega), List.getElem?_drop]
      exact hdc
    · -- the derivative
      have hfun : (fun t => flatArg F shapes (fun _ => 0) (x.set k t) i)
          = fun t => F (setElem arrs m idx t) i := by
        funext t
        unfold flatArg
        rw [ragged_eq _ shapes (by rw [List.length_set]; omega)]
        dsimp only
        rw [harrs, hkoff, raggedOf_set shapes x m s idx hsm hvalid t]
      rw [hfun]
      exact hderiv

/-- Residual `i` as JAX sees it, a function of two flat vectors. -/
def jaxResidual (f : List (NDArray ℝ) → Nat → ℝ) (shapes thetaShapes : List (List Nat))
    (theta x : List ℝ) (i : Nat) : ℝ :=
  match jaxWrapped (fun arrs => .ok (f arrs i)) shapes thetaShapes x theta with
  | .ok r => r
  | .error _ => 0

/-- **C60 (JAX Jacobian).**  JAX differentiates the function of the flat vectors.  Whatever matrix of
partial derivatives of it JAX returns, `make_jacobian` returns the same matrix from pytensor's blocks:
the two back-ends have the same Jacobian at every point. -/
theorem C60_backends_agree (f : List (NDArray ℝ) → Nat → ℝ) (shapes thetaShapes : List (List Nat))
    (hs : shapes ≠ []) (n : Nat) (hn : 0 < n) (x theta : List ℝ)
    (hx : x.length = (shapes.map List.prod).sum) (arrs thetas columns : List (NDArray ℝ))
    (ha : flatTensorToRaggedList x shapes = .ok arrs)
    (ht : flatTensorToRaggedList theta thetaShapes = .ok thetas)
    (hc : IsBlockJacobian (fun as => f (as ++ thetas)) arrs n columns)
    (J : NDArray ℝ) (hJ : IsFlatJacobian (jaxResidual f shapes thetaShapes theta) x n J) :
    makeTensorJacobian n columns = .ok J := by
  have hsame : ∀ (k i : Nat) (t : ℝ), flatArg (fun as => f (as ++ thetas)) shapes (fun _ => 0)
      (x.set k t) i = jaxResidual f shapes thetaShapes theta (x.set k t) i := by
    intro k i t
    unfold flatArg jaxResidual jaxWrapped
    rw [ragged_eq _ shapes (by rw [List.length_set]; omega), ht]
    rfl
  obtain ⟨J', h1, h2, h3, h4'⟩ :=
    C60_pytensor_jacobian (fun as => f (as ++ thetas)) shapes hs n hn x hx arrs columns ha hc
  have h4 : ∀ (i k : Nat) (v : ℝ), i < n → x[k]? = some v → ∃ d, J'.at? [i, k] = some d ∧
      HasDerivAt (fun t => jaxResidual f shapes thetaShapes theta (x.set k t) i) d v := by
    intro i k v hi hk
    obtain ⟨d, hd, hd'⟩ := h4' i k v hi hk
    refine ⟨d, hd, ?_⟩
    simpa only [hsame] using hd'
  obtain ⟨g2, g3, g4⟩ := hJ
  rw [h1]
  have hdata : J'.data = J.data := by
    unfold NDArray.WF at h3 g3
    rw [h2] at h3
    rw [g2] at g3
    simp only [List.prod_cons, List.prod_nil, Nat.mul_one] at h3 g3
    apply List.ext_getElem?
    intro p
    by_cases hp : p < n * x.length
    · have hxpos : 0 < x.length := by
        rcases Nat.eq_zero_or_pos x.length with h0 | h0
        · rw [h0] at hp; omega
        · exact h0
      have hi : p / x.length < n := (Nat.div_lt_iff_lt_mul hxpos).2 hp
      have hk : p % x.length < x.length := Nat.mod_lt _ hxpos
      obtain ⟨d, e1, e2⟩ := h4 (p / x.length) (p % x.length) _ hi (List.getElem?_eq_getElem hk)
      obtain ⟨d', f1, f2⟩ := g4 (p / x.length) (p % x.length) _ hi (List.getElem?_eq_getElem hk)
      have hdd : d = d' := e2.unique f2
      unfold NDArray.at? at e1 f1
      have hval : ValidIdx [n, x.length] [p / x.length, p % x.length] := ⟨hi, hk, trivial⟩
      rw [h2, if_pos hval] at e1
      rw [g2, if_pos hval] at f1
      simp only [ravelIndex, List.prod_cons, List.prod_nil, Nat.mul_one, Nat.add_zero] at e1 f1
      rw [Nat.div_add_mod'] at e1 f1
      rw [e1, f1, hdd]
    · rw [List.getElem?_eq_none (by omega), List.getElem?_eq_none (by omega)]
  have : J' = J := by
    cases J'; cases J
    simp_all
  rw [this]

/-- `chunks` holds the partial derivatives of `L` with respect to every element of every array. -/
def IsBlockGradient (L : List (NDArray ℝ) → ℝ) (arrs chunks : List (NDArray ℝ)) : Prop :=
  chunks.length = arrs.length ∧
  ∀ (m : Nat) (a c : NDArray ℝ), arrs[m]? = some a → chunks[m]? = some c →
    c.shape = a.shape ∧ c.WF ∧
    ∀ idx, ValidIdx a.shape idx → ∃ d v, c.at? idx = some d ∧ a.at? idx = some v ∧
      HasDerivAt (fun t => L (setElem arrs m idx t)) d v

/-- **C60 (gradient).**  From the partial derivatives of a function with respect to every element of every
variable, the compiled gradient is the gradient with respect to the flat vector. -/
theorem C60_pytensor_gradient (L : List (NDArray ℝ) → ℝ) (shapes : List (List Nat))
    (hs : shapes ≠ []) (x : List ℝ) (hx : x.length = (shapes.map List.prod).sum)
    (arrs chunks : List (NDArray ℝ)) (ha : flatTensorToRaggedList x shapes = .ok arrs)
    (hc : IsBlockGradient L arrs chunks) :
    ∃ g, concatRavel chunks = .ok g ∧ IsFlatGradient (flatArg L shapes 0) x g := by
  have harrs : arrs = raggedOf shapes x := by
    rw [ragged_eq x shapes (by omega)] at ha
    cases ha; rfl
  obtain ⟨hlen, hcol⟩ := hc
  have hlen' : chunks.length = shapes.length := by rw [hlen, harrs, length_raggedOf]
  have hdl : (chunks.map fun c => c.data.length) = shapes.map List.prod := by
    apply List.ext_getElem?
    intro m
    by_cases hm : m < shapes.length
    · have hmc : m < chunks.length := by omega
      have hra := raggedOf_getElem? shapes x m _ (List.getElem?_eq_getElem hm)
      rw [← harrs] at hra
      obtain ⟨h1, h2, -⟩ := hcol m _ chunks[m] hra (List.getElem?_eq_getElem hmc)
      have h3 : chunks[m].data.length = chunks[m].shape.prod := h2
      simp only [List.getElem?_map, List.getElem?_eq_getElem hm, List.getElem?_eq_getElem hmc,
        Option.map_some, h3, h1]
    · rw [List.getElem?_eq_none (by simp; omega), List.getElem?_eq_none (by simp; omega)]
  have hne : chunks.map NDArray.data ≠ [] := by
    intro h0
    have : chunks.length = 0 := by rw [← List.length_map (f := NDArray.data), h0]; rfl
    have h3 := List.length_pos_iff.2 hs
    omega
  refine ⟨chunks.flatMap NDArray.data, ?_, ?_, ?_⟩
  · unfold concatRavel
    rw [npConcatenate_ok hne, List.flatMap_def]
  · rw [List.length_flatMap, hdl, hx]
  · intro k v hk
    have hkx : k < x.length := by
      by_contra hcon
      rw [List.getElem?_eq_none (by omega)] at hk
      cases hk
    obtain ⟨m, hm, h1, h2⟩ := block_exists (shapes.map List.prod) k (by rw [← hx]; exact hkx)
    have hms : m < shapes.length := by simpa using hm
    have hmc : m < chunks.length := by omega
    simp only [List.getElem_map] at h2
    set s := shapes[m] with hsdef
    have hsm : shapes[m]? = some s := List.getElem?_eq_getElem hms
    set off := ((shapes.map List.prod).take m).sum with hoff
    set idx := unravelIndex s (k - off) with hidx
    have hr : k - off < s.prod := by omega
    have hvalid : ValidIdx s idx := unravel_valid s _ hr
    have hrav : ravelIndex s idx = k - off := ravel_unravel s _ hr
    have hkoff : k = off + ravelIndex s idx := by rw [hrav]; omega
    have hra := raggedOf_getElem? shapes x m s hsm
    obtain ⟨hshape, hwf, hd⟩ := hcol m _ chunks[m] (by rw [harrs]; exact hra)
      (List.getElem?_eq_getElem hmc)
    obtain ⟨d, v', hdc, hv', hderiv⟩ := hd idx hvalid
    have hvv : v' = v := by
      have h3 : (⟨s, (x.drop off).take s.prod⟩ : NDArray ℝ).at? idx = some v := by
        unfold NDArray.at?
        dsimp only
        rw [if_pos hvalid, List.getElem?_take_of_lt (by omega), List.getElem?_drop, ← hkoff]
        exact hk
      rw [h3] at hv'
      cases hv'; rfl
    subst hvv
    refine ⟨d, ?_, ?_⟩
    · unfold NDArray.at? at hdc
      rw [hshape] at hdc
      dsimp only at hdc
      rw [if_pos hvalid] at hdc
      have hcl : chunks[m].data.length = s.prod := by
        have : chunks[m].data.length = chunks[m].shape.prod := hwf
        rw [this, hshape]
      have hoffset := getElem?_flatMap_offset chunks NDArray.data m (ravelIndex s idx) _
        (List.getElem?_eq_getElem hmc) (by rw [hcl]; omega)
      rw [hdl, ← hoff, ← hkoff] at hoffset
      rw [hoffset]
      exact hdc
    · have hfun : (fun t => flatArg L shapes 0 (x.set k t)) = fun t => L (setElem arrs m idx t) := by
        funext t
        unfold flatArg
        rw [ragged_eq _ shapes (by rw [List.length_set]; omega)]
        dsimp only
        rw [harrs, hkoff, raggedOf_set shapes x m s idx hsm hvalid t]
      rw [hfun]
      exact hderiv

/-- The objective of `minimize`: half the sum of squared residuals
(compile/pytensor.py:158, compile/jax.py:119). -/
noncomputable def halfSquares (G : List ℝ → Nat → ℝ) (n : Nat) (x : List ℝ) : ℝ :=
  0.5 * ((List.range n).map fun i => G x i ^ 2).sum

/-- **C60 (gradient of the objective).**  On every back-end the gradient of the objective is the transposed
Jacobian times the residuals, entry by entry in flat order. -/
theorem C60_objective_gradient (G : List ℝ → Nat → ℝ) (x : List ℝ) (n : Nat) (J : NDArray ℝ)
    (hJ : IsFlatJacobian G x n J) (g : List ℝ) (hg : IsFlatGradient (halfSquares G n) x g) (k : Nat)
    (hk : k < x.length) :
    g[k]? = some ((List.range n).map fun i => G x i * (J.at? [i, k]).getD 0).sum := by
  obtain ⟨d, hgd, hder⟩ := hg.2 k _ (List.getElem?_eq_getElem hk)
  have hx : x.set k x[k] = x := List.set_getElem_self hk
  have key : ∀ l : List Nat, (∀ i ∈ l, i < n) →
      HasDerivAt (fun t => (l.map fun i => G (x.set k t) i ^ 2).sum)
        (2 * (l.map fun i => G x i * (J.at? [i, k]).getD 0).sum) x[k] := by
    intro l
    induction l with
    | nil => intro _; simpa using hasDerivAt_const _ _
    | cons i l ih =>
      intro hl
      obtain ⟨e, he, hde⟩ := hJ.2.2 i k _ (hl i (by simp)) (List.getElem?_eq_getElem hk)
      have h1 := hde.pow 2
      have h2 := ih fun j hj => hl j (by simp [hj])
      have h3 := h1.add h2
      simp only [List.map_cons, List.sum_cons]
      refine h3.congr_deriv ?_
      rw [hx, he]
      simp only [Option.getD_some]
      push_cast
      ring
  have h1 := (key (List.range n) fun i hi => List.mem_range.1 hi).const_mul 0.5
  have h2 := hder.unique h1
  rw [hgd, h2]
  congr 1
  ring

/-- **C60 (Hessian-vector product).**  pytensor differentiates the number `grad · p` (`make_jvp`), JAX takes
the directional derivative of the gradient along `p` (`f_hessp_jax`).  For a twice continuously
differentiable objective both are the Hessian times `p`. -/
theorem C60_hessp_routes_agree {n : Nat} (L : (Fin n → ℝ) → ℝ) (hL : ContDiff ℝ 2 L)
    (x p : Fin n → ℝ) (k : Fin n) :
    let grad : Fin n → (Fin n → ℝ) → ℝ := fun j y => fderiv ℝ L y (Pi.single j 1)
    let hess : Fin n → Fin n → ℝ := fun i j => fderiv ℝ (grad i) x (Pi.single j 1)
    fderiv ℝ (fun y => ∑ j, grad j y * p j) x (Pi.single k 1) = ∑ j, hess k j * p j ∧
    fderiv ℝ (grad k) x p = ∑ j, hess k j * p j ∧
    ∀ j, hess k j = hess j k := by
  intro grad hess
  have hd : Differentiable ℝ (fderiv ℝ L) :=
    (hL.fderiv_right (m := 1) (by norm_num)).differentiable (by norm_num)
  have hgrad : ∀ j y, HasFDerivAt (grad j) ((fderiv ℝ (fderiv ℝ L) y).flip (Pi.single j 1)) y := by
    intro j y
    have h1 := (hd y).hasFDerivAt
    have h2 := ((ContinuousLinearMap.apply ℝ ℝ (Pi.single j (1 : ℝ) : Fin n → ℝ)).hasFDerivAt
      (x := fderiv ℝ L y)).comp y h1
    exact h2
  have hfd : ∀ i v, fderiv ℝ (grad i) x v = fderiv ℝ (fderiv ℝ L) x v (Pi.single i 1) := by
    intro i v
    rw [(hgrad i x).fderiv]
    rfl
  have hsym : ∀ u v, fderiv ℝ (fderiv ℝ L) x u v = fderiv ℝ (fderiv ℝ L) x v u := by
    have := (hL.contDiffAt (x := x)).isSymmSndFDerivAt (by simp)
    intro u v
    exact this u v
  have hp : p = ∑ j, p j • (Pi.single j (1 : ℝ) : Fin n → ℝ) := by
    funext i
    simp [Finset.sum_apply, Pi.single_apply]
  have hsymm : ∀ i j, hess i j = hess j i := by
    intro i j
    change fderiv ℝ (grad i) x _ = fderiv ℝ (grad j) x _
    rw [hfd, hfd, hsym]
  refine ⟨?_, ?_, hsymm k⟩
  · have hsum : HasFDerivAt (fun y => ∑ j, grad j y * p j)
        (∑ j, p j • (fderiv ℝ (fderiv ℝ L) x).flip (Pi.single j 1)) x := by
      apply HasFDerivAt.fun_sum
      intro j _
      exact (hgrad j x).mul_const (p j)
    rw [hsum.fderiv]
    simp only [sum_apply, smul_apply]
    refine Finset.sum_congr rfl fun j _ => ?_
    rw [hsymm k j]
    change p j • fderiv ℝ (fderiv ℝ L) x (Pi.single k 1) (Pi.single j 1) = fderiv ℝ (grad j) x _ * p j
    rw [hfd, smul_eq_mul, mul_comm]
  · conv_lhs => rw [hp]
    rw [map_sum]
    refine Finset.sum_congr rfl fun j _ => ?_
    rw [map_smul, smul_eq_mul, mul_comm]

/-! ## Example: a scalar `a` and `b` over two labels, residuals `a * b[0]` and `b[1]` -/

def exTensorF (arrs : List (NDArray ℝ)) (i : Nat) : ℝ :=
  match arrs with
  | [a, b] => if i = 0 then a.data.getD 0 0 * b.data.getD 0 0 else b.data.getD 1 0
  | _ => 0

theorem exTensor_block : IsBlockJacobian exTensorF [⟨[], [2]⟩, ⟨[2], [3, 5]⟩] 2
    [⟨[2], [3, 0]⟩, ⟨[2, 2], [2, 0, 0, 1]⟩] := by
  refine ⟨rfl, ?_⟩
  intro m a c ha hc
  match m with
  | 0 =>
    cases ha; cases hc
    refine ⟨rfl, rfl, ?_⟩
    intro i idx hi hidx
    match idx, i with
    | [], 0 =>
      refine ⟨3, 2, rfl, rfl, ?_⟩
      simpa [exTensorF, setElem, ravelIndex] using (hasDerivAt_id (2 : ℝ)).mul_const 3
    | [], 1 =>
      refine ⟨0, 2, rfl, rfl, ?_⟩
      simpa [exTensorF, setElem, ravelIndex] using hasDerivAt_const (2 : ℝ) (5 : ℝ)
    | [], (i + 2) => omega
    | _ :: _, _ => exact hidx.elim
  | 1 =>
    cases ha; cases hc
    refine ⟨rfl, rfl, ?_⟩
    intro i idx hi hidx
    match idx, i with
    | [0], 0 =>
      refine ⟨2, 3, rfl, rfl, ?_⟩
      simpa [exTensorF, setElem, ravelIndex] using (hasDerivAt_id (3 : ℝ)).const_mul 2
    | [1], 0 =>
      refine ⟨0, 5, rfl, rfl, ?_⟩
      simpa [exTensorF, setElem, ravelIndex] using hasDerivAt_const (5 : ℝ) ((2 : ℝ) * 3)
    | [0], 1 =>
      refine ⟨0, 3, rfl, rfl, ?_⟩
      simpa [exTensorF, setElem, ravelIndex] using hasDerivAt_const (3 : ℝ) (5 : ℝ)
    | [1], 1 =>
      refine ⟨1, 5, rfl, rfl, ?_⟩
      simpa [exTensorF, setElem, ravelIndex] using hasDerivAt_id' (5 : ℝ)
    | [], _ => exact hidx.elim
    | [j + 2], _ => have := hidx.1; omega
    | _ :: _ :: _, _ => exact hidx.2.elim
    | [0], (i + 2) => omega
    | [1], (i + 2) => omega
  | (m + 2) => simp at ha

/-- The Jacobian with respect to `[a, b[0], b[1]]` at `[2, 3, 5]` is `[[3, 2, 0], [0, 0, 1]]`. -/
example : makeTensorJacobian 2 [⟨[2], [3, 0]⟩, ⟨[2, 2], [2, 0, 0, (1 : ℝ)]⟩]
      = .ok ⟨[2, 3], [3, 2, 0, 0, 0, 1]⟩ ∧
    ∃ J, makeTensorJacobian 2 [⟨[2], [3, 0]⟩, ⟨[2, 2], [2, 0, 0, (1 : ℝ)]⟩] = .ok J ∧
      IsFlatJacobian (flatArg exTensorF [[], [2]] fun _ => 0) [2, 3, 5] 2 J :=
  ⟨rfl, C60_pytensor_jacobian exTensorF [[], [2]] (by simp) 2 (by norm_num) [2, 3, 5] rfl _ _ rfl
    exTensor_block⟩

/-- The gradient of `a * b[0]` from its two blocks. -/
example : concatRavel [⟨[], [3]⟩, ⟨[2], [2, (0 : ℝ)]⟩] = .ok [3, 2, 0] := rfl

end Verif
