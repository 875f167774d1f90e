import Verif.Spec.JaxFns
import Verif.Model.NumbaFns
import Verif.Model.SympyTensor

/-!
# The six functions of a model as functions of flat vectors
-/

namespace Verif

/-- The functions the optimizers call: of the flat vector of variables, (a direction,) and the flat vector of
parameters. -/
structure FlatFns where
  system : List ℝ → List ℝ → Res (List ℝ)
  jac : List ℝ → List ℝ → Res (NDArray ℝ)
  resid : List ℝ → List ℝ → Res ℝ
  grad : List ℝ → List ℝ → Res (List ℝ)
  hess : List ℝ → List ℝ → Res (NDArray ℝ)
  hessp : List ℝ → List ℝ → List ℝ → Res (List ℝ)

/-- At the variables `v` and the parameters `theta` the functions return the residuals `G v`, half the sum of
their squares, the matrix of their partial derivatives, the gradient and the matrix of second derivatives of half
the sum of squares, and that matrix times a direction. -/
def DerivativesAt {n m : Nat} (fns : FlatFns) (theta : List ℝ) (G : (Fin n → ℝ) → Fin m → ℝ) (v : Fin n → ℝ) : Prop :=
  fns.system (List.ofFn v) theta = .ok (List.ofFn (G v)) ∧
  fns.resid (List.ofFn v) theta = .ok (halfSq G v) ∧
  fns.jac (List.ofFn v) theta = .ok (arrayOf fun i k => partialD (fun u => G u i) k v) ∧
  fns.grad (List.ofFn v) theta = .ok (List.ofFn fun k => ∑ i, G v i * partialD (fun u => G u i) k v) ∧
  fns.hess (List.ofFn v) theta = .ok (arrayOf fun k l => partialD (partialD (halfSq G) k) l v) ∧
  ∀ p : Fin n → ℝ, fns.hessp (List.ofFn v) (List.ofFn p) theta =
    .ok (List.ofFn fun k => ∑ l, partialD (partialD (halfSq G) k) l v * p l)

/-- A matrix with `n` columns as an array. -/
def rowsArray (n : Nat) (rows : List (List ℝ)) : NDArray ℝ := ⟨[rows.length, n], rows.flatten⟩

/-- The functions of the JAX and pytensor back-ends behind the wrappers for scipy
(base/function_wrappers.py:18-74). -/
noncomputable def OptimFns.flat (fns : OptimFns) (coords : Coords) (vars params : List ModelObject) : FlatFns where
  system := wrapForScipy fns.system vars params coords
  jac := wrapForScipy fns.jac vars params coords
  resid := wrapForScipy fns.resid vars params coords
  grad := wrapForScipy fns.grad vars params coords
  hess := wrapForScipy fns.hess vars params coords
  hessp := wrapForScipyP fns.hessp vars params coords

/-- The functions of the default back-end behind the wrappers for scipy (base/function_wrappers.py:18-74).  The
objective is the one output of its function. -/
noncomputable def SympyTensorFns.flat (F : SympyTensorFns) (coords : Coords) (vars params : List ModelObject) :
    FlatFns where
  system := wrapForScipy (callGraphs ((vars ++ params).map ModelObject.name) (vars.map ModelObject.name) F.system)
    vars params coords
  jac := fun x theta => (wrapForScipy (callMatrix ((vars ++ params).map ModelObject.name)
    (vars.map ModelObject.name) F.jac) vars params coords x theta).map (rowsArray x.length)
  resid := fun x theta => (wrapForScipy (callGraphs ((vars ++ params).map ModelObject.name)
    (vars.map ModelObject.name) [F.loss]) vars params coords x theta).map fun l => l.headD 0
  grad := wrapForScipy (callGraphs ((vars ++ params).map ModelObject.name) (vars.map ModelObject.name) F.grad)
    vars params coords
  hess := fun x theta => (wrapForScipy (callMatrix ((vars ++ params).map ModelObject.name)
    (vars.map ModelObject.name) F.hess) vars params coords x theta).map (rowsArray x.length)
  hessp := wrapForScipyP (callGraphs ((vars ++ params).map ModelObject.name ++ vars.map fun v => pointName v.name)
    (vars.map ModelObject.name) F.hessp) vars params coords

/-- The functions of the numba back-end, which take flat vectors (compile/numba.py:167-228); `jit`: whether numba
compiles the Hessian-vector product. -/
noncomputable def NumbaFns.flat (K : NumbaFns) (jit : Bool) (vn pn : List Str) : FlatFns where
  system := callNumba vn pn K.system
  jac := fun x theta => (callNumbaMatrix vn pn K.jac x theta).map (rowsArray x.length)
  resid := fun x theta => (callNumba vn pn [K.loss] x theta).map fun l => l.headD 0
  grad := callNumba vn pn K.grad
  hess := fun x theta => (callNumbaMatrix vn pn K.hess x theta).map (rowsArray x.length)
  hessp := callNumbaHessp jit vn pn K.hessp

end Verif
