import Verif.Model.JaxFns

/-!
# The functions the pytensor back-end compiles

Models `cge_modeling/compile/pytensor.py:75-106,134-225,281-321,361-395` and `make_jacobian`
(`cge_modeling/compile/pytensor_tools.py:225-259`): how pytensor's derivatives with respect to the variables are
put together to vectors and matrices.  `pytensor.gradient.jacobian` and `pytensor.grad` are parameters of the
model.
-/

namespace Verif

/-- pytensor's derivatives of a vector and of a number with respect to tensors: for each tensor an array. -/
structure PtLib where
  jacobian : (List (NDArray ℝ) → Res (List ℝ)) → List (NDArray ℝ) → Res (List (NDArray ℝ))
  grad : (List (NDArray ℝ) → Res ℝ) → List (NDArray ℝ) → Res (List (NDArray ℝ))

/-- `pytensor.function(inputs, …)` called with keywords: they must be the names of the inputs. -/
def callInputs {β : Type _} (inputs : List Str) (g : List (NDArray ℝ) → Res β) : KwFun ℝ β := fun d =>
  if !((dkeys d).all (fun n => decide (n ∈ inputs)) && inputs.all fun n => decide (n ∈ dkeys d)) then
    .error .typeError
  else do
    let args ← inputs.mapM (dgetE d)
    g args

/-- `pt.specify_shape(x, n)` of a vector. -/
def specifyLength (n : Nat) (x : List ℝ) : Res (List ℝ) := if x.length = n then .ok x else .error .assertion

/-- The graph of `compile_pytensor_gradient_function` (compile/pytensor.py:177-178). -/
def ptGrad (lib : PtLib) (n : Nat) (loss : List (NDArray ℝ) → Res ℝ) (xs thetas : List (NDArray ℝ)) :
    Res (List ℝ) := do
  let chunks ← lib.grad (fun ys => loss (ys ++ thetas)) xs
  let g ← concatRavel chunks
  specifyLength n g

/-- The graph of `make_jvp` (compile/pytensor.py:95-106), as called by `compile_pytensor_hessp_function`
(218): `p` is not given. -/
def ptHessp (lib : PtLib) (n : Nat) (grad : List (NDArray ℝ) → List (NDArray ℝ) → Res (List ℝ))
    (xs thetas points : List (NDArray ℝ)) : Res (List ℝ) := do
  let p ← concatRavel points
  let chunks ← lib.grad (fun ys => do
    let g ← grad ys thetas
    return (List.zipWith (· * ·) g p).sum) xs
  let u ← concatRavel chunks
  specifyLength n u

/-- `make_jacobian` (compile/pytensor_tools.py:249-259) of a vector of `nEq` entries. -/
def ptJacobian (lib : PtLib) (nEq : Nat) (f : List (NDArray ℝ) → List (NDArray ℝ) → Res (List ℝ))
    (xs thetas : List (NDArray ℝ)) : Res (NDArray ℝ) := do
  let columns ← lib.jacobian (fun ys => f ys thetas) xs
  makeTensorJacobian nEq columns

/-- The functions of `compile_pytensor_cge_functions` (compile/pytensor.py:281-321) for a compiled residual
function `f` of `nEq` residuals: `compile_pytensor_jacobian_function` (134-155), `…_error_function` (157-170),
`…_gradient_function` (170-189), `…_hess_function` (192-209), `…_hessp_function` (212-225). -/
noncomputable def compilePytensorFns (lib : PtLib) (vars params : List ModelObject) (nVars nEq : Nat)
    (f : KwFun ℝ (List ℝ)) : OptimFns :=
  let names := (vars ++ params).map ModelObject.name
  let points := vars.map fun v => pointName v.name
  let nv := vars.length
  let sys : List (NDArray ℝ) → List (NDArray ℝ) → Res (List ℝ) := fun xs thetas => callPositional names f (xs ++ thetas)
  let loss : List (NDArray ℝ) → Res ℝ := callPositional names (jaxLossGraph f)
  let grad := ptGrad lib nVars loss
  { system := f
    jac := callInputs names fun args => ptJacobian lib nEq sys (args.take nv) (args.drop nv)
    resid := callInputs names loss
    grad := callInputs names fun args => grad (args.take nv) (args.drop nv)
    hess := callInputs names fun args => ptJacobian lib nVars grad (args.take nv) (args.drop nv)
    hessp := callInputs (names ++ points) fun args =>
      ptHessp lib nVars grad (args.take nv) ((args.take names.length).drop nv) (args.drop names.length) }

/-- `compile_cge_model_to_pytensor_Op` (compile/pytensor.py:386-395): the residuals and the Jacobian as functions
of the tensors in order. -/
def pytensorOps (lib : PtLib) (vars params : List ModelObject) (nEq : Nat) (f : KwFun ℝ (List ℝ)) :
    (List (NDArray ℝ) → Res (List ℝ)) × (List (NDArray ℝ) → Res (NDArray ℝ)) :=
  let names := (vars ++ params).map ModelObject.name
  (callPositional names f,
    fun args => ptJacobian lib nEq (fun xs thetas => callPositional names f (xs ++ thetas))
      (args.take vars.length) (args.drop vars.length))

end Verif
