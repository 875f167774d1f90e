import Verif.Model.TensorJacobian
import Verif.Model.Wrappers
import Mathlib.Data.Real.Basic

/-!
# The functions the JAX back-end compiles

Models `cge_modeling/compile/jax.py:29-64,118-207`: how the compiled residual function is put behind flat
arguments, differentiated by JAX, and put back behind keyword arguments.  The transformations of JAX are
parameters of the model.
-/

namespace Verif

/-- The transformations of JAX the back-end uses: `jax.jacobian(f, argnums)`, `jax.jacfwd(f, argnums)`,
`jax.grad(f, argnums)` of functions of two vectors, and `jax.jvp(f, (x,), (p,))`.  `jax.jit` changes no
values and is left out. -/
structure JaxLib where
  jacobian : (List ℝ → List ℝ → Res (List ℝ)) → Nat → List ℝ → List ℝ → Res (NDArray ℝ)
  jacfwd : (List ℝ → List ℝ → Res (List ℝ)) → Nat → List ℝ → List ℝ → Res (NDArray ℝ)
  grad : (List ℝ → List ℝ → Res ℝ) → Nat → List ℝ → List ℝ → Res (List ℝ)
  jvp : (List ℝ → Res (List ℝ)) → List ℝ → List ℝ → Res (List ℝ × List ℝ)

/-- A call of a compiled function with positional arguments (compile/jax.py:46-47,60,129): they are bound to
the inputs in order. -/
def callPositional {β : Type _} (names : List Str) (f : KwFun ℝ β) (args : List (NDArray ℝ)) : Res β :=
  f (names.zip args)

/-- `0.5 * (system**2).sum()`, compiled (compile/jax.py:119-120). -/
noncomputable def jaxLossGraph (f : KwFun ℝ (List ℝ)) : KwFun ℝ ℝ := fun d => do
  let r ← f d
  return 0.5 * (r.map (· ^ 2)).sum

/-- `jnp.stack` of the elements of a vector (compile/jax.py:134,145); nothing cannot be stacked. -/
def stackVector (v : List ℝ) : Res (List ℝ) := if v = [] then .error .valueError else .ok v

/-- `jnp.stack` of the rows of a matrix (compile/jax.py:139). -/
def stackMatrix (a : NDArray ℝ) : Res (NDArray ℝ) :=
  if a.shape.headD 0 = 0 then .error .valueError else .ok a

/-- `f_grad_jax` (compile/jax.py:131-134). -/
def jaxGrad (lib : JaxLib) (loss : List ℝ → List ℝ → Res ℝ) (x theta : List ℝ) : Res (List ℝ) := do
  let g ← lib.grad loss 0 x theta
  stackVector g

/-- `f_hess_jax` (compile/jax.py:136-139). -/
def jaxHess (lib : JaxLib) (loss : List ℝ → List ℝ → Res ℝ) (x theta : List ℝ) : Res (NDArray ℝ) := do
  let h ← lib.jacfwd (jaxGrad lib loss) 0 x theta
  stackMatrix h

/-- `f_hessp_jax` (compile/jax.py:141-145). -/
def jaxHessp (lib : JaxLib) (loss : List ℝ → List ℝ → Res ℝ) (x p theta : List ℝ) : Res (List ℝ) := do
  let u ← lib.jvp (fun y => jaxGrad lib loss y theta) x p
  stackVector u.2

/-- What `compile_jax_cge_functions` returns when `root` and `minimize` are asked for, except the Euler
function (compile/jax.py:203). -/
structure OptimFns where
  system : KwFun ℝ (List ℝ)
  jac : KwFun ℝ (NDArray ℝ)
  resid : KwFun ℝ ℝ
  grad : KwFun ℝ (List ℝ)
  hess : KwFun ℝ (NDArray ℝ)
  hessp : KwFun ℝ (List ℝ)

/-- `compile_jax_cge_functions` (compile/jax.py:148-188) for a compiled residual function `f`:
`make_jax_system_and_jacobian` (52-64), `jax_loss_grad_hessp` (118-147) and the wrappers
(base/function_wrappers.py:77-104). -/
noncomputable def compileJaxFns (lib : JaxLib) (coords : Coords) (vars params : List ModelObject)
    (f : KwFun ℝ (List ℝ)) : Res OptimFns := do
  let shapes ← vars.mapM fun o => inferShape o coords
  let thetaShapes ← params.mapM fun o => inferShape o coords
  let names := (vars ++ params).map ModelObject.name
  let sysWrapped := jaxWrapped (callPositional names f) shapes thetaShapes
  let lossWrapped := jaxWrapped (callPositional names (jaxLossGraph f)) shapes thetaShapes
  return {
    system := f
    jac := wrapForPytensor (lib.jacobian sysWrapped 0) vars params
    resid := wrapForPytensor lossWrapped vars params
    grad := wrapForPytensor (jaxGrad lib lossWrapped) vars params
    hess := wrapForPytensor (jaxHess lib lossWrapped) vars params
    hessp := wrapForPytensorP (jaxHessp lib lossWrapped) vars params }

end Verif
