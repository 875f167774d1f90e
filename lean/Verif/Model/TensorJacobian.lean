import Verif.Model.Flat

/-!
# Jacobian, gradient and Hessian-vector product of the tensor back-ends

Models `make_jacobian` (`cge_modeling/compile/pytensor_tools.py:225-259`), `make_jvp` and the gradient
(`cge_modeling/compile/pytensor.py:75-106,170-189`) and the flat functions JAX differentiates
(`cge_modeling/compile/jax.py:52-64,118-145`).  The derivatives themselves come from pytensor and JAX;
what is modelled is how the pieces are put together.
-/

namespace Verif

variable {α : Type _}

/-- `pt.atleast_2d(x).reshape((n_eq, -1))` (compile/pytensor_tools.py:256): the elements stay in order;
the number of columns is what is left, and numpy refuses when that is not a whole number. -/
def blockReshape (nEq : Nat) (a : NDArray α) : Res (NDArray α) :=
  if nEq = 0 ∨ a.data.length % nEq ≠ 0 then .error .valueError
  else .ok ⟨[nEq, a.data.length / nEq], a.data⟩

/-- Number of columns of a matrix. -/
def nCols (b : NDArray α) : Nat := b.shape.getD 1 0

/-- Row `i` of a matrix. -/
def matRow (b : NDArray α) (i : Nat) : List α := (b.data.drop (i * nCols b)).take (nCols b)

/-- `pt.concatenate(blocks, axis=-1)` for matrices with `nEq` rows: row by row. -/
def concatLast (nEq : Nat) (bs : List (NDArray α)) : Res (NDArray α) :=
  if bs = [] then .error .valueError
  else .ok ⟨[nEq, (bs.map nCols).sum], (List.range nEq).flatMap fun i => bs.flatMap fun b => matRow b i⟩

/-- `make_jacobian` (compile/pytensor_tools.py:249-259); `columns` is what
`pytensor.gradient.jacobian(system, x)` returns: for each variable an array of shape
`(n_eq, *shape of the variable)`. -/
def makeTensorJacobian (nEq : Nat) (columns : List (NDArray α)) : Res (NDArray α) := do
  let bs ← columns.mapM (blockReshape nEq)
  concatLast nEq bs

/-- `pt.concatenate([pt.atleast_1d(eq).ravel() for eq in grad])` (compile/pytensor.py:177-178) and
`pt.concatenate([x.ravel() for x in jvp_chunks])` (compile/pytensor.py:102-103); one array of the
variable's shape per variable. -/
def concatRavel (chunks : List (NDArray α)) : Res (List α) := npConcatenate (chunks.map NDArray.data)

/-- `f_sys_wrapped` / `f_loss_wrapped` (compile/jax.py:56-60,125-129): the compiled function behind flat
arguments. -/
def jaxWrapped {β : Type _} (f : List (NDArray α) → Res β) (shapes thetaShapes : List (List Nat))
    (x theta : List α) : Res β := do
  let xs ← flatTensorToRaggedList x shapes
  let thetas ← flatTensorToRaggedList theta thetaShapes
  f (xs ++ thetas)

end Verif
