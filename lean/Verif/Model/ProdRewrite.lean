import Verif.Py.Basic
import Mathlib.Algebra.BigOperators.Group.Finset.Basic
import Mathlib.Data.Fintype.Pi
import Mathlib.Data.Fintype.BigOperators
import Mathlib.Data.Real.Basic

/-!
# Model of the rewrite of product reductions

`cge_modeling/compile/pytensor_tools.py`, lines 17-30.  Importing the package registers, for every pytensor graph that
is compiled afterwards, a rewrite that replaces each `Prod` by one that promises that no input is zero.
-/

namespace Verif

open scoped BigOperators

/-- The parts of a `Prod` node that matter here. -/
structure ProdOp where
  /-- the axes to multiply over; `none` for all of them -/
  axis : Option (List Nat)
  /-- `no_zeros_in_input` -/
  noZeros : Bool
  deriving DecidableEq

/-- `prod_to_no_zero_prod` (pytensor_tools.py:19-30): `none` if the node is left alone.  The new operation is built
without the argument `axis`. -/
def prodToNoZeroProd (op : ProdOp) : Option ProdOp :=
  if op.noZeros then none else some { axis := none, noZeros := true }

/-- The number of dimensions of the result. -/
def ProdOp.outDims (op : ProdOp) (ndim : Nat) : Nat :=
  match op.axis with
  | none => 0
  | some l => ndim - l.length

/-- What is left in the graph: pytensor refuses a replacement with another number of dimensions (and logs an error),
otherwise it makes it. -/
def rewriteProd (op : ProdOp) (ndim : Nat) : ProdOp :=
  match prodToNoZeroProd op with
  | none => op
  | some new => if new.outDims ndim = op.outDims ndim then new else op

/-- Whether the operation multiplies over an axis. -/
def ProdOp.reduces (op : ProdOp) (a : Nat) : Bool :=
  match op.axis with
  | none => true
  | some l => l.contains a

/-- The value of the operation for an array of the given shape, at the positions of `at_` on the axes that are kept
(the positions of `at_` on the other axes do not matter): the product of the elements that agree with `at_` there. -/
noncomputable def ProdOp.eval {ndim : Nat} (op : ProdOp) (shape : Fin ndim → Nat)
    (x : ((a : Fin ndim) → Fin (shape a)) → ℝ) (at_ : (a : Fin ndim) → Fin (shape a)) : ℝ :=
  ∏ i : (a : Fin ndim) → Fin (shape a), if ∀ a : Fin ndim, op.reduces a = false → i a = at_ a then x i else 1

/-- A floating point quotient; `none` for what IEEE arithmetic makes of a division by zero (an infinity, or NaN). -/
noncomputable def ieeeDiv (a b : ℝ) : Option ℝ := if b = 0 then none else some (a / b)

/-- The derivative of the product of `x` with respect to its element `j`, as pytensor's `Prod.L_op` computes it: with
the promise, the product divided by the element; otherwise the product of the other elements. -/
noncomputable def ProdOp.gradient {ι : Type} [Fintype ι] [DecidableEq ι] (op : ProdOp) (x : ι → ℝ) (j : ι) : Option ℝ :=
  if op.noZeros then ieeeDiv (∏ i, x i) (x j) else some (∏ i ∈ Finset.univ.erase j, x i)

end Verif
