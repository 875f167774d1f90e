import Verif.Py.Dict
import Mathlib.Analysis.SpecialFunctions.Pow.Real

/-!
# Scalar sympy expressions, derivatives, Jacobians and the squared loss

Models `cge_modeling/tools/sympy_tools.py:475-529`, `cge_modeling/compile/sympy.py:6-30`,
`cge_modeling/compile/numba.py:27-54,196-216` and the sympy part of
`cge_modeling/compile/sympytensor.py:148-149,178,212,245-246,283`.

sympy itself is outside the repository.  Its expressions are modelled by the tree type `SymExpr`;
automatic simplification (reordering of sums, `0*x → 0`, …) is not modelled because it does not change
the value of an expression, which is all the properties speak about.
-/

namespace Verif

/-- sympy expressions over atoms `α` (the plain `Symbol`s of the unpacked model, base/cge.py:210-230).
Quotients are `a * b**(-1)` and differences `a + (-1)*b`, as in sympy. -/
inductive SymExpr (α : Type) where
  | num (q : ℚ)
  | sym (a : α)
  | add (a b : SymExpr α)
  | mul (a b : SymExpr α)
  | pow (a b : SymExpr α)
  | log (a : SymExpr α)
  | exp (a : SymExpr α)
  deriving DecidableEq

namespace SymExpr

variable {α : Type} [DecidableEq α]

/-- The number an expression denotes when the symbols have the values `env`. -/
noncomputable def eval (env : α → ℝ) : SymExpr α → ℝ
  | num q => (q : ℝ)
  | sym a => env a
  | add a b => eval env a + eval env b
  | mul a b => eval env a * eval env b
  | pow a b => eval env a ^ eval env b
  | log a => Real.log (eval env a)
  | exp a => Real.exp (eval env a)

/-- `eq.atoms()` as far as symbols are concerned (numbers are never among the variables). -/
def atoms : SymExpr α → List α
  | num _ => []
  | sym a => [a]
  | add a b => atoms a ++ atoms b
  | mul a b => atoms a ++ atoms b
  | pow a b => atoms a ++ atoms b
  | log a => atoms a
  | exp a => atoms a

/-- sympy's `Pow._eval_derivative`: `b**e * (e' log b + b' e / b)`; for a number `e` sympy cancels
this at once to `e * b**(e-1) * b'`.  (`b**0` is `1` as soon as it is built.) -/
def powDiff (a b a' b' : SymExpr α) : SymExpr α :=
  match b with
  | num q => if q = 0 then num 0 else mul (mul (num q) (pow a (num (q - 1)))) a'
  | _ => mul (pow a b) (add (mul b' (log a)) (mul a' (mul b (pow a (num (-1))))))

/-- `expr.diff(x)`. -/
def diff (x : α) : SymExpr α → SymExpr α
  | num _ => num 0
  | sym a => num (if a = x then 1 else 0)
  | add a b => add (diff x a) (diff x b)
  | mul a b => add (mul (diff x a) b) (mul a (diff x b))
  | pow a b => powDiff a b (diff x a) (diff x b)
  | log a => mul (diff x a) (pow a (num (-1)))
  | exp a => mul (exp a) (diff x a)

/-- `sum([...])`, which starts from `0`. -/
def sum (l : List (SymExpr α)) : SymExpr α := l.foldl add (num 0)

/-! ## Jacobians -/

/-- `make_sympy_jacobian` (compile/sympy.py:6-11): row `i` holds the derivatives of equation `i`. -/
def makeJacobian (eqs : List (SymExpr α)) (wrt : List α) : List (List (SymExpr α)) :=
  eqs.map fun e => wrt.map fun x => diff x e

/-- The inner loop of `jacobian_as_dok_data` (tools/sympy_tools.py:499-502). -/
def dokRow (i : Nat) (e : SymExpr α) (wrt : List α)
    (dok : Dict (Nat × Nat) (SymExpr α)) : Dict (Nat × Nat) (SymExpr α) :=
  wrt.zipIdx.foldl
    (fun dok p => if p.1 ∈ atoms e then dset dok (i, p.2) (diff p.1 e) else dok) dok

/-- `jacobian_as_dok_data` (tools/sympy_tools.py:475-503). -/
def jacobianAsDok (eqs : List (SymExpr α)) (wrt : List α) :
    (Nat × Nat) × Dict (Nat × Nat) (SymExpr α) :=
  ((eqs.length, wrt.length),
    eqs.zipIdx.foldl (fun dok p => dokRow p.2 p.1 wrt dok) [])

/-- The argument `eqs` of `sparse_jacobian`: a list, or a sympy `Matrix` (given by its rows). -/
inductive EqsArg (α : Type) where
  | list (l : List (SymExpr α))
  | matrix (ncols : Nat) (rows : List (List (SymExpr α)))

/-- `sparse_jacobian` (tools/sympy_tools.py:506-529); the result is the shape and the stored entries
of the `SparseMatrix`.  `eqs[i]` of a column is the single entry of row `i`. -/
def sparseJacobian (eqs : EqsArg α) (wrt : List α) :
    Res ((Nat × Nat) × Dict (Nat × Nat) (SymExpr α)) :=
  match eqs with
  | .list l => .ok (jacobianAsDok l wrt)
  | .matrix ncols rows =>
      if ncols = 1 then .ok (jacobianAsDok rows.flatten wrt) else .error .valueError

/-- Reading entry `(i, j)` of a `SparseMatrix`: absent entries are zero. -/
def sparseEntry (dok : Dict (Nat × Nat) (SymExpr α)) (i j : Nat) : SymExpr α :=
  (dget dok (i, j)).getD (num 0)

/-! ## Squared loss, gradient, Hessian and Hessian-vector product -/

/-- `0.5 * sum(eq**2 for eq in equations)` (compile/numba.py:30, compile/sympytensor.py:181). -/
def squaredLoss (eqs : List (SymExpr α)) : SymExpr α :=
  mul (num (1 / 2)) (sum (eqs.map fun e => pow e (num 2)))

/-- `make_sympy_gradient` (compile/sympy.py:14-16); the column matrix as a list. -/
def makeGradient (loss : SymExpr α) (wrt : List α) : List (SymExpr α) :=
  wrt.map fun x => diff x loss

/-- Atoms of the Hessian-vector product: model symbols and the entries `hess_point[i]`. -/
inductive HAtom (α : Type) where
  | model (a : α)
  | point (i : Nat)
  deriving DecidableEq

/-- Renaming of atoms (an expression in the model's symbols seen as one in `HAtom`). -/
def mapAtoms {β : Type} (f : α → β) : SymExpr α → SymExpr β
  | num q => num q
  | sym a => sym (f a)
  | add a b => add (mapAtoms f a) (mapAtoms f b)
  | mul a b => mul (mapAtoms f a) (mapAtoms f b)
  | pow a b => pow (mapAtoms f a) (mapAtoms f b)
  | log a => log (mapAtoms f a)
  | exp a => exp (mapAtoms f a)

/-- The terms `grad[i] * p[i] for i in range(n)` of `make_sympy_hessp` (compile/sympy.py:25);
`grad[i]` raises if the gradient is too short. -/
def hesspTerms (grad : List (SymExpr α)) (n : Nat) : Res (List (SymExpr (HAtom α))) :=
  (List.range n).mapM fun i => match grad[i]? with
    | some g => .ok (mul (mapAtoms HAtom.model g) (sym (.point i)))
    | none => .error .indexError

/-- `make_sympy_hessp` (compile/sympy.py:19-28): `hess_point[i]` are fresh symbols, the loss
`sum([grad[i] * p[i] for i in range(n)])` is differentiated. -/
def makeHessp (grad : List (SymExpr α)) (wrt : List α) : Res (List (SymExpr (HAtom α))) :=
  (hesspTerms grad wrt.length).map fun ts => makeGradient (sum ts) (wrt.map HAtom.model)

end SymExpr

end Verif
