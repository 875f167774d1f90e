import Verif.Model.NumbaEuler

/-!
# The functions of the numba backend

Models `compile_numba_cge_functions` (`cge_modeling/compile/numba.py:19-54, 167-213`) with everything but
Euler requested, and calling the generated functions (`compile/numba_tools.py:117-225`).
Simplifications: the printing of the expressions and `sp.cse` are exact; numba computes what Python would
except for the argument of the Hessian-vector product; names are identifiers; there is at least one
equation.
-/

namespace Verif

open SymExpr

/-- The symbolic expressions behind the functions. -/
structure NumbaFns where
  system : List (SymExpr Str)
  jac : List (List (SymExpr Str))
  loss : SymExpr Str
  grad : List (SymExpr Str)
  hess : List (List (SymExpr Str))
  hessp : List (SymExpr (HAtom Str))

/-- `compile_numba_cge_functions` (compile/numba.py:167-228); `vars` are the names of
`unpacked_variable_symbols`. -/
def compileNumba (vars : List Str) (eqs : List (SymExpr Str)) : Res NumbaFns := do
  let grad := makeGradient (squaredLoss eqs) vars
  let hessp ← makeHessp grad vars
  pure ⟨eqs, makeJacobian eqs vars, squaredLoss eqs, grad, makeJacobian grad vars, hessp⟩

/-- What a name stands for inside the generated function, if it is bound to a number. -/
def boundNumber (locals : Dict Str (LocalVal ℝ)) (a : Str) : Option ℝ :=
  match dget locals a with
  | some (.num v) => some v
  | _ => none

/-- The results of a generated function: `outs` evaluated after the inputs are unpacked.  A name that is
not bound is reported as `keyError` (Python: `NameError`). -/
noncomputable def evalGenerated {A β : Type} (read : Dict Str (LocalVal β) → A → Option ℝ)
    (locals : Res (Dict Str (LocalVal β))) (outs : List (SymExpr A)) : Res (List ℝ) :=
  match locals with
  | .error e => .error e
  | .ok env =>
    if hidesNumpy env then .error .attributeError
    else if (outs.flatMap atoms).any fun a => (read env a).isNone then .error .keyError
    else .ok (outs.map fun e => e.eval fun a => (read env a).getD 0)

/-- `f(x, theta)` for a function made by `numba_lambdify(variables, expr, parameters)`; the vector. -/
noncomputable def callNumba (vars params : List Str) (outs : List (SymExpr Str)) (x theta : List ℝ) :
    Res (List ℝ) :=
  evalGenerated boundNumber (runPrelude vars (some params) x theta) outs

/-- The same for a matrix of expressions. -/
noncomputable def callNumbaMatrix (vars params : List Str) (rows : List (List (SymExpr Str)))
    (x theta : List ℝ) : Res (List (List ℝ)) :=
  rows.mapM fun row => callNumba vars params row x theta

/-- What an atom of the Hessian-vector product reads: the inputs are numbers, and for `hess_point` a
vector. -/
def boundHessp (locals : Dict Str (LocalVal (ℝ ⊕ List ℝ))) : HAtom Str → Option ℝ
  | .model a =>
    match dget locals a with
    | some (.num (.inl v)) => some v
    | _ => none
  | .point i =>
    match dget locals "hess_point".toList with
    | some (.num (.inr p)) => p[i]?
    | _ => none

/-- `f_hessp(x, p, parameters)` (compile/numba.py:42-54): the generated function takes the variables and
`hess_point` from its first argument `[*x.tolist(), p]`.  When numba compiles it (`jit`; the project's
tests set `NUMBA_DISABLE_JIT`), a list of numbers and a vector is not accepted as an argument: `TypeError`,
"can't unbox heterogeneous list". -/
noncomputable def callNumbaHessp (jit : Bool) (vars params : List Str) (outs : List (SymExpr (HAtom Str)))
    (x p theta : List ℝ) : Res (List ℝ) :=
  if jit && !x.isEmpty then .error .typeError
  else
    evalGenerated boundHessp
      (runPrelude (vars ++ ["hess_point".toList]) (some params) (x.map Sum.inl ++ [Sum.inr p])
        (theta.map Sum.inl)) outs

end Verif
