import Verif.Model.RecursiveSolve

/-!
# `CGEModel.calibrate`

Models `calibrate` (`cge_modeling/base/cge.py:618-652`) and `Result` (`cge_modeling/base/primitives.py:283-310`)
for a model whose residual function is the compiled squared loss (`cge_modeling/compile/numba.py:27-32`).
Simplifications: a symbol is its name; numbers are exact and NaN is `none`; the residual function returns
NaN as soon as a symbol that occurs in the equations is NaN.
-/

namespace Verif

/-- What `calibrate` needs to know about the model. -/
structure CalibModel where
  compiled : Bool
  /-- equations were given in a form sympy could read (`unpacked_equation_symbols`) -/
  parsed : Bool
  varNames : List Str
  parNames : List Str
  equations : List (SymExpr Str)
  /-- `f_resid is not None` -/
  hasResid : Bool

/-- `Result` (base/primitives.py:283-300), without the time and the meta data. -/
structure CalibResult where
  names : List Str
  initial : List (Option ℚ)
  fitted : List (Option ℚ)
  success : Prop

/-- The value of the symbol `a` inside the residual function, whose arguments are bound in order
(base/cge.py:636-641). -/
def argValue (names : List Str) (values : List (Option ℚ)) (a : Str) : Option ℚ :=
  (dget (names.zip values) a).join

/-- `f_resid(x0, theta0)`: half the sum of squared equations; `none` is NaN. -/
noncomputable def residLoss (eqs : List (SymExpr Str)) (arg : Str → Option ℚ) : Option ℝ :=
  if ∀ e ∈ eqs, ∀ a ∈ e.atoms, (arg a).isSome then
    some ((SymExpr.squaredLoss eqs).eval fun a => (((arg a).getD 0 : ℚ) : ℝ))
  else none

/-- `r < 1e-6`, which is `False` for NaN (base/cge.py:641). -/
def belowTol : Option ℝ → Prop
  | some r => r < 1 / 10 ^ 6
  | none => False

/-- `calibrate` (base/cge.py:618-652). -/
noncomputable def calibrate (S : SymSolver Str) (m : CalibModel) (data : Option (Dict Str ℚ))
    (maxIter : Nat) : Res CalibResult :=
  -- `self._compile()` does not exist
  if m.compiled = false then .error .attributeError
  else if m.parsed = false then .error .notImplemented
  else match data with
  | none => .error .attributeError
  | some data =>
    -- `self.get_symbol(k)`
    if ∃ k ∈ dkeys data, k ∉ m.parNames ∧ k ∉ m.varNames then .error .valueError
    else match recursiveSolve S m.equations (some data) maxIter with
    | .error e => .error e
    | .ok solved =>
      let names := m.varNames ++ m.parNames
      let initial := names.map fun x => dget data x
      let fitted := names.map fun x => dget solved x
      if m.hasResid = false then .error .typeError
      else .ok ⟨names, initial, fitted,
        belowTol (residLoss m.equations
          (argValue (m.varNames ++ m.parNames)
            (fitted.take m.varNames.length ++ fitted.drop m.varNames.length)))⟩

/-- `Result.to_dict()["initial"]` and `["fitted"]` (base/primitives.py:303-308). -/
def CalibResult.initialDict (r : CalibResult) : Dict Str (Option ℚ) := dofPairs (r.names.zip r.initial)
def CalibResult.fittedDict (r : CalibResult) : Dict Str (Option ℚ) := dofPairs (r.names.zip r.fitted)

end Verif
