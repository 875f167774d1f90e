import Verif.Py.Dict
import Verif.Py.Str

/-!
# Choosing a backend and compiling

Models `cge_modeling/base/build.py` (`determine_default_backend`, `_parse_compile_kwarg`,
`compile_model`, `cge_model`) and the parts of the four compile functions that decide which functions are
made: `compile/numba.py:167-230`, `compile/pytensor.py:272-358`, `compile/sympytensor.py:313-433`,
`compile/jax.py:146-204`.  What the compiled functions compute is modelled elsewhere.
-/

namespace Verif

/-- `sub in s` for strings. -/
def strIn (sub s : Str) : Bool := decide (sub <:+: s)

/-- `determine_default_backend` (base/build.py:22-34); the argument lists the equation strings. -/
def determineDefaultBackend (equations : List Str) : Str :=
  if equations.any fun e => strIn "Sum(".toList e || strIn "Prod(".toList e then
    "sympytensor".toList
  else if equations.any fun e => strIn "[:, None]".toList e || strIn "[None, :]".toList e then
    "pytensor".toList
  else "sympytensor".toList

/-- A scalar Python value given to `functions_to_compile`. -/
inductive PyAtom where
  | str (s : Str)
  | bool (b : Bool)
  deriving DecidableEq, Repr

/-- A value given to `functions_to_compile`: `None`, a scalar, a list or a tuple. -/
inductive CompileArg where
  | none
  | atom (a : PyAtom)
  | list (l : List PyAtom)
  | tuple (l : List PyAtom)
  deriving DecidableEq, Repr

/-- `_parse_compile_kwarg` (base/build.py:37-46).  `compile in ["all", True]` holds for `"all"` and
`True` only: no list or tuple equals either. -/
def parseCompileKwarg : CompileArg → Option (List PyAtom)
  | .none => Option.none
  | .atom a =>
    if a = .str "all".toList ∨ a = .bool true then
      some [.str "root".toList, .str "minimize".toList, .str "euler".toList]
    else some [a]
  | .list l => some l
  | .tuple l => some l

/-- The function makers: the values of `COMPILE_FUNC_FACTORY` (base/build.py:15-19) and
`compile_jax_cge_functions`. -/
inductive Maker where
  | pytensor
  | numba
  | sympytensor
  | jax
  deriving DecidableEq, Repr

/-- `COMPILE_FUNC_FACTORY` (base/build.py:15-19). -/
def compileFuncFactory : Dict Str Maker :=
  [("pytensor".toList, .pytensor), ("numba".toList, .numba), ("sympytensor".toList, .sympytensor)]

/-- `compile_model`'s choice of the maker (base/build.py:58-69); `jaxFound` stands for
`importlib.util.find_spec("jax") is not None`. -/
def chooseMaker (backend : Str) (mode : Option Str) (jaxFound : Bool) : Res Maker :=
  if backend = "pytensor".toList ∧ (mode.map fun m => m.map Char.toUpper) = some "JAX".toList ∧
      jaxFound = true then .ok .jax
  else dgetE compileFuncFactory backend

/-- Which of the seven attributes `model.f_*` are functions (the others are `None`), and whether the
Euler function takes Runge-Kutta steps. -/
structure FnSet where
  system : Bool
  jac : Bool
  resid : Bool
  grad : Bool
  hess : Bool
  hessp : Bool
  euler : Bool
  eulerRk4 : Bool
  deriving DecidableEq, Repr

/-- The `if "…" in functions_to_compile` parts of the four makers.  `numba` takes `use_rk4` and
`use_scan_euler` into `**kwargs` and ignores them (compile/numba.py:167-169), `jax` ignores
`use_scan_euler` (compile/jax.py:148-150); in the two pytensor makers `use_rk4` raises
`NotImplementedError` (compile/pytensor.py:231-232) and `use_scan_euler` raises (compile/pytensor.py:341-343
passes `grad=` to a function without that argument; compile/sympytensor.py:415-427 leaves out the input
`n_steps`; modelled as `TypeError` for both). -/
def runMaker (m : Maker) (fns : List PyAtom) (useScan useRk4 : Bool) : Res FnSet :=
  let root := fns.contains (.str "root".toList)
  let minimize := fns.contains (.str "minimize".toList)
  let euler := fns.contains (.str "euler".toList)
  let out (rk4 : Bool) : FnSet :=
    { system := true, jac := root, resid := minimize, grad := minimize, hess := minimize
      hessp := minimize, euler := euler, eulerRk4 := euler && rk4 }
  match m with
  | .numba => .ok (out false)
  | .jax => .ok (out useRk4)
  | .pytensor | .sympytensor =>
    if euler then
      if useScan then .error .typeError
      else if useRk4 then .error .notImplemented
      else .ok (out false)
    else .ok (out false)

/-- What `cge_model` leaves in the model. -/
structure Built where
  backend : Str
  /-- `parse_equations_to_sympy` (base/build.py:120). -/
  parsed : Bool
  maker : Maker
  functions : FnSet
  /-- `model._compiled`. -/
  compiled : Option (List PyAtom)
  deriving DecidableEq, Repr

/-- `cge_model` and `compile_model` (base/build.py:49-132), without the construction of the model itself
(`Verif.Model.Registry`) and without errors from compiling (among them pytensor's `get_mode` refusing the
name of a mode). -/
def cgeModelBuild (backend : Option Str) (mode : Option Str) (jaxFound : Bool) (equations : List Str)
    (fns : CompileArg) (useScan useRk4 : Bool) : Res Built := do
  let b := backend.getD (determineDefaultBackend equations)
  let maker ← chooseMaker b mode jaxFound
  let compiled := parseCompileKwarg fns
  let functions ← runMaker maker (compiled.getD []) useScan useRk4
  pure ⟨b, b = "numba".toList ∨ b = "sympytensor".toList, maker, functions, compiled⟩

end Verif
