import Verif.Py.Dict

/-!
# Scenario construction and optimizer flags

Models `cge_modeling/base/utilities.py:415-464` and the flag plumbing of
`cge_modeling/base/cge.py:705-733, 1037-1052`.

Python values held in the dictionaries are either immutable numbers or references to mutable numpy
arrays; the arrays live in a heap so that in-place updates (`+=`, `*=` on an `ndarray`) and aliasing
are visible.
-/

namespace Verif

variable {α : Type _}

/-- A dictionary value: an immutable number, or a reference to an array in the heap. -/
inductive PyVal (α : Type _) where
  | num (a : α)
  | ref (r : Nat)
  deriving DecidableEq, Repr

/-- The heap of arrays; a reference is a position. -/
abbrev Heap (α : Type _) := List α

/-- The content of a value (`none` for a dangling reference, which Python cannot produce). -/
def readVal (h : Heap α) : PyVal α → Option α
  | .num a => some a
  | .ref r => h[r]?

/-- Loop of `copy.deepcopy` on a dict of numbers and arrays: numbers are shared, every array is
copied once (`memo` maps old to new references, so arrays that were the same object stay the same
object).  Used by base/utilities.py:432. -/
def deepcopyLoop : Dict Str (PyVal α) → Heap α → Dict Nat Nat → Heap α × Dict Str (PyVal α)
  | [], h, _ => (h, [])
  | (k, .num a) :: d, h, memo =>
      let (h', d') := deepcopyLoop d h memo
      (h', (k, .num a) :: d')
  | (k, .ref r) :: d, h, memo =>
      match dget memo r, h[r]? with
      | some r', _ =>
          let (h', d') := deepcopyLoop d h memo
          (h', (k, .ref r') :: d')
      | none, some a =>
          let (h', d') := deepcopyLoop d (h ++ [a]) (dset memo r h.length)
          (h', (k, .ref h.length) :: d')
      | none, none =>
          let (h', d') := deepcopyLoop d h memo
          (h', (k, .ref r) :: d')

/-- `copy.deepcopy(d)`. -/
def deepcopyDict (h : Heap α) (d : Dict Str (PyVal α)) : Heap α × Dict Str (PyVal α) :=
  deepcopyLoop d h []

/-- `collections.Counter(l)` (base/utilities.py:444). -/
def counterOf [DecidableEq κ] (l : List κ) : Dict κ Nat :=
  l.foldl (fun c k => dset c k ((dget c k).getD 0 + 1)) []

/-- `d[k] op= v`: in place when `d[k]` is an array, rebinding when it is a number (the result of
number-with-array is a fresh array).  `KeyError` when `k` is absent.
Simplification: `op` is total, i.e. shapes and dtypes are taken to be compatible. -/
def inplaceOp (op : α → α → α) (h : Heap α) (d : Dict Str (PyVal α)) (k : Str) (v : PyVal α) :
    Heap α × Res (Dict Str (PyVal α)) :=
  match dget d k with
  | none => (h, .error .keyError)
  | some cur =>
    match readVal h cur, readVal h v with
    | some x, some y =>
      match cur, v with
      | .num _, .num _ => (h, .ok (dset d k (.num (op x y))))
      | .num _, .ref _ => (h ++ [op x y], .ok (dset d k (.ref h.length)))
      | .ref r, _ => (h.set r (op x y), .ok (dset d k (.ref r)))
    | _, _ => (h, .error .valueError)

/-- `for k, v in changes.items(): d[k] op= v` (base/utilities.py:457-462). -/
def inplaceLoop (op : α → α → α) : List (Str × PyVal α) → Heap α → Dict Str (PyVal α) →
    Heap α × Res (Dict Str (PyVal α))
  | [], h, d => (h, .ok d)
  | (k, v) :: cs, h, d =>
      match inplaceOp op h d k v with
      | (h', .ok d') => inplaceLoop op cs h' d'
      | (h', .error e) => (h', .error e)

/-- `create_final_param_dict` (base/utilities.py:426-464).  `add`/`mul` are the array operations;
`none` is Python's `None`. -/
def createFinalParamDict (add mul : α → α → α) (h : Heap α) (initial : Dict Str (PyVal α))
    (finalValues finalDelta finalPct : Option (Dict Str (PyVal α))) :
    Heap α × Res (Dict Str (PyVal α)) :=
  let (h, scenario) := deepcopyDict h initial
  let fv := finalValues.getD []
  let fd := finalDelta.getD []
  let fp := finalPct.getD []
  let all := dkeys fv ++ dkeys fd ++ dkeys fp
  if all.length = 0 then (h, .error .valueError)
  else
    let repeated := ((counterOf all).filter fun p => decide (1 < p.2)).map Prod.fst
    if 0 < repeated.length then (h, .error .valueError)
    else
      let scenario := dupdate scenario fv
      match inplaceLoop add fd h scenario with
      | (h, .error e) => (h, .error e)
      | (h, .ok scenario) => inplaceLoop mul fp h scenario

/-! ## Optimizer flags -/

/-- The flags of a method in `MINIMIZE_MODE_KWARGS` (external table of `better_optimize`; taken as
an arbitrary dictionary). -/
structure MethodFlags where
  grad : Bool
  hess : Bool
  hessp : Bool
  deriving DecidableEq, Repr

/-- `get_method_defaults` (base/utilities.py:415-423).  The table is only consulted for arguments
that are `None`, so an unknown method raises only then. -/
def getMethodDefaults (table : Dict Str MethodFlags) (useGrad useHess useHessp : Option Bool)
    (method : Str) : Res (Bool × Bool × Bool) := do
  let g ← match useGrad with
    | some b => pure b
    | none => (dgetE table method).map MethodFlags.grad
  let he ← match useHess with
    | some b => pure b
    | none => (dgetE table method).map MethodFlags.hess
  let hp ← match useHessp with
    | some b => pure b
    | none => (dgetE table method).map MethodFlags.hessp
  let he := if he && hp then false else he
  return (g, he, hp)

/-- Keyword arguments of `simulate(..., optimizer_mode="minimize", **optimizer_kwargs)` which reach
the flags; the outer `none` is "not passed", `some none` is an explicit `None`. -/
structure MinimizeKwargs where
  method : Option Str := none
  useJac : Option (Option Bool) := none
  useHess : Option (Option Bool) := none
  useHessp : Option (Option Bool) := none
  deriving DecidableEq, Repr

/-- `simulate` (base/cge.py:1043-1052) followed by `_solve_with_minimize` (base/cge.py:705-733):
the flags that end up selecting the functions handed to `minimize`. -/
def simulateMinimizeFlags (table : Dict Str MethodFlags) (kw : MinimizeKwargs) :
    Res (Bool × Bool × Bool) := do
  let useJac := kw.useJac.getD (some true)       -- optimizer_kwargs.pop("use_jac", True)
  let useHess := kw.useHess.getD (some true)     -- optimizer_kwargs.pop("use_hess", True)
  let useHessp := kw.useHessp.getD (some true)   -- default of _solve_with_minimize
  let method := kw.method.getD "trust-ncg".toList
  let (g, he, hp) ← getMethodDefaults table useJac useHess useHessp method
  let he := if !g && he then false else he
  return (g, he, hp)

end Verif
