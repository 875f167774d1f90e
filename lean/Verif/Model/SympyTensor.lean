import Verif.Model.Wrappers
import Verif.Model.SymExpr

/-!
# The functions of the default backend (`sympytensor`)

Models `cge_modeling/compile/pytensor_tools.py:102-125,185-222`,
`cge_modeling/compile/pytensor.py:35-47,105-126`, `cge_modeling/base/cge.py:551-557` and
`cge_modeling/compile/sympytensor.py:36-63,138-304,307-405` (dense matrices, any mode but JAX's extra
wrapper, which only turns the result into a numpy array).

Outside the repository: `sympytensor.as_tensor` turns a sympy expression into a graph with one scalar
input per symbol; `graph_replace` replaces inputs; a compiled function computes the value of its graph.
Graphs are therefore expressions whose atoms are the inputs, or elements of inputs.
-/

namespace Verif

open SymExpr

/-- What a graph reads: the scalar made by `as_tensor` for a symbol, an element of an input tensor, or
an element of the vector `hess_point`. -/
inductive PtAtom where
  | scalar (name : Str)
  | elem (base : Str) (idx : List Nat)
  | point (i : Nat)
  deriving DecidableEq

/-- `get_unpacked_parent_object` (base/cge.py:551-557). -/
def unpackedParent (uv up : Dict Str ModelObject) (name : Str) : Res ModelObject :=
  match dget uv name with
  | some o => .ok o
  | none =>
    match dget up name with
    | some o => .ok o
    | none => .error .valueError

/-- One pass of the loop of `make_unpacked_to_packed_map` (compile/pytensor_tools.py:194-213):
`inputs` are the names in the cache, `list.index` raises `ValueError` for another name.  Without dims the
parent itself is used; it is a scalar, `[]` is its only index. -/
def packedSlot (inputs : List Str) (coords : Coords) (uv up : Dict Str ModelObject) (name : Str) :
    Res (Str × List Nat) := do
  let parent ← unpackedParent uv up name
  if parent.name ∉ inputs then .error .valueError
  else do
    let idx ← packedIndex coords parent
    pure (parent.name, idx)

/-- `make_unpacked_to_packed_map` (compile/pytensor_tools.py:185-215); `names` are the symbols in
`unpacked_cache`. -/
def makeUnpackedToPackedMap (inputs : List Str) (coords : Coords) (uv up : Dict Str ModelObject)
    (names : List Str) : Res (Dict Str (Str × List Nat)) :=
  (names.mapM fun n => (packedSlot inputs coords uv up n).map fun s => (n, s)).map dofPairs

/-- What the scalar of a symbol is replaced by (`graph_replace(…, strict=False)`,
compile/pytensor_tools.py:218-222). -/
def replaceScalar (m : Dict Str (Str × List Nat)) (n : Str) : PtAtom :=
  match dget m n with
  | some s => .elem s.1 s.2
  | none => .scalar n

/-- `unpacked_graph_to_packed_graph` of `as_tensor(e)`. -/
def packedGraph (m : Dict Str (Str × List Nat)) (e : SymExpr Str) : SymExpr PtAtom :=
  mapAtoms (replaceScalar m) e

/-- The same for the Hessian-vector product (compile/sympytensor.py:278-289): `hess_point[i]` is element
`i` of the vector that replaces `hess_point`. -/
def packedHessp (m : Dict Str (Str × List Nat)) (e : SymExpr (HAtom Str)) : SymExpr PtAtom :=
  mapAtoms (fun a => match a with
    | .model n => replaceScalar m n
    | .point i => .point i) e

/-- The name of the input an atom reads. -/
def PtAtom.input : PtAtom → Option Str
  | .scalar _ => none
  | .elem b _ => some b
  | .point _ => none

/-- `validate_pytensor_parsing_result` (compile/pytensor.py:109-127): two inputs of one name leave one of
them out of the cache; inputs of the graph that are not inputs of the model; inputs of the model that the
graph does not use. -/
def validateInputs (inputs : List Str) (graph : List (SymExpr PtAtom)) : Res Unit :=
  if ¬ inputs.Nodup then .error .valueError
  else if (graph.flatMap atoms).any fun a => a.input.isNone then .error .valueError
  else if inputs.any fun n => !((graph.flatMap atoms).any fun a => a.input == some n) then
    .error .valueError
  else .ok ()

/-- The graphs behind the compiled functions. -/
structure SympyTensorFns where
  system : List (SymExpr PtAtom)
  jac : List (List (SymExpr PtAtom))
  loss : SymExpr PtAtom
  grad : List (SymExpr PtAtom)
  hess : List (List (SymExpr PtAtom))
  hessp : List (SymExpr PtAtom)

/-- `compile_sympytensor_cge_functions` (compile/sympytensor.py:307-405) with everything but Euler
requested.  `eqs` are `cge_model.unpacked_equation_symbols`; the symbols of the variables are named by the
keys of `uv` (base/cge.py:210-230, 252-256).  `pt.stack` of no equations raises `ValueError`. -/
def compileSympytensor (inputs : List Str) (coords : Coords) (uv up : Dict Str ModelObject)
    (eqs : List (SymExpr Str)) : Res SympyTensorFns := do
  let m ← makeUnpackedToPackedMap inputs coords uv up (eqs.flatMap atoms)
  if eqs = [] then .error .valueError
  else do
    let system := eqs.map (packedGraph m)
    validateInputs inputs system
    let wrt := dkeys uv
    let grad := makeGradient (squaredLoss eqs) wrt
    let hessp ← makeHessp grad wrt
    pure ⟨system, (makeJacobian eqs wrt).map fun row => row.map (packedGraph m),
      packedGraph m (squaredLoss eqs), grad.map (packedGraph m),
      (makeJacobian grad wrt).map fun row => row.map (packedGraph m), hessp.map (packedHessp m)⟩

/-- What an atom reads from the keyword arguments (`none`: nothing there, `IndexError`).  The vector for
`hess_point` is the concatenation of the arguments `<variable>_point`
(compile/sympytensor.py:283-287). -/
def readAtom {α : Type} (varNames : List Str) (d : Dict Str (NDArray α)) : PtAtom → Option α
  | .scalar _ => none
  | .elem b idx => (dget d b).bind fun a => a.at? idx
  | .point i => (varNames.flatMap fun v => ((dget d (pointName v)).map NDArray.data).getD [])[i]?

/-- Calling the compiled function of the graphs `outs`: the keyword arguments must be the inputs. -/
noncomputable def callGraphs (inputs varNames : List Str) (outs : List (SymExpr PtAtom)) :
    KwFun ℝ (List ℝ) := fun d =>
  if !((dkeys d).all (fun n => decide (n ∈ inputs)) && inputs.all fun n => decide (n ∈ dkeys d)) then
    .error .typeError
  else if (outs.flatMap atoms).any fun a => (readAtom varNames d a).isNone then .error .indexError
  else .ok (outs.map fun e => e.eval fun a => (readAtom varNames d a).getD 0)

/-- The same for a matrix of graphs. -/
noncomputable def callMatrix (inputs varNames : List Str) (rows : List (List (SymExpr PtAtom))) :
    KwFun ℝ (List (List ℝ)) := fun d => rows.mapM fun row => callGraphs inputs varNames row d

end Verif
