import Verif.Model.LatexNames

/-!
# Objects that hold their dictionaries by reference

Models `cge_modeling/base/primitives.py:46-70,110-133,188-213` (`ModelObject.__post_init__`,
`_initialize_dim_vals`, `to_sympy`, `update_dim_value`, `copy`) with the two dictionaries of an object,
`dim_vals` and `assumptions`, as memory cells that the caller may hold too.  A dictionary used for both
attributes at once is not modelled, nor is an empty list given as `dims`, which is kept by reference as
well (line 93).
-/

namespace Verif

/-- A `ModelObject` in memory (base/primitives.py:46-58); `valsAt` and `asmAt` are the places of
`dim_vals` and `assumptions`. -/
structure ObjRef where
  name : Str
  dims : List Str
  latex : Str
  extend : Int
  full : Str
  description : Str
  positive : Bool
  real : Bool
  valsAt : Nat
  asmAt : Nat

/-- The memory: all dictionaries of labels, all dictionaries of assumptions, and the objects. -/
structure PyWorld where
  vals : List (Dict Str Str)
  asms : List (Dict Str Bool)
  objs : List ObjRef

/-- What a user does, one command after the other.  Places of dictionaries are numbers: of a dictionary
the user made, or of the attribute of an object. -/
inductive ObjCmd
  /-- `d = {...}` for labels -/
  | newVals (d : Dict Str Str)
  /-- `d = {...}` for assumptions -/
  | newAsm (d : Dict Str Bool)
  /-- `d[k] = v` -/
  | writeVals (a : Nat) (k v : Str)
  /-- `d[k] = v` -/
  | writeAsm (a : Nat) (k : Str) (v : Bool)
  /-- `Variable(name=..., dims=..., dim_vals=d, ..., assumptions=d')` -/
  | declare (name : Str) (dims : List Str) (vals : Option Nat) (latex description : Option Str)
      (positive real : Bool) (extend : Int) (asm : Option Nat)
  /-- `x.update_dim_value(dim, value)` for the `k`-th object -/
  | update (k : Nat) (dim value : Str)
  /-- `x.copy()` for the `k`-th object -/
  | copy (k : Nat)

/-- The dictionary at a place (empty if there is none; the commands only use places that exist). -/
def cellAt {β : Type} (l : List (Dict Str β)) (a : Nat) : Dict Str β := (l[a]?).getD []

/-- `self.assumptions["real"] = self.real; self.assumptions["positive"] = self.positive`
(base/primitives.py:61-62). -/
def withFlags (d : Dict Str Bool) (positive real : Bool) : Dict Str Bool :=
  dset (dset d "real".toList real) "positive".toList positive

/-- The dictionaries of assumptions after lines 61-62: the given one is written to, or there is a new one
(`default_factory`, base/primitives.py:58). -/
def flagsWritten (asms : List (Dict Str Bool)) (asm : Option Nat) (positive real : Bool) :
    List (Dict Str Bool) :=
  match asm with
  | some a => asms.set a (withFlags (cellAt asms a) positive real)
  | none => asms ++ [withFlags [] positive real]

/-- `ModelObject.__post_init__` (base/primitives.py:60-70): the assumptions are written first, into the
given dictionary or into a new one; then unknown keys of `dim_vals` are refused; `dim_vals` is the given
dictionary itself (line 133) or a new one (line 115). -/
def declareAt (w : PyWorld) (name : Str) (dims : List Str) (vals : Option Nat)
    (latex description : Option Str) (positive real : Bool) (extend : Int) (asm : Option Nat) :
    PyWorld × Res Unit :=
  let asmAt := asm.getD w.asms.length
  let asms := flagsWritten w.asms asm positive real
  match declareObj name dims (vals.map (cellAt w.vals)) latex description positive real extend with
  | .error e => (⟨w.vals, asms, w.objs⟩, .error e)
  | .ok o =>
      (⟨if vals.isNone then w.vals ++ [[]] else w.vals, asms,
        w.objs ++ [⟨name, dims, o.latex, extend, o.full, o.description, positive, real,
          vals.getD w.vals.length, asmAt⟩]⟩, .ok ())

/-- `update_dim_value` (base/primitives.py:203-209): the label is written into the dictionary, the
displayed name and the description into the object. -/
def updateAt (w : PyWorld) (k : Nat) (dim value : Str) : PyWorld × Res Unit :=
  match w.objs[k]? with
  | none => (w, .error .nameError)
  | some o =>
    if dim ∈ o.dims then
      let vals := dset (cellAt w.vals o.valsAt) dim value
      (⟨w.vals.set o.valsAt vals, w.asms,
        w.objs.set k { o with
          full := fullLatexName o.latex o.extend o.dims vals
          description := prettyPrint o.description o.dims vals }⟩, .ok ())
    else (w, .error .valueError)

/-- `copy` (base/primitives.py:211-212): `deepcopy` makes both dictionaries anew. -/
def copyAt (w : PyWorld) (k : Nat) : PyWorld × Res Unit :=
  match w.objs[k]? with
  | none => (w, .error .nameError)
  | some o =>
      (⟨w.vals ++ [cellAt w.vals o.valsAt], w.asms ++ [cellAt w.asms o.asmAt],
        w.objs ++ [{ o with valsAt := w.vals.length, asmAt := w.asms.length }]⟩, .ok ())

/-- One command. -/
def stepCmd (w : PyWorld) : ObjCmd → PyWorld × Res Unit
  | .newVals d => (⟨w.vals ++ [d], w.asms, w.objs⟩, .ok ())
  | .newAsm d => (⟨w.vals, w.asms ++ [d], w.objs⟩, .ok ())
  | .writeVals a k v => (⟨w.vals.set a (dset (cellAt w.vals a) k v), w.asms, w.objs⟩, .ok ())
  | .writeAsm a k v => (⟨w.vals, w.asms.set a (dset (cellAt w.asms a) k v), w.objs⟩, .ok ())
  | .declare n ds vs l d p r x a => declareAt w n ds vs l d p r x a
  | .update k d v => updateAt w k d v
  | .copy k => copyAt w k

/-- A sequence of commands; a command that raises leaves what it has done so far, and the user goes on. -/
def runCmds (w : PyWorld) (cs : List ObjCmd) : PyWorld := cs.foldl (fun w c => (stepCmd w c).1) w

/-- The object as `repr`, `description`, `dim_vals` and `assumptions` show it. -/
def ObjRef.shown (w : PyWorld) (o : ObjRef) : ShownObj :=
  ⟨o.name, o.dims, cellAt w.vals o.valsAt, o.latex, o.extend, o.full, o.description⟩

/-- The symbol `to_sympy()` gives (base/primitives.py:190-201): name, assumptions, and for every dim its
label or, without a label, the index. -/
structure SymbolOf where
  base : Str
  assumptions : Dict Str Bool
  indices : List (Str × Option Str)
deriving DecidableEq

/-- `to_sympy` (base/primitives.py:190-201) of an object that was declared, so `base_name = name`. -/
def ObjRef.toSympy (w : PyWorld) (o : ObjRef) : SymbolOf :=
  ⟨o.name, cellAt w.asms o.asmAt, o.dims.map fun d => (d, dget (cellAt w.vals o.valsAt) d)⟩

end Verif
