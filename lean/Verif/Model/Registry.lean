import Verif.Model.Expand

/-!
# The model registry

Models `cge_modeling/base/cge.py:71-208, 318-557` (constructor, adding and looking up objects) and
`cge_modeling/base/utilities.py:66-98`.

A method that may raise half way leaves the object as it was at that moment: such methods return the
state together with the outcome.
-/

namespace Verif

/-- `Equation` (base/primitives.py:225-238). -/
structure Equation where
  name : Str
  equation : Str
  deriving DecidableEq, Repr

/-- A Python value given to one of the add methods. -/
inductive PyArg where
  | variable (o : ModelObject)
  | parameter (o : ModelObject)
  | equation (e : Equation)
  | other
  deriving DecidableEq, Repr

/-- An argument that may be a list/tuple or anything else. -/
inductive SeqArg where
  | one (a : PyArg)
  | many (as : List PyArg)

/-- `ensure_input_is_sequence` (base/utilities.py:82-98). -/
def ensureSeq : SeqArg → List PyArg
  | .one a => [a]
  | .many as => as

/-- `_validate_input(obj, cls)` (base/utilities.py:66-79), returning the object.  `Variable` and
`Parameter` are different subclasses of `ModelObject` (base/primitives.py:214-222). -/
def validateVariable : PyArg → Res ModelObject
  | .variable o => .ok o
  | _ => .error .valueError

def validateParameter : PyArg → Res ModelObject
  | .parameter o => .ok o
  | _ => .error .valueError

def validateEquation : PyArg → Res Equation
  | .equation e => .ok e
  | _ => .error .valueError

/-- What is stored for an equation: the parsed one, or the `Equation` itself when
`parse_equations_to_sympy=False`. -/
inductive StoredEq (E : Type _) where
  | parsed (q : SymEquation E)
  | raw (e : Equation)

def StoredEq.name {E : Type _} : StoredEq E → Str
  | .parsed q => q.name
  | .raw e => e.name

/-- `_variables`, `_parameters`, `_equations`. -/
structure Reg (E : Type _) where
  variables : Dict Str ModelObject := []
  parameters : Dict Str ModelObject := []
  equations : Dict Str (StoredEq E) := []

/-- `_add_object` (base/cge.py:318-331) on one of the dicts. -/
def addObject {O : Type _} (nameOf : O → Str) (d : Dict Str O) (o : O) (overwrite : Bool) :
    Res (Dict Str O) :=
  if nameOf o ∈ dkeys d ∧ overwrite = false then .error .valueError
  else .ok (dupdate d [(nameOf o, o)])

/-- `_add_objects` (base/cge.py:357-364): one after the other, stopping at the first error. -/
def addObjects {O : Type _} (nameOf : O → Str) : Dict Str O → List O → Bool → Dict Str O × Res Unit
  | d, [], _ => (d, .ok ())
  | d, o :: os, overwrite =>
      match addObject nameOf d o overwrite with
      | .error e => (d, .error e)
      | .ok d' => addObjects nameOf d' os overwrite

variable {E : Type _}

/-- `add_variables` (base/cge.py:385-388). -/
def addVariables (r : Reg E) (variables : SeqArg) (overwrite : Bool) : Reg E × Res Unit :=
  match (ensureSeq variables).mapM validateVariable with
  | .error e => (r, .error e)
  | .ok os =>
      let out := addObjects ModelObject.name r.variables os overwrite
      ({ r with variables := out.1 }, out.2)

/-- `add_variable` (base/cge.py:381-383). -/
def addVariable (r : Reg E) (a : PyArg) (overwrite : Bool) : Reg E × Res Unit :=
  match validateVariable a with
  | .error e => (r, .error e)
  | .ok o =>
      match addObject ModelObject.name r.variables o overwrite with
      | .error e => (r, .error e)
      | .ok d => ({ r with variables := d }, .ok ())

/-- `add_parameters` (base/cge.py:370-373). -/
def addParameters (r : Reg E) (parameters : SeqArg) (overwrite : Bool) : Reg E × Res Unit :=
  match (ensureSeq parameters).mapM validateParameter with
  | .error e => (r, .error e)
  | .ok os =>
      let out := addObjects ModelObject.name r.parameters os overwrite
      ({ r with parameters := out.1 }, out.2)

/-- `add_parameter` (base/cge.py:366-368). -/
def addParameter (r : Reg E) (a : PyArg) (overwrite : Bool) : Reg E × Res Unit :=
  match validateParameter a with
  | .error e => (r, .error e)
  | .ok o =>
      match addObject ModelObject.name r.parameters o overwrite with
      | .error e => (r, .error e)
      | .ok d => ({ r with parameters := d }, .ok ())

/-- What parsing needs besides the equation: `parse variables parameters numeraire eq` stands for
`sp.parse_expr`, the substitution of the numeraire by 1, `substitute_reduce_ops` and
`find_equation_dims` (base/cge.py:398-447); `none` when `parse_equations_to_sympy=False`. -/
abbrev Parser (E : Type _) :=
  Dict Str ModelObject → Dict Str ModelObject → Option ModelObject → Equation → Res (E × List Str)

/-- `add_sympy_equation` / `add_pytensor_equation` (base/cge.py:396-452) up to the last line. -/
def makeEquation (parse : Option (Parser E)) (r : Reg E) (numeraire : Option ModelObject)
    (e : Equation) : Res (StoredEq E) :=
  match parse with
  | none => .ok (.raw e)
  | some p => (p r.variables r.parameters numeraire e).map fun out =>
      .parsed { name := e.name, dims := out.2, eq := out.1 }

/-- The loop of `add_equations` (base/cge.py:460-461). -/
def addEquationsLoop (parse : Option (Parser E)) (numeraire : Option ModelObject) :
    Reg E → List Equation → Bool → Reg E × Res Unit
  | r, [], _ => (r, .ok ())
  | r, e :: es, overwrite =>
      match makeEquation parse r numeraire e with
      | .error x => (r, .error x)
      | .ok q =>
          match addObject StoredEq.name r.equations q overwrite with
          | .error x => (r, .error x)
          | .ok d => addEquationsLoop parse numeraire { r with equations := d } es overwrite

/-- `add_equations` (base/cge.py:454-461). -/
def addEquations (parse : Option (Parser E)) (numeraire : Option ModelObject) (r : Reg E)
    (equations : SeqArg) (overwrite : Bool) : Reg E × Res Unit :=
  match (ensureSeq equations).mapM validateEquation with
  | .error e => (r, .error e)
  | .ok es => addEquationsLoop parse numeraire r es overwrite

/-- One call on the model. -/
inductive AddOp where
  | variable (a : PyArg) (overwrite : Bool)
  | variables (as : SeqArg) (overwrite : Bool)
  | parameter (a : PyArg) (overwrite : Bool)
  | parameters (as : SeqArg) (overwrite : Bool)
  | equations (as : SeqArg) (overwrite : Bool)

def addStep (parse : Option (Parser E)) (numeraire : Option ModelObject) (r : Reg E) :
    AddOp → Reg E × Res Unit
  | .variable a ow => addVariable r a ow
  | .variables as ow => addVariables r as ow
  | .parameter a ow => addParameter r a ow
  | .parameters as ow => addParameters r as ow
  | .equations as ow => addEquations parse numeraire r as ow

/-- A sequence of calls, the caller catching what is raised. -/
def runOps (parse : Option (Parser E)) (numeraire : Option ModelObject) (r : Reg E)
    (ops : List AddOp) : Reg E :=
  ops.foldl (fun r op => (addStep parse numeraire r op).1) r

/-! ## The constructor -/

/-- The constructor's `numeraire` argument. -/
inductive NumArg where
  | name (n : Str)
  | object (o : ModelObject)

/-- A `CGEModel` after construction (base/cge.py:140-176). -/
structure CGE (E : Type _) where
  coords : Coords
  reg : Reg E
  numeraire : Option ModelObject
  unpackedVariables : Dict Str ModelObject
  unpackedParameters : Dict Str ModelObject
  unpackedEquationNames : List Str
  nVariables : Nat
  nEquations : Nat
  nParameters : Nat

/-- `self._unpack_variables(objects)` with the constructor's argument itself: iterating over a single
object raises `TypeError` (`__getitem__(0)` calls `getattr` with an integer). -/
def unpackArg (setList : List Str → List Str) (coords : Coords) (arg : SeqArg) :
    Res (Dict Str ModelObject) :=
  match arg with
  | .one _ => .error .typeError
  | .many as => unpackGroup setList coords (as.filterMap fun
      | .variable o => some o
      | .parameter o => some o
      | _ => none)

/-- `_unpack_equations` (base/cge.py:463-473), the names only. -/
def unpackEqNames (subst : E → Str → Str → E) (parse : Option (Parser E)) (coords : Coords)
    (r : Reg E) : Res (List Str) :=
  match parse with
  | some _ => (unpackEquationsSympy subst coords ((dvalues r.equations).filterMap fun
      | .parsed q => some q
      | .raw _ => none)).map dkeys
  | none => unpackedEquationNames ((dvalues r.equations).map StoredEq.name) coords

/-- Raise what a state-and-outcome method raised. -/
def orRaise {σ : Type _} (x : σ × Res Unit) : Res σ := x.2.map fun _ => x.1

/-- `_initialize_group(variables, "variables")` (base/cge.py:200-208), adding. -/
def initVariables (variables : Option SeqArg) : Res (Reg E) :=
  match variables with
  | none => .ok {}
  | some a => orRaise (addVariables {} a false)

/-- `_initialize_group`, unpacking (variables or parameters). -/
def initUnpack (setList : List Str → List Str) (coords : Coords) (arg : Option SeqArg) :
    Res (Dict Str ModelObject) :=
  match arg with
  | none => .ok []
  | some a => unpackArg setList coords a

/-- The numeraire (base/cge.py:155-158) is looked up among the *names*; an object is never equal to a
name. -/
def initNumeraire (r : Reg E) (numeraire : Option NumArg) : Res (Option ModelObject) :=
  match numeraire with
  | none => .ok none
  | some (.object _) => .error .valueError
  | some (.name n) => match dget r.variables n with
      | none => .error .valueError
      | some o => .ok (some o)

/-- `_initialize_group(parameters, "parameters")`, adding. -/
def initParameters (r : Reg E) (parameters : Option SeqArg) : Res (Reg E) :=
  match parameters with
  | none => .ok r
  | some a => orRaise (addParameters r a false)

/-- `_initialize_group(equations, "equations")`, adding. -/
def initEquations (parse : Option (Parser E)) (num : Option ModelObject) (r : Reg E)
    (equations : Option SeqArg) : Res (Reg E) :=
  match equations with
  | none => .ok r
  | some a => orRaise (addEquations parse num r a false)

/-- `_initialize_group(equations, "equations")`, unpacking (from what is stored). -/
def initEqNames (subst : E → Str → Str → E) (parse : Option (Parser E)) (coords : Coords) (r : Reg E)
    (equations : Option SeqArg) : Res (List Str) :=
  match equations with
  | none => .ok []
  | some _ => unpackEqNames subst parse coords r

/-- `if numeraire: del self._variables[numeraire]` (base/cge.py:166-167). -/
def dropNumeraire (r : Reg E) (numeraire : Option NumArg) : Reg E :=
  match numeraire with
  | some (.name n) => if n = [] then r else { r with variables := ddel r.variables n }
  | _ => r

/-- `CGEModel.__init__` (base/cge.py:140-176).  Simplification: the symbols attached to the unpacked
objects (line 164) are not kept; the objects stand for their symbols. -/
def construct (setList : List Str → List Str) (subst : E → Str → Str → E) (parse : Option (Parser E))
    (coords : Coords) (variables parameters equations : Option SeqArg) (numeraire : Option NumArg) :
    Res (CGE E) := do
  let r1 ← initVariables variables
  let uv ← initUnpack setList coords variables
  let num ← initNumeraire r1 numeraire
  let r2 ← initParameters r1 parameters
  let up ← initUnpack setList coords parameters
  let r3 ← initEquations parse num r2 equations
  let ue ← initEqNames subst parse coords r3 equations
  if uv.length ≠ ue.length then .error .valueError
  else .ok { coords := coords, reg := dropNumeraire r3 numeraire, numeraire := num,
             unpackedVariables := uv, unpackedParameters := up, unpackedEquationNames := ue,
             nVariables := uv.length, nEquations := ue.length, nParameters := up.length }

/-! ## Looking objects up -/

/-- An object of the model, with its kind. -/
inductive Found where
  | variable (o : ModelObject)
  | parameter (o : ModelObject)
  deriving DecidableEq, Repr

/-- A single object or a list, as returned by `get` and `get_symbol`. -/
inductive Got where
  | single (f : Found)
  | list (fs : List Found)
  deriving DecidableEq, Repr

/-- `if len(out) == 1: return out[0]`. -/
def unwrapSingle : List Found → Got
  | [f] => .single f
  | fs => .list fs

/-- The loop body of `get` (base/cge.py:515-521). -/
def getOne (r : Reg E) (name : Str) : Res Found :=
  match dget r.variables name with
  | some o => .ok (.variable o)
  | none => match dget r.parameters name with
      | some o => .ok (.parameter o)
      | none => .error .valueError

/-- `get` with a list of names (base/cge.py:496-526); a single string is a list of one. -/
def getNames (r : Reg E) (names : List Str) : Res Got := (names.mapM (getOne r)).map unwrapSingle

/-- `get(None)` (base/cge.py:510-511). -/
def getAll (r : Reg E) : Res Got := getNames r (dkeys r.parameters ++ dkeys r.variables)

/-- `get_variable`, `get_parameter` (base/cge.py:475-494): plain dict access. -/
def getVariable (r : Reg E) (name : Str) : Res ModelObject := dgetE r.variables name
def getParameter (r : Reg E) (name : Str) : Res ModelObject := dgetE r.parameters name

/-- The loop body of `get_symbol` (base/cge.py:535-544); the symbol is represented by the unpacked
object it stands for. -/
def getSymbolOne (m : CGE E) (name : Str) : Res Found :=
  match dget m.unpackedParameters name with
  | some o => .ok (.parameter o)
  | none => match dget m.unpackedVariables name with
      | some o => .ok (.variable o)
      | none => .error .valueError

/-- `get_symbol` with a list of names (base/cge.py:528-549). -/
def getSymbolNames (m : CGE E) (names : List Str) : Res Got :=
  (names.mapM (getSymbolOne m)).map unwrapSingle

/-- `get_unpacked_parent_object` (base/cge.py:551-557). -/
def getUnpackedParent (m : CGE E) (name : Str) : Res Found :=
  match dget m.unpackedVariables name with
  | some o => .ok (.variable o)
  | none => match dget m.unpackedParameters name with
      | some o => .ok (.parameter o)
      | none => .error .valueError

/-- The item lookup of `summary` (base/cge.py:586-592). -/
def summaryItem (r : Reg E) (name : Str) : Res Found :=
  match dget r.parameters name with
  | some o => .ok (.parameter o)
  | none => match dget r.variables name with
      | some o => .ok (.variable o)
      | none => .error .valueError

end Verif
