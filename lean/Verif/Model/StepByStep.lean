import Verif.Model.Registry

/-!
# Models that are completed after construction

Models the listing properties of `CGEModel` (`cge_modeling/base/cge.py:232-316`) and the effect of the add methods
(`cge_modeling/base/cge.py:318-461`) on a model that is already constructed: they change `_variables`, `_parameters`
and `_equations` and nothing else.
-/

namespace Verif

variable {E : Type _}

/-- A constructed model after some calls of `add_variable`, `add_variables`, `add_parameter`, `add_parameters` and
`add_equations` (base/cge.py:366-461), the caller catching what is raised. -/
def CGE.afterAdding (parse : Option (Parser E)) (m : CGE E) (ops : List AddOp) : CGE E :=
  { m with reg := runOps parse m.numeraire m.reg ops }

/-- `variable_names`, `parameter_names`, `equation_names` (base/cge.py:232-234,258-260,284-286). -/
def CGE.variableNames (m : CGE E) : List Str := dkeys m.reg.variables
def CGE.parameterNames (m : CGE E) : List Str := dkeys m.reg.parameters
def CGE.equationNames (m : CGE E) : List Str := dkeys m.reg.equations

/-- `variables`, `parameters`, `equations` (base/cge.py:236-238,262-264,288-290). -/
def CGE.variables (m : CGE E) : List ModelObject := dvalues m.reg.variables
def CGE.parameters (m : CGE E) : List ModelObject := dvalues m.reg.parameters
def CGE.equations (m : CGE E) : List (StoredEq E) := dvalues m.reg.equations

/-- `unpacked_variable_names`, `unpacked_parameter_names` (base/cge.py:240-242,266-268). -/
def CGE.unpackedVariableNames (m : CGE E) : List Str := dkeys m.unpackedVariables
def CGE.unpackedParameterNames (m : CGE E) : List Str := dkeys m.unpackedParameters

/-- `unpacked_variables`, `unpacked_parameters` (base/cge.py:244-249,270-275): the names are looked up one by one. -/
def CGE.unpackedVariableObjs (m : CGE E) : Res (List ModelObject) :=
  m.unpackedVariableNames.mapM (dgetE m.unpackedVariables)
def CGE.unpackedParameterObjs (m : CGE E) : Res (List ModelObject) :=
  m.unpackedParameterNames.mapM (dgetE m.unpackedParameters)

/-- `unpacked_equations` and `unpacked_equation_symbols` (base/cge.py:296-316), of which only the names are kept:
not available when the equations are not parsed. -/
def CGE.unpackedEquationList (parse : Option (Parser E)) (m : CGE E) : Res (List Str) :=
  match parse with
  | some _ => .ok m.unpackedEquationNames
  | none => .error .notImplemented

end Verif
