import Verif.Model.Production
import Verif.Model.Expand

/-!
# `unpack_string_inputs`

`cge_modeling/production_functions.py:29-80`.
-/

namespace Verif

/-- `isinstance(x, list)`. -/
def StrArg.isList : StrArg → Bool
  | .str _ => false
  | .list _ => true

/-- `"_".join([input, *label_list])` (production_functions.py:78): a list as the first item is a `TypeError`. -/
def joinLabels (labels : List Str) : StrArg → Res Str
  | .str s => .ok (joinStr "_".toList (s :: labels))
  | .list _ => .error .typeError

/-- The double loop at lines 74-78: what is appended to every list of `outputs`, one combination of labels after the
other. -/
def unpackLoop (inputs : List StrArg) : List (List Str) → List (List Str) → Res (List (List Str))
  | [], outputs => .ok outputs
  | labels :: rest, outputs =>
    match inputs.mapM (joinLabels labels) with
    | .error e => .error e
    | .ok names => unpackLoop inputs rest (outputs.zipWith (fun out name => out ++ [name]) names)

/-- `unpack_string_inputs` (production_functions.py:29-80). -/
def unpackStringInputs (inputs : List StrArg) (dims : Option StrArg) (coords : Option Coords) :
    Res (List (List Str)) :=
  let inputs := inputs.map StrArg.unwrap
  if inputs.all StrArg.isList then .ok (inputs.map StrArg.atLeastList)
  else match coords, dims with
    | some coords, some dims =>
      if !(dims.iter.all fun key => (dkeys coords).contains key) then .error .keyError
      else match dims.iter.mapM (dgetE coords) with
        | .error e => .error e
        | .ok labels => unpackLoop inputs (product labels) (inputs.map fun _ => [])
    | _, _ => .ok (inputs.map StrArg.atLeastList)

end Verif
