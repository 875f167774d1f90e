import Verif.Model.Registry

/-!
# Looking everything up

`get_symbol` without names and `get_shape` (`cge_modeling/base/cge.py:528-530, 559-561`).
-/

namespace Verif

variable {E : Type}

/-- `get_symbol(None)` (base/cge.py:529-530): the names are `unpacked_parameter_names + unpacked_parameter_symbols`, the
names of the parameters followed by their symbols.  A symbol is not equal to a name, so it is found nowhere. -/
def getSymbolAll (m : CGE E) : Res Got :=
  (((dkeys m.unpackedParameters).map Sum.inl ++ (dvalues m.unpackedParameters).map Sum.inr).mapM
    (fun x : Str ⊕ ModelObject => match x with
      | .inl name => getSymbolOne m name
      | .inr _ => .error .valueError)).map unwrapSingle

/-- `get_shape` (base/cge.py:559-561), with the generator it returns read to the end. -/
def getShape (m : CGE E) (name : Str) : Res (List Nat) :=
  match getOne m.reg name with
  | .error e => .error e
  | .ok f =>
    let o := match f with
      | .variable o => o
      | .parameter o => o
    o.dims.mapM fun d => match dget m.coords d with
      | some labels => .ok labels.length
      | none => .error .keyError

end Verif
