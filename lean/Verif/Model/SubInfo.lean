import Verif.Py.Str
import Verif.Py.Dict

/-!
# Labels in the place of indices in displayed dictionaries

Models `sub_info_dicts` and `get_info` (`cge_modeling/tools/output_tools.py:354-391`) and `symbol`, `symbols`
(`cge_modeling/tools/sympy_tools.py:250-262`).  `str(idx)` and `str(value)` are given as texts; indices whose text
has a character that is special in a regular expression, and labels with a backslash, are not modelled.  What sympy's
`subs` does with an index is a parameter.
-/

namespace Verif

/-- An information dictionary, as far as `sub_info_dicts` reads it; `none` for a missing key. -/
structure InfoDict (Ix : Type) where
  name : Option Str
  index : Option (List Ix)
  latexName : Option Str
  description : Option Str

/-- The class `[\^_,{]` (tools/output_tools.py:368). -/
def isOpening (c : Char) : Bool := c == '^' || c == '_' || c == ',' || c == '{'

/-- `re.sub(r"([\^_,{])" + idx, r"\g<1>" + value, s)` (tools/output_tools.py:367-369), from left to right; the first
argument counts the characters of a match that are still to be dropped. -/
def subOpenedGo (idx value : Str) : Nat → Str → Str
  | _, [] => []
  | skip + 1, _ :: s => subOpenedGo idx value skip s
  | 0, c :: s =>
      if isOpening c && idx.isPrefixOf s then c :: (value ++ subOpenedGo idx value idx.length s)
      else c :: subOpenedGo idx value 0 s

/-- `re.sub(pat + "$", rep, s)`: at the end, or before a line break at the end (tools/output_tools.py:372). -/
def subAtEnd (pat rep s : Str) : Str :=
  if pat.isSuffixOf s then s.take (s.length - pat.length) ++ rep
  else if (pat ++ ['\n']).isSuffixOf s then s.take (s.length - pat.length - 1) ++ rep ++ ['\n']
  else s

/-- What is done to the LaTeX name for one index (tools/output_tools.py:367-370). -/
def subLatexOne (s : Str) (kv : Str × Str) : Str :=
  replaceAll (kv.1 ++ ['}']) (kv.2 ++ ['}']) (subOpenedGo kv.1 kv.2 0 s)

/-- What is done to the description for one index (tools/output_tools.py:372-373). -/
def subDescOne (s : Str) (kv : Str × Str) : Str :=
  replaceAll (' ' :: kv.1 ++ [' ']) (' ' :: kv.2 ++ [' ']) (subAtEnd (' ' :: kv.1) (' ' :: kv.2) s)

/-- The loop over the indices (tools/output_tools.py:366-370). -/
def subLatex (sub : List (Str × Str)) (s : Str) : Str := sub.foldl subLatexOne s

/-- The loop over the indices (tools/output_tools.py:366, 372-373). -/
def subDesc (sub : List (Str × Str)) (s : Str) : Str := sub.foldl subDescOne s

/-- The loop body of `sub_info_dicts` (tools/output_tools.py:357-382); `subs` is `x.subs(sub_dict)`. -/
def subInfoDict {Ix : Type} (subs : Ix → Ix) (sub : List (Str × Str)) (d : InfoDict Ix) : Res (InfoDict Ix) :=
  match d.name, d.latexName, d.description with
  | some n, some l, some t =>
      .ok ⟨some n, some ((d.index.getD []).map subs), some (subLatex sub l), some (subDesc sub t)⟩
  | _, _, _ => .error .keyError

/-- `sub_info_dicts` (tools/output_tools.py:354-383). -/
def subInfoDicts {Ix : Type} (subs : Ix → Ix) (sub : List (Str × Str)) (info : List (InfoDict Ix)) :
    Res (List (InfoDict Ix)) := info.mapM (subInfoDict subs sub)

/-- A sympy symbol: its name and its assumptions; two symbols are equal if both are. -/
structure SymKey where
  name : Str
  assumptions : List Str := []
  deriving DecidableEq

/-- `symbol` (tools/sympy_tools.py:250-258). -/
def cartSymbol (name : Str) (sectors : List Str) (assumptions : List Str := []) : SymKey :=
  match sectors with
  | [] => ⟨name, assumptions⟩
  | s :: l => ⟨name ++ ('_' :: joinStr ['_'] (s :: l)), assumptions⟩

/-- `symbols` (tools/sympy_tools.py:261-262). -/
def cartSymbols {V : Type} (name : Str) (value : V) (sectors : List Str) (assumptions : List Str := []) :
    Dict SymKey V := dofPairs (sectors.map fun s => (cartSymbol name [s] assumptions, value))

/-- `get_info` (tools/output_tools.py:386-391); a stored `None` is `none`. -/
def getInfo {V : Type} (name : Str) (values : Dict SymKey (Option V)) (sectors : List Str) : Option V :=
  match (dget values (cartSymbol name sectors)).join with
  | some x => some x
  | none => (dget values (cartSymbol name [])).join

end Verif
