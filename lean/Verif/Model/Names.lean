import Verif.Py.Dict
import Verif.Py.Str

/-!
# Dims, subscripts and bracketed names

Models `cge_modeling/base/primitives.py:32-43,72-108` (`_tokenize_latex_subscript`,
`_make_latex_subscript`, `_initialize_index`) and `cge_modeling/tools/utils.py:44-52`
(`brackets_to_snake_case`).
-/

namespace Verif

/-- White space removed by `str.strip()` (ASCII only; Python also strips Unicode spaces). -/
def isPySpace (c : Char) : Bool :=
  c == ' ' || c == '\t' || c == '\n' || c == '\r' || c == '\x0b' || c == '\x0c'

/-- `s.strip()`. -/
def pyStrip (s : Str) : Str :=
  ((s.dropWhile isPySpace).reverse.dropWhile isPySpace).reverse

/-- `s.split(c)` for a one-character separator: always at least one piece. -/
def pySplit (c : Char) : Str → List Str
  | [] => [[]]
  | a :: s =>
    match pySplit c s with
    | [] => [[]]
    | p :: ps => if a = c then [] :: p :: ps else (a :: p) :: ps

/-- An element of a list or tuple of dims: a string or something else. -/
inductive DimItem where
  | str (s : Str)
  | other
  deriving DecidableEq, Repr

/-- The `dims` argument of a model object. -/
inductive DimsArg where
  | none
  | str (s : Str)
  | list (l : List DimItem)
  | tuple (l : List DimItem)
  | other
  deriving DecidableEq, Repr

/-- All items as strings, `ValueError` if one is not (base/primitives.py:95-99). -/
def dimItems (l : List DimItem) : Res (List Str) :=
  l.mapM fun
    | .str s => .ok s
    | .other => .error .valueError

/-- `ModelObject._initialize_index` (base/primitives.py:84-108). -/
def initializeIndex : DimsArg → Res (List Str)
  | .none => .ok []
  | .list l => dimItems l
  | .tuple l => dimItems l
  | .str s => .ok ((pySplit ',' s).map pyStrip)
  | .other => .error .valueError

/-- The pieces of the subscript (base/primitives.py:73-77): the dim, with its value if it has one. -/
def subscriptToken (dimVals : Dict Str Str) (dim : Str) : Str :=
  match dget dimVals dim with
  | none => dim
  | some v => dim ++ "=\\text{".toList ++ v ++ "}".toList

/-- `ModelObject._make_latex_subscript` (base/primitives.py:72-82). -/
def makeLatexSubscript (dims : List Str) (dimVals : Dict Str Str) : Str :=
  if dims = [] then []
  else "_{".toList ++ joinStr ", ".toList (dims.map (subscriptToken dimVals)) ++ "}".toList

/-- `_tokenize_latex_subscript` (base/primitives.py:32-43). -/
def tokenizeLatexSubscript (s : Str) : List Str :=
  let s1 := if "_{".toList.isPrefixOf s then s.drop 2 else s
  let s2 := if s1.getLast? = some '}' then s1.dropLast else s1
  let toks := (pySplit ',' s2).map pyStrip
  if toks = [[]] then [] else toks

/-- `brackets_to_snake_case` (tools/utils.py:44-52). -/
def bracketsToSnakeCase (name : Str) : Str :=
  let n1 := replaceAll "]".toList "".toList name
  let n2 := replaceAll "[".toList "_".toList n1
  let n3 := replaceAll ",".toList "_".toList n2
  replaceAll " ".toList "".toList n3

/-- `str(Indexed)` as sympy prints it: `base[l1, l2, …]`. -/
def bracketName (base : Str) (labels : List Str) : Str :=
  base ++ "[".toList ++ joinStr ", ".toList labels ++ "]".toList

end Verif
