import Verif.Model.Names
import Verif.Model.Expand

/-!
# How objects are displayed

Models `cge_modeling/base/primitives.py:15-19,110-176,178-182,203-209` (`GREEK_PATTERN`,
`_initialize_dim_vals`, `_initialize_latex_name`, `_initialize_full_latex_name`,
`_initialize_description`, `__repr__`, `update_dim_value`).
-/

namespace Verif

/-- `greeks` (base/primitives.py:12,15): the tuple of `sympy.abc` and `"varepsilon"`. -/
def greeksLower : List Str :=
  ["alpha".toList, "beta".toList, "gamma".toList, "delta".toList, "epsilon".toList, "zeta".toList,
   "eta".toList, "theta".toList, "iota".toList, "kappa".toList, "lambda".toList, "mu".toList,
   "nu".toList, "xi".toList, "omicron".toList, "pi".toList, "rho".toList, "sigma".toList,
   "tau".toList, "upsilon".toList, "phi".toList, "chi".toList, "psi".toList, "omega".toList,
   "varepsilon".toList]

/-- `x.title()` of a word of small letters. -/
def titleWord : Str → Str
  | [] => []
  | c :: s => c.toUpper :: s

/-- `greeks + Greeks` (base/primitives.py:15-18). -/
def greekWords : List Str := greeksLower ++ greeksLower.map titleWord

/-- The characters of the class `[_^]`. -/
def isScript (c : Char) : Bool := c == '_' || c == '^'

/-- Length of the match of `GREEK_PATTERN` (base/primitives.py:17-19) at the head of `s`.  For every word
there are three alternatives: at the start of the text, before one of `_^` (never, since the words start
with a letter), after one of `_^`.  `boundary` says that `s` is the whole text or follows one of `_^`. -/
def greekMatch (boundary : Bool) (s : Str) : Option Nat :=
  if boundary then (greekWords.find? (·.isPrefixOf s)).map List.length else none

/-- `re.sub(GREEK_PATTERN, r"\\\g<0>", s)` (base/primitives.py:137), from left to right; `skip` counts the
characters of the current match that are still to be copied. -/
def greekSubGo : Nat → Bool → Str → Str
  | _, _, [] => []
  | skip + 1, _, c :: s => c :: greekSubGo skip (isScript c) s
  | 0, boundary, c :: s =>
      match greekMatch boundary (c :: s) with
      | some n => '\\' :: c :: greekSubGo (n - 1) (isScript c) s
      | none => c :: greekSubGo 0 (isScript c) s

/-- `_initialize_latex_name` (base/primitives.py:135-138). -/
def latexName (name : Str) (given : Option Str) : Str := greekSubGo 0 true (given.getD name)

/-- `re.sub(r"[\{\}]", "", s)`. -/
def dropBraces (s : Str) : Str := s.filter fun c => !(c == '{' || c == '}')

/-- Where a Python slice of a list of length `n` stops (or starts) at `i`. -/
def sliceBound (n : Nat) (i : Int) : Nat := if i < 0 then (n + i).toNat else i.toNat

/-- The two parts `tokens[:-k]`, `tokens[-k:]`, exchanged if the first is empty
(base/primitives.py:148-151). -/
def splitTokens (tokens : List Str) (k : Int) : List Str × List Str :=
  let cut := sliceBound tokens.length (-k)
  let base := tokens.take cut
  let subs := tokens.drop cut
  if base = [] then (subs, base) else (base, subs)

/-- `_initialize_full_latex_name` (base/primitives.py:140-166); `extend` is `int(extend_subscript)`. -/
def fullLatexName (latex : Str) (extend : Int) (dims : List Str) (dimVals : Dict Str Str) : Str :=
  let idxSubscript := makeLatexSubscript dims dimVals
  let p : Str × Str :=
    if extend = 0 then (latex, idxSubscript)
    else
      let tokens := (pySplit '_' latex).map fun x => dropBraces (pyStrip x)
      let q := splitTokens tokens extend
      let subs := q.2 ++ tokenizeLatexSubscript idxSubscript
      (joinStr "_".toList q.1,
        if subs = [] then [] else "_{".toList ++ joinStr ", ".toList subs ++ "}".toList)
  (if '_' ∈ p.1 then "\\text{".toList ++ p.1 ++ "}".toList else p.1) ++ p.2

/-- A `ModelObject` with the attributes that are displayed (base/primitives.py:46-58). -/
structure ShownObj where
  name : Str
  dims : List Str
  dimVals : Dict Str Str
  latex : Str
  extend : Int
  /-- `_full_latex_name`; `repr` returns it (base/primitives.py:177-178) -/
  full : Str
  description : Str

/-- `str(b)`. -/
def pyBool (b : Bool) : Str := if b then "True".toList else "False".toList

/-- The description an object gets when none is given (base/primitives.py:172). -/
def defaultDescription (full : Str) (positive real : Bool) : Str :=
  full ++ ", Positive = ".toList ++ pyBool positive ++ ", Real = ".toList ++ pyBool real

/-- `ModelObject.__post_init__` (base/primitives.py:60-70, 110-172), with `dims` already a tuple (see
`initializeIndex`); values of dims that the object does not have are refused. -/
def declareObj (name : Str) (dims : List Str) (dimVals : Option (Dict Str Str)) (givenLatex : Option Str)
    (givenDescription : Option Str) (positive real : Bool) (extend : Int) : Res ShownObj :=
  let vals := dimVals.getD []
  if (dkeys vals).all fun d => decide (d ∈ dims) then
    let latex := latexName name givenLatex
    let full := fullLatexName latex extend dims vals
    .ok { name := name, dims := dims, dimVals := vals, latex := latex, extend := extend, full := full,
          description := match givenDescription with
            | some t => prettyPrint t dims vals
            | none => defaultDescription full positive real }
  else .error .valueError

/-- `ModelObject.update_dim_value` (base/primitives.py:203-209) with everything it changes.  The
description is never `None` any more, so the markers of the present text are replaced. -/
def ShownObj.update (o : ShownObj) (dim value : Str) : Res ShownObj :=
  if dim ∈ o.dims then
    let vals := dset o.dimVals dim value
    .ok { o with
      dimVals := vals
      full := fullLatexName o.latex o.extend o.dims vals
      description := prettyPrint o.description o.dims vals }
  else .error .valueError

/-- The inner loop of `expand_obj_by_indices` (tools/sympy_tools.py:426-429) on such objects. -/
def ShownObj.updateAll (o : ShownObj) : List (Str × Str) → Res ShownObj
  | [] => .ok o
  | p :: ps => do
      let o' ← o.update p.1 p.2
      o'.updateAll ps

end Verif
