import Verif.Py.Dict
import Verif.Py.Str
import Verif.Model.Results

/-!
# The source text generated for numba

Models the parts of `cge_modeling/compile/numba_tools.py:64-225` (`numba_lambdify`) that are text
manipulation of the project itself: the length checks and the lines that unpack the input vectors
into local names (lines 118-127, 194-210), and the two regular-expression clean-ups (lines 13-14,
179-184, 215).  The printing of expressions is sympy's `NumPyPrinter`; it is not modelled.
-/

namespace Verif

/-! ## Unpacking the inputs -/

/-- `f"    {name} = {vec}[{i}]"` (compile/numba_tools.py:198, 205). -/
def unpackLine (vec : Str) (name : Str) (i : Nat) : Str :=
  "    ".toList ++ (name ++ (" = ".toList ++ (vec ++ '[' :: (natStr i ++ "]".toList))))

/-- The lines for the variables of one input vector, from position `i` on
(`enumerate(exog_vars)`, compile/numba_tools.py:196-201, 203-208). -/
def unpackLines (vec : Str) : Nat → List Str → List Str
  | _, [] => []
  | i, n :: ns => unpackLine vec n i :: unpackLines vec (i + 1) ns

/-- A local value of the generated function: an input vector or one number. -/
inductive LocalVal (α : Type) where
  | vec (l : List α)
  | num (a : α)
  deriving DecidableEq, Repr

/-- Execution of one line `name = vec[i]` in the local scope `env`, reading the line from its
text: the name is what stands before the first blank, the vector what stands before `[`, the
position the digits after it.  A name that is not bound is reported as `keyError` (Python:
`NameError`). -/
def execLine {α : Type} (env : Dict Str (LocalVal α)) (line : Str) :
    Res (Dict Str (LocalVal α)) :=
  let body := line.drop 4
  let name := body.takeWhile (fun c => c != ' ')
  let rhs := (body.dropWhile (fun c => c != ' ')).drop 3
  let vec := rhs.takeWhile (fun c => c != '[')
  let i := Nat.ofDigitChars 10
    (((rhs.dropWhile (fun c => c != '[')).drop 1).takeWhile Char.isDigit) 0
  match dget env vec with
  | none => .error .keyError
  | some (.num _) => .error .typeError
  | some (.vec l) =>
    match l[i]? with
    | none => .error .indexError
    | some a => .ok (dset env name (.num a))

/-- The lines in order. -/
def execLines {α : Type} : Dict Str (LocalVal α) → List Str → Res (Dict Str (LocalVal α))
  | env, [] => .ok env
  | env, l :: ls =>
    match execLine env l with
    | .error e => .error e
    | .ok env' => execLines env' ls

/-- The start of the generated function (compile/numba_tools.py:116-124, 193-210): its parameters
are `exog_inputs` and, when `endog_vars` is given, `endog_inputs`; the lengths are asserted; then
the inputs are unpacked, those of `exog_inputs` first. -/
def runPrelude {α : Type} (exogNames : List Str) (endogNames : Option (List Str))
    (exog endog : List α) : Res (Dict Str (LocalVal α)) :=
  if exog.length ≠ exogNames.length then .error .assertion
  else
    match endogNames with
    | none =>
      execLines [("exog_inputs".toList, .vec exog)]
        (unpackLines "exog_inputs".toList 0 exogNames)
    | some ens =>
      if endog.length ≠ ens.length then .error .assertion
      else
        execLines [("exog_inputs".toList, .vec exog), ("endog_inputs".toList, .vec endog)]
          (unpackLines "exog_inputs".toList 0 exogNames ++
            unpackLines "endog_inputs".toList 0 ens)

/-- The generated code makes its results with `np.array(…)` (compile/numba_tools.py:188): an input called
`np` hides the module (numba refuses to compile an attribute of a number; here `AttributeError`). -/
def hidesNumpy {α : Type} (locals : Dict Str (LocalVal α)) : Bool := (dget locals "np".toList).isSome

/-! ## The clean-up of numbers -/

/-- `\w` (ASCII). -/
def isWordChar (c : Char) : Bool := c.isAlphanum || c == '_'

/-- `[\.\w]`. -/
def isDotWord (c : Char) : Bool := isWordChar c || c == '.'

/-- `[ ,\]]`. -/
def isZeroStop (c : Char) : Bool := c == ' ' || c == ',' || c == ']'

/-- `re.sub(r"(?<![\.\w])0([ ,\]])", r"0.0\g<1>", s)` (compile/numba_tools.py:14, 180).  The flag
says whether the character before the current position is one of `[\.\w]`. -/
def zeroGo : Bool → Str → Str
  | _, [] => []
  | _, [c] => [c]
  | p, c :: n :: s =>
    if !p && c == '0' && isZeroStop n then '0' :: '.' :: '0' :: n :: zeroGo false s
    else c :: zeroGo (isDotWord c) (n :: s)

/-- See `zeroGo`. -/
def zeroClean (s : Str) : Str := zeroGo false s

/-- A match of `(\w+)\[(\d+)\.0\]` at the start of `s`: the two groups.  Greedy matching and
backtracking agree here, because `[` is not in `\w` and `.` is not in `\d`. -/
def matchFloatIndex (s : Str) : Option (Str × Str) :=
  let w := s.takeWhile isWordChar
  let r := s.dropWhile isWordChar
  if w = [] then none
  else
    match r with
    | '[' :: r' =>
      let d := r'.takeWhile Char.isDigit
      if d = [] then none
      else
        match r'.dropWhile Char.isDigit with
        | '.' :: '0' :: ']' :: _ => some (w, d)
        | _ => none
    | _ => none

/-- The scan of `re.sub(r"(\w+)\[(\d+)\.0\]", r"\1[\2]", s)`; the number counts characters of the
last match that are still to be skipped. -/
def floatGo : Nat → Str → Str
  | _, [] => []
  | k + 1, _ :: s => floatGo k s
  | 0, c :: s =>
    match matchFloatIndex (c :: s) with
    | some (w, d) => w ++ '[' :: (d ++ ']' :: floatGo (w.length + d.length + 3) s)
    | none => c :: floatGo 0 s

/-- `re.sub(FLOAT_INDEX_PATTERN, r"\1[\2]", s)` (compile/numba_tools.py:13, 184). -/
def floatIndex (s : Str) : Str := floatGo 0 s

/-- The clean-up of the printed code of an output (compile/numba_tools.py:179-184). -/
def cleanCode (s : Str) : Str := floatIndex (zeroClean s)

end Verif
