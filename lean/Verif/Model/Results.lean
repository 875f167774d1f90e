import Verif.Py.Dict

/-!
# The result store

Models `write_results` and `read_results` (`cge_modeling/base/cge.py:1191-1249`).

A directory is an insertion-ordered map from file names to contents.  Simplifications: names contain
no path separator and no newline; pickling a result and loading it gives the same value; log
messages are not modelled.
-/

namespace Verif

variable {γ : Type _}

/-- The output directory: `none` when it does not exist. -/
abbrev Dir (γ : Type _) := Option (Dict Str γ)

/-- `os.listdir` of an existing directory, and `[]` for a missing one. -/
def filesOf (dir : Dir γ) : Dict Str γ := dir.getD []

/-- `os.path.exists(os.path.join(output_path, name))`. -/
def fileExists (dir : Dir γ) (name : Str) : Bool := decide (name ∈ dkeys (filesOf dir))

/-- `s.endswith(suf)`. -/
def endsWith (s suf : Str) : Bool := suf.isSuffixOf s

/-- `os.path.splitext(p)`: split before the last dot, unless everything before it is dots. -/
def splitext (p : Str) : Str × Str :=
  let after := (p.reverse.takeWhile (· ≠ '.')).reverse
  let rest := p.reverse.dropWhile (· ≠ '.')   -- reversed: last dot first
  match rest with
  | [] => (p, [])
  | _ :: base => if base.all (· = '.') then (p, []) else (base.reverse, '.' :: after)

/-- `str(n)` for a natural number. -/
def natStr (n : Nat) : Str := Nat.toDigits 10 n

/-- `f"{base}({n}){ext}"`. -/
def numbered (base : Str) (n : Nat) (ext : Str) : Str := base ++ '(' :: (natStr n ++ ')' :: ext)

/-- The loop of base/cge.py:1207-1210 looking for an unused name.  `fuel` bounds the number of
iterations; `none` would mean that the loop is still running.  `writeResults` gives it one more
iteration than there are files, and theorem `C15_save_preserves` shows that this is always enough. -/
def freshName (files : List Str) (base ext : Str) : Nat → Nat → Str → Option Str
  | 0, _, _ => none
  | fuel + 1, counter, cand =>
      if cand ∈ files then freshName files base ext fuel (counter + 1) (numbered base counter ext)
      else some cand

/-- `write_results` (base/cge.py:1191-1220); `none` = does not terminate.  `today` is
`datetime.today().strftime("%Y-%m-%d")`. -/
def writeResults (dir : Dir γ) (today : Str) (filename : Option Str) (overwrite : Bool) (data : γ) :
    Option (Dir γ) :=
  let files := filesOf dir                                  -- os.makedirs if absent
  let filename := filename.getD (today ++ ".pkl".toList)
  let filename := if endsWith filename ".pkl" then filename else filename ++ ".pkl".toList
  let (base, ext) := splitext filename
  let target :=
    if !overwrite then freshName (dkeys files) base ext (files.length + 1) 1 (base ++ ext)
    else some (base ++ ext)
  target.map fun name => some (dset files name data)

/-- `filename.replace("pkl", "")` (base/cge.py:1229): every occurrence is removed. -/
def replacePkl : Str → Str
  | 'p' :: 'k' :: 'l' :: s => replacePkl s
  | c :: s => c :: replacePkl s
  | [] => []

/-- Match of `^{re.escape(base)}\((\d+)\)\.pkl$` returning `int(group 1)` (base/cge.py:1232-1238).
Simplification: `\d` is an ASCII digit. -/
def matchNumbered (base fname : Str) : Option Nat :=
  if base.isPrefixOf fname then
    match fname.drop base.length with
    | '(' :: rest =>
        let digits := rest.takeWhile Char.isDigit
        let tail := rest.dropWhile Char.isDigit
        if digits ≠ [] ∧ tail = ')' :: ".pkl".toList then some (Nat.ofDigitChars 10 digits 0) else none
    | _ => none
  else none

/-- The loop computing `max_suffix` (base/cge.py:1231-1239). -/
def maxSuffix (base : Str) (files : List Str) : Nat :=
  files.foldl (fun m f =>
    match matchNumbered base f with
    | some n => if m < n then n else m
    | none => m) 0

/-- `read_results` (base/cge.py:1223-1249). -/
def readResults (dir : Dir γ) (filename : Str) : Res γ :=
  let (base, filename) :=
    if !endsWith filename "pkl" then (filename, filename ++ ".pkl".toList)
    else (replacePkl filename, filename)
  match dir with
  | none => .error .fileNotFound                             -- os.listdir raises
  | some files =>
    let m := maxSuffix base (dkeys files)
    let filename := if 0 < m then numbered base m ".pkl" else filename
    match dget files filename with
    | some d => .ok d
    | none => .error .fileNotFound

end Verif
