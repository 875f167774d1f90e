import Verif.Py.Dict

/-!
# `CGEModel.summary`

Models `summary` (`cge_modeling/base/cge.py:563-605`), `get_variables`/`get_parameters` without arguments
(`cge_modeling/base/cge.py:481-494`), `Result.to_frame` (`cge_modeling/base/primitives.py:302-310`) and
`_replace_dim_marker_with_dim_name` (`cge_modeling/base/utilities.py:176-207`).
-/

namespace Verif

/-- A match of `<dim:(.+?)>` at the start of the text: group 2.  The group has at least one character, no
line break, and ends before the first `>` behind its first character. -/
def matchDimFlag (s : Str) : Option Str :=
  if "<dim:".toList.isPrefixOf s then
    match s.drop 5 with
    | [] => none
    | c :: r =>
      if c = '\n' then none
      else
        match r.dropWhile fun d => d != '>' && d != '\n' with
        | '>' :: _ => some (c :: r.takeWhile fun d => d != '>' && d != '\n')
        | _ => none
  else none

/-- The scan of `re.sub`; the number counts characters of the last match still to be skipped. -/
def stripFlagsGo : Nat → Str → Str
  | _, [] => []
  | k + 1, _ :: s => stripFlagsGo k s
  | 0, c :: s =>
    match matchDimFlag (c :: s) with
    | some x => x ++ stripFlagsGo (x.length + 5) s
    | none => c :: stripFlagsGo 0 s

/-- `_replace_dim_marker_with_dim_name` (base/utilities.py:176-207). -/
def stripFlags (s : Str) : Str := stripFlagsGo 0 s

/-- What `summary` reads of the model: the descriptions under the names. -/
structure SummaryModel where
  varDescr : Dict Str Str
  parDescr : Dict Str Str

/-- A row label: the object itself. -/
inductive SummaryItem where
  | variableObj (name : Str)
  | parameterObj (name : Str)
  deriving DecidableEq

/-- The argument `variables`. -/
inductive SummaryArg where
  | text (s : Str)
  | names (l : List Str)

/-- The names to be listed (base/cge.py:574-582).  A text other than the three keywords is looped over,
character by character. -/
def summaryNames (m : SummaryModel) : SummaryArg → List Str
  | .names l => l
  | .text s =>
    if s = "all".toList then dkeys m.varDescr ++ dkeys m.parDescr
    else if s = "variables".toList then dkeys m.varDescr
    else if s = "parameters".toList then dkeys m.parDescr
    else s.map fun c => [c]

/-- The loop body (base/cge.py:586-594). -/
def summaryRow (m : SummaryModel) (n : Str) : Res (SummaryItem × Str) :=
  match dget m.parDescr n with
  | some d => .ok (.parameterObj n, d)
  | none =>
    match dget m.varDescr n with
    | some d => .ok (.variableObj n, d)
    | none => .error .valueError

/-- A column of the table. -/
inductive SummaryCol (α : Type) where
  | symbols (l : List SummaryItem)
  | descriptions (l : List Str)
  | values (initial final : List α)
  deriving DecidableEq

/-- A result: its name and its frame, whose rows are indexed by the names of the scalars. -/
structure NamedResult (α : Type) where
  name : Str
  frame : Dict Str (α × α)

/-- `result_df.loc[variables, :]` (base/cge.py:602); a missing label raises. -/
def locRow {α : Type} (frame : Dict Str (α × α)) (n : Str) : Res (α × α) :=
  match dget frame n with
  | some p => .ok p
  | none => .error .keyError

/-- The loop over the results (base/cge.py:600-603). -/
def addResults {α : Type} (names : List Str) :
    Dict Str (SummaryCol α) → List (NamedResult α) → Res (Dict Str (SummaryCol α))
  | info, [] => .ok info
  | info, r :: rs =>
    match names.mapM (locRow r.frame) with
    | .error e => .error e
    | .ok rows => addResults names (dset info r.name (.values (rows.map (·.1)) (rows.map (·.2)))) rs

/-- `summary` (base/cge.py:563-604). -/
def summary {α : Type} (m : SummaryModel) (arg : SummaryArg) (results : List (NamedResult α)) :
    Res (Dict Str (SummaryCol α)) :=
  match (summaryNames m arg).mapM (summaryRow m) with
  | .error e => .error e
  | .ok rows =>
    addResults (summaryNames m arg)
      [("Symbol".toList, .symbols (rows.map (·.1))),
       ("Description".toList, .descriptions (rows.map fun r => stripFlags r.2))] results

end Verif
