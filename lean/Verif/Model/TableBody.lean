import Verif.Model.Table
import Verif.Model.Summary

/-!
# The body of a displayed table

Models `build_tree` with its data, `parse_data` and `make_table` (`cge_modeling/tools/output_tools.py:194-275`), and
`CGEModel.equation_table` (`cge_modeling/base/cge.py:608-616`).  The table is what is given to
`Texttable.add_rows`; how texttable and latextable draw it is not modelled.
-/

namespace Verif

/-- A datum in a column. -/
inductive Cell where
  /-- a model object, with its `_full_latex_name` -/
  | object (latex : Str)
  /-- a python number -/
  | number (x : Rat)
  | text (s : Str)
  /-- a sympy expression, with the text `LatexPrinter().doprint` gives for it -/
  | sympy (latex : Str)
  /-- an object of another type, such as an array -/
  | other
  deriving DecidableEq

/-- A cell as it is given to the table. -/
inductive ShownCell where
  | text (s : Str)
  | number (x : Rat)
  deriving DecidableEq

/-- `str.isnumeric`, for the ASCII digits. -/
def isNumericStr (s : Str) : Bool := !s.isEmpty && s.all Char.isDigit

/-- `parse_data` (tools/output_tools.py:234-248). -/
def parseData : Cell → Res ShownCell
  | .object l => .ok (.text l)
  | .number x => .ok (.number x)
  | .text s => if isNumericStr s then .ok (.text s) else .ok (.text ("\\text{".toList ++ s ++ "}".toList))
  | .sympy l => .ok (.text l)
  | .other => .error .valueError

/-- A dictionary of columns: a column has data, or a dictionary of subcolumns. -/
inductive DCol where
  | data (name : Str) (cells : List Cell)
  | group (name : Str) (children : List DCol)

mutual
/-- The node that `build_tree` makes of a column (tools/output_tools.py:217-225). -/
def DCol.toCol : DCol → Col
  | .data n _ => .mk n []
  | .group n cs => .mk n (DCol.toColL cs)
/-- The nodes of the subcolumns. -/
def DCol.toColL : List DCol → List Col
  | [] => []
  | c :: cs => c.toCol :: DCol.toColL cs
end

mutual
/-- `[leaf.data for leaf in tree.get_leaves()]` (tools/output_tools.py:258, 261): the data of the nodes without
children, in the order in which they were added.  An empty dictionary leaves a node without data, `None`. -/
def DCol.leafData : DCol → List (Option (List Cell))
  | .data _ cells => [some cells]
  | .group _ [] => [none]
  | .group _ (c :: cs) => c.leafData ++ DCol.leafDataL cs
/-- The data of several columns. -/
def DCol.leafDataL : List DCol → List (Option (List Cell))
  | [] => []
  | c :: cs => c.leafData ++ DCol.leafDataL cs
end

/-- `heading_to_latex(s) if s is not None else ""` (tools/output_tools.py:230-231, 254-256). -/
def headingCell : Option Str → ShownCell
  | some s => .text ("\\textbf{".toList ++ s ++ "}".toList)
  | none => .text []

/-- `parse_data(datas[i][row]) for i in range(n_cols)` (tools/output_tools.py:266). -/
def dataRow (datas : List (List Cell)) (row : Nat) : Res (List ShownCell) :=
  datas.mapM fun col => match col[row]? with
    | some c => parseData c
    | none => .error .indexError

/-- `len(data)` (tools/output_tools.py:262) raises for a node without data. -/
def lenOk : Option (List Cell) → Res (List Cell)
  | some l => .ok l
  | none => .error .typeError

/-- `make_table` (tools/output_tools.py:251-275).  `add_rows` raises texttable's `ArraySizeError`, here `valueError`,
for a row that is not as long as the number of columns. -/
def makeTable (forest : List DCol) : Res (List (List ShownCell)) :=
  let headings := (makeHeadings (DCol.toColL forest)).map fun row => row.map headingCell
  let leaves := DCol.leafDataL forest
  -- 261-262: `len(data)` of a node without data
  match leaves.mapM lenOk with
  | .error e => .error e
  | .ok datas =>
    match datas with
    -- 265: `data_lens[0]` of an empty list
    | [] => .error .indexError
    | first :: _ =>
      -- 263
      if !datas.all (fun d => d.length == first.length) then .error .assertion
      else
        match (List.range first.length).mapM (dataRow datas) with
        | .error e => .error e
        | .ok rows =>
          if (headings ++ rows).all (fun r => r.length == datas.length) then .ok (headings ++ rows)
          else .error .valueError

/-- An equation of the model as `equation_table` sees it. -/
structure ShownEquation where
  name : Str
  /-- the text that the printer gives for `_fancy_eq` -/
  latex : Str

/-- `equation_table` (base/cge.py:608-616).  Without sympy parsing (`backend="pytensor"`) the equations are plain
`Equation` objects, which have no `to_dict`.  The argument `display` is not used. -/
def equationTable (parsed : Bool) (eqs : List ShownEquation) (_display : Bool) : Res (List (List ShownCell)) :=
  if !parsed && !eqs.isEmpty then .error .attributeError
  else makeTable
    [.data [] (eqs.zipIdx.map fun p => .number ((p.2 : Rat) + 1)),
     .data "Name".toList (eqs.map fun e => .text (stripFlags e.name)),
     .data "Equation".toList (eqs.map fun e => .sympy e.latex)]

end Verif
