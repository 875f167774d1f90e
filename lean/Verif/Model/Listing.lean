import Verif.Py.Str
import Verif.Py.Dict

/-!
# Printed systems of equations and tables of variables

Models `latex_print_equations`, the rows of `make_summary_table`, and `convert_table_to_array`
(`cge_modeling/tools/output_tools.py:278-336, 394-409`), which the package offers as
`latex_print_equations` and `display_info_as_table`.  sympy's `latex` and Python's `str` are parameters.
The drawing of the table by texttable and latextable and the display in a notebook are not modelled.
-/

namespace Verif

/-- A value in an information dictionary: a string, or something else. -/
inductive InfoVal (V : Type) where
  | text (s : Str)
  | other (v : V)

/-- `r"\text{" + x`: only strings can be added to a string; a missing entry is `None`
(tools/output_tools.py:401). -/
def InfoVal.asStr {V : Type} : Option (InfoVal V) → Res Str
  | some (.text s) => .ok s
  | _ => .error .typeError

/-- The lines added for one equation (tools/output_tools.py:401-402). -/
def equationBlock (name eq tag : Str) : Str :=
  "\\text{".toList ++ name ++ "} &\\\\".toList ++ (eq ++ "&\\tag{".toList ++ tag ++ "}\\\\".toList)

/-- The loop over the equations (tools/output_tools.py:395-402); `d.get(attr)` is `None` if there is no
entry. -/
def equationBlocks {V : Type} (latex pyStr : Option (InfoVal V) → Str) :
    List (Dict Str (InfoVal V)) → Res Str
  | [] => .ok []
  | d :: ds => do
      let name ← InfoVal.asStr (dget d "name".toList)
      let rest ← equationBlocks latex pyStr ds
      pure (equationBlock name (latex (dget d "fancy_eq".toList)) (pyStr (dget d "eq_id".toList)) ++ rest)

/-- `latex_print_equations` (tools/output_tools.py:394-409): the text that is returned or displayed. -/
def latexPrintEquations {V : Type} (latex pyStr : Option (InfoVal V) → Str)
    (info : List (Dict Str (InfoVal V))) : Res Str := do
  let body ← equationBlocks latex pyStr info
  pure ("\\begin{align}".toList ++ body ++ "\\end{align}".toList)

/-- One row of `make_summary_table` without values (tools/output_tools.py:288-289): what is handed to
texttable.  The LaTeX name is passed on as it is. -/
def infoRow {V : Type} (d : Dict Str (InfoVal V)) : Res (InfoVal V × Str) := do
  let l ← dgetE d "latex_name".toList
  let s ← dgetE d "description".toList
  let s ← InfoVal.asStr (some s)
  pure (l, "\\text{".toList ++ s ++ "}".toList)

/-- The rows of the table of `display_info_as_table` under the heading (tools/output_tools.py:278-296,
344-346). -/
def infoRows {V : Type} (info : List (Dict Str (InfoVal V))) : Res (List (InfoVal V × Str)) :=
  info.mapM infoRow

/-- How many characters `.*?}` takes: those up to the first brace, which must be on the same line. -/
def upToBrace : Str → Option Nat
  | [] => none
  | c :: s => if c = '}' then some 1 else if c = '\n' then none else (upToBrace s).map (· + 1)

/-- The scan of `re.sub(r"\\caption{.*?}", "", s)` (tools/output_tools.py:327); `skip` counts the characters
of the current match that are still to be dropped. -/
def captionGo : Nat → Str → Str
  | _, [] => []
  | skip + 1, _ :: s => captionGo skip s
  | 0, c :: s =>
      if "\\caption{".toList.isPrefixOf (c :: s) then
        match upToBrace (s.drop 8) with
        | some k => captionGo (8 + k) s
        | none => c :: captionGo 0 s
      else c :: captionGo 0 s

/-- `re.sub(r"\\caption{.*?}", "", s)`. -/
def removeCaptions (s : Str) : Str := captionGo 0 s

/-- `convert_table_to_array` (tools/output_tools.py:321-336). -/
def convertTable (s : Str) : Str :=
  let s := replaceAll "\\begin{table}".toList [] s
  let s := replaceAll "\\end{table}".toList [] s
  let s := removeCaptions s
  let s := replaceAll "\\centering".toList [] s
  let s := replaceAll "\\begin{center}".toList [] s
  let s := replaceAll "\\end{center}".toList [] s
  let s := replaceAll "\\begin{tabular}".toList "\\begin{array}".toList s
  replaceAll "\\end{tabular}".toList "\\end{array}".toList s

end Verif
