import Verif.Py.Basic

/-! # `cge_modeling/tools/parsing.py` -/

namespace Verif

/-- `re.split("(?<!axis)=", eq, maxsplit=1)`: the text before and after the first `=` that does not
follow the letters `axis`; `pre` is the text already passed. -/
def splitEq (pre : Str) : Str → Option (Str × Str)
  | [] => none
  | c :: s =>
      if c = '=' ∧ ¬ ("axis".toList).isSuffixOf pre then some (pre, s) else splitEq (pre ++ [c]) s

/-- `normalize_eq` (tools/parsing.py:4-22). -/
def normalizeEq (eq : Str) : Str :=
  match splitEq [] eq with
  | none => eq
  | some (lhs, rhs) => lhs ++ " - (".toList ++ rhs ++ ")".toList

/-- `wrap_in_ravel` (tools/parsing.py:25-26). -/
def wrapInRavel (eq : Str) : Str := "(".toList ++ eq ++ ").ravel()".toList

end Verif
