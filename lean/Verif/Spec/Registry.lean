import Verif.Py.Basic

/-!
# Specification vocabulary for the registry
-/

namespace Verif

/-- The names of the list that are neither in `seen` nor earlier in the list, in order. -/
def firstAdded (seen : List Str) : List Str → List Str
  | [] => []
  | n :: ns => if n ∈ seen then firstAdded seen ns else n :: firstAdded (seen ++ [n]) ns

/-- The last object of the list with the name. -/
def lastNamed {O : Type _} (nameOf : O → Str) (os : List O) (n : Str) : Option O :=
  (os.filter fun o => nameOf o = n).getLast?

end Verif
