import Verif.Model.SimulateSolve

/-!
# A model compiled in part

Models what `compile_model(..., functions_to_compile=…)` leaves in the model
(`cge_modeling/base/build.py:70-93`) as seen by `simulate` (`cge_modeling/base/cge.py:971-1071`).
-/

namespace Verif

variable {α : Type _}

/-- The model built with `functions_to_compile = fns` when `env` is the model built with everything: the
Euler function is there only if asked for, otherwise `self.f_euler` is `None` and calling it is a
`TypeError` (base/cge.py:655).  The Jacobian and the functions of the minimizer are guarded by
`self._compiled` (base/cge.py:680, 716), see `solveWithRoot` and `solveWithMinimize`. -/
def SamEnv.builtWith (env : SamEnv α (List (NDArray α))) (fns : List Str) :
    SamEnv α (List (NDArray α)) :=
  { env with
    compiled := fns
    euler := fun d t n => if fns.contains "euler".toList then env.euler d t n else .error .typeError }

end Verif
