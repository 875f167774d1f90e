import Verif.Model.Plots
import Verif.Model.SimulateSolve

/-!
# What the line plots show

Models `plot_lines` (`cge_modeling/plotting.py:56-197`) as far as the numbers, titles, legends and places
handed to matplotlib are concerned, on the result of `simulate` (`SimOut`): the group `euler` is what
`dropna` left of the trajectory, rows labelled by their step, and the group `optimizer` a labelled dataset.
Not modelled: colours (except that an unknown colour map is refused), markers, grid lines, spines, fonts.
-/

namespace Verif

variable {K : Type}

/-- The argument `legends`. -/
inductive LegendArg where
  | none
  | flag (b : Bool)
  | list (l : List Str)

/-- The dict of legends (plotting.py:109-116); `setList` is the iteration order of a set. -/
def legendDict (setList : List Str → List Str) (varNames : List Str) : LegendArg → Dict Str Bool
  | .none => dofPairs (varNames.map fun v => (v, false))
  | .flag b => dofPairs (varNames.map fun v => (v, b))
  | .list l => dupdate (dofPairs (l.map fun v => (v, true)))
      ((setList (varNames.filter fun v => decide (v ∉ l))).map fun v => (v, false))

/-- One panel: its place, its title, the lines with the legend flag (if Euler steps are shown), and the
positions of the stars (if the optimizer's result is shown), each as (horizontal, vertical). -/
structure LinePanel (K : Type) where
  loc : GridLoc
  title : Str
  lines : Option (List (List (Nat × K)) × Bool)
  stars : Option (List (Nat × K) × List (Nat × K))

/-- `data.plot.line(x="step")` (plotting.py:155-164): one line for every element of the variable, in C
order (several dims are stacked into one), with a point for every row that was kept. -/
def linesOf (rows : List (Nat × Dict Str (NDArray K))) (name : Str) : Res (List (List (Nat × K))) := do
  let first ← listGetE rows 0
  let a ← dgetE first.2 name
  let cols ← rows.mapM fun r => (dgetE r.2 name).map fun a => (r.1, a.data)
  pure ((List.range a.data.length).map fun j => cols.filterMap fun p => p.2[j]?.map fun y => (p.1, y))

/-- Where the red stars stand (plotting.py:171-174). -/
def starStep : Option (List (Nat × Dict Str (NDArray K))) → Res Nat
  | some rows => maxLabel rows
  | none => .ok 1

/-- The stars (plotting.py:166-190): the first and the last step of the optimizer's result, at 0 and at the
last kept Euler step, or at 1 if the Euler steps are not shown. -/
def starsOf (rows : Option (List (Nat × Dict Str (NDArray K)))) (opt : XDataset K × XDataset K)
    (name : Str) : Res (List (Nat × K) × List (Nat × K)) := do
  let v ← dgetE opt.1 name
  let i ← firstStepData v.2
  let f ← lastStepData v.2
  let t ← starStep rows
  pure (i.map fun y => (0, y), f.map fun y => (t, y))

/-- Lines of one panel if they are to be shown. -/
def euLines (show_ : Bool) (rows : Option (List (Nat × Dict Str (NDArray K)))) (legends : Dict Str Bool)
    (name : Str) : Res (Option (List (List (Nat × K)) × Bool)) :=
  match show_, rows with
  | true, some rows => do
      let ls ← linesOf rows name
      let lg ← dgetE legends name
      pure (some (ls, lg))
  | true, none => .error .valueError
  | false, _ => .ok none

/-- Stars of one panel if they are to be shown. -/
def opStars (showEuler showOpt : Bool) (rows : Option (List (Nat × Dict Str (NDArray K))))
    (opt : Option (XDataset K × XDataset K)) (name : Str) :
    Res (Option (List (Nat × K) × List (Nat × K))) :=
  match showOpt, opt with
  | true, some o => (starsOf (if showEuler then rows else none) o name).map some
  | true, none => .error .valueError
  | false, _ => .ok none

/-- `plot_lines` (plotting.py:56-197) for the model with variables `modelNames`; `knownCmap` tells whether
matplotlib has a colour map or colour sequence of a name. -/
def plotLines (setList : List Str → List Str) (knownCmap : Str → Bool) (out : SimOut K)
    (modelNames : List Str) (nCols : Nat) (varNames : Option (List Str))
    (_initialValues : Option (Dict Str (NDArray K))) (plotEuler plotOptimizer : Bool)
    (rename : Option (Dict Str Str)) (legends : LegendArg) (cmap : Option Str) :
    Res (List (LinePanel K)) := do
  let names := varNames.getD modelNames
  let rename := rename.getD []
  let leg := legendDict setList names legends
  if out.euler.isNone && plotEuler then .error .valueError
  else if out.optimizer.isNone && plotOptimizer then .error .valueError
  else do
    let g ← prepareGrid (min nCols names.length) names.length
    if !knownCmap (cmap.getD "tab10".toList) then .error .valueError
    else names.zipIdx.mapM fun p => do
      let loc ← listGetE g.locs p.2
      let ls ← euLines plotEuler (out.euler.map EulerPass.keptVars) leg p.1
      let st ← opStars plotEuler plotOptimizer (out.euler.map EulerPass.keptVars) out.optimizer p.1
      pure ⟨loc, (dget rename p.1).getD p.1, ls, st⟩

end Verif
