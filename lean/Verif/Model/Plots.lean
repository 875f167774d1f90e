import Verif.Model.Idata
import Verif.Model.Grid
import Verif.Model.Registry
import Mathlib.Algebra.Order.Field.Basic
import Mathlib.Data.List.Sort

/-!
# What the bar and area plots show

Models `cge_modeling/plotting.py:200-505` (`plot_areas`, `_compute_bar_data`, `_plot_one_bar`,
`plot_bar`) as far as the numbers and labels handed to matplotlib, pandas and squarify are concerned.
Not modelled: colours, titles of bar panels, fonts, legends, the orientation and selection by `coords`.
-/

namespace Verif

/-- A simulation result: the groups `euler` and `optimizer`, each with its datasets of variables and
parameters. -/
abbrev SimResult (K : Type _) := Dict Str (XDataset K × XDataset K)

/-- `.isel(step=-1)…data.ravel()`: the last block along the first axis.  xarray raises `IndexError` when
there is no step. -/
def lastStepData {K : Type _} (a : NDArray K) : Res (List K) :=
  match a.shape with
  | 0 :: _ => .error .indexError
  | (n + 1) :: s => .ok (a.data.drop (n * s.prod))
  | [] => .error .valueError

/-- `.isel(step=0)…data.ravel()`. -/
def firstStepData {K : Type _} (a : NDArray K) : Res (List K) :=
  match a.shape with
  | 0 :: _ => .error .indexError
  | (_ + 1) :: s => .ok (a.data.take s.prod)
  | [] => .error .valueError

section Areas

variable {K : Type} [Field K] [LinearOrder K] {E : Type}

/-- The argument `var_names`: a string or a list of strings. -/
inductive NamesArg where
  | str (s : Str)
  | list (l : List Str)

/-- `for var in var_names`: iterating over a string gives its characters. -/
def NamesArg.iter : NamesArg → List Str
  | .str s => s.map fun c => [c]
  | .list l => l

/-- `np.isclose(x, 0)` with the default tolerances: `|x - 0| <= 1e-8 + 1e-5 * |0|`. -/
def closeToZero (x : K) : Bool := decide (|x| ≤ 1 / 10 ^ 8)

/-- The arguments of one call of `squarify.plot`. -/
structure AreaPanel (K : Type _) where
  title : Str
  sizes : List K
  labels : List Str
  deriving DecidableEq

/-- `mod.get(var).dims` (plotting.py:259); `get` is base/cge.py:496-526. -/
def dimsOfName (r : Reg E) (name : Str) : Res (List Str) :=
  (getOne r name).map fun f => match f with
    | .variable o => o.dims
    | .parameter o => o.dims

/-- The data of one variable at the end (plotting.py:271-278): the optimizer's last step when there is an
optimizer group, Euler's otherwise (`KeyError` when that is missing too). -/
def postData (res : SimResult K) (name : Str) : Res (List K) := do
  let g ← match dget res "optimizer".toList with
    | some g => .ok g
    | none => dgetE res "euler".toList
  let v ← dgetE g.1 name
  lastStepData v.2

/-- `np.isclose(pre_data, 0) | np.isclose(post_data, 0)` and the boolean indexing with it
(plotting.py:280-284).  Arrays of different lengths raise: `ValueError` when they do not broadcast,
`IndexError` when one of them has one element and the mask fits only the other. -/
def zeroMask (pre post : List K) : Res (List Bool) :=
  if pre.length = post.length then
    .ok (List.zipWith (fun a b => closeToZero a || closeToZero b) pre post)
  else if pre.length = 1 ∨ post.length = 1 then .error .indexError
  else .error .valueError

/-- Boolean indexing `x[~mask]`, and the list comprehension over `zip(labels, mask)`. -/
def keepUnmasked {β : Type _} (x : List β) (mask : List Bool) : List β :=
  ((x.zip mask).filter fun p => !p.2).map Prod.fst

/-- `plot_areas` (plotting.py:200-301), returning the arguments of the two `squarify.plot` calls. -/
def plotAreas (r : Reg E) (coords : Coords) (res : SimResult K) (initial : Dict Str (NDArray K))
    (varNames : NamesArg) (shock : Option Str) (rename : Dict Str Str) : Res (List (AreaPanel K)) := do
  let shockName := shock.getD "Shock".toList
  let dims ← varNames.iter.mapM (dimsOfName r)
  match dims with
  | [] => .error .indexError                              -- dims[0]
  | d :: _ =>
    if !dims.all (fun e => decide (e = d)) then .error .valueError
    else do
      let labels ← d.mapM (dgetE coords)
      let pretty := labels.flatten.map fun l => (dget rename l).getD l
      if pretty.length = 0 then .error .valueError
      else do
        let pre ← varNames.iter.mapM fun v => (dgetE initial v).map NDArray.data
        let post ← varNames.iter.mapM (postData res)
        let mask ← zeroMask pre.flatten post.flatten
        let shown := keepUnmasked pretty mask
        pure [⟨"Pre-".toList ++ shockName, keepUnmasked pre.flatten mask, shown⟩,
              ⟨"Post-".toList ++ shockName, keepUnmasked post.flatten mask, shown⟩]

end Areas

section Bars

variable {K : Type} [Field K] [LinearOrder K]

/-- One value of `_compute_bar_data` (plotting.py:304-324) from the final and the initial value; for
`both` the joined frame has two columns.  `none`: the metric is not known. -/
def metricCell (metric : Str) (threshold : K) : Option (K → K → List K) :=
  if metric = "pct_change".toList then
    some fun d i => [if threshold < i then (d - i) / i else 0]
  else if metric = "change".toList then some fun d i => [d - i]
  else if metric = "abs_change".toList then some fun d i => [|d - i|]
  else if metric = "final".toList then some fun d _ => [d]
  else if metric = "initial".toList then some fun _ i => [i]
  else if metric = "both".toList then some fun d i => [d, i]
  else none

/-- A frame with one column: the row labels, one text for each level of the index, and the values. -/
abbrev BarRows (K : Type _) := List (List Str × K)

/-- `_compute_bar_data` (plotting.py:304-324) on two frames with the same rows. -/
def computeBarData (data initial : BarRows K) (metric : Str) (threshold : K) :
    Res (List (List Str × List K)) :=
  match metricCell metric threshold with
  | none => .error .valueError
  | some f => .ok (List.zipWith (fun d i => (d.1, f d.2 i.2)) data initial)

/-- `data.to_dataframe()` for a variable with the given dims (plotting.py:342-355): one row for each
choice of labels, in C order.  For a variable without dims xarray raises `ValueError`, and the handler
calls `DataArray.to_dataarray`, which does not exist. -/
def toFrame (coords : Coords) (dims : List Str) (values : List K) : Res (BarRows K) :=
  if dims = [] then .error .attributeError
  else do
    let labels ← dims.mapM (dgetE coords)
    pure ((product labels).zip values)

/-- The group of one row, `coord_dict[x]` (plotting.py:359-360). -/
def groupOfRow (coordDict : Dict Str Str) (row : List Str × K) : Res (Str × K) :=
  match row.1 with
  | [x] => (dgetE coordDict x).map fun g => (g, row.2)
  | _ => .error .keyError

/-- `data.groupby("group").sum()` (plotting.py:362-363): the groups in sorted order. -/
def groupSum (coordDict : Dict Str Str) (rows : BarRows K) : Res (BarRows K) := do
  let tagged ← rows.mapM (groupOfRow coordDict)
  let groups := (tagged.map Prod.fst).dedup.insertionSort fun a b => a ≤ b
  pure (groups.map fun g =>
    ([g], ((tagged.filter fun p => decide (p.1 = g)).map Prod.snd).sum))

/-- The grouping step (plotting.py:356-363); `data.index.name` is the dim of a one-dimensional variable
and `None` for several dims. -/
def applyGroups (groupDict : Option (Dict Str (Dict Str Str))) (dims : List Str) (rows : BarRows K) :
    Res (BarRows K) :=
  match groupDict, dims with
  | some gd, [dim] => match dget gd dim with
      | some cd => groupSum cd rows
      | none => .ok rows
  | _, _ => .ok rows

/-- The bars of one panel, `_plot_one_bar` (plotting.py:327-382) for a variable with dims `dims`. -/
def oneBar (coords : Coords) (dims : List Str) (final initial : List K)
    (groupDict : Option (Dict Str (Dict Str Str))) (metric : Str) (threshold : K) :
    Res (List (List Str × List K)) := do
  let d ← toFrame coords dims final
  let i ← toFrame coords dims initial
  let d ← applyGroups groupDict dims d
  let i ← applyGroups groupDict dims i
  computeBarData d i metric threshold

/-- The group of the result which is plotted (plotting.py:409-441): both the final and the initial
values come from the optimizer group when there is one. -/
def plottedGroup (res : SimResult K) : Res (XDataset K) :=
  match dget res "optimizer".toList with
  | some g => .ok g.1
  | none => match dget res "euler".toList with
      | some g => .ok g.1
      | none => .error .valueError

/-- The final data, the initial data and the dims of one variable. -/
def barInputs (ds : XDataset K) (name : Str) : Res (Str × List Str × List K × List K) := do
  let v ← dgetE ds name
  let f ← lastStepData v.2
  let i ← firstStepData v.2
  pure (name, v.1.tail, f, i)

/-- `plot_bar` (plotting.py:385-505) with `initial_values=None`, `coords=None`, `plot_together=False`:
for each variable the bars of its panel. -/
def plotBar (coords : Coords) (res : SimResult K) (varNames : List Str) (nCols : Nat)
    (groupDict : Option (Dict Str (Dict Str Str))) (metric : Str) (threshold : K) :
    Res (List (Str × List (List Str × List K))) := do
  let ds ← plottedGroup res
  let inputs ← varNames.mapM (barInputs ds)
  let _ ← prepareGrid (min nCols varNames.length) varNames.length
  inputs.mapM fun p => (oneBar coords p.2.1 p.2.2.1 p.2.2.2 groupDict metric threshold).map fun b =>
    (p.1, b)

/-- One frame of the handler (plotting.py:345-350) for variables without dims: `to_dataarray` stacks them,
so that there is one row for each variable, under its name, in the one column `data`. -/
def scalarFrame (rows : List (Str × List K)) : BarRows K :=
  rows.flatMap fun p => p.2.map fun x => ([p.1], x)

/-- The bars of variables without dims in one panel (plotting.py:345-365); the index of the frame is
called `name`, so that `group_dict["name"]` groups the variables. -/
def scalarBars (inputs : List (Str × List Str × List K × List K))
    (groupDict : Option (Dict Str (Dict Str Str))) (metric : Str) (threshold : K) :
    Res (List (List Str × List K)) := do
  let d ← applyGroups groupDict ["name".toList] (scalarFrame (inputs.map fun p => (p.1, p.2.2.1)))
  let i ← applyGroups groupDict ["name".toList] (scalarFrame (inputs.map fun p => (p.1, p.2.2.2)))
  computeBarData d i metric threshold

/-- `plot_bar` (plotting.py:478-505) with `plot_together=True`, `initial_values=None`, `coords=None`: the
columns of the one frame that is drawn.  `to_dataframe` makes one column for each variable (a name that is
given twice is one column), and pandas groups and compares column by column; with the metric `both` the
two values of a row are in the columns `…_final` and `…_initial`.  An empty list of names has no array to
stack: `ValueError`.  Simplified: variables whose stored dims are not the declared ones. -/
def plotBarTogether {E : Type} (r : Reg E) (coords : Coords) (res : SimResult K) (varNames : List Str)
    (groupDict : Option (Dict Str (Dict Str Str))) (metric : Str) (threshold : K) :
    Res (List (Str × List (List Str × List K))) := do
  let ds ← plottedGroup res
  let inputs ← (dkeys (dofPairs (varNames.map fun n => (n, ())))).mapM (barInputs ds)
  let dims ← varNames.mapM (dimsOfName r)
  match dims with
  | [] => .error .valueError
  | d :: _ =>
    if !dims.all (fun e => decide (e = d)) then .error .valueError
    else if d = [] then do
      let b ← scalarBars inputs groupDict metric threshold
      pure [("data".toList, b)]
    else inputs.mapM fun p =>
      (oneBar coords p.2.1 p.2.2.1 p.2.2.2 groupDict metric threshold).map fun b => (p.1, b)

end Bars

end Verif
