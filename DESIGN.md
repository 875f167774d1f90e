# Design of the machine-checked model of `cge_modeling`

The Python source in `/repo` was read as text; nothing was executed. The Lean 4 model lives in
`lean/Verif/`. It mirrors the functions branch by branch, with Python exceptions as values
(`Except PyErr α`), lists for Python lists, insertion-ordered association lists for dicts, lists of
characters for strings, and shape + row-major data for numpy arrays.

Layout of the Lean project

* `Verif/Py/*`     – Python substrate: exceptions, ordered dicts, strings, n-d arrays, `itertools.product`.
* `Verif/Model/*`  – one file per source area; every definition cites file and lines and names its simplifications.
* `Verif/Lemmas/*` – helper lemmas about the models.
* `Verif/Props/*`  – the property theorems (named after the claims), with the small specifications they use and
  an `example` showing that the hypotheses are met by a concrete, non-trivial case.

## What is modelled for each property, and how it is proved

| id | model | proof idea |
|----|-------|------------|
| C01 | `flat_array_to_variable_dict`, `variable_dict_to_flat_array` over n-d arrays with explicit shape/data | induction over the object list, cursor invariant |
| C02 | same, plus row-major `ravel index` specified independently as a mixed-radix number | induction on dims; offsets as partial sums |
| C03 | the two mask builders | induction over objects; selection = flatten of filtered list |
| C04 | same as C01, with the reshape error | too short raises: proved; too long is accepted by the code: counterexample, `_partial` |
| C05 | `expand_obj_by_indices`, `dict(zip(...))`, flat layout | product enumeration equals row-major unravel, by induction on dims |
| C06 | `make_indexed_name` and dict collapse | false of the code (collisions): counterexample; `_partial` under a separator-free condition |
| C07 | the two wrappers, functions as Lean functions on dicts / vectors | from C01; hessp collision `_point` as counterexample |
| C08 | `wrap_fixed_values` | false of the code: proof that the inner function raises on every input; `_partial` = wrap-time rejection |
| C09 | column slicing of the trajectory matrix | induction over objects, row-wise reduction to C01 |
| C10, C11, C12 | `create_final_param_dict` over ordered dicts | case analysis per key; C12 false for `final_values`: counterexample, `_partial` |
| C13 | validation prefix of `simulate` | set reasoning on key lists |
| C14 | `get_method_defaults` | exhaustive over flags, general in the default table |
| C15, C16, C17 | file store as finite map from file names (strings) to contents; `write_results`, `read_results` char by char | histories by induction; C16/C17 false in general: counterexamples + `_partial` |
| C18 | `simulate` cache path on top of the file store | counterexample for the default name; `_partial` for overwrite or fresh names |
| C19, C20, C21, C23 | the Euler loops over a field with an abstract / matrix-defined step | induction on steps |
| C22 | Euler iteration in a normed space | discrete Gronwall |
| C24 | NaN handling in `simulate` (rows flagged finite or not) | list reasoning; false for numba row count: counterexample |
| C25, C26 | `optimize.scan_body` as a state machine over an ordered field | invariants over iterations |
| C27, C28, C29, C30, C31 | `CGEModel` registry state machine | invariants over op histories; counterexamples for C28, C29, C30, C31 |
| C32 | `normalize_eq` on characters + tokenizer, parser and evaluator of Python arithmetic | parser correctness lemmas |
| C33 | `unpack_equation_strings` | row-major reasoning; counterexample for permuted markers |
| C34 | `expand_obj_by_indices`, `_validate_dims`, `update_dim_value` | induction on dims |
| C35 | expression AST with indexed symbols and reduce nodes | evaluation semantics |
| C36, C37 | expression AST with symbolic differentiation | structural induction; derivation laws |
| C38, C39 | `recursive_solve_symbolic` with an abstract symbolic solver | loop invariants; counterexamples |
| C40–C44 | generators as string functions; tokenizer/parser/evaluator over the reals | induction on factor lists; real powers |
| C45–C48 | `SAMTransformer` and balancing post-processing over an ordered field, matrices indexed by account lists | folds over negative locations; finite sums |
| C49 | tree building, padding and headings | induction; counterexample for deep trees |
| C50 | grid arithmetic | `omega`-style arithmetic on div/mod |
| C51 | result assembly | list indexing |
| C52 | decision functions on strings | case analysis |
| C53 | residual report | list reasoning |
| C54 | string functions | induction on characters |
| C55 | generated unpack lines, executed from their text, and the two regex clean-ups | token-wise characterisation by list/char induction |
| C56 | the `use_rk4` branch of the four makers | case analysis |
| C57 | the Runge-Kutta increment as one step of the time-augmented field | Taylor expansion of field, curve and step along a compact curve; discrete Gronwall |
| C58 | `generate_SAM` with the optimizers as arbitrary functions | flatten/unflatten lemmas; counterexample with two variables |
| C59 | `finalize_calibration` on the caller's locals, printed lines as data | loop in closed form; composition with C01 and C13 |
| C60 | `make_jacobian`, gradient and `make_jvp` as array operations on the libraries' derivative blocks | row-major index arithmetic, uniqueness of derivatives, symmetry of second derivatives |
| C61 | `plot_bar` up to the frame handed to pandas | row-major labels against steps of the trajectory; group sums; composition with C51 |
| C62 | `plot_areas` up to the arguments of squarify | masked zips in closed form; counting labels against areas |
| C63 | `calibrate` and `Result.to_dict` over the model of C38/C39, NaN as a missing number | C38 and C39 carried through the reported lists; counterexample for the absolute tolerance |
| C64 | the symbolic matrices, `_0` names and argument binding of `compile_numba_euler_func` | sequential renaming as one map, C55 for the binding, derivatives from C36; counterexample with `a`, `a_0` |
| C65 | `summary`, the marker regex, frames as maps from names to pairs | scan of the regex by pieces, invariant of the loop over results |
| C66 | `f_dX` (`numbaSystem` + `np.linalg.solve`) inside `euler_approx` and the numba wrapper | symbolic expressions are smooth where regular, the fderiv of the equation map is the matrix of symbolic partials, then C22 for smooth models |
| C67 | `balance_SAM` with the cvxpy and scipy objectives over the reals, an exact solver | quadratic lower bound of the relative entropy, rescaling the weights only shifts the objective; counting argument for negative entries |
| C68 | the same problems as minimization over a compact convex set | strict convexity gives uniqueness, compactness gives existence |
| C69 | the texts of `_2d_leontief`, a reader for slices, `.subs`, `.sum(axis=…)`, numpy broadcasting and indexed symbols | tokens by concatenation, the parser evaluated on the token list with opaque names, broadcasting lemmas for vectors, columns, rows and matrices |
| C70 | the inputs, the map from scalars to elements of inputs, validation and all graphs of `compile_sympytensor_cge_functions`, called through the scipy wrappers | `packedSlot_at` (position k of the flat vector ↦ object and index), `flatPoint_set` (changing element k is changing one scalar), then C36/C37 |
| C71 | `to_sympy`, the part of `add_sympy_equation` after parsing, `find_equation_dims`, `update_dim_value`'s `subs`, `indexed_variables_to_sub_dict`, `sub_all_eqs`, `_simplify_unpacked_sympy_representation`, composed with C35, C33 and C70 | what substitutions do to the occurring symbols and free indices (`ShapeRel`), the position of an entry in the flat vector is the position of its scalar's name |
| C72 | the whole of `simulate` after the request is checked: Euler pass with the NaN filter, hand-over, root finder or minimizer through the scipy wrapper, labelled result; composed with C18, C51, C70 and C71 | the optimizer's vector and the requested parameters are the blocks of step 1 (`TwoSteps`); the function the optimizer accepted is the list of imbalances of the written equations; the contract "success means accepted" is a hypothesis on the optimizer |
| C73 | the same with the Euler functions of the four back-ends in place | non-interference for the missing check; `eulerPass_finite` ties the state handed over to the trajectory, then the invariant of C21 |
| C74 | all of C71, C72 and C73 composed, with the Euler or Runge-Kutta step of the default, JAX or scan back-end given by the derivatives of the compiled residuals | the residuals are symbolic expressions of the flat vector (C71), so C^2 (C^5) near the path; then C22 (C57) on the state handed over |
| C75 | the numba functions as generated source (prelude of C55, then the symbolic expressions evaluated in the environment it builds), the Hessian-vector product with and without just-in-time compilation | both sides reduce to the same symbolic expression evaluated at the flat point: `C55_binding` for the prelude, C70 for the graphs; then the generic simulate theorems behind C72 and C74 |
| C76 | `eval(normalize_eq(text), cache)` on arrays with numpy's broadcasting, the static shapes it is built with, `validate_pytensor_parsing_result`, `specify_shape`, and what `sp.parse_expr` makes of the twin text (`Model/PytensorText`) | `Twins` relates the two readings, axis by axis (`AxesFit`, `RenamesAxes`); by induction an entry of the array at a position is the value of the indexed formula at the labels of that position (`twins_facts`), then C32 for the text, C33 for the names and C71 for the default back-end |
| C77 | `plot_lines` (`Model/PlotLines`) on the result of `simulate` (`SimOut`, as returned by `simulateCompute`): the places, titles, lines, legends and stars handed to matplotlib, in the order in which errors can be raised | `PanelIs`, `LinesShow`, `StarsShow` (in `Props/PlotLines`) say what a panel shows of a variable; the composed theorem reads the points off `EulerBackend.stateAfter`, the caller's initial state and the optimizer's vector. Colours, markers, spines, `figure_kwargs` are left out; xarray's `plot.line` is taken to draw one line per element in C order |
| C78 | `check_for_equilibrium` (`Model/Equilibrium`) applied to the groups `simulate` returns: the optimizer group as in C53, the Euler group by `checkEulerGroup` (`Model/CheckSimulated`), where `isel(step=-1)` takes the last kept row of each group | `variablesAt`, `parametersAt`, `LastWhole` (in `Props/CheckSimulated`) speak of the rows of the trajectory that `runEuler` returned and of the caller's request (`wantedFlat`) only |
| C79 | `simulate` for every form of `initial_state` (`Model/InitialState`: `InitialState.values` is base/cge.py:971-996, `InitialState.item` is the subscript in `optimizer_result_to_idata`); a `Result` is its two dicts and the subscript raises `TypeError` as the class has no `__getitem__`; a Dataset is its arrays | `SameNumbers` says when a `Result` and a dict carry the same; for `calibrate` the condition is on dims and numeraire of the model |
| C80 | two calls of `simulate` as in C73/C74/C75, the second on the state the first ended in | `StartsFrom` ties the second request to the end of the first; `SolutionPath` speaks of the equations as written along the straight line `lineTo`; `TakesNear`, `StagesTake` say what the caller gets, with constants that serve all requests |
| C81 | the texts of `cobb_douglass`, `CES`, `leontief`, `dixit_stiglitz` as in C40 | `Rescaled`/`RescaledDS` compare the values of the arguments in two states; no new definitions of code | `C81_cobb_douglass_shares` says exactly when the Cobb-Douglas production function scales; `C81_leontief2_*` (Props/Leontief2Optimum) treat one name with two dims, `Rescaled2` comparing the two states |
| C82 | the same texts | `Substitution` is the elasticity of substitution between two states, in logarithms | false of `dixit_stiglitz` without TFP (`C82_dixit_stiglitz_inverted`) |
| C83 | two models built as in C74/C75, with permuted declarations; `simulateCompute`, the loss of C72, `checkForEquilibrium` | `Rewritten` compares the two sides of an equation for all values of the objects; `SameArrays` compares flat vectors through the named arrays they hold, each in its own order | proved for Euler and Runge-Kutta steps on all back-ends (`EulerBackend.points` are the points at which a step solves for a direction); the check depends on the scale of the equations (`C83_scaled_check_counterexample`); `SumRules` are the rules by which sums and products may be written differently |
| C84 | the texts of C40 | `ProfitMaximum`, `RevenueMaximum` (`Spec/Optimum`): feasible, and at least as profitable as every other bundle with every output that can be produced from it | equivalence for Cobb-Douglas (shares up to one), CES, its transformation variant, Leontief (with one and with two dims), Dixit-Stiglitz with TFP; false of Dixit-Stiglitz without TFP (`C84_dixit_stiglitz_inverted`) |
| C85 | the texts of C40 | limits of real functions (`Filter.Tendsto`) and the formulas of `Spec/Production` | demands and value blocks coincide at elasticity one, production functions in the limit, value shares; false of the production function at elasticity one (`C85_production_at_one`) and of the docstring's sentence on ratios (`C85_ratio_counterexample`) |
| C86 | the printer methods of numba_tools.py:17-61 as functions of the printed arguments (`Model/NumbaPrinter`) | `PyReads` (`Spec/PyConditional`): how python reads conditional expressions, parentheses and calls of two numpy functions; `firstPiece` | pieces that are numbers, `Max` of two, `log`, `DiracDelta`; false of pieces with symbols and of `Max` of three (`C86_piecewise_formula`, `C86_max_many`) |
| C87 | the rewrite of pytensor_tools.py:17-30, with pytensor's check of the number of dimensions and the two formulas of `Prod.L_op` (`Model/ProdRewrite`) | finite products of reals, `HasDerivAt` | values for every shape and set of axes; derivatives exactly at factors that are not zero (`C87_gradient_partial`, `C87_gradient_counterexample`).  C60, C70 and C76 speak of the derivatives of the equations and so do not cover `prod` of an array with a zero in it on the pytensor and JAX back-ends |
| C88 | `make_table` up to the rows given to texttable, `parse_data`, `equation_table` (`Model/TableBody`) on top of the headings of C49 | `DCol.dataCols`, `ShowsAs` in `Props/TableBody` | cells for every dictionary whose headings fit; refusals; `equation_table` row by row; false below two levels and on the pytensor back-end |
| C89 | `unpack_string_inputs` (`Model/UnpackStrings`) | the names that `unpackObjects` and `makeIndexedName` (C05, C34) give to the scalars of an object with the same name and dims | strings; lists of other lengths than one; refusals; three counterexamples to the docstring |
| C90 | `_crossentropy_method_setup`, `_balance_with_scipy` up to `minimize` (`Model/RebalanceDerivs`) | `HasDerivAt` of Mathlib along each cell of the vector; `scipyObjective` and `ScipyConstraints` (C48, C68) | options; objective, Hessian, Hessian-vector product, second constraint everywhere; first constraint away from balance; counterexamples at balance |
| C91 | `get_step_statistics`, its use in the python loop, `print_residuals` (`Model/Progress`) | `rootMeanSquare`; `pyEulerLoop` (C19, C23) without the figures | which state a figure belongs to; harmlessness; zero exactly at equilibrium; exact condition for RMSE; numba `print_residuals`; counterexample for the tensor back-ends |
| C92 | two `simulateCompute` calls on one model built as in C74/C75, `checkForEquilibrium` | `arrayInUnits` multiplies an array cell by cell by conversion factors, `ConvertedTo` compares flat states through the named arrays; `UnitFree` is the unit consistency of the equations, `Movable` the room around the states | proved for Euler and Runge-Kutta steps on all back-ends, and for solutions; the equilibrium check depends on the units (`C92_check_counterexample`) |
| C93 | `expand_indices`, `enumerate_indexbase`, `make_indexbase_sub_dict`, `_expand_var_by_index` on single indexed symbols and declared objects (`Model/IndexExpansion`) | `IRef.instances`: simultaneous replacement of the indices that occur, over the cartesian product; `expand_obj_by_indices` (C34) | members for all lists; order and number when no two instances coincide; counterexamples for coinciding instances, symbol names, assumptions and coordinates |
| C94 | `simulate` (C13, C72) on a model with a subset of its functions (`Model/PartlyCompiled`) | the same model with all functions; `familiesUsed` | equality when enough is compiled; refusal otherwise, with the kind of error |
| C95 | `_initialize_dim_vals`, `_initialize_latex_name` with `GREEK_PATTERN`, `_initialize_full_latex_name`, `_initialize_description`, `update_dim_value` (`Model/LatexNames`); `re.sub` as a left-to-right scan with the first matching word | `GreekAt`, `withBackslashes`: a position is marked if it is a border and a Greek word stands there; `Template` (C33) for descriptions | the words of `sympy.abc.greeks` are listed in the model (trusted); counterexamples for words that begin with a Greek letter's name, for `extend_subscript`, and for default descriptions |
| C96 | `__post_init__`, `_initialize_dim_vals`, `update_dim_value`, `to_sympy`, `copy` with `dim_vals` and `assumptions` as memory cells (`Model/SharedDicts`); a user's session is a list of commands, commands that raise leave what they did | `seenObj`: all that can be seen of an object; `KeepsApart`: no dictionary is given to an object while another has it, nor written to by the caller; `Seen.Agrees`: the parts of what is seen fit together | labels and assumptions are in different cells (one dictionary for both attributes is not modelled); counterexamples for shared dictionaries |
| C97 | `compile_jax_cge_functions`, `make_jax_system_and_jacobian`, `jax_loss_grad_hessp` (`Model/JaxFns`), the compile functions of `compile/pytensor.py` 134-225, `make_jvp`, `make_jacobian`, `compile_cge_model_to_pytensor_Op` (`Model/PytensorFns`) between the wrappers of C07; JAX's `jacobian`, `jacfwd`, `grad`, `jvp` and pytensor's `jacobian`, `grad` are parameters | `HandsDerivatives`: the values of the six functions at flat vectors as Mathlib derivatives (`fderiv`) of the residuals; `JaxExact`, `PtExact`: the library differentiates what it is given; `DerivativesAt` (`Spec/FlatFns`): the same at one point, for the functions of any back-end | `jit`, graph rewrites and the conversion to numpy arrays are the identity; a compiled function binds positional arguments to its inputs in order; pytensor's refusal of inputs the Hessian-vector product does not depend on (`on_unused_input`) is not modelled; exact where the residuals are differentiable |
| C98 | `latex_print_equations`, the rows of `make_summary_table`, `convert_table_to_array` (`Model/Listing`); `re.sub` of literals and of `\\caption{.*?}` as left-to-right scans | `Shown`: name, formula and number of an equation; reading the printed text back | sympy's `latex` is a parameter; texttable and latextable are not modelled; counterexamples for texts with marks and captions with braces |
| C99 | the listing properties of `CGEModel` and add calls on a constructed model (`Model/StepByStep`, on `Model/Registry`) | `Declare`: calls that declare variables and parameters; chunks of equations | the parser of equations is a parameter; of unpacked equations only the names are kept; counterexamples: nothing added later is unpacked or counted |
| C100 | `sub_info_dicts`, `get_info`, `symbol`, `symbols` (`Model/SubInfo`); the four `re.sub` calls as left-to-right scans | `segText`/`putWords`: a LaTeX name as words between marks; `labelFor`; `NoMistake`, `NoMistakeWords`: when no index can be mistaken | texts of indices without regex characters, labels without backslashes; sympy's `subs` is a parameter; counterexamples for labels and words that contain an index |
| C101 | `simulate` by Euler steps as in C74, twice, and the substitution of the numéraire as in C71 | `fixedAtOne`: the equation `P = 1`; `rescaled`: all nominal variables times a number; `HomogeneousAt`: only relative prices matter; `positionOf`, `scalarLevel`: the place and value of a variable without dims | Euler back-ends that differentiate the residual graph; numéraires without dims; regularity is assumed on both paths, invertibility only on the first |
| C102 | `simulate` by Euler steps as in C74, twice | `EquivalentNear`: near a state the imbalances of one system are continuous invertible combinations of those of the other; `withSlack`: an equation with a residual; `WalrasAt`: the weighted imbalances add up to zero | Euler back-ends that differentiate the residual graph; residuals in equations without free indices; regularity is assumed of both systems, invertibility only of the first |
| C103 | `simulate` by Euler steps as in C74, for two models of which one extends the other | the larger model's lists are the smaller model's lists with more appended; `SameArrays`: the same arrays under the same names; `reportEq`: the equation `Z = formula` | Euler back-ends that differentiate the residual graph; a report without dims in `C103_report`, with dims in the order of `coords` in `C103_indexed_report` (any block in `C103_returns`); powers and logarithms have to be defined at the points of the path |
| C104 | `simulate` by Euler steps as in C74, the equations of C71 and `check_for_equilibrium` of C78, for two models that differ in `coords` | `SameLabels`: the same dims and labels in any order; `SameEntries`: the same entry for the same label; `WholeRange`: sums and products over all labels | the conditions of C71 hold in both orders; Euler back-ends that differentiate the residual graph; without the optimizer |
| C105 | `simulate` by Euler steps as in C74, the equations of C71 and `check_for_equilibrium` of C78, for two models that differ in their names | `Renaming`: injective new names for objects, dims and labels, applied to coords, objects and equations; arrays are compared under the new names | the conditions of C71 (no two scalars share a name, …) hold for the new names too; one new name per label, in whatever dim it occurs; Euler back-ends that differentiate the residual graph; without the optimizer |
| C106 | `simulate` by Euler steps as in C74 and the equations of C71, one model with two requests | `Mirrored π`: the entry for any labels is the other's entry for their images under `π`; `Alike π`: mirrored with itself; `PicksFixed`: picked labels are left alone; `WholeRange` as in C104 | `π` permutes the labels of every dim; the conditions of C71; Euler back-ends that differentiate the residual graph; without the optimizer |
| C107 | `simulate` by Euler steps as in C74, the equations of C71, for a model with a parameter, with a number instead, and with a variable fixed at the parameter | `RExpr.withNumber`, `RExpr.instead` replace one name in an equation, `fixedAt` is the equation `z = p` with the indices of `p` (`Spec/Put.lean`); arrays are compared under their names | the parameter, the fixed variable and its equation come last in their lists; dims of the parameter in the order of the coords; Euler back-ends that differentiate the residual graph; without the optimizer |
| C108 | the equations of C71, `check_for_equilibrium` of C78, `simulate` by Euler steps as in C74, for a model with dims and for the scalar model without them | `RExpr.withoutDims`, `ModelObject.withoutDims` drop the indices and the dims, `OneLabel`: every dim has one label, `OverOne`: every sum and product ranges over it (`Spec/OneLabel.lean`); numbers are compared under the names of their objects | all dims are dropped, not one of several; names of the equations are not compared; Euler back-ends that differentiate the residual graph; without the optimizer |
| C109 | the equations of C71, `check_for_equilibrium` of C78, `simulate` by Euler steps as in C74, for a model with dims and for the model of scalars written out | `writtenOut`: one scalar per element under the name of the element; `RExpr.written`: the expression for one choice of labels, terms of sums and products one after the other; `EqsWrittenOut`: one equation per choice of labels (`Spec/WrittenOut.lean`) | a numéraire has no dims; names of the equations are not compared; Euler back-ends that differentiate the residual graph; without the optimizer |
| C110 | the equations of C71, `check_for_equilibrium` of C78, `simulate` by Euler steps as in C74, for two models that differ in the order of the dims of the objects | `Transposes`: the new dims of each object are the old ones in any order; `RExpr.transposed`: the indices of each object in its new order; `SameTransposed`: the same entry for the same labels (`Spec/Transpose.lean`) | the conditions of C71 hold for both; Euler back-ends that differentiate the residual graph; without the optimizer |

None of the properties is declared inexpressible; where real arithmetic replaces floating point this is said below.

## Which code is modelled

Line numbers refer to `/repo/cge_modeling` at the pinned commit. "Modelled" means that a Lean definition follows the
branches of the function; the comment at each definition says what was simplified.

| source | modelled in | left out |
|--------|-------------|----------|
| `base/build.py` | `Build`, `PartlyCompiled` | what the compile functions do beyond setting functions is in the rows of `compile/` |
| `base/cge.py` | `Registry`, `StepByStep`, `Lookup`, `Expand`, `Scalarise`, `PytensorText`, `SympyTensor`, `Summary`, `TableBody`, `Scenario`, `Simulate`, `SimulateSolve`, `Equilibrium`, `InitialState`, `Calibrate`, `Calibration`, `GenerateSam`, `CheckSimulated`, `Results`, `Plots`, `Progress` | scipy's `root` and `minimize` (parameters with their contract), the printed layout of residuals, log messages |
| `base/function_wrappers.py` | `Wrappers`, `JaxFns` | `return_array_from_jax_wrapper` (a type cast) |
| `base/primitives.py` | `Objects`, `Names`, `LatexNames`, `SharedDicts`, `Expand`, `IndexExpansion`, `Scalarise`, `Calibrate`, `Calibration`, `InitialState`, `Summary`, `Registry` | `repr` |
| `base/utilities.py` | `Expand`, `IndexExpansion`, `Registry`, `Flat`, `Scenario`, `Objects`, `Summary` | type casts |
| `compile/euler.py` | `Euler`, `Progress` | drawing of the progress bar, jit compilation |
| `compile/jax.py` | `JaxFns`, `Euler`, `TensorJacobian`, `Build` | jit compilation, `vmap`, `graph_to_jax_function`'s rewrites; JAX's derivatives are parameters |
| `compile/numba.py` | `NumbaFns`, `NumbaEuler`, `Euler`, `SymExpr`, `Calibrate`, `Build` | numba itself |
| `compile/numba_tools.py` | `NumbaCode`, `NumbaPrinter`, `NumbaFns` | sympy's own printer and `cse` |
| `compile/pytensor.py` | `PytensorText`, `PytensorFns`, `Euler`, `TensorJacobian`, `SympyTensor`, `PyExpr`, `Build` | pytensor graphs (their value is modelled, not their rewriting) |
| `compile/pytensor_tools.py` | `Flat`, `Expand`, `PytensorText`, `PytensorFns`, `TensorJacobian`, `SympyTensor`, `ProdRewrite` | `rewrite_pregrad`, `clone_and_rename` |
| `compile/sympy.py` | `SymExpr` | – |
| `compile/sympytensor.py` | `SympyTensor`, `SymExpr`, `Build` | `as_tensor` and `graph_replace` themselves; `make_sympytensor_jacobian`, `make_sympytensor_jvp` 66-137 compose functions that are modelled |
| `tools/sympy_tools.py` | `Expand`, `IndexExpansion`, `Reduce`, `Scalarise`, `SymExpr`, `RecursiveSolve`, `SubInfo`, `LatexNames` | constructors of sympy symbols 84-91, 120-139, 231-271, `remove_string_keys`, `make_dummy_sub_dict`, `replace_indexed_variables` |
| `tools/parsing.py` | `Parsing`, `PyExpr` | – |
| `tools/utils.py` | `Names`, `Production` | `initialize_progress_bar`, `print_latex` |
| `tools/rebalance.py` | `Rebalance`, `CrossEntropy`, `RebalanceDerivs` | pandas' enlargement of frames |
| `tools/output_tools.py` | `Table`, `TableBody`, `Listing`, `SubInfo`, `Idata`, `InitialState` | the drawing by texttable and latextable, `make_equation_table` (not exported), the `display_…` functions |
| `optimize.py` | `Newton` | graph construction; `parameters={}` |
| `production_functions.py` | `Production`, `UnpackStrings`, `PyExpr` | – |
| `plotting.py` | `Grid`, `PlotLines`, `Plots` | the drawing itself (bars, squares, colours) |

Simplifications that matter for reading the theorems

* Numbers. Flat packing, masks, wrappers, the registry and the Newton loop are proved for elements of an arbitrary type
  (Newton: for an arbitrary arithmetic with a comparison), so they hold for floats as they are. The Euler, SAM,
  equilibrium and calibration theorems are over a field (ordered where needed); the production-function and derivative
  theorems are over the reals. Rounding is not modelled there.
* Third-party functions (`sp.solve`, `sp.simplify`, linear solvers, cvxpy, scipy, pickling, xarray construction) are
  parameters or are modelled by their documented contract, which the model file states.
* Python `set` order, dict order inside `sympy.subs` and the date are parameters; theorems quantify over them.
* Text is ASCII where a regular expression class is involved (`\d`, `\w`, `\s`).

## Trusted base

* Lean 4.33.0's kernel. Every theorem of the manifest depends on no axioms other than `propext`, `Classical.choice` and
  `Quot.sound`; `AXIOMS.md` lists the axioms theorem by theorem (generated by `scripts/axioms.py` with
  `#print axioms`). There is no `sorry`, no `native_decide`, no axiom of our own. `decide +kernel` occurs in proofs about
  string literals: it is evaluation by the kernel, no extra trust.
* The reading of the Python source: the tie between code and model is by citation and inspection only.
* The modelling of third-party code described above.
* Not modelled: floating point rounding (see above), pytensor, jax, numba and sympy internals (graph rewriting, printing,
  `sympy.solve`, `simplify`), xarray/arviz containers beyond name→array maps, the operating system beyond a finite map
  from file names to contents, numerical optimizers (their result is a parameter, with the contract they are given as a
  hypothesis), logging, progress bars, matplotlib drawing.

## How the theorems were tested

`seeded/LOG.jsonl` records attempts to break the model on purpose (a scratch copy was edited and rebuilt; the definitions
here are the unedited ones). Every line says which definition was edited, the edit, the claim it breaks, which theorems
stopped proving, and which theorems were added or strengthened when a wrong program had survived.

## Disagreements between code and documentation / properties

Each item is a fact about the code at the pinned commit. Where a theorem proves it, the theorem is named.

Flat data and unpacking
* A flat vector that is too long is accepted and its tail ignored (`C04_too_long_accepted`).
* If a variable and a parameter share a scalar name (`x` over a label `a_u`, `x_a` over `u`), nothing is reported; the
  default backend then reads the variable and the numba code the parameter (`C70_shared_name_counterexample`).
* Scalar names can collide: `x_a` over label `b` and `x` over label `a_b` are both `x_a_b`, and the later silently replaces
  the earlier (`C06_collisions`, `C05_collision_misaligns`); an object that names a dim twice loses scalars
  (`C06_repeated_dim_loses_scalars`).
* With `on_unused_dim="ignore"` the order of dims depends on Python's set order (`C34_ignore_loses_order`).
* An expanded equation only remembers the label of its last dim (`C34_equation_forgets_labels`).
* An empty `dims` string is one dim with an empty name, not "no dims" (`C54_empty_counterexample`).
* Residual labels come from the `<dim:…>` markers in the equation name. Permuted, repeated or missing markers give labels
  that do not belong to the residuals, silently (`C33_permuted_markers_mislabel`, `C33_marker_count_mislabels`), and
  indexed sympy equations without markers are merged to one (`C33_sympy_unmarked_equations_dropped`).

Wrappers
* `wrap_fixed_values` raises on every call: its check compares the names of all variables with the fixed ones
  (`C08_every_call_raises`), and its mask keeps the fixed entries instead of the free ones (`C08_mask_keeps_fixed`).
* A declared name `<variable>_point` clashes with the keyword for the direction vector (`C07_point_name_clash`).
* A dim without labels makes the splitting of a numba trajectory raise (`C09_empty_dim_raises`).
* `generate_SAM(fixed_values=…)` never reads the values; the solver moves every variable, and the free variables are cut out
  of the solution vector at the offsets they would have if the fixed ones were not in it, so they silently receive other
  variables' values (`C58_fixed_values_never_read`, `C58_fixed_address`, `C58_fixed_wrong_variable`). Fixing all variables
  raises (`C58_all_fixed_raises`).
* `finalize_calibration` reads pandas objects by position, never by label (`C59_index_never_read`,
  `C59_reordered_series_misassigned`), and returns mis-shaped data after printing about it; nothing later checks shapes, so
  elements can end up in another variable (`C59_wrong_shape_returned`). `get_shape` returns a generator, not a tuple.

Scenarios and `simulate`
* `final_values` may name things the model does not know; they are ignored without a message
  (`C12_unknown_final_value_ignored`), although the other two change dictionaries raise.
* Two parameters that share one array in the initial state are both changed by a change to one
  (`C10_shared_array_changes_both`).
* The default simulation name does not depend on the scenario, so with `overwrite=False` a second, different simulation on
  the same day returns the saved result of the first (`C18_same_name_returns_old_result`), and skips the validation of its
  own initial state (`C13_cache_skips_validation`).
* Through `simulate` neither an explicit `use_hess=True` nor the method's default for `use_hess`/`use_hessp` has an effect:
  `use_hessp` defaults to true and wins (`C14_explicit_hess_ignored`, `C14_method_default_ignored`).
* `simulate` and `calibrate` call `self._compile`, which does not exist: a model built without compiling raises
  `AttributeError` (modelled in `simulateCompute`).
* `calibrate` uses `f_resid`, which is `None` when only `"root"` was compiled.
* `calibrate` judges success by an absolute tolerance on half the sum of squares: an equation without any solution counts as
  solved if its coefficients are small (`C63_small_scale_counterexample`).
* In `summary` a second result with the same name (the default name of `calibrate` is constant) replaces the first
  (`C65_same_name_counterexample`); with results, variables with dims raise `KeyError` (`C65_dims_counterexample`).
* The warning "Euler did not converge" compares the last label with `n_iter_euler - 1`; the numba routine returns
  `n + 1` rows, so for it the warning is wrong both ways (C24 counterexamples). After a NaN gap the hand-over selects by
  position what it computed as a label (C24 counterexamples).

Result store
* `read_results` prefers the numbered copy with the largest number, also after the plain file was overwritten later; and
  it strips every `pkl` from the name (C16 and C17 counterexamples, e.g. `C17_name_ending_in_pkl_unreadable`).

Euler back-ends
* The python-loop back-ends return `n` rows without the initial one; numba and the scan return `n + 1`
  (`C23_rows_differ`). A parameter `a` beside a variable `a_final` is a `TypeError` (`C23_keyword_clash`).
* The jax solver returns non-finite numbers at a singular Jacobian, where the others raise (a modelling note of C20).
* `use_rk4=True` is silently ignored by the numba back-end (`C56_numba_counterexample`); `use_scan_euler=True` raises in
  both pytensor back-ends (wrong arguments in the calls; `runMaker`).

Newton root finder (`optimize.py`)
* The documentation says that `f_jac` returns the inverse of the Jacobian and that the step norm is part of the stopping
  rule; the code solves with the Jacobian and looks at the residual only.
* The convergence flag is set one iteration after the residual was small (`C26`: "flagged from the second"), and the
  reported step size keeps halving after convergence.
* `parameters={}` makes `args[-0:]` the whole argument list; the call fails.

Simulation
* The documentation of `simulate` says that the initial state is checked to be an equilibrium and that an error is raised
  otherwise. Nothing is checked (`C73_not_checked`); an imbalance of the start is carried to the end
  (`C73_imbalance_kept`, `C73_check_counterexample`).
* On back-ends whose trajectory contains the start (numba and scan) `simulate` warns about lost steps although none is
  lost: the number of rows is compared with the number of steps (`C73_imbalance_kept`: `warned = keepsStart`).
* With `optimizer_mode="minimize"` success means a minimum of the squared residuals, not a solution
  (`C72_minimize_counterexample`).

Registry
* `add_variables`/`add_parameters`/`add_equations` are not atomic (`C28_not_atomic`).
* The numba Hessian-vector product passes the list `[*x, p]`, numbers followed by an array.  With just-in-time compilation on, numba cannot take a heterogeneous list and refuses every call (`C75_hessp_refused`).  The project's own tests switch compilation off (`NUMBA_DISABLE_JIT`, pyproject.toml:105) and so do not see it.
* A parameter named `np` makes every function of the numba back-end refuse, because the generated body rebinds `np`; the default back-end accepts it (`C75_np_counterexample`).
* A parameter no equation uses is refused by the default back-end at compilation and accepted by numba (`C75_unused_counterexample`); an undeclared symbol is refused by the default at compilation and by numba only at the call (`C75_undeclared`).
* The numba functions unpack the numeraire as one more variable, so they refuse the model's own variable vector (`C75_numeraire_refused`).
* `y = x` with `x` over `i` and `y` over `i, j` of equal size means `y[i, j] = x[i]` to the default back-end and `y[i, j] = x[j]` to the pytensor back-end; both accept it silently (`C76_alignment_counterexample`).  With `x` over `j` and `y` over `i` the pytensor back-end pairs the entries by position (`C76_pairing_counterexample`).  `P[0]` is the first entry to the pytensor back-end, `P.subs({i:0})` the entry with the label "0" to sympy: with other labels an indexed symbol stays in the equation (`C76_position_counterexample`, `C76_entry_stays`).
* If an object's dims are not in the order of the coordinates, the pytensor back-end returns the residuals in another order than the names of the equations (`C76_order_counterexample`).
* The pytensor back-end refuses every model that mentions its numeraire, because the numeraire is taken out of the variables but not out of the texts (`C76_numeraire_refused`).
* A vector equation whose name has no marker compiles on the pytensor back-end and fails at every call (`C76_missing_marker_counterexample`); in the model at the call, in pytensor possibly already when the shape is specified.
* `plot_lines` draws the first row of the trajectory at 0.  The python loops of the pytensor and jax back-ends do not return the initial state, so their lines begin one step after the green star that marks the initial value, and the red star stands at `n - 1` (`C77_start_counterexample`).
* `plot_lines(initial_values=…)` is documented as the values to show and is never read (`C77_initial_values_counterexample`).
* `simulate` drops rows with NaNs from the variables and from the parameters separately, and `check_for_equilibrium` takes the last row of each.  With a NaN in the variables of the last step it checks the variables of one step with the parameters of the next: an equilibrium can be missed (`C78_mixed_counterexample`) and a state that never occurred can be reported as one (`C78_false_success_counterexample`).
* `simulate` says that a `Result` may be the initial state.  With the optimizer (the default) it raises `TypeError` at the very end (`C79_result_optimizer_counterexample`); the `Result` that `calibrate` returns is refused for every model with dims or with a numeraire (`C79_calibrated_iff`); the branch for an `xr.Dataset` always raises (`C79_dataset_counterexample`).
* Undoing a scenario does not lead back exactly in nonlinear models, at any number of steps (`C80_there_and_back_counterexample`: `x = p * p` ends at `1 - 2/n`); it does in affine ones, and in smooth ones up to `C (1/n₁ + 1/n₂)`.
* `check_for_equilibrium` compares the sum of squared imbalances with an absolute tolerance, so multiplying an equation by a number can turn its verdict around (`C83_scaled_check_counterexample`), while solutions and Euler trajectories stay the same (`C83_solutions`, `C83_rewritten`).
* An array handed over with its axes in another order than the declared dims is not refused when the dims have as many labels as each other; it is read with its axes mixed up (`C110_untransposed_counterexample`).
* For the same reason its verdict depends on the units of measurement (`C92_check_counterexample`): a state given in thousands passes with the tolerance 0.0001 and the same state in single units does not.
* The equations of `dixit_stiglitz` without TFP do not describe a profit maximum, although the docstring says that the demands come from one (`C84_dixit_stiglitz_inverted`); the cause is the inverted demand of C42.
* The production function generated by `CES` does not become the Cobb-Douglas function at elasticity one: it divides by zero and says that the output is the technology parameter (`C85_production_at_one`).  The docstring of `cobb_douglass` says that then the ratio of inputs equals the ratio of prices; it is the inverse ratio, weighted by the shares (`C85_ratio_counterexample`, `C85_value_shares`).
* The numba printer passes every piece of a `Piecewise` through `sp.Float`, so an equation such as `Piecewise((x, x > 0), (0, True))` cannot be compiled (`C86_piecewise_formula`); `Max` of three arguments is printed as a call of `numpy.maximum` with three positional arguments, the third of which is the output array (`C86_max_many`).
* Importing the package changes how pytensor differentiates every product over all axes: the derivative with respect to a factor that is zero becomes a division by zero (`C87_gradient_counterexample`).  For a product over some axes the replacement has another number of dimensions (`axis` is not passed on), pytensor refuses it, and nothing changes.
* `get_symbol()` without names puts the symbols of the parameters where the names of the variables should be, and raises for every model with a parameter (`C29_get_symbol_all`).
* `equation_table` raises `AttributeError` on the pytensor back-end, whose equations have no `to_dict` (`C88_equation_table_counterexample`), and never reads its argument `display`.
* `unpack_string_inputs` expands a list of one name although its docstring says that lists come back unchanged, raises `TypeError` for a string beside a list, and takes a dim given as a string apart into letters (`C89_singleton_counterexample`, `C89_mixed_counterexample`, `C89_dims_string_counterexample`).  Nothing in the package calls it.
* The first constraint of the scipy rebalancing problem is a sum of absolute values. It has no derivative at any balanced SAM, the very points sought, and the gradient handed to the optimizer is zero there (`C90_constraint_one_counterexample`); the exact solution then fails the optimizer's first-order condition unless the gradient of the cross entropy is constant (`C90_first_order_iff`, `C90_first_order_counterexample`). Handing over the differences themselves would avoid this.
* `balance_SAM(use_cvxpy=False, method="trust-constr", use_grad=False)` raises, because `use_hessp` is on by default (`C90_no_gradient_counterexample`).
* `get_step_statistics` divides the sum of squared residuals by `min(1, size)`, so the figure called RMSE is the sum of squares (`C91_rmse_iff`, `C91_rmse_counterexample`); `max` was presumably meant, and the root is missing.
* `print_residuals` calls `f_system` with two vectors, which only the numba back-end takes (`C91_print_counterexample`), and reads `fitted_values`, which only results of `calibrate` have.
* `_solve_with_minimize` tests `self.mode != "JAX"` (base/cge.py:733).  `compile_model` always replaces `mode` by a pytensor `Mode` object before storing it (base/build.py:73, 93), so the test never fails and the functions are wrapped in every mode.
* A variable and a parameter may share a name; then the look-up routes disagree (`C29_shared_name_disagrees`).
* With a numeraire, the Jacobian of the default backend has a zero column for every scalar of the numeraire, so a model the
  constructor accepts has a singular Jacobian everywhere (`C71_numeraire_singular`).
* The numeraire is replaced by one only where it stands with its own indices and outside reductions over them (sympy does not
  substitute a bound variable); elsewhere it stays in the equations and the model does not compile
  (`C71_numeraire_under_sum_counterexample`, `C71_numeraire_other_index_counterexample`). An indexed numeraire sets the whole
  array to one, not one entry.
* A numeraire is removed from `variables` but stays among the unpacked variables, so a model with a numeraire that passes
  the constructor's check is not square afterwards (`C30`, `C31_numeraire_stays_unpacked`); a numeraire given as the
  documented `Variable` object always raises; with unparsed equations the numeraire is never substituted by one.
* `get_symbol(None)` raises as soon as the model has a parameter; documented dict or single-object inputs of the
  constructor fail (`unpackArg`).

Equations as text
* `normalize_eq` leaves `taxis = 1` alone and splits at the `=` of a keyword argument other than `axis`
  (`C32_axis_name_not_normalised`, `C32_keyword_split_wrongly`); `X.sum(axis =0) = Y` is split at the `=` of the
  keyword as well, because of the space (`C32_spaced_axis_split_wrongly`).
* `substitute_reduce_ops`: nested reductions, labels that are the number of another position and products of sums go wrong
  (`C35_nested_counterexample`, `C35_numeral_labels_counterexample`, `C35_product_of_sum_raises`). Labels such as `E` or
  `I` are sympified to constants (not modelled).
* `determine_default_backend` looks for the literal texts `[:, None]` and `[None, :]`; other spellings of broadcasting are not
  noticed, a call of `MySum(` counts as a sum, and it looks for `Prod(` where sympy's function is `Product(`
  (`C52_spelling_counterexample`, `C52_longer_name_counterexample`).
* `expand_indices` leaves out an instance that is already in its list only when the expression has the index: `[x[a], x[i]]` gives two results, `[x[i], x[a]]` three, one of them twice (`C93_number_counterexample`).
* `_expand_var_by_index` returns objects that are real and positive whatever the given one was declared to be (`C93_expand_var_defaults`), and refuses the coordinates of the model for every object that lacks one of their dims (`C93_model_coords_counterexample`).
* The pattern for Greek letters has no right border: a variable called `numeraire` is displayed with the undefined LaTeX command `\numeraire` (`C95_words_counterexample`).
* Nothing is escaped in printed systems and tables: an equation number with LaTeX marks can look like two equations (`C98_marks_counterexample`), and a caption is removed only up to its first closing brace (`C98_caption_counterexample`).
* A model without variables or without parameters cannot be packed: `np.concatenate` refuses an empty list (base/utilities.py:386-387, `C01_packs_iff`).
* `sub_info_dicts` replaces an index also inside labels and words (`P_{i}` with the label `taxi` becomes `P_{taxtaxi}`, `T_{income}` becomes `T_{wheatncome}`), and leaves it before punctuation (`C100_latex_counterexample`, `C100_description_counterexample`).
* A model completed by add calls after construction is not usable: unpacked names, counts and `get_symbol` stay as they were at construction (`C99_not_the_same`), the pytensor back-end then refuses every call (`C99_added_equation`) and numba's functions refuse the vectors (`C99_added_variable_numba`).
* `update_dim_value` renews the displayed name but not a default description: the instances of `x[i]` are all described as `x_{i}, Positive = True, Real = True` (`C95_default_description`, `C95_default_description_counterexample`); a dim that is labelled a second time keeps the first label in the description (`C95_relabel_counterexample`).
* A name with an underscore is set as `\text{…}` with the underscore and Greek commands inside, where LaTeX allows neither (`C95_underscore`).
* `dim_vals` and `assumptions` are kept by reference: two objects declared with the same dictionary share their labels or assumptions (`C96_shared_labels_counterexample`, `C96_shared_assumptions_counterexample`), and a declaration writes `real` and `positive` into the caller's dictionary, even if it is refused (`C96_given_assumptions`).
* `simulate` compiles nothing on demand: a call that uses functions the model was built without raises `AttributeError`, `TypeError` or `ValueError`, the last only after the Euler pass has been made (`C94_nothing_compiled`, `C94_kinds`).
* `functions_to_compile=["all"]` compiles only the system (`C52_list_all_counterexample`); the docstring spells one of
  the documented values `mininimze`, which compiles nothing.
* `numba_lambdify`: an input called `exog_inputs` or `endog_inputs` breaks the generated function
  (`C55_input_name_counterexample`, `C55_endog_name_counterexample`); an index with two positions is turned into a float
  (`C55_two_index_counterexample`).

Calibration
* `recursive_solve_symbolic` drops equations that become constant without checking that the constant is zero, takes zero
  for an unknown without solution, lets the later of two equations for one unknown win, stops early when as many values
  are known as there are equations, and changes the dictionary it was given (C38 and C39 counterexamples).
* `equations_to_numba_sparse_jacobian`, named in the property list, does not exist at this commit.

Production functions
* `dixit_stiglitz` without `TFP` divides by the power of the price ratio (`C42_omit_TFP_counterexample`). So its varieties are substituted with elasticity minus epsilon (`C82_dixit_stiglitz_inverted`).
* The Cobb-Douglas value definition is not equivalent to the production function given the demands
  (`C41_cobb_douglass_counterexample`).
* One-dimensional Leontief shares are not parenthesised (`C40_leontief_share_not_parenthesised`).
* A factor given as a string is iterated character by character (`C43_string_factor_counterexample`).
* A list of one share is extended in place (`C44_shares_list_extended`); a later call with it raises
  (`C44_later_call_raises`). "One share less than factors" is documented in general but only works for two factors.
* The value definition of `dixit_stiglitz` uses `.sum()` for the numba back-end too; the Leontief documentation says that
  the sum is over the first dim, the default is the last.

SAM tools
* The transformer is only invertible when the mirror cell of every negative cell is zero; a negative diagonal cell is set
  to zero and lost; mirrored negative pairs leave a negative entry (C45–C47, exact conditions).
* `balance_SAM` matches rows and columns by position, not by label (C48 counterexample).
* `balance_SAM` divides by the total before it moves the negative entries, and then lets the vector sum to one. A SAM with
  any negative entry is therefore changed even if it is balanced (`C67_negative_counterexample`); when the mirror cells of
  the negative entries are zero, a balanced SAM comes back multiplied by total / (sum of absolute values)
  (`C67_cvxpy_partial`, `C67_scipy_partial`).

Tables
* Headings are too narrow or too wide for deeper column trees (C49 counterexamples, exact condition up to three levels).
* A dim called `step`, or a variable named like a dim, cannot be returned as a labelled result
  (`C51_step_dim_counterexample`, `C51_name_clash_counterexample`).
* A model with names `a` and `a_0` gets wrong numba Euler steps without a message: `a_0` is also the name under which the
  generated code keeps the current value of `a` (`C64_clash_counterexample`).
* `make_jvp` with an explicit `p` returns a variable it never set (`UnboundLocalError`; read off the source, not proved).

Two-dimensional Leontief production
* `leontief` with two dims sums over the *last* dimension unless told otherwise, although the inputs are documented to be
  on the first one: a consistent economy violates the equations (`C69_default_counterexample`).
* The numba text divides by an output price without parentheses (`C69_output_price_counterexample`), and in the pytensor
  text `[:, None]` applies only to the last factor of a composite input price (`C69_input_price_counterexample`).
* If outputs are declared over the first dimension and transposed, the demands multiply with the output of the supplying
  sector instead of the demanding one (`C69_numba_first_dim`).

Plots
* In percentage bar plots a cell whose initial value is zero or negative is drawn as "no change"
  (`C61_negative_initial_counterexample`, `C61_pct_not_above_threshold`); a scalar variable raises
  in a panel of its own (`C61_scalar_raises`) but can be drawn with `plot_together=True` (`C61_together_scalars_partial`). The default `metric`
  check lists a value that is never handled, and `var_names=None` is used before it is replaced.
* `plot_areas` over several variables or two dims draws areas under the wrong or no labels
  (`C62_several_variables_unlabelled`, `C62_two_dims_counterexample`); a string is split into its letters
  (`C62_string_is_split`).
