{"id": "C01", "title": "Flattening model data and unflattening it again loses nothing", "statement": "Packing a dictionary of correctly shaped arrays into the flat (x, theta) pair used by the solvers and unpacking x, theta (or their concatenation) with the same object list returns, for every declared object, exactly the array that was put in; and conversely packing the result of unpacking a flat vector of the right length returns that same vector.", "quantifier": "every list of at least one variable and every list of at least one parameter, all with distinct names (packing is refused exactly if one of the lists is empty or a name has no data), every assignment of dims, every coords dictionary (any sizes, including dims of size 0 or 1), and every data value", "why_tests_cant": "Unit tests fix one or two models with a handful of 1-d and 2-d shapes; the claim is about every mixture of ranks, sizes and declaration orders, where an off-by-one in a cursor or a row/column-major slip shows only for particular shapes.", "anchors": ["cge_modeling/base/utilities.py:flat_array_to_variable_dict", "cge_modeling/base/utilities.py:variable_dict_to_flat_array", "cge_modeling/base/utilities.py:infer_object_shape_from_coords"]}
{"id": "C02", "title": "A flat vector has a fixed address for every element of every object", "statement": "In the flat vector produced from model data, the element of object number m at multi-index (i1,..,ik) sits at position (sum of the sizes of objects 0..m-1) plus the row-major index of (i1,..,ik); no two (object, multi-index) pairs share a position, and every position is used.", "quantifier": "every object list, every coords dictionary, every valid multi-index", "why_tests_cant": "The map must be a bijection for all shapes; a test can only spot-check some positions of some shapes.", "anchors": ["cge_modeling/base/utilities.py:variable_dict_to_flat_array", "cge_modeling/base/utilities.py:flat_array_to_variable_dict", "cge_modeling/compile/pytensor_tools.py:flat_tensor_to_ragged_list", "cge_modeling/compile/pytensor_tools.py:flatten_equations"]}
{"id": "C03", "title": "Boolean masks over the flat vector select exactly the named objects", "statement": "The mask built from a list of names is as long as the flat vector, and is True at a position if and only if that position belongs to an object whose name is in the list; the mask of a name list and the mask of its complement partition the vector. Selecting entries of the flat vector with the mask gives the same numbers as flattening only the named objects.", "quantifier": "every object list, coords dictionary and name list, including repeated names; names that are not in the model are ignored by the omission mask and raise KeyError in the parameter mask", "why_tests_cant": "Depends on every object's size and order; tests check single examples.", "anchors": ["cge_modeling/base/utilities.py:flat_mask_from_param_names", "cge_modeling/base/utilities.py:make_flat_array_return_mask"]}
{"id": "C04", "title": "A flat vector of the wrong length is rejected", "statement": "Unpacking a flat vector whose length is not the total size of the declared objects raises an error rather than returning data assigned to the wrong objects.", "quantifier": "every object list, coords dictionary and vector length", "why_tests_cant": "A test can show one rejected vector; the claim is that no wrong length is ever accepted.", "anchors": ["cge_modeling/base/utilities.py:flat_array_to_variable_dict"]}
{"id": "C05", "title": "Unpacked scalar names line up with the flat vector", "statement": "For every model, the k-th unpacked scalar (the name reported by unpacked_variable_names / unpacked_parameter_names, and the symbol given to the compiled functions at position k) denotes exactly the element of the packed array that sits at position k of the flat vector: its recorded coordinate labels are the labels at the multi-index which row-major order assigns to k.", "quantifier": "every object list, dims and coords dictionary; every position k", "why_tests_cant": "The agreement couples two independent enumeration orders (itertools.product over labels and C-order ravel). Tests look at one model; the claim is about all ranks, sizes and dim orders.", "anchors": ["cge_modeling/tools/sympy_tools.py:expand_obj_by_indices", "cge_modeling/base/cge.py:CGEModel._unpack_variables", "cge_modeling/base/utilities.py:variable_dict_to_flat_array", "cge_modeling/compile/pytensor_tools.py:make_unpacked_to_packed_map"]}
{"id": "C06", "title": "Unpacking never silently drops or merges scalars", "statement": "After construction the number of unpacked variables (n_variables) equals the total number of elements of the declared variables, and distinct (variable, labels) pairs have distinct unpacked names.", "quantifier": "every variable list with distinct names and every coords dictionary", "why_tests_cant": "Name collisions appear only for particular combinations of names and labels (x_a[b] and x[a_b]); tests with tidy names can never show them.", "anchors": ["cge_modeling/tools/sympy_tools.py:make_indexed_name", "cge_modeling/base/cge.py:CGEModel._unpack_variables", "cge_modeling/base/cge.py:CGEModel._unpack_objects"]}
{"id": "C07", "title": "The two calling conventions of compiled functions are interchangeable", "statement": "Wrapping a flat-signature function f(x, theta) into keyword form and wrapping that back into flat form gives a function equal to f on all vectors of the model's length; starting from a keyword function, the double wrapping agrees with it on every correctly shaped keyword set. The same holds for the Hessian-vector-product form f(x, p, theta) with its `<name>_point` keywords.", "quantifier": "every model, every function, every input vector or keyword set", "why_tests_cant": "Requires all function values and all models; tests try one function on one model.", "anchors": ["cge_modeling/base/function_wrappers.py:wrap_pytensor_func_for_scipy", "cge_modeling/base/function_wrappers.py:wrap_scipy_func_for_pytensor"]}
{"id": "C08", "title": "Fixing variables: the wrapped function sees the fixed values and returns only the free part", "statement": "For fixed_values naming some unpacked variables, the function returned by wrap_fixed_values, called with the free entries and theta, evaluates f at the full vector with the fixed entries filled in, and returns the rows (and columns) of the result belonging to the free variables. Unknown names are rejected when wrapping.", "quantifier": "every model, fixed_values, function f and input vector", "why_tests_cant": "A claim about every subset of variables, every f and every input.", "anchors": ["cge_modeling/base/function_wrappers.py:wrap_fixed_values", "cge_modeling/base/cge.py:CGEModel.generate_SAM"]}
{"id": "C09", "title": "A trajectory matrix from the numba Euler routine is split into per-object arrays without moving a number", "statement": "For every object, row t of the returned array equals what unpacking row t of the trajectory matrix would give for that object, the number of rows is kept, and the whole matrix can be reconstructed from the list of arrays.", "quantifier": "every trajectory length, object list and coords dictionary", "why_tests_cant": "All shapes and lengths.", "anchors": ["cge_modeling/base/function_wrappers.py:wrap_numba_euler_function"]}
{"id": "C10", "title": "A scenario changes exactly what it says", "statement": "Given initial values and final_values / final_delta / final_delta_pct, the scenario parameters are: the given value for names in final_values, initial+delta for names in final_delta, initial*factor for names in final_delta_pct, and the initial value for every other name. The initial values passed by the caller are not modified. The order in which names are listed does not matter.", "quantifier": "every initial dictionary and every triple of change dictionaries", "why_tests_cant": "Universally quantified over dictionaries and their overlaps.", "anchors": ["cge_modeling/base/utilities.py:create_final_param_dict"]}
{"id": "C11", "title": "Ambiguous or empty scenarios are rejected", "statement": "A scenario that names the same parameter in two of the three change dictionaries, or that contains no change dictionary at all, always raises; a scenario with no such overlap and whose names are all known never raises.", "quantifier": "every triple of change dictionaries", "why_tests_cant": "Exact error set over all overlaps.", "anchors": ["cge_modeling/base/utilities.py:create_final_param_dict"]}
{"id": "C12", "title": "A scenario that names something the model does not know is rejected", "statement": "A name in final_values, final_delta or final_delta_pct which is not one of the initial values (for instance a misspelt parameter) raises an error instead of being ignored.", "quantifier": "every change dictionary", "why_tests_cant": "No misspelling may be accepted; tests try specific ones.", "anchors": ["cge_modeling/base/utilities.py:create_final_param_dict", "cge_modeling/base/cge.py:CGEModel.simulate"]}
{"id": "C13", "title": "simulate accepts an initial state exactly when it covers the model", "statement": "simulate proceeds past validation if and only if the initial state has a value for every variable and parameter of the model and no value for any other name; otherwise it raises, and the error distinguishes missing from unknown names. Nothing is written to disk on the error path.", "quantifier": "every initial-state dictionary and model", "why_tests_cant": "Set equality over arbitrary dictionaries.", "anchors": ["cge_modeling/base/cge.py:CGEModel.simulate"]}
{"id": "C14", "title": "Optimizer derivative options are always usable", "statement": "For every method name and every user-chosen combination of use_jac / use_hess / use_hessp, the settings passed to the optimizer never request both the Hessian and the Hessian-vector product, explicit user choices are respected unless they conflict, and omitted ones take the method's default.", "quantifier": "every method and every choice (None/True/False) of the three flags", "why_tests_cant": "27 flag combinations for each method; the statement is exhaustive.", "anchors": ["cge_modeling/base/utilities.py:get_method_defaults"]}
{"id": "C15", "title": "Saving without overwrite never destroys a saved result", "statement": "In any directory and after any history of saves, a save without overwrite leaves every existing file unchanged and puts the new result in a fresh file; it always terminates.", "quantifier": "every directory content, every history of saves, every name", "why_tests_cant": "All histories and directory contents.", "anchors": ["cge_modeling/base/cge.py:write_results"]}
{"id": "C16", "title": "Reading a result by name returns the most recent save under that name", "statement": "After any history of saves and deletions in a directory, reading with a name returns the data of the most recent save under that name that is still present.", "quantifier": "every history of write (with or without overwrite), delete and read operations", "why_tests_cant": "Depends on the interleaving of overwriting saves, numbered saves and deletions.", "anchors": ["cge_modeling/base/cge.py:read_results", "cge_modeling/base/cge.py:write_results"]}
{"id": "C17", "title": "The .pkl extension is optional when reading and writing results", "statement": "read_results with 'name' and with 'name.pkl' return the same data, and write_results with 'name' and 'name.pkl' write to the same file, in every directory.", "quantifier": "every name and every directory content", "why_tests_cant": "All directories, in particular those with numbered copies.", "anchors": ["cge_modeling/base/cge.py:read_results", "cge_modeling/base/cge.py:write_results"]}
{"id": "C18", "title": "simulate returns the scenario that was asked for", "statement": "The data returned by simulate is the solution for the scenario passed in that call, never a result computed for a different scenario.", "quantifier": "every sequence of simulate calls with any names and scenarios, on the same day or not", "why_tests_cant": "Depends on the history of earlier calls and on what is on disk.", "anchors": ["cge_modeling/base/cge.py:CGEModel.simulate", "cge_modeling/base/cge.py:read_results", "cge_modeling/base/cge.py:write_results"]}
{"id": "C19", "title": "Euler: parameters move in a straight line and arrive exactly", "statement": "In an n-step Euler simulation the parameters after step t are theta0 + (t/n)(theta_final - theta0); after the last step they equal theta_final, and each intermediate value lies between the endpoints.", "quantifier": "every n >= 1, theta0, theta_final, and whatever the model equations are", "why_tests_cant": "All step counts and all models; tests use one step count and floating point tolerance.", "anchors": ["cge_modeling/compile/numba.py:euler_approx", "cge_modeling/compile/euler.py:pytensor_euler_function_with_python_loop", "cge_modeling/compile/euler.py:symbolic_euler_approximation", "cge_modeling/compile/pytensor.py:pytensor_euler_step", "cge_modeling/compile/jax.py:jax_euler_step"]}
{"id": "C20", "title": "Euler: every step solves the total differential, and no shock means no movement", "statement": "If the Jacobian with respect to the variables is invertible along the path, each step dx satisfies J_x dx + J_theta dtheta = 0 at the current point, and this determines dx uniquely; when theta_final = theta0 the variables never change, for any n.", "quantifier": "every model (any Jacobians), every path, every n", "why_tests_cant": "Universally quantified over systems.", "anchors": ["cge_modeling/compile/numba.py:compile_numba_euler_func", "cge_modeling/compile/numba.py:euler_approx", "cge_modeling/compile/pytensor.py:pytensor_euler_step", "cge_modeling/compile/euler.py:_make_euler_matrices"]}
{"id": "C21", "title": "Euler is exact on linear models", "statement": "If the model equations are affine in variables and parameters and the initial point is an equilibrium, every point of the Euler trajectory is an equilibrium at that step's parameters, the end point is the equilibrium at theta_final, and it does not depend on the number of steps. The RK4 variant gives the same trajectory.", "quantifier": "every affine system with invertible variable block, every shock, every n >= 1", "why_tests_cant": "All systems and step counts.", "anchors": ["cge_modeling/compile/numba.py:euler_approx", "cge_modeling/compile/jax.py:jax_euler_step", "cge_modeling/compile/euler.py:symbolic_euler_approximation"]}
{"id": "C22", "title": "Euler converges to the true solution as the number of steps grows", "statement": "If along the parameter path the solution curve is smooth and the direction field is Lipschitz near it, the distance between the Euler end point and the true equilibrium at theta_final is at most C/n with C independent of n; in particular it tends to 0.", "quantifier": "every smooth model and shock, every n", "why_tests_cant": "A limit statement; no finite test can establish it.", "anchors": ["cge_modeling/compile/numba.py:euler_approx", "cge_modeling/compile/euler.py:symbolic_euler_approximation"]}
{"id": "C23", "title": "The Euler back-ends return the same trajectory", "statement": "For the same model, initial state, theta_final and n_steps, the numba, python-loop (pytensor) and scan Euler functions return the same rows in the same order.", "quantifier": "every model, shock and n", "why_tests_cant": "All step functions and step counts.", "anchors": ["cge_modeling/compile/numba.py:euler_approx", "cge_modeling/compile/euler.py:pytensor_euler_function_with_python_loop", "cge_modeling/compile/euler.py:symbolic_euler_approximation", "cge_modeling/compile/pytensor.py:pytensor_euler_step"]}
{"id": "C24", "title": "simulate hands the optimizer the last finite Euler point and warns exactly when Euler failed", "statement": "After the Euler pass, the starting point given to the optimizer is the row of the last step at which no variable or parameter is NaN, and the warning about NaN is issued if and only if some step produced NaN.", "quantifier": "every pattern of NaNs in the trajectory, every backend", "why_tests_cant": "All NaN patterns and lengths.", "anchors": ["cge_modeling/base/cge.py:CGEModel.simulate"]}
{"id": "C25", "title": "Newton root finder: the residual never gets worse and the flag is honest", "statement": "Along the returned history the L1 norm of the residual never increases; whenever the converged flag is set at a step, the residual at the returned point is below the tolerance; once set, the flag stays set and the point no longer changes; the reported step count never exceeds the number of iterations and stops growing at convergence.", "quantifier": "every function, Jacobian, start point, tolerance, step size and iteration budget", "why_tests_cant": "Invariant over every iteration of every run.", "anchors": ["cge_modeling/optimize.py:root", "cge_modeling/optimize.py:scan_body", "cge_modeling/optimize.py:check_convergence", "cge_modeling/optimize.py:check_stepsize", "cge_modeling/optimize.py:backtrack_if_not_decreasing"]}
{"id": "C26", "title": "Newton root finder: back-tracking halves the step and recovers", "statement": "The step size used at every iteration is the initial step size divided by a power of two; it is reset to the initial value after every accepted step and halved after every rejected one, where a step is accepted only if it strictly lowers the residual norm. On an affine system with invertible Jacobian and unit step size the root is found at the first step.", "quantifier": "every function, every history length", "why_tests_cant": "Invariant over all runs.", "anchors": ["cge_modeling/optimize.py:scan_body", "cge_modeling/optimize.py:_newton_step", "cge_modeling/optimize.py:check_stepsize"]}
{"id": "C27", "title": "The model registry is a map with stable order", "statement": "After any sequence of add operations, each name appears once in a group; adding an existing name without overwrite raises and leaves the stored object as it was; with overwrite it replaces the object but keeps its place; names are listed in order of first addition, which is the order used for flat vectors.", "quantifier": "every sequence of add_variable(s) / add_parameter(s) / add_equation(s) calls with any overwrite flags", "why_tests_cant": "All histories.", "anchors": ["cge_modeling/base/cge.py:CGEModel._add_object", "cge_modeling/base/cge.py:CGEModel.add_variable", "cge_modeling/base/cge.py:CGEModel.add_variables", "cge_modeling/base/cge.py:CGEModel.add_parameter", "cge_modeling/base/cge.py:CGEModel.add_parameters"]}
{"id": "C28", "title": "Adding several objects is all or nothing", "statement": "If add_variables / add_parameters raises, the model is left unchanged.", "quantifier": "every model state and every argument list", "why_tests_cant": "All argument lists, with the offending object at any place.", "anchors": ["cge_modeling/base/cge.py:CGEModel.add_variables", "cge_modeling/base/cge.py:CGEModel.add_parameters", "cge_modeling/base/utilities.py:_validate_input"]}
{"id": "C29", "title": "Looking up a name gives the same object by every route", "statement": "For any name in the model, get(name), get_variable / get_parameter(name), the row of summary() and the object behind get_symbol(name) are the same object; an unknown name raises; a list of names returns the objects in that order.", "quantifier": "every model and name list", "why_tests_cant": "All models, including those where a variable and a parameter share a name.", "anchors": ["cge_modeling/base/cge.py:CGEModel.get", "cge_modeling/base/cge.py:CGEModel.get_symbol", "cge_modeling/base/cge.py:CGEModel.get_variable", "cge_modeling/base/cge.py:CGEModel.get_parameter", "cge_modeling/base/cge.py:CGEModel.get_unpacked_parent_object", "cge_modeling/base/cge.py:CGEModel.summary"]}
{"id": "C30", "title": "An accepted model is square", "statement": "A model whose construction succeeds has exactly as many scalar equations as scalar variables, with and without a numeraire, and stays so; a model with different counts is refused.", "quantifier": "every argument list of the constructor, every later sequence of add calls", "why_tests_cant": "All models and histories.", "anchors": ["cge_modeling/base/cge.py:CGEModel.__init__", "cge_modeling/base/cge.py:CGEModel.check_initialization", "cge_modeling/base/cge.py:CGEModel.n_variables", "cge_modeling/base/cge.py:CGEModel.n_equations"]}
{"id": "C31", "title": "Declaring a numeraire removes that variable consistently", "statement": "After construction with numeraire=N, N is gone from the variables, from the unpacked variables and from the flat vector, and every other variable keeps its relative order; an unknown numeraire raises.", "quantifier": "every model and numeraire", "why_tests_cant": "All models.", "anchors": ["cge_modeling/base/cge.py:CGEModel.__init__"]}
{"id": "C32", "title": "Normalising an equation string keeps its meaning", "statement": "normalize_eq turns 'lhs = rhs' into an expression whose value is value(lhs) - value(rhs) for every assignment of the names, whatever operators lhs and rhs contain, and leaves a string without an equality sign unchanged.", "quantifier": "every pair of arithmetic expression strings and every assignment", "why_tests_cant": "All expressions; precedence slips show only for particular right-hand sides.", "anchors": ["cge_modeling/tools/parsing.py:normalize_eq"]}
{"id": "C33", "title": "Residual labels match residuals", "statement": "The k-th unpacked equation name describes the k-th entry of the residual vector, so check_for_equilibrium reports each violated equation under its own name.", "quantifier": "every set of equations with <dim:...> markers and every coords dictionary", "why_tests_cant": "Depends on the order of markers in the name against the order of array dimensions.", "anchors": ["cge_modeling/base/utilities.py:unpack_equation_strings", "cge_modeling/base/cge.py:CGEModel._unpack_equations", "cge_modeling/base/cge.py:CGEModel.check_for_equilibrium"]}
{"id": "C34", "title": "Expanding an object over its dims enumerates every label combination once, in row-major order", "statement": "expand_obj_by_indices returns one copy per combination of labels of the requested dims, in row-major order of the dims, each carrying its labels; the original object is not modified; a requested dim that the object does not have raises or is skipped, as requested; a dim without labels in coords raises.", "quantifier": "every object, dims list and coords dictionary", "why_tests_cant": "All ranks and sizes.", "anchors": ["cge_modeling/tools/sympy_tools.py:expand_obj_by_indices", "cge_modeling/tools/sympy_tools.py:_validate_dims", "cge_modeling/base/primitives.py:ModelObject.update_dim_value", "cge_modeling/base/primitives.py:_SympyEquation.update_dim_value"]}
{"id": "C35", "title": "Sum and Product over an index expand over all labels", "statement": "Replacing reduction operators gives an expression whose value is the sum (product) of the body over every label of the index, with all other indices left alone.", "quantifier": "every expression, coords dictionary and assignment of the indexed symbols", "why_tests_cant": "All expressions and sizes.", "anchors": ["cge_modeling/tools/sympy_tools.py:substitute_reduce_ops", "cge_modeling/tools/sympy_tools.py:indexed_variables_to_sub_dict", "cge_modeling/tools/sympy_tools.py:make_indexbase_sub_dict"]}
{"id": "C36", "title": "The sparse Jacobian equals the dense Jacobian", "statement": "The dictionary-of-keys / CSC Jacobian, made dense, is entry by entry the matrix of partial derivatives of the equations; every stored position is within bounds and stored once; an equation that does not mention a symbol has no entry for it.", "quantifier": "every list of equations and symbols", "why_tests_cant": "All expressions.", "anchors": ["cge_modeling/tools/sympy_tools.py:jacobian_as_dok_data", "cge_modeling/tools/sympy_tools.py:sparse_jacobian", "cge_modeling/compile/sympy.py:make_sympy_jacobian", "cge_modeling/tools/sympy_tools.py:equations_to_numba_sparse_jacobian"]}
{"id": "C37", "title": "The scalar objective, its gradient and its curvature are consistent with the residuals", "statement": "The objective is half the sum of squared residuals: it is never negative and is zero exactly at an equilibrium; its gradient is J^T r; the Hessian is symmetric; the Hessian-vector product function returns Hessian times vector; the gradient vanishes at every equilibrium.", "quantifier": "every system of equations and every point", "why_tests_cant": "All systems and points.", "anchors": ["cge_modeling/compile/numba.py:compile_numba_cge_functions", "cge_modeling/compile/sympy.py:make_sympy_gradient", "cge_modeling/compile/sympy.py:make_sympy_hessp", "cge_modeling/compile/pytensor.py:compile_pytensor_cge_functions"]}
{"id": "C38", "title": "Recursive calibration returns values that satisfy the equations", "statement": "When recursive_solve_symbolic returns, every symbol occurring in the equations has a value and every equation holds at these values.", "quantifier": "every list of equations and known values", "why_tests_cant": "All systems, including inconsistent, overdetermined and unsolvable ones.", "anchors": ["cge_modeling/tools/sympy_tools.py:recursive_solve_symbolic"]}
{"id": "C39", "title": "Recursive calibration solves every recursive system", "statement": "If the equations can be solved one unknown at a time (within max_iter passes), recursive_solve_symbolic finds all values and does not raise; otherwise it raises. Values given by the caller are kept.", "quantifier": "every recursively solvable system, with any number of known values", "why_tests_cant": "All systems.", "anchors": ["cge_modeling/tools/sympy_tools.py:recursive_solve_symbolic"]}
{"id": "C40", "title": "Production-function generators emit the equations they document", "statement": "For any number of factors with identifier names, the strings returned by cobb_douglass and CES, parsed with Python's operator precedence, are the documented production function (or value definition) and factor demands.", "quantifier": "every number of factors, every choice of names, every value of the variables", "why_tests_cant": "All factor counts and all values; tests compare strings for two or three factors.", "anchors": ["cge_modeling/production_functions.py:cobb_douglass", "cge_modeling/production_functions.py:CES", "cge_modeling/production_functions.py:_1d_leontief", "cge_modeling/production_functions.py:leontief"]}
{"id": "C41", "title": "Value definition and production function are interchangeable", "statement": "At positive prices and quantities satisfying the generated factor demands, the production function holds iff the zero-profit value equation holds (Cobb-Douglas with shares summing to one; CES); for Leontief the zero-profit condition holds iff the output price equals unit cost.", "quantifier": "every number of factors and all positive values", "why_tests_cant": "An equivalence over all real values.", "anchors": ["cge_modeling/production_functions.py:cobb_douglass", "cge_modeling/production_functions.py:CES", "cge_modeling/production_functions.py:leontief"]}
{"id": "C42", "title": "Omitting an optional technology or share parameter is the same as setting it to one", "statement": "The equations generated by dixit_stiglitz without TFP (or without factor_shares) hold at a point if and only if those generated with that parameter hold at the same point with the parameter equal to 1.", "quantifier": "every combination of optional arguments, every value", "why_tests_cant": "All values.", "anchors": ["cge_modeling/production_functions.py:dixit_stiglitz"]}
{"id": "C43", "title": "Mismatched factor, price and share lists are rejected", "statement": "Every generator raises when the numbers of factors, prices and shares differ, and otherwise emits exactly one demand equation per factor, whose left-hand side is that factor.", "quantifier": "every combination of string and list inputs", "why_tests_cant": "All combinations of lengths and input kinds.", "anchors": ["cge_modeling/production_functions.py:_check_pairwise_lengths_match", "cge_modeling/production_functions.py:cobb_douglass", "cge_modeling/production_functions.py:CES", "cge_modeling/production_functions.py:leontief"]}
{"id": "C44", "title": "Generators do not modify their arguments", "statement": "Calling a production-function generator leaves the caller's lists unchanged, so that calling it twice with the same arguments gives the same equations.", "quantifier": "every argument combination and sequence of calls", "why_tests_cant": "Aliasing appears only for some argument kinds.", "anchors": ["cge_modeling/production_functions.py:_add_second_alpha", "cge_modeling/production_functions.py:CES", "cge_modeling/production_functions.py:cobb_douglass"]}
{"id": "C45", "title": "SAM transform and inverse transform are inverse", "statement": "fit_transform followed by inverse_transform returns the original SAM; the transformer refuses to transform before it is fitted.", "quantifier": "every square SAM with nonzero total, any placement of negative entries", "why_tests_cant": "Depends on where negative entries sit relative to their mirror cells.", "anchors": ["cge_modeling/tools/rebalance.py:SAMTransformer"]}
{"id": "C46", "title": "The transformed SAM has no negative entries", "statement": "After transform every entry is nonnegative, as the balancing routines require.", "quantifier": "every SAM with positive total", "why_tests_cant": "All placements of negative entries.", "anchors": ["cge_modeling/tools/rebalance.py:SAMTransformer.transform"]}
{"id": "C47", "title": "Moving negative flows to the mirror cell keeps every account's balance", "statement": "transform and inverse_transform preserve, up to the scale factor, each account's row total minus column total; in particular a balanced matrix stays balanced.", "quantifier": "every SAM and every placement of negative entries", "why_tests_cant": "All matrices.", "anchors": ["cge_modeling/tools/rebalance.py:SAMTransformer.transform", "cge_modeling/tools/rebalance.py:SAMTransformer.inverse_transform"]}
{"id": "C48", "title": "The balanced SAM has equal row and column totals and no new flows", "statement": "If the numerical optimizer returns a point satisfying the constraints it was given, balance_SAM returns a matrix in which every account's row total equals its column total and every cell that was zero stays zero; the vector of nonzero flows and the matrix determine one another.", "quantifier": "every SAM and every optimizer result meeting its constraints", "why_tests_cant": "All matrices and sparsity patterns.", "anchors": ["cge_modeling/tools/rebalance.py:balance_SAM", "cge_modeling/tools/rebalance.py:_balance_with_cvxpy", "cge_modeling/tools/rebalance.py:sparse_to_vector_and_matrix", "cge_modeling/tools/rebalance.py:get_flat_nonzero_values", "cge_modeling/tools/rebalance.py:_balance_with_scipy"]}
{"id": "C49", "title": "Table headings are as wide as the columns below them", "statement": "For every nested specification of columns, each heading row of the printed table has as many cells as there are data columns, and every heading stands over exactly the columns of its subtree.", "quantifier": "every nested column dictionary", "why_tests_cant": "All tree shapes; tests use one or two.", "anchors": ["cge_modeling/tools/output_tools.py:compute_padding", "cge_modeling/tools/output_tools.py:Tree.make_headings", "cge_modeling/tools/output_tools.py:build_tree", "cge_modeling/tools/output_tools.py:make_table"]}
{"id": "C50", "title": "Grid layout places every panel once without overlap", "statement": "prepare_gridspec_figure(n_cols, n_plots) returns exactly n_plots locations; they lie inside the grid, do not overlap, have equal size, fill rows from the top, and an incomplete last row is centred.", "quantifier": "every n_cols >= 1 and n_plots >= 1", "why_tests_cant": "All pairs of integers.", "anchors": ["cge_modeling/plotting.py:prepare_gridspec_figure"]}
{"id": "C51", "title": "Results come back under the right name with the right step", "statement": "In the InferenceData built from Euler output the array stored under a name is the trajectory of that variable or parameter; in the one built from an optimizer result step 0 is the initial value and step 1 is the solution, each reshaped to the object's dims.", "quantifier": "every model and result", "why_tests_cant": "All models.", "anchors": ["cge_modeling/tools/output_tools.py:list_of_array_to_idata", "cge_modeling/tools/output_tools.py:optimizer_result_to_idata"]}
{"id": "C52", "title": "Backend selection and compile switches follow the documented rules", "statement": "Without an explicit backend, equations that use array broadcasting and no Sum/Prod select pytensor, everything else sympytensor; mixing both is refused or resolved as documented; equations are parsed to sympy exactly for the backends that need it; compile='all' (or True) compiles every function family and a list compiles exactly the listed ones.", "quantifier": "every list of equation strings and every compile argument", "why_tests_cant": "All strings and arguments.", "anchors": ["cge_modeling/base/build.py:determine_default_backend", "cge_modeling/base/build.py:_parse_compile_kwarg", "cge_modeling/base/build.py:cge_model", "cge_modeling/base/build.py:compile_model"]}
{"id": "C53", "title": "The equilibrium report is correct", "statement": "check_for_equilibrium reports success exactly when the sum of squared residuals is below the tolerance; when it fails, every listed equation violates the tolerance and no equation violating it is omitted.", "quantifier": "every model with at least one variable and one parameter, every data set and tolerance", "why_tests_cant": "All residual vectors.", "anchors": ["cge_modeling/base/cge.py:CGEModel.check_for_equilibrium"]}
{"id": "C54", "title": "Index and subscript strings are parsed faithfully", "statement": "dims given as a comma separated string, a list or a tuple mean the same; a subscript built from dims is split back into the same tokens; bracketed names are turned into identifiers without brackets, commas or blanks, and doing so twice changes nothing more.", "quantifier": "every name, dims and label without the separator characters", "why_tests_cant": "All strings.", "anchors": ["cge_modeling/base/primitives.py:ModelObject._initialize_index", "cge_modeling/base/primitives.py:_tokenize_latex_subscript", "cge_modeling/base/primitives.py:ModelObject._make_latex_subscript", "cge_modeling/tools/utils.py:brackets_to_snake_case"]}
{"id": "C55", "title": "Generated numba code binds every input name to its own slot", "statement": "In the source text generated by numba_lambdify each input symbol is assigned the element of its input vector at its own position, later arguments do not shadow earlier ones unless they share a name, and the clean-up of integer zeros changes no other number or index.", "quantifier": "every list of input symbols and every generated source line", "why_tests_cant": "All symbol lists.", "anchors": ["cge_modeling/compile/numba_tools.py:numba_lambdify"]}
{"id": "C56", "title": "The Runge-Kutta switch is honoured or refused", "statement": "When a model is built with use_rk4_euler=True and the Euler function is requested, the Euler function takes Runge-Kutta steps or the build raises; it never silently takes plain Euler steps.", "quantifier": "every backend, mode, list of functions to compile and combination of switches", "why_tests_cant": "The number of combinations of backend, mode and switches, and silent fall-back looks like a normal result.", "anchors": ["cge_modeling/base/build.py:compile_model", "cge_modeling/compile/numba.py:compile_numba_cge_functions", "cge_modeling/compile/pytensor.py:pytensor_euler_step", "cge_modeling/compile/jax.py:compile_jax_cge_functions"]}
{"id": "C57", "title": "Runge-Kutta steps converge with order four", "statement": "If the model is smooth near the curve of equilibria over the parameter path and its Jacobian with respect to the variables is invertible on the curve, the distance between a simulation with Runge-Kutta steps and the true equilibrium is at most C/n^4 at every step, with C independent of the number of steps n and of the back-end.", "quantifier": "every smooth model and shock, every back-end that takes Runge-Kutta steps, every number of steps beyond some N", "why_tests_cant": "An order of convergence over all models and step counts; a slip in one weight or stage still converges, only more slowly, and passes any tolerance-based test.", "anchors": ["cge_modeling/compile/jax.py:jax_euler_step", "cge_modeling/compile/euler.py:symbolic_euler_approximation"]}
{"id": "C58", "title": "generate_SAM returns the solution it found, with fixed variables kept", "statement": "generate_SAM starts the solver from the given guess at the given parameters, warns exactly when the solver reports failure, and returns each variable's part of the solver's answer in that variable's shape; substituting the returned state and the parameters into the model's equations gives the residuals the solver last saw. A variable named in fixed_values keeps the value given and the others solve the model around it. A solve_method other than root, minimize and euler raises a ValueError.", "quantifier": "every model, parameter dictionary, guess, set of fixed variables and solver outcome", "why_tests_cant": "Tests call it on one small model without fixed_values; the layout of the solution vector matters for all numbers, orders and shapes of variables, and the failure for fixed variables is silent.", "anchors": ["cge_modeling/base/cge.py:generate_SAM", "cge_modeling/base/cge.py:_solve_with_root", "cge_modeling/base/cge.py:_solve_with_minimize"]}
{"id": "C59", "title": "finalize_calibration returns a complete, correctly shaped state", "statement": "finalize_calibration returns the caller's value for exactly those model variables and parameters the caller has a local variable for, prints a reminder for exactly the missing ones and for exactly the values with a wrong shape; if nothing is printed, the dictionary passes simulate's check of the initial state and its flat form holds the caller's values object by object. Labelled data (pandas) is assigned by label, and a value of the wrong shape is not passed on. initialize_parameter returns an array of the declared shape holding the value everywhere.", "quantifier": "every model, set of coordinates and calling function", "why_tests_cant": "The claim is about every combination of present, missing, mis-shaped and labelled values for every model; tests try one calibration and see only printed text.", "anchors": ["cge_modeling/base/cge.py:finalize_calibration", "cge_modeling/base/cge.py:check_shape", "cge_modeling/base/cge.py:initialize_parameter"]}
{"id": "C60", "title": "Derivative functions of the tensor back-ends are derivatives in flat order", "statement": "On the pytensor and JAX back-ends the compiled Jacobian has in row i and column k the partial derivative of residual i with respect to the scalar at flat address k, whatever the number, order and shapes of the variables; the gradient of the minimization objective is the transposed Jacobian times the residuals in the same order; the Hessian-vector product is the Hessian times the direction by both routes. The two back-ends therefore hand the optimizers the same matrices and vectors.", "quantifier": "every model, every list of variable shapes, every point, given that the libraries' own differentiation is right", "why_tests_cant": "Tests compare numbers on one model; a wrong block order or reshape is invisible for models with one dimension, square blocks or symmetric entries.", "anchors": ["cge_modeling/compile/pytensor_tools.py:make_jacobian", "cge_modeling/compile/pytensor.py:make_jvp", "cge_modeling/compile/pytensor.py:compile_pytensor_gradient_function", "cge_modeling/compile/jax.py:make_jax_system_and_jacobian", "cge_modeling/compile/jax.py:jax_loss_grad_hessp"]}
{"id": "C61", "title": "A bar shows the change of its own element", "statement": "plot_bar draws one panel per name, and in it one bar per element (or per group of labels) under that element's labels; the bar is the chosen comparison (percentage change, change, absolute change, final, initial, both) of the final value with the initial value of the same run, the optimizer's when there is one. A grouped bar compares group totals. With plot_together=True variables with the same dimensions share one panel, one series of the same bars for each variable; variables without dimensions have one bar each under their names, and can be grouped by name; variables with different dimensions are refused with ValueError. False for percentage bars of negative or zero initial values (drawn as no change) and for variables without dimensions in panels of their own (raises).", "quantifier": "every model, result, list of names, grouping, metric and threshold", "why_tests_cant": "A picture is not compared with numbers by unit tests; a bar of height zero looks like an unchanged variable.", "anchors": ["cge_modeling/plotting.py:_compute_bar_data", "cge_modeling/plotting.py:_plot_one_bar", "cge_modeling/plotting.py:plot_bar"]}
{"id": "C62", "title": "Areas carry the labels of the elements they measure", "statement": "plot_areas draws, before and after the shock, one area for each element of the chosen variables that is nowhere zero, its size the element's value and its text the element's label (renamed on request), the same elements in both panels. True for one variable with one dimension; with several variables some areas stay unlabelled, with several dimensions areas carry labels of other elements, and a name given as a string is split into characters.", "quantifier": "every model, result, initial values, names and renaming", "why_tests_cant": "Labels are attached by position; a wrong label on an area changes no number and raises nothing.", "anchors": ["cge_modeling/plotting.py:plot_areas"]}
{"id": "C64", "title": "The numba Euler step solves the total differential", "statement": "In a numba model, one Euler step for the parameter step dtheta at the point (x, theta) computes a dx for which, for every equation g of the model, the partial derivatives of g at (x, theta) with respect to the variables times dx plus those with respect to the parameters times dtheta add up to zero.", "quantifier": "every system of scalar equations with declared names, every point at which the equations are smooth, every parameter step, whatever order sympy makes its replacements in", "why_tests_cant": "Needs all equations, points and names; the generated code carries the current point and the step under names made from the model's own names, so a test with ordinary names never sees a clash.", "anchors": ["cge_modeling/compile/numba.py:compile_numba_euler_func", "cge_modeling/compile/numba.py:euler_approx", "cge_modeling/compile/numba_tools.py:numba_lambdify"]}
{"id": "C63", "title": "calibrate reports given values under their names and flags bad fits", "statement": "calibrate(data) either raises or returns a Result that lists every scalar variable and parameter under its own name, with the given value (or NaN) as initial value, the given value as fitted value where one was given, and a fitted value for everything that occurs in an equation; success is True exactly if all equations hold at the fitted values.", "quantifier": "every scalar model with declared names, every data dictionary, every number of passes, every solver for single equations", "why_tests_cant": "Needs every system of equations, also those without solution or with fitted values made up by the solver, and every subset of given values.", "anchors": ["cge_modeling/base/cge.py:calibrate", "cge_modeling/base/cge.py:get_symbol", "cge_modeling/base/primitives.py:Result.to_dict", "cge_modeling/compile/numba.py:compile_numba_error_function"]}
{"id": "C65", "title": "The summary table puts values beside the right names", "statement": "summary(names, results) returns one row per name asked for, in that order, with the object of that name, its description with the dim markers replaced by the dim names, and for every result given its own initial and fitted values of that name; summary() lists all variables and then all parameters; unknown names raise.", "quantifier": "every model, every list of names or keyword, every list of results", "why_tests_cant": "Needs all name lists, all orders of the result frames and all combinations of several results.", "anchors": ["cge_modeling/base/cge.py:summary", "cge_modeling/base/utilities.py:_replace_dim_marker_with_dim_name", "cge_modeling/base/primitives.py:Result.to_frame"]}
{"id": "C66", "title": "The numba Euler solver converges to the solution of the model's equations", "statement": "Take a model with clash-free scalar names, as many equations as scalar variables, and a continuous path of solutions over the straight line from the current to the target parameter values, along which all powers and logarithms are defined and the matrix of partial derivatives with respect to the variables is invertible. Then simulate with the numba back-end and n Euler steps succeeds for all large n, and after t of them every returned variable is within C/n of its value on the path at t/n, with one C for all t and n.", "quantifier": "every model of scalars built from +, *, powers, log and exp, every clash-free naming, every order in which sympy substitutes, every start and target, every n from some N on", "why_tests_cant": "It is a limit statement over all step counts and all models; a test runs one model with a few step counts.", "anchors": ["cge_modeling/compile/numba.py:compile_numba_euler_func", "cge_modeling/compile/numba.py:euler_approx", "cge_modeling/compile/sympy.py:make_sympy_jacobian", "cge_modeling/base/function_wrappers.py:wrap_numba_euler_function", "cge_modeling/base/cge.py:_solve_with_euler_approximation"]}
{"id": "C67", "title": "Rebalancing a balanced SAM", "statement": "balance_SAM applied to a SAM whose row totals already equal its column totals returns that SAM (up to an error bounded in terms of delta, the number of accounts and the smallest entry).", "quantifier": "every balanced SAM, both optimizers, every exact solver", "why_tests_cant": "A test compares one SAM within a tolerance; the claim is an error bound for all sizes and all entries, and depends on what minimizes the cross entropy.", "anchors": ["cge_modeling/tools/rebalance.py:balance_SAM", "cge_modeling/tools/rebalance.py:_balance_with_cvxpy", "cge_modeling/tools/rebalance.py:_crossentropy_method_setup"]}
{"id": "C68", "title": "The rebalanced SAM is determined by the input", "statement": "If the constraints of the rebalancing problem can be met, the problem has exactly one solution; hence balance_SAM returns the same SAM whichever exact solver, start value or solver option is used.", "quantifier": "every SAM with a nonzero total and the same labels along rows and columns, both optimizers, any two exact solvers", "why_tests_cant": "Uniqueness of a minimizer quantifies over all vectors; runs from several start values only sample it.", "anchors": ["cge_modeling/tools/rebalance.py:balance_SAM", "cge_modeling/tools/rebalance.py:_balance_with_cvxpy", "cge_modeling/tools/rebalance.py:_balance_with_scipy"]}
{"id": "C69", "title": "Two-dimensional Leontief equations are zero profit by output and demands proportional to output, on both backends", "statement": "leontief with dims=[i, j], an input matrix X and coefficients phi over (i, j), input prices over i (or over (i, j)), output and output price over j returns two equations. For every economy the first holds exactly when Y_j * P_Y_j equals the sum over i of P_i * X_ij for every j, and the second exactly when X_ij = phi_ij * Y_j for all i, j, as documented ('the second dimension indexes the outputs, and the inputs will be reduced over the first dimension'). The equations of the numba and the pytensor backend hold for the same economies.", "quantifier": "every choice of argument expressions and dimension names, every number of labels of the two dimensions, with and without sum_dim, expand_price_dim and transpose_output, and every economy with non-zero output prices", "why_tests_cant": "The equations are generated text; whether a text means the documented condition depends on precedence, broadcasting and index substitution for all shapes and values. The repository has no test of the two-dimensional case, and a test could only compare strings or evaluate a few square examples.", "anchors": ["cge_modeling/production_functions.py:_2d_leontief", "cge_modeling/production_functions.py:leontief"]}
{"id": "C70", "title": "The functions of the default backend are the model's equations and their derivatives at the flat vectors", "statement": "For a model built with the default backend (sympytensor), calling the compiled functions through the scipy wrapper with flat vectors x and theta: the residuals are the values of the model's equations at the point in which every scalar of every variable and parameter has the value at its own position of the flat vectors; the Jacobian entry (i, k) is the derivative of residual i in x[k]; the objective is half the sum of squared residuals, the gradient its derivative, the Hessian the (symmetric) derivative of the gradient, and the Hessian-vector product the product of that matrix with the given vector. The generated numba code binds every scalar to the same value. Compilation succeeds exactly if there is an equation, every symbol of the equations belongs to a declared variable or parameter and every variable and parameter occurs in some equation; otherwise it raises ValueError.", "quantifier": "every model in which no two scalars (name and labels joined by underscores) share a name, every list of equations, every pair of flat vectors of the right lengths, every direction; derivatives at points where all powers and logarithms are defined", "why_tests_cant": "The map from a symbol in an equation to an element of an input tensor depends on the order of objects, dimensions and labels; the tests compare a few fixed models at a few points.", "anchors": ["cge_modeling/compile/sympytensor.py:compile_sympytensor_cge_functions", "cge_modeling/compile/sympytensor.py:sympy_cge_primitives_to_pytensor", "cge_modeling/compile/pytensor_tools.py:make_unpacked_to_packed_map", "cge_modeling/compile/pytensor.py:validate_pytensor_parsing_result", "cge_modeling/base/cge.py:get_unpacked_parent_object"]}
{"id": "C71", "title": "The residuals given to the solver are the written equations, at every combination of labels", "statement": "For a model whose equations are written with indexed symbols, sums and products over indices, and perhaps a numeraire, the residual function of the default backend returns, for every equation in the order written and for every combination of labels of its free indices in row-major order, the left side minus the right side of that equation at those labels, where every indexed symbol stands for the entry of its array in the flat vectors, a sum ranges over the labels of its index, and the numeraire is one.", "quantifier": "every set of coordinates, every list of variables, parameters and equations, every numeraire, every order in which sympy lists operators and substitutes, every pair of flat vectors", "why_tests_cant": "It composes five stages (standardizing, expansion of reductions, unpacking over labels, removal of indices, packing) for all expressions and all shapes; tests compare a few models that solve correctly, where an exchanged pair of labels of the same size goes unnoticed.", "anchors": ["cge_modeling/base/cge.py:CGEModel.add_sympy_equation", "cge_modeling/base/cge.py:CGEModel._simplify_unpacked_sympy_representation", "cge_modeling/base/cge.py:CGEModel._unpack_equations", "cge_modeling/base/primitives.py:_SympyEquation.update_dim_value", "cge_modeling/base/primitives.py:ModelObject.to_sympy", "cge_modeling/tools/sympy_tools.py:find_equation_dims", "cge_modeling/tools/sympy_tools.py:sub_all_eqs", "cge_modeling/tools/sympy_tools.py:indexed_variables_to_sub_dict"]}
{"id": "C72", "title": "A simulation that returns without a warning reports an equilibrium of the equations as written", "statement": "For a model on the default backend, when simulate is called with a correctly shaped initial state and a consistent request and uses the optimizer, and it returns without a warning, then step 0 of the result is the caller's initial state, the parameters of step 1 are the requested ones, and the variables of step 1 with these parameters satisfy every written equation at every combination of labels, up to the tolerance of the optimizer, with the numeraire equal to one.", "quantifier": "every model with indexed equations, sums, products and perhaps a numeraire, every request by values, differences or factors, every root finder or minimizer, with or without an Euler pass", "why_tests_cant": "It needs the composition of everything between the text of the equations and the labelled result; tests look at a few models for which the optimizer succeeds, and a minimizer that stops at a local minimum of the squared residuals does not appear there.", "anchors": ["cge_modeling/base/cge.py:simulate", "cge_modeling/base/cge.py:_solve_with_root", "cge_modeling/base/cge.py:_solve_with_minimize", "cge_modeling/base/function_wrappers.py:wrap_pytensor_func_for_scipy", "cge_modeling/compile/sympytensor.py:compile_sympytensor_cge_functions", "cge_modeling/tools/output_tools.py:list_of_array_to_idata"]}
{"id": "C73", "title": "An initial state that is not an equilibrium is refused, and from an equilibrium the Euler pass ends in one", "statement": "simulate raises an error if the initial state does not satisfy the model's equations, as its documentation says; from an equilibrium of a model with affine equations the Euler pass ends, at the requested parameters, in an equilibrium, and it warns only if steps were lost.", "quantifier": "every initial state with the right names and shapes, every request, every backend, every number of steps, every affine model with invertible Jacobian", "why_tests_cant": "The absence of a check is a statement about all initial states and all equations, and that the imbalance of the start is carried unchanged to the end is a statement about every number of steps; tests only start from calibrated equilibria.", "anchors": ["cge_modeling/base/cge.py:simulate", "cge_modeling/base/cge.py:_solve_with_euler_approximation", "cge_modeling/compile/numba.py:euler_approx", "cge_modeling/compile/euler.py:pytensor_euler_function_with_python_loop"]}
{"id": "C74", "title": "A simulation by Euler or Runge-Kutta steps approaches the equilibrium of the equations as written", "statement": "Take a model with indexed equations on a back-end that differentiates the residuals (default, JAX or scan), with as many scalar equations as scalar variables, and a call of simulate whose initial state lies on a continuous path of solutions over the straight line from the initial to the requested parameter values, along which all powers and logarithms in the equations are defined and the matrix of partial derivatives of the equations with respect to the variables is invertible. Then there is a C such that for all large n, simulate with n steps and no optimizer returns, at exactly the requested parameter values, with every element of every variable within C/n of its equilibrium value with Euler steps and within C/n^4 with Runge-Kutta steps; it warns only on the back-end that keeps the start in the trajectory.", "quantifier": "every model with indexed equations in plain form, every caller's heap and request that simulate accepts, every n from some M on", "why_tests_cant": "It is a limit statement over all step counts, models and requests, and it composes the whole path from the equations a user writes (expansion over labels, compilation, packing of arrays, scenario arithmetic, the step loop, unpacking) to the numbers returned; a test runs one model with a few step counts and compares with a solver that shares the same compiled functions.", "anchors": ["cge_modeling/base/cge.py:simulate", "cge_modeling/base/cge.py:_solve_with_euler_approximation", "cge_modeling/base/cge.py:unpacked_equation_symbols", "cge_modeling/compile/sympytensor.py:compile_sympytensor_cge_functions", "cge_modeling/compile/euler.py:_make_euler_matrices", "cge_modeling/compile/euler.py:pytensor_euler_function_with_python_loop"]}
{"id": "C75", "title": "The choice of back-end does not change the functions a model is solved with nor what simulate reports", "statement": "Take a model with indexed equations that both back-ends accept. Then for every variable vector and every parameter vector of the right lengths the functions compiled by the numba back-end (residuals, Jacobian, squared loss, gradient, Hessian, Hessian-vector product) return the numbers that the functions of the default back-end return, vectors of any other length are refused, and simulate with the root finder, with the minimiser and by Euler steps keeps on the numba back-end the guarantees it has on the default one. As stated this is false of the code in several places: a parameter called np breaks every numba function; a parameter that no equation uses makes the default back-end refuse the model but not the numba one; a model with a numeraire is refused at every call by the numba functions; with just-in-time compilation on, the numba Hessian-vector product refuses every call.", "quantifier": "every model with indexed equations, every variable, parameter and direction vector of real numbers, every caller's heap and request that simulate accepts, every root finder and minimiser, every large number of Euler steps", "why_tests_cant": "The two back-ends share almost no code (one prints source text that is executed, the other rewrites graphs), so agreement has to hold for every model and every point; the tests compare a handful of models at one point each, and run with just-in-time compilation off, which hides a function that refuses every call.", "anchors": ["cge_modeling/compile/numba.py:compile_numba_cge_functions", "cge_modeling/compile/numba.py:compile_numba_jacobian_function", "cge_modeling/compile/numba.py:compile_numba_error_function", "cge_modeling/compile/numba.py:compile_numba_gradient_function", "cge_modeling/compile/numba.py:compile_numba_hessp_function", "cge_modeling/compile/numba.py:compile_numba_euler_func", "cge_modeling/compile/numba_tools.py:numba_lambdify", "cge_modeling/compile/sympytensor.py:compile_sympytensor_cge_functions", "cge_modeling/base/cge.py:simulate"]}
{"id": "C76", "title": "A model means the same whether its equations are read as arithmetic on arrays or as indexed formulas", "statement": "Take a model whose equations are written once for the pytensor back-end (texts evaluated on whole arrays: sums and products as `(x).sum()`, `(x).prod()` or `(x).sum(axis=k)`, axes brought together by `x[None]`, `x[:, None]` and `x.ravel()`, entries picked by `x[0]`) and once for the default back-end (texts parsed by sympy: `Sum(x, (i, 0, n - 1))`, `Product(...)`, indices brought together by `x.subs({i:j})` or `x.subs([(i,k), ...])` between dims with the same labels, entries picked by `x.subs({i:0})` where the label at position 0 is \"0\"), where, after the replacements, axes that numpy puts together are those of the same index, and the axes of every equation follow the order of the coordinates. Then the pytensor back-end accepts the model and at every vector of variables and parameters of the right lengths returns the residuals the default back-end returns: left side minus right side for every combination of labels, in the order of the unpacked equation names. A model the pytensor back-end accepts has no unused variable or parameter, no unknown name, no object called pt, and every successful call returns one residual for every unpacked equation name. Without the conditions on the axes the property is false: the same text is accepted by both back-ends and demands different things. With other labels `x.subs({i:0})` is no entry at all.", "quantifier": "every model with equations as texts, every vector of variables and of parameters of real numbers", "why_tests_cant": "The two readings share only the text: one evaluates it with broadcasting rules that align axes from the right by position, the other binds indices by name. Whether they agree depends on dims, label counts and the order of the coordinates, and a silent disagreement shows only when two dims happen to have as many labels; the tests compare a few models with dims of different lengths.", "anchors": ["cge_modeling/compile/pytensor.py:vars_and_params_to_pytensor", "cge_modeling/compile/pytensor.py:cge_primitives_to_pytensor", "cge_modeling/compile/pytensor.py:validate_pytensor_parsing_result", "cge_modeling/compile/pytensor.py:compile_pytensor_cge_functions", "cge_modeling/compile/pytensor_tools.py:object_to_pytensor", "cge_modeling/compile/pytensor_tools.py:make_printer_cache", "cge_modeling/compile/pytensor_tools.py:flatten_equations", "cge_modeling/tools/parsing.py:normalize_eq", "cge_modeling/base/cge.py:add_sympy_equation"]}
{"id": "C77", "title": "The line plot shows the simulation that was run", "statement": "For the result of simulate with Euler steps and optimizer, plot_lines returns one panel for each variable asked for (all by default), in that order, each in its own place, titled with the new name where rename_dict has one, with a legend exactly where legends asks for one. In a panel there is one line for each element of the variable, whose points are that element's values at the steps that were kept, at the steps' own numbers; a green star at 0 at the element's initial value and a red star at the last kept step (at 1 if Euler steps are not shown) at the optimizer's value. The line starts at the green star. If initial_values is given, the green stars stand at those values. A group that is asked for but missing is an error, and so is a variable that is not in the result.", "quantifier": "every result of simulate, every model, every list of variable names, number of columns, renaming, choice of legends, back-end and number of steps", "why_tests_cant": "A figure has no natural oracle: the test only checks that a figure is returned. Whether every line carries the right element and starts where the simulation started depends on shapes, on the order of axes and on the back-end that produced the trajectory.", "anchors": ["cge_modeling/plotting.py:plot_lines", "cge_modeling/plotting.py:prepare_gridspec_figure", "cge_modeling/base/cge.py:simulate", "cge_modeling/base/utilities.py:variable_dict_to_flat_array"]}
{"id": "C78", "title": "Checking the result of a simulation checks the state the simulation ended in", "statement": "check_for_equilibrium on the optimizer part of what simulate returned evaluates the equations at the optimizer's answer and the requested parameter values, and on the Euler part at the variables and parameters of one and the same step, the last one that was kept. So if simulate with the root finder returned without a warning the check reports an equilibrium, for a tolerance no stricter than the root finder's; and if the check of an Euler part reports an equilibrium, the state of the last kept step is one.", "quantifier": "every model, back-end, number of steps, request accepted by simulate, optimizer, tolerance, and every pattern of NaNs in the trajectory", "why_tests_cant": "Rows with NaNs are dropped from variables and parameters separately, so the two groups can end at different steps; whether the check then combines values that belong together depends on where the numbers break down, which a test of a well behaved model never reaches.", "anchors": ["cge_modeling/base/cge.py:check_for_equilibrium", "cge_modeling/base/cge.py:simulate", "cge_modeling/base/utilities.py:variable_dict_to_flat_array"]}
{"id": "C79", "title": "simulate accepts every form of the initial state that it offers, and does the same with each", "statement": "initial_state may be a dict of values, a Result (as returned by calibrate) or an xarray Dataset. With a Result that has the same names and numbers as a dict, simulate returns what it returns for the dict, with and without the optimizer. The Result that calibrate returned for the model is accepted. A Dataset with the values of all variables and parameters is accepted. Anything else is refused with a ValueError.", "quantifier": "every model, every back-end and optimizer, every request, every Result, every calibrated model, every Dataset", "why_tests_cant": "The tests hand over dicts only; whether each form goes through every later step (validation of names, conversion to numbers, labelling of the optimizer's answer) is a question about all forms and all models.", "anchors": ["cge_modeling/base/cge.py:simulate", "cge_modeling/base/cge.py:calibrate", "cge_modeling/base/primitives.py:to_dict", "cge_modeling/tools/output_tools.py:optimizer_result_to_idata"]}
{"id": "C80", "title": "A scenario simulated in stages ends where the one-step scenario ends, and undoing a scenario leads back", "statement": "Simulate a scenario with Euler steps, take the state it ended in as the initial state of a second simulation. If the second asks for the first initial parameters, it ends in the first initial state. If it asks for other parameters, it ends in the equilibrium that one simulation straight to those parameters ends in. An initial state that is slightly off leads to a final state that is only slightly off.", "quantifier": "every model, initial state, pair of scenarios, back-end and numbers of steps", "why_tests_cant": "A test of one model and one number of steps sees a small difference and has to choose a tolerance; that the difference is exactly zero for linear models, vanishes like one over the number of steps (its fourth power with Runge-Kutta steps) for all smooth ones, and does not grow along the way, is a statement about all models and all step counts.", "anchors": ["cge_modeling/base/cge.py:simulate", "cge_modeling/base/cge.py:_solve_with_euler_approximation", "cge_modeling/compile/euler.py:pytensor_euler_function_with_python_loop", "cge_modeling/compile/numba.py:euler_approx"]}
{"id": "C81", "title": "Generated production blocks have constant returns to scale and no money illusion", "statement": "Take any state with nonnegative quantities and shares (elasticity other than zero and one) in which the equations returned by cobb_douglass, CES, leontief (inputs given as lists) or dixit_stiglitz hold, multiply all quantities (factors and output) by one positive number and all prices (factor prices and output price) by another, and leave shares, technology and elasticity as they are: the equations hold again. Conversely, they hold in no rescaled state unless they held before. For the Cobb-Douglas production function this needs shares that add up to one, and only then is it so.", "quantifier": "for every number of factors, every text of the arguments (composite prices and shares included), every backend and option of the generators, every state and every two positive scales", "why_tests_cant": "tests look at single texts or numbers; homogeneity is a statement about all states and all scale factors, and real exponents make the equality a theorem rather than a floating point coincidence", "anchors": ["cge_modeling/production_functions.py:cobb_douglass", "cge_modeling/production_functions.py:CES", "cge_modeling/production_functions.py:leontief", "cge_modeling/production_functions.py:dixit_stiglitz"]}
{"id": "C82", "title": "Factors are substituted with the elasticity the user asked for", "statement": "Between any two states that satisfy the equations a generator returns, with the same shares and elasticity, the logarithm of the ratio of two factor quantities changes by sigma times the change of the logarithm of the inverse ratio of their prices, where sigma is epsilon for CES and dixit_stiglitz, one for cobb_douglass (where moreover each factor's cost is its share of the revenue) and zero for leontief.", "quantifier": "for every number of factors or labels, every text of the arguments, every pair of states with positive values and every pair of factors", "why_tests_cant": "an elasticity is a statement about all pairs of states; a test with one epsilon or one state cannot tell epsilon from its reciprocal or its negative", "anchors": ["cge_modeling/production_functions.py:CES", "cge_modeling/production_functions.py:cobb_douglass", "cge_modeling/production_functions.py:leontief", "cge_modeling/production_functions.py:dixit_stiglitz"]}
{"id": "C83", "title": "The order of declarations and the way equations are written do not change a simulation", "statement": "Declare the variables, the parameters and the equations of a model in another order, and build it for any back-end: a simulation with Euler steps (or with Runge-Kutta steps on both sides) goes through the same states, array by array under the same names; the objective of the minimizer has the same value at the same arrays; check_for_equilibrium gives the same verdict and flags the same equations with the same errors. If moreover equations are written differently - sides swapped, multiplied by a nonzero number, terms moved to the other side, the limits of a sum in another order, a sum split into two, a constant factor taken out of a sum - the model has the same solutions and the Euler trajectory is still the same; only the verdict of check_for_equilibrium depends on the scale of the equations.", "quantifier": "for every indexed model, every permutation of its declarations, every rewriting of its equations, every request and every number of steps", "why_tests_cant": "there are n! orders and infinitely many ways to write an equation; the order enters through the packing, the Jacobians and the linear solve, and a test of one permutation of one model cannot tell a solver that uses positions consistently from one that happens to agree there", "anchors": ["cge_modeling/base/cge.py:simulate", "cge_modeling/base/cge.py:check_for_equilibrium", "cge_modeling/base/utilities.py:variable_dict_to_flat_array", "cge_modeling/compile/pytensor.py:pytensor_euler_step", "cge_modeling/compile/numba.py:euler_approx"]}
{"id": "C84", "title": "The generated production equations are those of a profit-maximising producer", "statement": "The docstrings say that the factor demands come from the profit maximization problem. At positive values the equations returned by cobb_douglass (production function, shares adding up to at most one), CES (production function or value definition, positive elasticity other than one), leontief and dixit_stiglitz hold exactly when the output can be produced from the factors and no other bundle of factors, with the output that can be produced from it, brings a higher profit at the given prices. With a negative elasticity the CES equations hold exactly when a producer who transforms the output into the factors maximises profits.", "quantifier": "for every number of factors, every argument text, every state, and against every other bundle of positive amounts", "why_tests_cant": "optimality compares with infinitely many other bundles at infinitely many prices; a test can only check the first-order formula at points, which is the formula the generator contains already", "anchors": ["cge_modeling/production_functions.py:cobb_douglass", "cge_modeling/production_functions.py:CES", "cge_modeling/production_functions.py:leontief", "cge_modeling/production_functions.py:dixit_stiglitz"]}
{"id": "C85", "title": "Cobb-Douglas is the CES block with unit elasticity", "statement": "The docstring of cobb_douglass says that it is the special case of CES with elasticity one, and that factors then keep their shares. At elasticity one the demands generated by CES and by cobb_douglass hold in the same states, and with the value definition the whole blocks do; every factor gets exactly its share of the value of the output. The production functions agree in the limit: with shares adding up to one, the output that CES gives for fixed factors tends to the Cobb-Douglas output as the elasticity tends to one.", "quantifier": "for every number of factors, every argument text, every state, every sequence of elasticities tending to one", "why_tests_cant": "a limit is not visible at any finite number of elasticities, and near one the formula is numerically ill-conditioned, so that a numeric test cannot come close to the limit", "anchors": ["cge_modeling/production_functions.py:cobb_douglass", "cge_modeling/production_functions.py:CES"]}
{"id": "C86", "title": "Equations with Max, Piecewise and log keep their value in the numba code", "statement": "The numba back-end prints expressions with its own printer. For an equation with Max, Piecewise or log in it the generated code has the value of the expression: the largest argument, the first piece whose condition holds, the logarithm. The zero printed for DiracDelta, the second derivative of Max, is that derivative at every point where it exists.", "quantifier": "for every number of pieces and arguments, every text of the arguments, every state", "why_tests_cant": "the text is glued together from fragments in a loop with a special case for the last one; how python groups the resulting chain of conditionals has to be known for every number of pieces and every combination of conditions", "anchors": ["cge_modeling/compile/numba_tools.py:NumbaFriendlyNumPyPrinter._print_Max", "cge_modeling/compile/numba_tools.py:NumbaFriendlyNumPyPrinter._print_Piecewise", "cge_modeling/compile/numba_tools.py:NumbaFriendlyNumPyPrinter._print_DiracDelta", "cge_modeling/compile/numba_tools.py:NumbaFriendlyNumPyPrinter._print_log", "cge_modeling/compile/numba_tools.py:numba_lambdify"]}
{"id": "C87", "title": "Products over an index have the right value and the right derivatives", "statement": "Importing the package registers a rewrite for all pytensor graphs: every product over an index is replaced by one that promises that no factor is zero. The value of a product, over all or some of its dims, is not changed by this for any array, zeros included; and the derivatives of a product with respect to its factors, which the Jacobians and gradients are made of, are the derivatives at every state.", "quantifier": "for every shape, every set of axes and every array", "why_tests_cant": "the promise is made for states that are known only when the model is solved; a test with positive numbers cannot notice it", "anchors": ["cge_modeling/compile/pytensor_tools.py:prod_to_no_zero_prod", "cge_modeling/compile/pytensor_tools.py:rewrite_pregrad"]}
{"id": "C88", "title": "A displayed table shows every datum in its own row and column", "statement": "A table made from a dictionary of columns has, under the headings, one row for every datum of a column, and the cell in row r and column c shows the datum r of column c, numbers as they are, words as text, formulas in LaTeX; columns of different lengths and data that cannot be shown are refused. equation_table lists the equations of the model in order, each once, with its number counted from one, its name without the dim markers and its formula.", "quantifier": "for every nested dictionary of columns, every number of rows, every list of equations, on every back-end", "why_tests_cant": "the columns are the leaves of a tree of arbitrary shape whose order depends on how the tree is walked; a test checks the shape of a few tables and never compares every cell", "anchors": ["cge_modeling/tools/output_tools.py:make_table", "cge_modeling/tools/output_tools.py:parse_data", "cge_modeling/tools/output_tools.py:build_tree", "cge_modeling/base/cge.py:equation_table"]}
{"id": "C89", "title": "unpack_string_inputs makes the names that the model gives to scalars", "statement": "For inputs that are strings, unpack_string_inputs returns for every input the names, in order, that a model gives to the scalars of an object with this name and these dims, so that equations written with them refer to the right scalars. Inputs that are lists come back unchanged, dims may be a single string, unknown dims are refused.", "quantifier": "for every list of inputs, every number of dims and labels", "why_tests_cant": "the order of the product of labels and the joining of names are made separately here and in the model; that they agree for every shape cannot be seen from samples", "anchors": ["cge_modeling/production_functions.py:unpack_string_inputs", "cge_modeling/tools/sympy_tools.py:make_indexed_name"]}
{"id": "C90", "title": "The rebalancing optimizer gets true derivatives", "statement": "For every SAM and every accepted combination of use_grad, use_hess, use_hessp, use_constraint_grad and method, balance_SAM(use_cvxpy=False) hands the optimizer exactly the derivatives asked for (second derivatives only with trust-constr), and each of them is the derivative of the function handed over with it: of the cross entropy and of both constraints.", "quantifier": "all SAMs, all vectors within the bounds, all option combinations", "why_tests_cant": "A test compares derivatives by finite differences at a few random vectors, where no account is in balance; the statement is about every vector, in particular about the balanced ones the optimizer is looking for.", "anchors": ["cge_modeling/tools/rebalance.py:_crossentropy_method_setup", "cge_modeling/tools/rebalance.py:_balance_with_scipy"]}
{"id": "C91", "title": "The residuals shown while and after solving are the residuals", "statement": "During an Euler simulation with the python loop the progress bar shows, before the first step and after each step, the root mean square of the residuals at the state recorded for that step, without changing the simulation; print_residuals prints beside the name of every equation its residual at the fitted values, for every model and back-end.", "quantifier": "all models, numbers of steps, states and residual functions", "why_tests_cant": "Progress output and printed residuals are not looked at by tests; the statement relates every figure shown to every state of every run.", "anchors": ["cge_modeling/compile/euler.py:get_step_statistics", "cge_modeling/compile/euler.py:pytensor_euler_function_with_python_loop", "cge_modeling/base/cge.py:print_residuals"]}
{"id": "C92", "title": "Simulations do not depend on the units of measurement", "statement": "If the equations are consistent in their units, then converting all initial values and requested values to other units (a factor per cell of each variable and parameter), with relative changes left as they are, converts every state of the simulated trajectory and the final state in the same way; a state solves the equations in the old units exactly if its conversion solves them in the new ones; and the verdict of check_for_equilibrium is the same in both.", "quantifier": "all models on all back-ends, conversion factors, initial states, scenarios and numbers of steps", "why_tests_cant": "Relates two runs for every model and every choice of units; a test compares two particular runs.", "anchors": ["cge_modeling/base/cge.py:CGEModel.simulate", "cge_modeling/compile/euler.py:pytensor_euler_step", "cge_modeling/compile/numba.py:euler_approx", "cge_modeling/base/cge.py:check_for_equilibrium"]}
{"id": "C93", "title": "Writing out indexed symbols gives every instance once, in row-major order", "statement": "enumerate_indexbase (and expand_indices) replaces each expression by its instances: one for each combination of labels (or numbers, with expand_using='index') of the indices that occur in it, in the order of the expressions and row-major within one expression, so that n expressions with one index of m labels give n * m results. make_indexbase_sub_dict maps each of them to a plain symbol of its own. _expand_var_by_index returns one object per combination of labels with the name, class and declared properties of the given one, for the coordinates of the model.", "quantifier": "all lists of indexed symbols, lists of indices and labels, all objects and coordinates", "why_tests_cant": "The number and order of results depends on which instances coincide, which is a question about all lists of expressions and labels; tests look at one or two expansions.", "anchors": ["cge_modeling/tools/sympy_tools.py:expand_indices", "cge_modeling/tools/sympy_tools.py:enumerate_indexbase", "cge_modeling/tools/sympy_tools.py:make_indexbase_sub_dict", "cge_modeling/base/utilities.py:_expand_var_by_index"]}
{"id": "C94", "title": "Which functions were compiled does not change what simulate does", "statement": "Whatever subset of the functions a model was built with, simulate with any options returns the result, writes the file and raises the errors that it would on the same model with everything compiled; what a call needs and what is not there yet is compiled on demand.", "quantifier": "all models, subsets of functions, options, scenarios, initial states and result directories", "why_tests_cant": "Compares two models over all combinations of compiled functions and call options; tests build one model with one set of functions.", "anchors": ["cge_modeling/base/cge.py:CGEModel.simulate", "cge_modeling/base/build.py:compile_model", "cge_modeling/base/cge.py:CGEModel._solve_with_root", "cge_modeling/base/cge.py:CGEModel._solve_with_minimize"]}
{"id": "C95", "title": "Objects are displayed under their own names, with the labels of their dims", "statement": "The displayed name of a variable or parameter is its name (or the latex_name given) with Greek letters as LaTeX commands and nothing else changed, followed by its dims with the labels they have; giving labels to dims later displays the same as declaring the object with them; objects that are displayed alike have the same name, dims and labels; extend_subscript=k moves the last k pieces of the name into the subscript; the description of an instance has the labels in place of the dim markers.", "quantifier": "every name, latex_name, list of dims, labels, extend_subscript, description, and every sequence of update_dim_value calls", "why_tests_cant": "All names and label texts, and all orders of updates.", "anchors": ["cge_modeling/base/primitives.py:ModelObject._initialize_latex_name", "cge_modeling/base/primitives.py:ModelObject._initialize_full_latex_name", "cge_modeling/base/primitives.py:ModelObject._initialize_description", "cge_modeling/base/primitives.py:ModelObject.update_dim_value", "cge_modeling/base/primitives.py:ModelObject.__repr__"]}
{"id": "C96", "title": "Objects are independent of each other and of the caller's dictionaries", "statement": "Declaring, copying or updating one variable or parameter never changes another one, in nothing that can be seen of it (displayed name, description, dim_vals, assumptions, symbol); what the caller does later with the dictionaries they passed has no influence; and every object stays consistent: it is displayed with the labels its symbol has, and its symbol has the assumptions its flags say.", "quantifier": "every sequence of declarations, copies, updates and dictionary assignments, with or without dictionaries passed for dim_vals and assumptions, including commands that raise", "why_tests_cant": "The interference depends on which objects hold the same dictionary and on the order of all later commands.", "anchors": ["cge_modeling/base/primitives.py:ModelObject.__post_init__", "cge_modeling/base/primitives.py:ModelObject._initialize_dim_vals", "cge_modeling/base/primitives.py:ModelObject.update_dim_value", "cge_modeling/base/primitives.py:ModelObject.to_sympy", "cge_modeling/base/primitives.py:ModelObject.copy"]}
{"id": "C97", "title": "Every back-end hands the optimizers the residuals and their exact derivatives", "statement": "On every back-end (default, numba, JAX, pytensor) the functions simulate() passes to scipy.optimize.root and scipy.optimize.minimize are, at every flat vector of variables and every flat vector of parameters: the residuals of the equations; half the sum of their squares; the matrix of partial derivatives of the residuals with one row per residual and one column per element of the flat vector; the gradient of half the sum of squares; its matrix of second derivatives; and that matrix times the direction scipy passes. All back-ends hand over the same; the Ops of compile_cge_model_to_pytensor_Op are the residuals and their Jacobian; and for a model written as array texts they are the values, and the derivatives of the values, that the indexed equations demand.", "quantifier": "every model with at least one variable element and one parameter, known dimensions, distinct names none of which is another variable's name followed by _point; every residual function, every parameter vector, every point where the residuals are differentiable (for the Hessian: twice continuously); for the symbolic back-ends every point where the equations are regular (no logarithm, root or power outside its smooth domain); every differentiation library that returns derivatives of the function it is given", "why_tests_cant": "A column or a direction in the wrong order, or a derivative with respect to the wrong argument, shows only for particular shapes and residuals; agreement at sampled points says nothing about the other points, shapes and orders of declaration.", "anchors": ["cge_modeling/compile/jax.py:compile_jax_cge_functions", "cge_modeling/compile/jax.py:make_jax_system_and_jacobian", "cge_modeling/compile/jax.py:jax_loss_grad_hessp", "cge_modeling/compile/jax.py:graph_to_jax_function", "cge_modeling/base/function_wrappers.py:wrap_scipy_func_for_pytensor", "cge_modeling/base/function_wrappers.py:wrap_pytensor_func_for_scipy", "cge_modeling/compile/pytensor.py:make_jvp", "cge_modeling/compile/pytensor.py:compile_pytensor_jacobian_function", "cge_modeling/compile/pytensor.py:compile_pytensor_gradient_function", "cge_modeling/compile/pytensor.py:compile_pytensor_hess_function", "cge_modeling/compile/pytensor.py:compile_pytensor_hessp_function", "cge_modeling/compile/pytensor.py:compile_cge_model_to_pytensor_Op", "cge_modeling/compile/pytensor_tools.py:make_jacobian", "cge_modeling/compile/sympytensor.py:compile_sympytensor_cge_functions", "cge_modeling/compile/numba.py:compile_numba_cge_functions"]}
{"id": "C98", "title": "A printed system of equations shows every equation with its own name and number", "statement": "latex_print_equations prints exactly one block for every equation description, in the given order, with that equation's name, formula and number, and from the printed text the whole list can be read back; it refuses with TypeError exactly those lists in which some description has no string as its name. display_info_as_table has one row for every description, in order, with its own LaTeX name and description, and the conversion for the notebook leaves rows without table commands as they are. False for texts that contain the LaTeX marks around them (nothing is escaped) and for captions with braces.", "quantifier": "every list of descriptions, every LaTeX printer, every table text", "why_tests_cant": "The functions are exported by the package but untested; that no equation is lost, repeated or shown under another number is a statement about all lists.", "anchors": ["cge_modeling/tools/output_tools.py:latex_print_equations", "cge_modeling/tools/output_tools.py:make_summary_table", "cge_modeling/tools/output_tools.py:convert_table_to_array", "cge_modeling/tools/output_tools.py:display_info_as_table"]}
{"id": "C99", "title": "A model completed by add calls is the model given everything at once", "statement": "A CGEModel made without objects and completed with add_variable(s), add_parameter(s) and add_equations \u2013 in any chunks, variables and parameters mixed in any way, the equations last, each call with or without overwrite \u2013 holds the same variables, parameters and equations in the same order as the model constructed with all of them. In every constructed model the unpacked objects belong to the unpacked names in order, and their numbers are n_variables, n_parameters and n_equations. False of the rest of the model: nothing that is added after construction is unpacked or counted, so get_symbol refuses every name of a model built step by step, the pytensor back-end refuses every call after an equation was added, and the numba functions refuse the longer vectors after a variable was added.", "quantifier": "every model, every way of splitting the declarations into calls, every equation parser, all data", "why_tests_cant": "The ways of splitting a model into calls cannot be enumerated, and the tests only look at the registered objects after single additions; that the unpacked state is left behind shows only in later calls.", "anchors": ["cge_modeling/base/cge.py:CGEModel.__init__", "cge_modeling/base/cge.py:add_variables", "cge_modeling/base/cge.py:add_parameters", "cge_modeling/base/cge.py:add_equations", "cge_modeling/base/cge.py:unpacked_variables", "cge_modeling/base/cge.py:get_symbol", "cge_modeling/compile/pytensor.py:cge_primitives_to_pytensor"]}
{"id": "C100", "title": "Labels take the place of indices in displayed names and descriptions, and nothing else changes", "statement": "sub_info_dicts(info, {i: label, ...}) returns one dictionary for every one given, in order, with the same name, its indices substituted, its LaTeX name with every index in a sub- or superscript replaced by its label, and its description with every index replaced by its label; every other character stays, labels are not searched again, and the order of the indices does not matter. The call is refused with KeyError exactly if a dictionary has no name, LaTeX name or description. get_info(name, values, [sector]) is the value that symbols() stored for this sector, otherwise the value stored for the name.", "quantifier": "every list of dictionaries, every LaTeX name and description, every number of indices and labels, every table of values", "why_tests_cant": "The texts are searched with one regular expression after another, so whether a character is left alone depends on every word, every label and the order of the searches; a test fixes one text and labels that happen not to contain an index.", "anchors": ["cge_modeling/tools/output_tools.py:sub_info_dicts", "cge_modeling/tools/output_tools.py:get_info", "cge_modeling/tools/sympy_tools.py:symbol", "cge_modeling/tools/sympy_tools.py:symbols"]}
{"id": "C101", "title": "The choice of the num\u00e9raire does not change real outcomes", "statement": "In a model in which only relative prices matter (multiplying all nominal variables by a positive number multiplies both sides of every equation, except the one that fixes the num\u00e9raire, by a power of it) it makes no difference which nominal variable is fixed to one: the solutions of the model with P = 1 are those of the model with Q = 1 with all nominal variables divided by Q, and simulate() with the same shock, started from corresponding states, reports the same quantities and the same relative prices as the number of Euler steps grows. A state solves a model with the equation N = 1 exactly if N is one in it and the rest solves the same model with numeraire=N.", "quantifier": "every model with unique names, every set of nominal variables, every pair of nominal variables without dims, every state and every continuous path of solutions on which the Jacobian is invertible, every number of steps from some number on", "why_tests_cant": "The two models have different Jacobians and take different Euler steps, so their results never agree exactly; that they agree in the limit, and that the second Jacobian is invertible wherever the first is, depends on the equations being homogeneous along the whole path.", "anchors": ["cge_modeling/base/cge.py:CGEModel.__init__", "cge_modeling/base/cge.py:CGEModel.simulate", "cge_modeling/compile/euler.py:symbolic_euler_approximation"]}
{"id": "C102", "title": "Equivalent systems of equations give the same results", "statement": "Writing the equations of a model in an equivalent form (multiplied by something that is not zero, one added to another, or, by Walras' law, one equation left out instead of another) changes neither its solutions nor, as the number of Euler steps grows, what simulate() reports. A Walrasian residual added to one equation is zero in every solution, and it makes no difference to which equation it is added, as long as the weights of the equations in Walras' law (the prices) are not zero.", "quantifier": "every pair of models with the same variables and parameters whose imbalances are continuous invertible combinations of each other, every state, every continuous path of solutions on which the Jacobian is invertible, every number of steps from some number on; for the residual every system of equations and weights that satisfy Walras' law", "why_tests_cant": "The two forms have different Jacobians and differ in every Euler step up to rounding or more; a test compares one rewriting at one calibration. That a residual is zero in a calibrated test model does not show that it is zero in every solution.", "anchors": ["cge_modeling/base/cge.py:CGEModel.simulate", "cge_modeling/compile/euler.py:symbolic_euler_approximation"]}
{"id": "C103", "title": "Equations and variables added to a model do not change the model they are added to", "statement": "Add variables, parameters and as many equations as new variables to a model, without touching its own equations (a report such as V = w * x, a price index, a block for a second country that does not feed back). The solutions of the larger model are exactly the solutions of the smaller model together with values of the new variables that satisfy the new equations. simulate() with Euler steps, from the same initial values to the same parameters in the same number of steps, gives the old variables in the larger model exactly the arrays they have in the smaller one, at every step. The larger model simulates whenever the smaller one does and the new equations determine the new variables (their derivative with respect to the new variables is invertible); for a report, an equation Z = formula in old variables and parameters, this needs no condition.", "quantifier": "every pair of models with unique names of which one extends the other, every num\u00e9raire, every back-end for either model, every state and every simulation request", "why_tests_cant": "The Jacobian of the larger model has another size and its linear solve mixes all equations, so that the old variables are unaffected depends on the block structure for every model and every point of the path; a test adds one variable to one model.", "anchors": ["cge_modeling/base/cge.py:CGEModel.__init__", "cge_modeling/base/cge.py:CGEModel.simulate", "cge_modeling/compile/euler.py:symbolic_euler_approximation", "cge_modeling/compile/euler.py:pytensor_euler_function_with_python_loop"]}
{"id": "C104", "title": "The order of the labels and of the dims in coords does not change the results", "statement": "Take a model and list the labels of its dims, or the dims themselves, in another order in coords (sectors sorted alphabetically instead of as in the SAM). If every sum and product in the equations ranges over all labels of its index, the two models are the same model: at arrays that have the same entry for the same label, the equations (known by their names with the labels filled in) are off by the same amounts, the objective of the minimizer has the same value, check_for_equilibrium() gives the same verdict and flags the same equations, and simulate() with Euler steps, given the same values for the same labels, returns for both and gives the same entry for the same label in every state. A sum over part of the labels is by position and means something else after reordering.", "quantifier": "every model with plain indexed equations, every reordering of dims and of labels within dims, every numeraire, every state, every request, every back-end for either model", "why_tests_cant": "The flat vectors, the unpacked equations and the Jacobian are permuted in ways that depend on the dims of every variable, and any place where positions are mixed up gives plausible numbers for the wrong sector; a test compares one pair of orders in one model.", "anchors": ["cge_modeling/base/cge.py:CGEModel.simulate", "cge_modeling/base/cge.py:CGEModel._unpack_equations", "cge_modeling/tools/sympy_tools.py:expand_obj_by_indices", "cge_modeling/base/utilities.py:flat_array_to_variable_dict"]}
{"id": "C105", "title": "The names of variables, parameters, dims and labels do not change the results", "statement": "Rename the variables and parameters of a model, its dims and its labels, giving different things different names, and replace the names in the equations. As long as the new names satisfy the naming rules (in particular the scalar names NAME_LABEL made from them do not collide), the model is the same: at the same arrays its equations are off by the same amounts one by one, the objective of the minimizer has the same value, check_for_equilibrium() gives the same verdict and flags as many equations with the same errors, and simulate() with Euler steps returns the same arrays under the new names, at every step.", "quantifier": "every model with plain indexed equations, every injective renaming of objects, dims and labels, every numeraire, every state, every request, every back-end for either model", "why_tests_cant": "Names are used as dictionary keys, are joined with labels to names of scalars, substituted in texts, sorted and parsed, so that a name can influence the result in many places; a test can only try some names in one model.", "anchors": ["cge_modeling/base/cge.py:CGEModel.simulate", "cge_modeling/base/cge.py:CGEModel._unpack_objects", "cge_modeling/base/cge.py:CGEModel._unpack_equations", "cge_modeling/tools/sympy_tools.py:expand_obj_by_indices"]}
{"id": "C106", "title": "Labels that the equations treat alike are treated alike by the results", "statement": "Let the equations of a model not single out any of the labels that are exchanged with each other: no equation picks one of them by name, and sums and products over a dim range over all its labels. Then exchanging the labels of the data exchanges the labels of the results and does nothing else: the mirror image of an equilibrium is an equilibrium, and simulate() with Euler steps maps a request and its mirror image to results that are each other's mirror image, at every step. In particular sectors that start alike and are shocked alike stay alike.", "quantifier": "every model with plain indexed equations, every exchange of labels within their dims that no equation notices, every numeraire, every state, every request, every back-end", "why_tests_cant": "It concerns all models, all ways of exchanging labels and all data at once; the code treats labels by position and by name in many places (scalar names, positions in flat vectors, filled-in equations), any of which could favour one of them only for some shapes or values.", "anchors": ["cge_modeling/base/cge.py:CGEModel.simulate", "cge_modeling/base/cge.py:CGEModel._unpack_equations", "cge_modeling/tools/sympy_tools.py:enumerate_indexbase"]}
{"id": "C107", "title": "A parameter can be written as a number, or a variable can be fixed at it, without changing the results", "statement": "An exogenous quantity can be put into a model in three ways: as a parameter k, as a number written in the equations, or as a variable z with an extra equation z = p that fixes it (for every label, if it has dims). The three describe the same economy. With k at the value q, a state solves the model with the parameter exactly if it solves the model with q written instead; and a state solves the model with the fixed variable exactly if it solves the model with the parameter and z = p. simulate() with Euler steps that starts with k = q and ends with k = q gives every variable the same array, at every step, in the model with the number; and simulate() of the model with the fixed variable, started with z = p, gives every other variable the same array as the model with the parameter, and z the value of p, at every step.", "quantifier": "every model with plain indexed equations, every rational number, every parameter with dims in the order of the coords, every numeraire, every state, every request, every back-end for either model", "why_tests_cant": "A fixed variable changes the size of the Jacobian, and a parameter written as a number removes a column from the other one, so that the steps agree depends on the linear algebra at every point of the path for every model; a test compares two models at one shock.", "anchors": ["cge_modeling/base/cge.py:CGEModel.__init__", "cge_modeling/base/cge.py:CGEModel.simulate", "cge_modeling/compile/euler.py:symbolic_euler_approximation", "cge_modeling/compile/euler.py:pytensor_euler_function_with_python_loop"]}
{"id": "C108", "title": "A model whose dims have one label each gives the results of the scalar model", "statement": "A model written with dims can be used with a single label in each of them: one sector, one household, one region. It is then the scalar model obtained by dropping the dims of all objects, the indices in the equations and the sums and products over the one label. The two have the same solutions: every equation is off by the same amount at the same numbers. The minimizer is given the same objective, check_for_equilibrium() gives the same verdict with the same errors, and simulate() with Euler steps passes through the same numbers at every step; what the scalar model returns as a scalar, the model with dims returns as an array of shape (1,), (1, 1), ... with that number as its entry.", "quantifier": "every set of dims with one label each, every list of objects with any of these dims, every list of plain indexed equations over them whose sums and products range over the label, every numeraire, every state, every request, every back-end for either model", "why_tests_cant": "Dims with a single label take the same path as any other through the expansion of equations, the names of scalars, the packing of arrays and the compiled functions, while scalars skip most of it; that nothing is broadcast, squeezed or dropped on the way has to hold for every list of objects and every equation, and a test has one small model.", "anchors": ["cge_modeling/base/cge.py:CGEModel.simulate", "cge_modeling/base/cge.py:CGEModel.check_for_equilibrium", "cge_modeling/base/cge.py:CGEModel._unpack_equations", "cge_modeling/tools/sympy_tools.py:expand_obj_by_indices", "cge_modeling/tools/sympy_tools.py:substitute_reduce_ops", "cge_modeling/base/utilities.py:flat_array_to_variable_dict"]}
{"id": "C109", "title": "A model with dims gives the results of the model written out label by label with scalars", "statement": "Dims are only a short way of writing: X with dim i and labels a, b stands for the scalars X_a and X_b, an equation with the index i for one equation per label, and a Sum or Product over i for the terms one after the other. The model that the user gets by writing all of this out, with scalar variables and parameters and no coords, has the same equations to solve: each is off by the same amount at the same numbers, in the same order. The minimizer is given the same objective, check_for_equilibrium() gives the same verdict with the same errors, and simulate() with Euler steps passes through the same numbers at every step; the elements of the arrays that the model with dims returns are the scalars that the model written out returns under the names X_a, X_b, ...", "quantifier": "every set of dims and labels, every list of objects with any of these dims, every list of plain indexed equations over them with sums and products over any ranges of labels, every scalar numeraire, every state, every request, every back-end for either model", "why_tests_cant": "It ties the expansion of equations, the names given to the elements, the order of the elements in the packed arrays and the substitution of sums together for every shape: one transposed dim or one label out of order leaves all shapes right and gives wrong numbers. A test compares one model with one expansion written by hand.", "anchors": ["cge_modeling/base/cge.py:CGEModel.simulate", "cge_modeling/base/cge.py:CGEModel.check_for_equilibrium", "cge_modeling/base/cge.py:CGEModel._unpack_equations", "cge_modeling/tools/sympy_tools.py:expand_obj_by_indices", "cge_modeling/tools/sympy_tools.py:substitute_reduce_ops", "cge_modeling/tools/sympy_tools.py:indexed_variables_to_sub_dict", "cge_modeling/base/utilities.py:flat_array_to_variable_dict"]}
{"id": "C110", "title": "The order in which the dims of an object are declared does not change the results", "statement": "Take a model and declare some of its objects with their dims in another order: X with dims (j, i) instead of (i, j), its indices in the equations written as X[j, i], its values handed over transposed. Every equation is then off by the same amount as before, in the same order. The minimizer is given the same objective, check_for_equilibrium() gives the same report with the same equations and errors, and simulate() with Euler steps passes, at every step, through arrays with the same entries for the same labels. The values do have to be handed over in the new order: an array still in the old order is accepted when the dims have as many labels as each other, and is read with its axes mixed up.", "quantifier": "every set of dims and labels, every list of objects, every choice of a new order of dims for each object separately, every list of plain indexed equations with sums and products over any ranges of labels, every state, every request, every back-end for either model", "why_tests_cant": "Arrays of a transposed object are packed in another order, its elements get other names and its Jacobian columns move. With as many labels in i as in j, an axis mixed up anywhere leaves all shapes right. A test compares one model with one transposition, often with symmetric data.", "anchors": ["cge_modeling/base/cge.py:CGEModel.simulate", "cge_modeling/base/cge.py:CGEModel.check_for_equilibrium", "cge_modeling/base/cge.py:CGEModel._unpack_equations", "cge_modeling/tools/sympy_tools.py:indexed_variables_to_sub_dict", "cge_modeling/base/utilities.py:flat_array_to_variable_dict"]}
