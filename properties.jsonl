{"id": "C01", "title": "Every solve uses the current parameter values", "statement": "After any sequence of cpg_update_*, cpg_solve and settings calls, the problem data the solver works on during a cpg_solve is exactly the canonicalization of the user parameter values at that moment: no update is lost, delayed or applied twice.", "quantifier": "all sequences of API calls, all parameter values, all affine canonicalization maps, every supported solver's update structure, every subset of changing canonical parameters, every iteration order of the generator's sets", "why_tests_cant": "Staleness depends on the interleaving of updates and solves and on which canonical parameters happen to change; histories are unbounded and tests only run update-all/solve.", "anchors": ["cvxpygen/utils.py:write_solve_def", "cvxpygen/utils.py:write_update_structure", "cvxpygen/utils.py:analyze_pus", "cvxpygen/solvers/osqp.py:parameter_update_structure", "cvxpygen/solvers/scs.py:parameter_update_structure", "cvxpygen/solvers/ecos.py", "cvxpygen/solvers/clarabel.py", "cvxpygen/solvers/qoco.py"]}
{"id": "C02", "title": "Generated update code pushes every outdated parameter", "statement": "Executing the generated solver-update block once, every changing canonical parameter whose outdated flag is set is passed to the solver by at least one executed solver call.", "quantifier": "all truth assignments of the outdated flags and of the solver-initialised condition, all changing/constant patterns, all iteration orders, all six solver update structures", "why_tests_cant": "The block is generated per problem; each change pattern produces different nested if/else code, so tests exercise only a few of the exponentially many shapes.", "anchors": ["cvxpygen/utils.py:write_update_structure", "cvxpygen/utils.py:analyze_pus", "cvxpygen/utils.py:extend_functions_if_false"]}
{"id": "C03", "title": "Generated update code is well nested", "statement": "The text emitted for the solver-update block is balanced C in which every else belongs to the if of the same update function, i.e. it parses to: if the function's condition holds, call it, otherwise run its fallback functions.", "quantifier": "all supported solvers' update structures, all change patterns, all set iteration orders", "why_tests_cant": "Brace placement is computed from set differences at each recursion level; a misplaced else silently changes semantics for particular change patterns only.", "anchors": ["cvxpygen/utils.py:write_update_structure"]}
{"id": "C04", "title": "Solver initialisation comes first", "statement": "For solvers with an explicit initialisation step, the first cpg_solve initialises the solver before any other solver call, and while the solver is initialised no later cpg_solve initialises it through the initialisation branch again.", "quantifier": "all histories, all change patterns, all set iteration orders", "why_tests_cant": "Python sets have arbitrary (hash-seed dependent) iteration order, a test sees only one order.", "anchors": ["cvxpygen/utils.py:write_update_structure", "cvxpygen/solvers/scs.py", "cvxpygen/solvers/ecos.py", "cvxpygen/solvers/qoco.py"]}
{"id": "C05", "title": "Unchanged data is not pushed again", "statement": "If no parameter was updated since the last solve, cpg_solve makes no solver data-update call.", "quantifier": "all histories, all change patterns, all solvers", "why_tests_cant": "The redundant call leaves results numerically unchanged (only slower / loses warm start), so result-comparing tests pass.", "anchors": ["cvxpygen/utils.py:write_solve_def", "cvxpygen/solvers/scs.py", "cvxpygen/solvers/ecos.py", "cvxpygen/solvers/osqp.py"]}
{"id": "C06", "title": "Update marks everything that depends on it", "statement": "cpg_update_<name> marks as outdated every canonical parameter whose value can depend on that user parameter; equivalently a canonical parameter not marked has the same value before and after the update.", "quantifier": "all affine maps (sparse, arbitrary explicit zeros), all parameter layouts, all values", "why_tests_cant": "A missed dependency only shows for the one parameter/canonical pair and only when that parameter is updated alone.", "anchors": ["cvxpygen/canonicalizer.py:_update_adjacency_matrix", "cvxpygen/canonicalizer.py:_extract", "cvxpygen/utils.py:write_solve_def"]}
{"id": "C07", "title": "Constant canonical parameters are really constant", "statement": "A canonical parameter for which no canonicalization code is generated has a value independent of all user parameters, so the value written at generation time stays correct for every later parameter value.", "quantifier": "all affine maps, all parameter values", "why_tests_cant": "Tests use a few problems; the claim is about every mapping matrix.", "anchors": ["cvxpygen/canonicalizer.py:_process_canonical_parameters", "cvxpygen/utils.py:write_workspace_def"]}
{"id": "C08", "title": "Canonicalization code computes the affine map", "statement": "cpg_canonicalize_<p> stores in each entry of the canonical parameter exactly the product of the corresponding mapping row with the user parameter vector (with trailing 1), reads nothing else and leaves all other memory unchanged.", "quantifier": "all sparse maps (any row pointers, column indices, values) and all parameter vectors", "why_tests_cant": "Universally quantified over matrices and vectors of any size.", "anchors": ["cvxpygen/utils.py:write_canonicalize"]}
{"id": "C09", "title": "Compressed sparse canonical matrices lose nothing", "statement": "The sparse matrix the solver is given (pattern fixed at generation time, values recomputed at run time from the mapping without its all-zero rows) equals the full canonical matrix for every parameter value, including parameter values at which entries that were non-zero at generation time vanish and vice versa.", "quantifier": "all sparsity patterns, all maps, all parameter values; whole-matrix and equality/inequality split storage", "why_tests_cant": "Pattern mistakes only appear at parameter values different from those at generation time.", "anchors": ["cvxpygen/canonicalizer.py:_set_default_values", "cvxpygen/canonicalizer.py:_process_canonical_parameters"]}
{"id": "C10", "title": "Split storage keeps row blocks apart", "statement": "When the constraint matrix is split into equality and inequality blocks, the two stored matrices stacked on top of each other are the original constraint matrix (up to the solver's sign) for every parameter value.", "quantifier": "all patterns, all numbers of equality/inequality rows, all parameter values", "why_tests_cant": "Index arithmetic on arbitrary sparse data.", "anchors": ["cvxpygen/canonicalizer.py:_set_default_values", "cvxpygen/solvers/_interface.py:SolverInterface.get_affine_map"]}
{"id": "C11", "title": "QP form means the user's constraints", "statement": "A point satisfies l <= A x <= u for the generated QP data iff it satisfies the equality rows and inequality rows of the CVXPY canonical problem at the same parameter values.", "quantifier": "all canonical problems, all parameter values, all points", "why_tests_cant": "Sign conventions must hold for all data; feasibility comparison at sampled optima does not establish it.", "anchors": ["cvxpygen/solvers/_interface.py:QPCanonMixin.get_affine_map", "cvxpygen/solvers/_interface.py:augment_vector_parameter", "cvxpygen/canonicalizer.py:_process_canonical_parameters"]}
{"id": "C12", "title": "Conic form means the user's constraints", "statement": "A point satisfies the generated conic data (A x + s = b with s in the cone; for ECOS/QOCO A x = b and h - G x in the cone) iff it satisfies the CVXPY conic form at the same parameter values.", "quantifier": "all canonical problems, all parameter values, all points, all cones", "why_tests_cant": "As above.", "anchors": ["cvxpygen/solvers/_interface.py:SolverInterface.get_affine_map", "cvxpygen/canonicalizer.py:_get_constraint_info"]}
{"id": "C13", "title": "Every constraint datum is used exactly once", "statement": "Each entry of CVXPY's reduced constraint data goes to exactly one of the generated canonical parameters, at the position given by its row/column; nothing is dropped or duplicated (l additionally repeats the equality part of u).", "quantifier": "all reduced data index sets, all n_eq", "why_tests_cant": "Claim about arbitrary index arrays.", "anchors": ["cvxpygen/canonicalizer.py:_get_constraint_info", "cvxpygen/solvers/_interface.py:get_affine_map"]}
{"id": "C14", "title": "Equality rows have coinciding bounds", "statement": "On equality rows the generated lower and upper bounds are equal for every parameter value; on inequality rows the lower bound is minus infinity.", "quantifier": "all maps, all parameter values, all histories", "why_tests_cant": "l and u are canonicalized by separate code with separate flags.", "anchors": ["cvxpygen/solvers/_interface.py:QPCanonMixin.get_affine_map"]}
{"id": "C15", "title": "Reported objective value is the user's objective", "statement": "CPG_Info.obj_val after a solve equals the user's objective (including constant offset, and with the correct sign for maximization) at the returned point whenever the solver reports the value of its own canonical objective.", "quantifier": "all objectives (min/max), all constant offsets, all parameter values and histories", "why_tests_cant": "Requires the offset to be refreshed at every solve for every history.", "anchors": ["cvxpygen/utils.py:write_solve_def", "cvxpygen/canonicalizer.py:_process_canonical_parameters"]}
{"id": "C16", "title": "cpg_obj agrees with the reported objective", "statement": "The canonical objective evaluator cpg_obj returns the same value as the user's objective for the point it is given.", "quantifier": "all problems", "why_tests_cant": "Only checked on minimization problems without constant.", "anchors": ["cvxpygen/utils.py:write_solve_def"]}
{"id": "C17", "title": "Primal variables are read from their own slice", "statement": "After cpg_solve each user variable's result is exactly the part of the solver's solution vector that CVXPY assigned to it (column-major; symmetric variables expanded from their upper triangle), and different variables never share or overlap entries.", "quantifier": "all variable sets, sizes, shapes, symmetric attributes, all solution vectors", "why_tests_cant": "Universally quantified over shapes and vectors.", "anchors": ["cvxpygen/canonicalizer.py:_get_primal_variable_info", "cvxpygen/utils.py:write_solve_def", "cvxpygen/utils.py:write_workspace_def"]}
{"id": "C18", "title": "Dual variables are read from their own rows", "statement": "Each constraint's dual value is read from exactly the solver rows of that constraint; the ranges of different constraints are disjoint and inside the solver's dual vectors, for joint and for equality/inequality split duals.", "quantifier": "all constraint lists, all sizes, all splits", "why_tests_cant": "Arbitrary number of constraints and sizes.", "anchors": ["cvxpygen/canonicalizer.py:_get_dual_variable_info"]}
{"id": "C19", "title": "Parameter memory is partitioned", "statement": "Each user parameter owns a contiguous block of the parameter vector, blocks are disjoint, cover the vector up to the final constant 1, and cpg_update_<name>(idx, val) with an in-range index changes only that parameter's entry idx.", "quantifier": "all parameter lists, sizes, indices, values", "why_tests_cant": "Layouts are unbounded.", "anchors": ["cvxpygen/canonicalizer.py:_get_parameter_info", "cvxpygen/utils.py:write_solve_def"]}
{"id": "C20", "title": "updated_params updates exactly the named parameters", "statement": "cpg_solve(prob, updated_params=L) transfers the current values of exactly the parameters in L (all if omitted) and the solve uses the previously transferred values for the others; an unknown name raises an error and changes no parameter, setting or solution.", "quantifier": "all histories of Python-level calls, all lists (with repetitions), all values", "why_tests_cant": "Requires reasoning on histories with partial updates and failed calls.", "anchors": ["cvxpygen/templates/cpg_solver.py.jinja2:cpg_solve", "cvxpygen/utils.py:write_module_def"]}
{"id": "C21", "title": "Settings do not leak between solves", "statement": "Each cpg_solve(prob, **kwargs) runs with the default settings overridden by exactly this call's kwargs, independent of earlier calls; an unknown setting raises an error before solving.", "quantifier": "all histories of calls, all settings dictionaries", "why_tests_cant": "Histories are unbounded and settings interact with default resets.", "anchors": ["cvxpygen/templates/cpg_solver.py.jinja2:cpg_solve", "cvxpygen/utils.py:write_solve_def", "cvxpygen/solvers/_interface.py:stgs_names_enabled"]}
{"id": "C22", "title": "Code generation is independent of earlier generations", "statement": "The code generated for a problem depends only on the arguments of this generate_code call and not on which problems were generated earlier in the same process.", "quantifier": "all sequences of generation calls", "why_tests_cant": "State shared through class attributes only shows for particular orders of generations in one process.", "anchors": ["cvxpygen/utils.py:write_update_structure", "cvxpygen/solvers/_interface.py:configure_settings", "cvxpygen/writer.py:_write_workspace"]}
{"id": "C23", "title": "A failing generation does not affect later ones", "statement": "If one generation call raises an exception, later generation calls behave as if it had not happened.", "quantifier": "all sequences of succeeding and failing calls, all exception points", "why_tests_cant": "Requires failing at every intermediate point.", "anchors": ["cvxpygen/writer.py:_write_workspace", "cvxpygen/generator.py:generate"]}
{"id": "C24", "title": "Solver preconditioning never alters canonical parameters", "statement": "For solvers that scale problem data in place, the canonical parameters themselves are not modified by the solver, so that a later solve starts from unscaled values.", "quantifier": "all sizes of canonical parameters, all histories, every in-place scaling", "why_tests_cant": "Depends on parameter size and on aliasing of pointers, invisible unless a size-one parameter is scaled by a factor other than one.", "anchors": ["cvxpygen/utils.py:write_solve_def", "cvxpygen/utils.py:write_workspace_def"]}
{"id": "C25", "title": "Two-stage canonicalization equals direct canonicalization", "statement": "With two-stage differentiation, the solver's canonical data as a function of the user parameters is the composition of the user-to-QP map and the QP-to-solver map, for every parameter value.", "quantifier": "all pairs of affine maps, all parameter values", "why_tests_cant": "Composition identity over all matrices.", "anchors": ["cvxpygen/canonicalizer.py:_merge", "cvxpygen/canonicalizer.py:_get_osqp_problem"]}
{"id": "C26", "title": "Two-stage update marks everything that depends on it", "statement": "With two-stage differentiation, updating a user parameter marks every solver-level and QP-level canonical parameter that depends on it, and generation succeeds for every problem supported without differentiation.", "quantifier": "all adjacency relations, all problems", "why_tests_cant": "As C06, on the composition.", "anchors": ["cvxpygen/canonicalizer.py:_merge", "cvxpygen/utils.py:write_solve_def"]}
{"id": "C27", "title": "Parameter gradients are the adjoint of canonicalization", "statement": "The parameter gradient assembled from gradients w.r.t. canonical parameters is the transpose of the canonicalization map applied to them: <dp, v> equals the sum over canonical parameters of <dcanon, map v> for every direction v.", "quantifier": "all sparse maps, all gradients, all directions", "why_tests_cant": "Adjoint identity over all vectors.", "anchors": ["cvxpygen/writer.py:_write_gradient_def"]}
{"id": "C28", "title": "Differentiation formula is the adjoint of the KKT system", "statement": "For a QP with fixed active set, the gradients w.r.t. P, q, A, l, u written by cpg_gradient satisfy the adjoint identity: for every perturbation of the data, the inner product with the gradient equals the inner product of the incoming variable gradient with the first-order change of the solution.", "quantifier": "all QPs, all active sets, all perturbations, all incoming gradients", "why_tests_cant": "Derivative identities must hold for all directions and data.", "anchors": ["cvxpygen/templates/cpg_osqp_grad_compute.c.jinja2:cpg_osqp_gradient"]}
{"id": "C29", "title": "Factor updates are exact for every history of active sets", "statement": "In exact arithmetic, after any sequence of cpg_gradient calls the maintained LDL factorization is a factorization of the KKT matrix of the currently active constraints (inactive ones decoupled), i.e. gradients do not depend on which constraints were active in earlier calls.", "quantifier": "all histories of active sets, all KKT matrices for which the factorization exists", "why_tests_cant": "Errors accumulate along unbounded histories of adds and deletes.", "anchors": ["cvxpygen/templates/cpg_osqp_grad_compute.c.jinja2:cpg_ldl_add", "cvxpygen/templates/cpg_osqp_grad_compute.c.jinja2:cpg_ldl_delete", "cvxpygen/templates/cpg_osqp_grad_compute.c.jinja2:cpg_rank_1_update"]}
{"id": "C30", "title": "Sparse factor edits are exact", "statement": "Inserting an entry in the sparse factor makes exactly that entry stored and changes no other entry of the represented matrix; removing a numerically zero entry changes nothing of the represented matrix; column pointers and sortedness stay valid.", "quantifier": "all valid sparse matrices, all positions, all sequences of insertions/removals", "why_tests_cant": "Array shifting and pointer updates for arbitrary patterns.", "anchors": ["cvxpygen/templates/cpg_osqp_grad_compute.c.jinja2:insert_nonzero", "cvxpygen/templates/cpg_osqp_grad_compute.c.jinja2:insert_nonzero_and_value", "cvxpygen/templates/cpg_osqp_grad_compute.c.jinja2:remove_nonzero"]}
{"id": "C31", "title": "Fill-in mask addresses are unique and in range", "statement": "The linear index used for the fill-in mask maps the strictly lower triangular positions one-to-one onto 0..N(N-1)/2-1.", "quantifier": "all N and all positions", "why_tests_cant": "For all N.", "anchors": ["cvxpygen/templates/cpg_osqp_grad_compute.c.jinja2:symbolic_ldl_update", "cvxpygen/writer.py:_write_gradient_workspace_def"]}
{"id": "C32", "title": "Factor storage never overflows", "statement": "The memory reserved for the sparse factor suffices for every sequence of fill-ins: at most one entry per strictly lower triangular position is ever stored.", "quantifier": "all histories of insertions", "why_tests_cant": "Memory-safety over unbounded histories.", "anchors": ["cvxpygen/utils.py:write_L_def", "cvxpygen/templates/cpg_osqp_grad_compute.c.jinja2:insert_nonzero"]}
{"id": "C33", "title": "KKT matrix follows data updates", "statement": "After refreshing, the KKT matrix used for differentiation contains the current P (plus regularization on its diagonal) and A in all blocks and nothing else.", "quantifier": "all sparsity patterns, all values, all previous contents", "why_tests_cant": "All patterns and histories.", "anchors": ["cvxpygen/templates/cpg_osqp_grad_compute.c.jinja2:cpg_P_to_K", "cvxpygen/templates/cpg_osqp_grad_compute.c.jinja2:cpg_A_to_K", "cvxpygen/writer.py:_write_gradient_workspace_def"]}
{"id": "C34", "title": "Gradients use the data of the solve they belong to", "statement": "cpg_gradient differentiates at the parameter values used by the latest cpg_solve, for every interleaving of update, solve and gradient calls.", "quantifier": "all interleavings of update/solve/gradient", "why_tests_cant": "Unbounded interleavings, flags are shared between two consumers.", "anchors": ["cvxpygen/writer.py:_write_gradient_def", "cvxpygen/utils.py:write_solve_def"]}
{"id": "C35", "title": "Gradient is independent of previously active bounds", "statement": "The gradients w.r.t. l and u are attributed to the bound that is active in the current solution, irrespective of which bound was active in earlier gradient calls.", "quantifier": "all histories of active sets", "why_tests_cant": "Needs a history in which a constraint switches directly from one bound to the other.", "anchors": ["cvxpygen/templates/cpg_osqp_grad_compute.c.jinja2:cpg_osqp_gradient"]}
{"id": "C36", "title": "LDL helper factorizes", "statement": "utils.ldl returns L unit lower triangular and D with L diag(D) L^T = A for every symmetric matrix whose computed pivots are nonzero.", "quantifier": "all sizes, all symmetric matrices over any field", "why_tests_cant": "Algebraic identity for all sizes.", "anchors": ["cvxpygen/utils.py:ldl"]}
{"id": "C37", "title": "Explicit solver clamps parameters to their declared bounds", "statement": "In explicit mode, after cpg_update_<name>(idx, v) the stored value lies within the declared lower/upper bound and equals v when v is within bounds.", "quantifier": "all bounds lower<=upper, all values, all histories of updates", "why_tests_cant": "All reals and all histories.", "anchors": ["cvxpygen/utils.py:write_solve_def", "cvxpygen/solvers/pdaqp.py:_get_parameter_delta_bounds"]}
{"id": "C38", "title": "Explicit solution covers the declared parameter set", "statement": "In explicit mode the region over which the explicit solution is computed contains the image of every parameter value within the declared bounds.", "quantifier": "all bounds, all affine maps, all parameter values", "why_tests_cant": "Interval arithmetic over all sign patterns.", "anchors": ["cvxpygen/solvers/pdaqp.py:_get_parameter_delta_bounds", "cvxpygen/solvers/pdaqp.py:generate_code"]}
{"id": "C39", "title": "Explicit mode returns the requested variables", "statement": "If only some variables/entries are requested to be stored in explicit mode, the results returned for the stored entries are those of the full solution.", "quantifier": "all lists of requested variables, all solutions", "why_tests_cant": "All index selections.", "anchors": ["cvxpygen/solvers/pdaqp.py:generate_code", "cvxpygen/utils.py:write_module_def"]}
{"id": "C40", "title": "Explicit duals belong to the right constraints", "statement": "In explicit mode with duals, the value saved for a user constraint is the multiplier of that constraint, regardless of parameter-bound constraints and of constraints that vanish.", "quantifier": "all constraint lists", "why_tests_cant": "All orders of constraints.", "anchors": ["cvxpygen/solvers/pdaqp.py:generate_code", "cvxpygen/utils.py:solver_py_context", "cvxpygen/canonicalizer.py:_get_dual_variable_info"]}
{"id": "C41", "title": "Explicit mode keeps equality constraints as equalities", "statement": "Every equality row kept in the explicit problem is declared as an equality to the explicit solver, no inequality row is.", "quantifier": "all patterns of zero rows", "why_tests_cant": "All masks.", "anchors": ["cvxpygen/solvers/pdaqp.py:generate_code"]}
{"id": "C42", "title": "Eliminating fixed parameters keeps the explicit problem unchanged", "statement": "Removing components of the parameter vector whose range is a single point from the explicit problem does not change its constraints and objective for any admissible parameter value.", "quantifier": "all bounds, all admissible values", "why_tests_cant": "All values.", "anchors": ["cvxpygen/solvers/pdaqp.py:generate_code", "cvxpygen/utils.py:write_solve_def"]}
{"id": "C43", "title": "Explicit gradient is the adjoint of the region's affine law", "statement": "In explicit mode the parameter gradient is the transpose of the affine law of the region the gradient call refers to, composed with the canonicalization; it depends on no other region and not on later solves.", "quantifier": "all regions, all affine laws, all gradients, all interleavings", "why_tests_cant": "Adjoint identity over all vectors; interleavings.", "anchors": ["cvxpygen/writer.py:_write_gradient_explicit", "cvxpygen/utils.py:write_module_def"]}
{"id": "C44", "title": "Numbers survive printing", "statement": "The values written to the generated C source deviate from the generation-time values by at most 0.5e-20 each, are printed with the right sign, and infinite values are replaced by the documented large finite values.", "quantifier": "all finite values and infinities", "why_tests_cant": "All values.", "anchors": ["cvxpygen/utils.py:write_vec_def", "cvxpygen/utils.py:replace_inf"]}
{"id": "C45", "title": "Name prefixes keep generated solvers apart", "statement": "Different prefixes (or no prefix) yield valid, different C symbol prefixes, so that solvers generated with different prefixes can be linked together.", "quantifier": "all pairs of prefixes", "why_tests_cant": "All strings.", "anchors": ["cvxpygen/generator.py:_build_config", "cvxpygen/solvers/osqp.py", "cvxpygen/utils.py:write_workspace_def"]}
{"id": "C46", "title": "Solver selection is total", "statement": "Every solver argument either selects the documented solver interface (case-insensitive, explicit mode included) or raises the documented ValueError; the generated mode (explicit, gradient) does not depend on the case of the name.", "quantifier": "all strings and None, all option combinations", "why_tests_cant": "All strings.", "anchors": ["cvxpygen/generator.py:_resolve_solver", "cvxpygen/canonicalizer.py:_get_interface_class", "cvxpygen/generator.py:generate"]}
{"id": "C47", "title": "Rejected problems leave existing generated code alone", "statement": "If generate_code raises because the problem or solver is not supported, the previous content of code_dir is untouched.", "quantifier": "all failure reasons, all modes", "why_tests_cant": "All failure points.", "anchors": ["cvxpygen/generator.py:generate", "cvxpygen/generator.py:_setup_folder", "cvxpygen/solvers/pdaqp.py:generate_code"]}
{"id": "C48", "title": "Cone list matches the declared number of cones", "statement": "The number of cones declared to the solver equals the number of cones listed and their dimensions sum to the number of constraint rows.", "quantifier": "all cone dimension combinations", "why_tests_cant": "All combinations of cone counts.", "anchors": ["cvxpygen/solvers/clarabel.py"]}
{"id": "C49", "title": "Text rewriting helpers do what they say", "statement": "Cutting at an expression keeps exactly the text before its first occurrence (or everything if absent); multiple replacement equals simultaneous replacement when replacements do not interact.", "quantifier": "all texts and expressions", "why_tests_cant": "All strings.", "anchors": ["cvxpygen/utils.py:cut_from_expr", "cvxpygen/utils.py:multiple_replace"]}
{"id": "C50", "title": "Python-side flattening matches the generated layout", "statement": "The order in which the Python wrapper flattens a parameter and reshapes a variable is the order in which the generated code indexes it, for every shape; flattening followed by reshaping is the identity.", "quantifier": "all shapes, all entries", "why_tests_cant": "All shapes.", "anchors": ["cvxpygen/templates/cpg_solver.py.jinja2:get_param_value", "cvxpygen/utils.py:write_dense_mat_def", "cvxpygen/canonicalizer.py:_get_parameter_info"]}
{"id": "C51", "title": "Backward pass uses its own forward pass", "statement": "When forward and backward calls of the differentiable wrapper are interleaved, each backward call differentiates the problem instance of its own forward call.", "quantifier": "all interleavings of forward and backward calls", "why_tests_cant": "Unbounded interleavings.", "anchors": ["cvxpygen/templates/cpg_solver.py.jinja2:forward", "cvxpygen/templates/cpg_solver.py.jinja2:backward", "cvxpygen/utils.py:write_module_def"]}
{"id": "C52", "title": "Distinct user names give distinct generated objects", "statement": "Parameters and variables with different names never share generated storage, and generation does not silently merge two different parameters or variables.", "quantifier": "all lists of parameter/variable names", "why_tests_cant": "All name lists.", "anchors": ["cvxpygen/canonicalizer.py:_get_parameter_info", "cvxpygen/canonicalizer.py:_get_primal_variable_info", "cvxpygen/utils.py:write_workspace_def"]}
{"id": "C53", "title": "Struct initialisers line up with their fields", "statement": "In every generated struct definition, each field is initialised by the value that was supplied for it; NULL-valued fields are not cast.", "quantifier": "all field lists", "why_tests_cant": "All lists.", "anchors": ["cvxpygen/utils.py:write_struct_def"]}
{"id": "C54", "title": "Declared and defined functions agree", "statement": "Every function that is called in generated code is defined in generated code under the same name; every prototype has a definition.", "quantifier": "all configurations (prefix, solver, gradient mode, which parameters change)", "why_tests_cant": "All configurations.", "anchors": ["cvxpygen/utils.py:write_solve_prot", "cvxpygen/utils.py:write_solve_def", "cvxpygen/utils.py:write_workspace_prot"]}
{"id": "C55", "title": "Incoming gradients reach the differentiated system", "statement": "At every gradient computation the right-hand side represents exactly the linear functional of the sensitivities given by the user since the previous computation (zero where none was given), for every variable, including symmetric ones.", "quantifier": "all variable lists, all sequences of sensitivity updates and gradient computations", "why_tests_cant": "Unbounded call sequences and sizes.", "anchors": ["cvxpygen/writer.py:_write_gradient_def", "cvxpygen/writer.py:_write_gradient_explicit", "cvxpygen/utils.py:write_module_def", "cvxpygen/canonicalizer.py:_get_primal_variable_info"]}
{"id": "C56", "title": "A backward call uses its own gradients only", "statement": "What the compiled gradient function receives in a backward call are the entries of this call's gradients, independent of earlier forward or backward calls and of gradients assigned before.", "quantifier": "all call histories, all sets of variables in the context", "why_tests_cant": "Unbounded histories.", "anchors": ["cvxpygen/templates/cpg_solver.py.jinja2:backward", "cvxpygen/templates/cpg_solver.py.jinja2:cpg_gradient"]}
{"id": "C57", "title": "The registered solve method is the code just generated", "statement": "After generating with a Python wrapper, the solve method registered with the problem runs the code just generated, whatever was generated before in the same process and whatever path was given as code_dir.", "quantifier": "all histories of generations and changes of directory, all code_dir values", "why_tests_cant": "Unbounded histories.", "anchors": ["cvxpygen/compiler.py:register", "cvxpygen/generator.py:_run_compilation", "cvxpygen/utils.py:solver_py_context"]}
{"id": "C58", "title": "Numbers and arrays are treated alike in all generated files", "statement": "For every user variable, dual variable and parameter, the declarations in the C headers and C++ headers, the initial workspace, the retrieval functions, the Python module and the example program agree on whether it is a single number or an array, and update functions are called with as many arguments as they have; so the generated code compiles.", "quantifier": "all problems (names, shapes, sizes) and configurations", "why_tests_cant": "All shapes and configurations; each file decides by a size of its own.", "anchors": ["cvxpygen/utils.py:write_workspace_def", "cvxpygen/utils.py:write_solve_def", "cvxpygen/utils.py:write_module_def", "cvxpygen/utils.py:example_c_context", "cvxpygen/templates/cpg_module.hpp.jinja2", "cvxpygen/templates/cpg_example.c.jinja2"]}
{"id": "C59", "title": "Any choice of variables to store is possible in explicit mode", "statement": "With the option stored_vars, generation succeeds for every choice of the problem's variables, and exactly the chosen variables remain, each with its own properties (offset, size, symmetry).", "quantifier": "all lists of variables, all choices", "why_tests_cant": "All subsets.", "anchors": ["cvxpygen/solvers/pdaqp.py:generate_code"]}
{"id": "C60", "title": "Explicit mode stays within its arrays", "statement": "In explicit mode, evaluating the solution, retrieving variables, evaluating the objective, setting sensitivities, computing gradients and printing in the example program access sol_x, cpg_dx and PDAQP's table of affine laws only within their lengths, whichever entries of whichever variables are stored.", "quantifier": "all problems, all choices of stored variables and entries, all affine laws", "why_tests_cant": "An access beyond the end of a static array usually goes unnoticed; all sizes.", "anchors": ["cvxpygen/solvers/pdaqp.py:generate_code", "cvxpygen/utils.py:write_workspace_def", "cvxpygen/utils.py:write_solve_def", "cvxpygen/writer.py:_write_gradient_explicit", "cvxpygen/templates/cpg_example.c.jinja2"]}
{"id": "C61", "title": "The example program solves the instance given at generation", "statement": "The generated C program compiles its own parameter values in; when it calls the solver, the data handed over are those of the problem at the parameter values at generation (as printed), for any parameters and any solver. In explicit mode this requires that the values lie within the parameter bounds.", "quantifier": "all parameter lists (names, shapes, values), affine maps, solvers", "why_tests_cant": "All shapes: the program sets entry 0 of every parameter by a flattened value, the workspace is written from another flattening.", "anchors": ["cvxpygen/utils.py:example_c_context", "cvxpygen/templates/cpg_example.c.jinja2", "cvxpygen/canonicalizer.py:_get_parameter_info"]}
{"id": "C62", "title": "Struct fields exist, and problems with different prefixes can be used together", "statement": "Every initialiser and every access to a field in the generated C code, the Python module and the example program names a field of a type that the library defines, and canonical parameters that are read have initial values. A file that includes the headers of several libraries generated with different prefixes sees the structs of each of them (names, places and types of the fields) as the library itself does.", "quantifier": "all problems and configurations, all lists of libraries", "why_tests_cant": "All combinations of problems: the types carry no prefix and are behind one guard.", "anchors": ["cvxpygen/utils.py:write_workspace_prot", "cvxpygen/utils.py:write_workspace_def", "cvxpygen/utils.py:write_solve_def", "cvxpygen/utils.py:write_module_def", "cvxpygen/templates/cpg_example.c.jinja2", "README.md"]}
{"id": "C63", "title": "The Python solve method stores the solution in the problem", "statement": "After a call of the generated solve method, every variable of the problem holds the value computed for it, every constraint holds its own dual value (unless dual values are not generated), problem.value and problem.status are those of this solve, and the objective value is returned; nothing of earlier solves remains, and the value is infinite exactly for the solvers' values +-1e30.", "quantifier": "all lists of variables and constraints, all results, all states of the problem before", "why_tests_cant": "Dual values are assigned by position in problem.constraints, whatever the constraints are.", "anchors": ["cvxpygen/canonicalizer.py:_get_dual_variable_info", "cvxpygen/utils.py:solver_py_context", "cvxpygen/templates/cpg_solver.py.jinja2"]}
{"id": "C64", "title": "stored_vars takes any index that CVXPY takes", "statement": "In explicit mode the option stored_vars accepts variables and any entries of them as selected by an index (integers, slices, lists, masks); exactly the entries that the index selects are stored, and the user gets their values at their places in the variable.", "quantifier": "all shapes, all indices", "why_tests_cant": "All shapes and indices: indices are parsed by case and computed by a product of ranges.", "anchors": ["cvxpygen/solvers/pdaqp.py:generate_code"]}
{"id": "C65", "title": "Names in the generated code are names, and attributes used from Python exist", "statement": "Whatever names variables and parameters have in CVXPY, every name in the generated C, C++ and Python files is one that the languages accept (an identifier and no keyword). Every attribute that the generated Python file uses is made available by the compiled module, everything made available is a member of the struct in question, and every struct mentioned is written, in every mode.", "quantifier": "all problems, names, prefixes, solvers and modes", "why_tests_cant": "All names: they are inserted into three languages without any check.", "anchors": ["cvxpygen/utils.py:write_module_def", "cvxpygen/utils.py:module_hpp_context", "cvxpygen/utils.py:solver_py_context", "cvxpygen/templates/cpg_module.hpp.jinja2", "cvxpygen/templates/cpg_solver.py.jinja2", "cvxpygen/generator.py:_build_config"]}
{"id": "C66", "title": "Several generated modules can be imported into one Python process if the prefixes differ", "statement": "In one Python process, any sequence of generated modules (for any problems, solvers and modes) can be imported together if and only if they were generated with pairwise different values of prefix; of modules with the same prefix exactly the first can be imported, and failing imports do not affect others.", "quantifier": "all sequences of generated modules", "why_tests_cant": "All sequences of modules: names of structs of one problem and prefix must never coincide with those of another.", "anchors": ["cvxpygen/utils.py:write_module_def", "cvxpygen/generator.py:_build_config", "README.md"]}
{"id": "C67", "title": "Parameters in quadratic terms take effect", "statement": "For every problem with a quadratic objective, the solver minimizes the quadratic form of the current parameter values: after code generation and after any sequence of parameter updates, whichever entries the matrix of the quadratic form has.", "quantifier": "all patterns of the matrix, all values, all sequences of updates", "why_tests_cant": "All matrices and histories: the data are handed over for the whole matrix, solvers keep or expect its upper triangle.", "anchors": ["cvxpygen/canonicalizer.py:_set_default_values", "cvxpygen/solvers/osqp.py:generate_code", "cvxpygen/solvers/osqp.py:parameter_update_structure", "cvxpygen/solvers/scs.py:define_workspace", "cvxpygen/solvers/qoco.py:generate_code"]}
{"id": "C68", "title": "The generated method replaces problem.solve", "statement": "For every history of assignments of arrays to parameters and of calls of the generated solve method with any updated_params and settings, every call does what CVXPY's own solve does with the same solver at the parameter values last transferred: each entry of each variable, each dual value, the value, the status and the returned value are those that the solver's result means for the user's problem; calls with unknown names, inadmissible settings or missing parameter values raise and leave the problem as it is.", "quantifier": "all problems, parameters with shapes and attributes, solvers (as functions of data, settings and the number of the solve), histories", "why_tests_cant": "The composition of all parts: flattening, transfer, canonicalization, update of the solver, retrieval, reshaping and storing must fit together for every history.", "anchors": ["cvxpygen/templates/cpg_solver.py.jinja2", "cvxpygen/utils.py:write_module_def", "cvxpygen/utils.py:write_solve_def", "cvxpygen/utils.py:write_update_structure", "cvxpygen/canonicalizer.py:_get_primal_variable_info", "cvxpygen/canonicalizer.py:_get_dual_variable_info"]}
{"id": "C69", "title": "Explicit mode delivers solutions of the user's problem, whatever the history", "statement": "In explicit mode, for every history of assignments to parameters and of calls of the generated solve method with parameters within the declared bounds, the requested entries of the variables in the problem object are those of an optimal point of the user's problem at the parameter values last transferred, if the problem is feasible; calls with unknown names or missing values raise and leave the problem as it is; problems that explicit mode cannot handle are rejected at generation.", "quantifier": "all problems, bounds, requests of stored variables, parameter values and histories; PDAQP as any function that solves the problem it is given", "why_tests_cant": "The composition of clamping, canonicalization, elimination of rows and of components of theta, bounds of theta, storage of a subset of entries: each region of parameters and each history matters.", "anchors": ["cvxpygen/solvers/pdaqp.py:generate_code", "cvxpygen/solvers/pdaqp.py:_get_parameter_delta_bounds", "cvxpygen/utils.py:write_solve_def", "cvxpygen/utils.py:write_module_def", "cvxpygen/templates/cpg_solver.py.jinja2"]}
{"id": "C70", "title": "Gradients of parameters are those of the last solution, whatever the history", "statement": "With gradient=True (one stage), for every history of assignments to parameters and to gradients of variables, of calls of the generated solve method and of gradient computations: cpg_gradient gives every parameter an array of its shape, the gradient, with respect to the parameters, of the scalar function of the variables whose gradient was assigned, at the problem solved last; values assigned since then and gradients computed before do not matter. If a variable has no gradient or one of a wrong size, the call raises and nothing changes.", "quantifier": "all problems with diagonal quadratic form, parameters with shapes and attributes, solvers, histories, gradients of variables", "why_tests_cant": "The composition of solving, flags of changed matrices, stored factorization, updates of the factorization, transfer of gradients and reshaping: each history takes another path.", "anchors": ["cvxpygen/templates/cpg_solver.py.jinja2", "cvxpygen/writer.py:_write_gradient_def", "cvxpygen/utils.py:write_solve_def", "cvxpygen/utils.py:write_module_def", "cvxpygen/utils.py:write_workspace_def"]}
{"id": "C71", "title": "In explicit mode, gradients of parameters are those of the region of the last solve, whatever the history", "statement": "With gradient=True and explicit=True, for every history of assignments to parameters and to gradients of variables, of calls of the generated solve method and of cpg_gradient: cpg_gradient gives every parameter an array of its shape, the gradient, with respect to the parameters, of the scalar function of the stored entries whose gradient was assigned, along the affine law of the critical region of the last solve (or of the region passed, as returned by an earlier solve); values assigned and gradients computed in between do not matter. If a stored variable has no gradient or one of a wrong size, the call raises and nothing changes.", "quantifier": "all problems, requests of stored entries, tables of critical regions, parameters with shapes and attributes, histories", "why_tests_cant": "The composition of bounds, canonicalization, search tree, stored entries, masks of rows and of theta, un-canonicalization and reshaping for every critical region and history.", "anchors": ["cvxpygen/templates/cpg_solver.py.jinja2", "cvxpygen/writer.py:_write_gradient_explicit", "cvxpygen/utils.py:write_module_def", "cvxpygen/solvers/pdaqp.py:_patch_pdaqp_for_gradient", "cvxpygen/solvers/pdaqp.py:generate_code"]}
{"id": "C72", "title": "In explicit mode, CVXPYlayers' backward pass differentiates its own forward pass", "statement": "With gradient=True and explicit=True, for every interleaving of forward and backward calls by CVXPYlayers, of several layers on the same problem, with each other and with the user's own assignments, solves and gradients: a forward call returns the values of the variables for the parameters it was given, and the backward call of any earlier forward call returns the gradients of its parameters along the affine law of the critical region of that forward call, for the gradients passed to this backward call.", "quantifier": "all problems, tables of critical regions, contexts, interleavings", "why_tests_cant": "Layers are called in batches: all forward calls of a batch precede its backward calls, and the generated module has only one state.", "anchors": ["cvxpygen/templates/cpg_solver.py.jinja2", "cvxpygen/writer.py:_write_gradient_explicit", "cvxpygen/utils.py:write_module_def"]}
{"id": "C73", "title": "Outside of explicit mode, CVXPYlayers' backward pass differentiates its own forward pass", "statement": "With gradient=True and the OSQP solver, for every interleaving of forward and backward calls by CVXPYlayers, of several layers on the same problem, with each other and with the user's own assignments, solves and gradients, with or without a solution passed: a forward call returns the values of the variables for the parameters it was given, and the backward call of any earlier forward call returns the gradients of its parameters at the solution of that forward call, for the gradients passed to this backward call.", "quantifier": "all problems, solutions, contexts, interleavings", "why_tests_cant": "Layers are called in batches: all forward calls of a batch precede its backward calls, and the generated module has only one state.", "anchors": ["cvxpygen/templates/cpg_solver.py.jinja2", "cvxpygen/writer.py:_write_gradient_def", "cvxpygen/utils.py:write_module_def"]}
{"id": "C74", "title": "Generating code affects code_dir only and leaves exactly the new code there", "statement": "For every file system, every history of calls of generate_code with any solvers, options and directories, failed calls included: a call changes nothing outside its code_dir; if it fails, the code that was there before is still there; if it succeeds, code_dir contains the documented files and directories of this configuration and nothing of an earlier generation, independently of what was there, and this stays so while other directories are generated.", "quantifier": "all file systems, configurations, histories of calls, errors", "why_tests_cant": "Tests generate each configuration once into a new directory.", "anchors": ["cvxpygen/generator.py:_setup_folder", "cvxpygen/writer.py:write", "cvxpygen/solvers/*.py:generate_code"]}
{"id": "C75", "title": "The generated build file names exactly the generated sources", "statement": "For every configuration, after successful generation the sources and headers listed in c/CMakeLists.txt, together with the example, are exactly the files in c/src and c/include, and every subdirectory it adds has a build file of its own.", "quantifier": "all configurations and file systems", "why_tests_cant": "Lists of files are written in two places, under different conditions; only the combinations that are compiled in tests are compared.", "anchors": ["cvxpygen/templates/CMakeLists.txt.jinja2", "cvxpygen/writer.py:write"]}
{"id": "C76", "title": "The generated documentation describes the generated code", "statement": "For every configuration, each type, function and file documented in the generated README.html exists in the generated code with the documented fields and arguments, the documented import statement loads the generated code, and copying the listed files is enough to build the code in another project.", "quantifier": "all configurations, names, sizes, directories", "why_tests_cant": "README.html is written by code of its own; no test compares it with the C code.", "anchors": ["cvxpygen/utils.py:readme_context", "cvxpygen/templates/README.html.jinja2", "cvxpygen/utils.py:write_workspace_prot", "cvxpygen/utils.py:write_solve_prot"]}
{"id": "C77", "title": "Every header that a generated file includes is found", "statement": "After a successful generation, whatever compiler sees a generated file (C through CMake, C++ through setup.py), each header in quotes that the file includes is found on the search path, and CVXPYgen's own headers are those of this code.", "quantifier": "all configurations, solvers, directories", "why_tests_cant": "Include lines, CMake's and setup.py's directories are written by separate code per solver; tests compile few combinations and do not see which file was found.", "anchors": ["cvxpygen/templates/CMakeLists.txt.jinja2", "cvxpygen/templates/setup.py.jinja2", "cvxpygen/utils.py:write_workspace_prot", "cvxpygen/writer.py:_write_gradient_def", "cvxpygen/solvers/_interface.py:cmake_context_extra"]}
{"id": "C78", "title": "Generated code can be embedded in a CMake project as documented", "statement": "Adding the directory of generated code to any CMake project with add_subdirectory exposes, under the names with the prefix, exactly the generated directories, headers and sources and those of the solver, and changes nothing else; several codes with different prefixes can be added to one project and used together.", "quantifier": "all projects, directories, prefixes, configurations, build files of solver libraries", "why_tests_cant": "Tests only build generated code as a project of its own.", "anchors": ["cvxpygen/templates/CMakeLists.txt.jinja2", "cvxpygen/writer.py:_update_cmake", "cvxpygen/utils.py:write_canon_cmake", "cvxpygen/solvers/pdaqp.py:generate_code", "cvxpygen/solvers/clarabel.py:generate_code", "cvxpygen/templates/README.html.jinja2"]}
{"id": "C79", "title": "problem.solve(method='CPG') solves the problem on which it is called", "statement": "After generating code for any number of problems in one process, problem.solve(method='CPG') stores in the problem the solution of its own code for the current values of its parameters, and changes no other problem.", "quantifier": "all histories of generating or registering code, assigning values and solving, any number of problems", "why_tests_cant": "Tests generate code for one problem at a time and solve that one.", "anchors": ["cvxpygen/compiler.py:register", "cvxpygen/templates/cpg_solver.py.jinja2", "README.md"]}
{"id": "C80", "title": "The Python module that is built runs the C code in the directory", "statement": "After any sequence of generating code, changing sources and building, with any of the steps of builds failing, the Python module in the directory is made of the sources in the directory, or there is none, or the build ended with an error.", "quantifier": "all histories of generating, changing, removing and building, all outcomes of cmake, compilers and linker", "why_tests_cant": "Tests build freshly generated code once, with a working compiler.", "anchors": ["cvxpygen/compiler.py:compile", "cvxpygen/templates/setup.py.jinja2", "cvxpygen/generator.py:_run_compilation"]}
{"id": "C81", "title": "Repeated solves need bounded memory", "statement": "The number of solver objects on the heap after any history of updates and solves does not exceed a bound that does not depend on the history.", "quantifier": "all generated programs for all six solvers, all histories of updates and solves of any length", "why_tests_cant": "Tests solve a few times; memory that is never released shows after many solves only, on targets with little memory.", "anchors": ["cvxpygen/solvers/scs.py:parameter_update_structure", "cvxpygen/solvers/clarabel.py:solve_function_call", "cvxpygen/solvers/ecos.py:ECOSInterface.__init__", "cvxpygen/solvers/qoco.py:QOCOInterface.__init__", "README.md"]}
{"id": "C82", "title": "Generating code does not change the problem", "statement": "After a call of generate_code, successful or not, every parameter of the problem has the value it had before, or none if it had none.", "quantifier": "all problems, all parameter values present or missing, all places where generation can raise, one and two stages, any number of generations", "why_tests_cant": "Tests set all parameter values before generating code.", "anchors": ["cvxpygen/canonicalizer.py:_get_parameter_info", "cvxpygen/canonicalizer.py:_extract", "cvxpygen/canonicalizer.py:_get_osqp_problem", "cvxpygen/generator.py:generate"]}
{"id": "C83", "title": "Programs generated from the same problem behave alike", "statement": "Two programs generated from the same problem with the same arguments hand the same data to the solver at every solve of every history, although Python iterates over sets of names in an order that differs from process to process.", "quantifier": "all six solvers, all iteration orders of sets, all contents of uninitialised memory, all histories of updates and solves, all values drawn for parameters without value", "why_tests_cant": "A test sees one order of sets per process and one draw of random values.", "anchors": ["cvxpygen/utils.py:analyze_pus", "cvxpygen/utils.py:write_update_structure", "cvxpygen/canonicalizer.py:_get_parameter_info"]}
{"id": "C84", "title": "With derivatives, every solver returns the solution of the user's problem", "statement": "If code with derivatives is generated for a solver other than OSQP, the problem is restated in a second stage. After cpg_solve the variables, the dual variables and the vectors used for derivatives are those of the user's problem, and all accesses are inside of the arrays.", "quantifier": "all solvers, all solutions of the second problem, all positions of the user's variables in it, all variables (scalar, vector, symmetric) and constraints", "why_tests_cant": "All tests of derivatives use OSQP or the explicit mode.", "anchors": ["cvxpygen/canonicalizer.py:_merge", "cvxpygen/writer.py:_write_workspace", "cvxpygen/writer.py:_write_solve", "cvxpygen/writer.py:_write_gradient_def", "cvxpygen/utils.py:write_solve_def"]}
{"id": "C85", "title": "Limits on parameters in explicit mode hold for every stored value", "statement": "In explicit mode, constraints l <= p and p <= u with constants l and u (README) are accepted for every parameter p. Whatever is passed to cpg_update_<p>, the stored entry meets all limits stated for this entry, an entry that meets them is stored as it is, and limits of one parameter do not affect another one.", "quantifier": "all lists of constraints, all shapes of parameters and constants, all entries, all values passed", "why_tests_cant": "Tests of explicit mode use limits that are numbers or vectors, each stated once; the slices of other shapes and of sparse parameters never occur.", "anchors": ["cvxpygen/solvers/pdaqp.py:_get_parameter_delta_bounds", "cvxpygen/utils.py:write_solve_def", "README.md:205-212"]}
{"id": "C86", "title": "Settings functions of the C interface take effect until the next call", "statement": "In a C program, the value passed to cpg_set_solver_<s> is the value of the setting s at all following solves until s is set again or cpg_set_solver_default_settings is called. Before the first call and after a reset, each enabled setting has the default of the interface. Other settings, and the data of the problem, are not affected.", "quantifier": "all programs: any order of update, set, reset and solve calls; all solvers, modes, patterns of changing canonical parameters, values and sets of enabled settings", "why_tests_cant": "Tests set options from Python, where every call resets and sets all options before the solve; sequences of C calls between solves, and programs that never reset, are not run.", "anchors": ["cvxpygen/utils.py:write_solve_def", "cvxpygen/utils.py:write_workspace_def", "cvxpygen/solvers/scs.py:SCSInterface", "cvxpygen/solvers/osqp.py:OSQPInterface", "cvxpygen/solvers/qoco.py:QOCOGENInterface"]}
{"id": "C87", "title": "The compiled program computes with the numbers of the problem", "statement": "The coefficients of the maps from user to canonical parameters, the constant canonical parameters and the initial values of the user parameters are written to C as text. After compilation, every solve works on the canonicalization, with the coefficients of the problem, of the values that the user set.", "quantifier": "all problems, coefficients and values of type double, all solvers, all histories of update and solve calls, every compiler that rounds literals to nearest", "why_tests_cant": "Tests use coefficients of ordinary size and compare solutions with tolerances of 1e-3 or so; a coefficient that is printed with few digits or as 0.000... goes unnoticed.", "anchors": ["cvxpygen/utils.py:write_vec_def", "cvxpygen/utils.py:write_mat_def", "cvxpygen/utils.py:write_workspace_def", "cvxpygen/utils.py:write_canonicalize"]}
{"id": "C88", "title": "Instances without solution are reported as CVXPY reports them", "statement": "If the solver finds the instance infeasible or unbounded, then after problem.solve(method='CPG') the value is infinite with the sign that CVXPY gives it for the sense of the objective, the status is CVXPY's 'infeasible' or 'unbounded', and the variables have no values; the value of a solved instance is finite.", "quantifier": "all solvers, both kinds, both senses, all constants of the objective, all outputs of the solver, all earlier states of the problem object, every rounding to nearest", "why_tests_cant": "Tests solve feasible and bounded instances only.", "anchors": ["cvxpygen/templates/cpg_solver.py.jinja2:76-117", "cvxpygen/utils.py:write_solve_def", "cvxpygen/utils.py:solver_py_context", "cvxpygen/solvers"]}
{"id": "C89", "title": "A call that raises leaves no trace", "statement": "If problem.solve(method='CPG') raises because of a name that is no parameter, an unknown setting, a setting of the wrong type or a parameter without value, then every later call gives what it would give had the failed call not been made; values of parameters, stored solutions, settings in force and the memory of the compiled module are as before.", "quantifier": "all solvers, problems, states, histories of assignments and calls, failing at any places", "why_tests_cant": "Tests do not continue after an exception, and which state a failed call leaves behind depends on the order of the steps in the generated method.", "anchors": ["cvxpygen/templates/cpg_solver.py.jinja2:36-80", "cvxpygen/utils.py:write_module_def"]}
{"id": "C90", "title": "Canonicalization is accurate in floating point", "statement": "In the generated program, whose arithmetic rounds, every entry of the data of every solve differs from the exact canonicalization of the values that the user set by no more than the rounding errors of its sum: relative to the sum of the absolute values of the products, a few units in the last place per product. Sums that fit the type are exact. In explicit mode (single precision) parameters are moved into their limits and rounded.", "quantifier": "all problems, solvers, floating-point types (double, single), roundings to nearest with any choice of ties, fused and separate products, histories of updates and solves", "why_tests_cant": "Tests compare solutions of a few instances with tolerances of 0.1 and 1e-3; they do not bound the error of the data, nor reach other orders of updates or cancellation.", "anchors": ["cvxpygen/utils.py:write_canonicalize", "cvxpygen/utils.py:write_vec_def", "cvxpygen/utils.py:write_solve_def", "cvxpygen/solvers/pdaqp.py:61"]}
{"id": "C91", "title": "Differentiation never accesses memory outside its arrays", "statement": "With a differentiable OSQP problem, no sequence of calls of cpg_update_d<variable> and cpg_gradient reads or writes outside the arrays of the generated workspace, whatever values parameters and solutions have: the KKT matrices, the factor that is edited in place, the index lists and the work vectors are large enough for every state that calls can reach.", "quantifier": "all problems (sizes, sparsity of P and A), values (including not-a-number), sequences of calls with and without refresh of the matrices", "why_tests_cant": "An access outside an array need not crash or change a tested result; whether one occurs depends on the history of active constraints and on values such as NaN that tests do not pass.", "anchors": ["cvxpygen/templates/cpg_osqp_grad_compute.c.jinja2", "cvxpygen/writer.py:222-311", "cvxpygen/writer.py:_write_gradient_workspace_def", "cvxpygen/utils.py:134-151"]}
{"id": "C92", "title": "Problems some of whose canonical data are empty give working programs", "statement": "Code generated for a problem compiles and never follows a null pointer, also when a canonical matrix has no entries (constraints without variables, linear objectives, no equality constraints): objects without entries are not defined and their pointers are null, so nothing that is executed may refer to them.", "quantifier": "all problems (numbers of entries of each canonical parameter, parameter-dependence), solvers, histories of updates and solves", "why_tests_cant": "Tests use problems whose canonical matrices all have entries; whether another combination refers to an undefined object or a null pointer depends on the solver, the flags of the generator and the numbers of entries together.", "anchors": ["cvxpygen/utils.py:496-550", "cvxpygen/utils.py:987-1006", "cvxpygen/solvers/ecos.py:89-117", "cvxpygen/solvers/clarabel.py:158-204", "cvxpygen/solvers/qoco.py:267-344", "cvxpygen/solvers/scs.py:207-224", "cvxpygen/canonicalizer.py:_get_constraint_info"]}
{"id": "C93", "title": "Entries of solver_opts take effect as documented", "statement": "Every entry of solver_opts that a user passes to generate_code takes effect as documented: 'dual', 'fp16', 'max_floats' and 'max_regions' determine what an explicit solver stores and how large it may be, with the documented defaults otherwise, and options for other solvers are passed on to the solver; following the advice of an exception raised for one option removes its cause.", "quantifier": "all dicts (keys, values, None and empty dicts, order of entries), solver names, gradient flag", "why_tests_cant": "An option that is silently dropped changes nothing that a test without it could compare; whether any other entry can influence the program is a statement about all dicts.", "anchors": ["cvxpygen/solvers/pdaqp.py:77-87", "cvxpygen/solvers/pdaqp.py:199-210", "cvxpygen/generator.py:_resolve_solver", "cvxpygen/canonicalizer.py:_get_quad_obj", "README.md:89", "README.md:206-217"]}
{"id": "C94", "title": "The gradient code on its arrays computes the gradient for the user", "statement": "For every sequence of calls that ends with cpg_gradient, the array cpg_dp of the generated program holds the gradient with respect to the user parameters: its inner product with any direction of the parameters equals the inner product of the incoming gradient with the derivative of the solution in that direction (up to the regularization constant times the last refinement step), it does not depend on the calls made before with the same final data, and the incoming gradient is cleared.", "quantifier": "all problems with gradients (sizes, patterns, maps), sequences of cpg_gradient calls with any active sets, refreshed matrices, incoming gradients, directions of the parameters", "why_tests_cant": "The property concerns index arithmetic on packed arrays whose patterns change with every active set, over unboundedly many calls, and every direction of the parameters; a test sees a few sequences and finite differences.", "anchors": ["cvxpygen/writer.py:232-311", "cvxpygen/writer.py:362-410", "cvxpygen/templates/cpg_osqp_grad_compute.c.jinja2", "cvxpygen/utils.py:677"]}
{"id": "C95", "title": "Update functions change their own parameter only", "statement": "A call cpg_update_<p>(idx, val) changes nothing but entry idx of parameter p: other parameters, the constant parts of the problem and other memory keep their values, whatever index is given, and whatever changes is used by the next solve.", "quantifier": "all problems (parameters, sizes, maps), all integer indices, all histories of calls, explicit mode or not", "why_tests_cant": "The effect of a wrong index depends on which parameters are neighbours, on what depends on them and on all later calls; it may become visible only much later.", "anchors": ["cvxpygen/utils.py:904-935", "cvxpygen/utils.py:485", "cvxpygen/canonicalizer.py:239-247", "cvxpygen/solvers/pdaqp.py:270-272"]}
{"id": "C96", "title": "Threads that share a generated module do not affect each other", "statement": "If several Python threads solve their own problems with problem.solve(method='CPG', ...) of one generated module, each call solves the thread's own parameter values with the settings of this call, and the results are those of some order of the calls one after the other.", "quantifier": "all numbers of threads, all programs of the threads (assignments, calls with any arguments), all interleavings between calls into the module, all solvers, all problems", "why_tests_cant": "The number of interleavings is not bounded and a test sees those that the scheduler happens to choose.", "anchors": ["cvxpygen/templates/cpg_solver.py.jinja2:40-117", "cvxpygen/utils.py:1194-1269", "cvxpygen/utils.py:1392-1410"]}
{"id": "C97", "title": "Gradients of the parameters are accurate in floating point", "statement": "The gradient of a user parameter that cpg_gradient computes from the canonical gradients (in explicit mode: from the sensitivities of the solution and the feedback gains of the region) agrees with the exact chain rule up to a small relative error.", "quantifier": "all problems, all canonical gradients or sensitivities, all histories in explicit mode, all floating-point types, all ways to round to nearest, with and without fused multiply-add", "why_tests_cant": "A test compares numbers for chosen problems with a tolerance; cancellation shows only for special values.", "anchors": ["cvxpygen/writer.py:270-303", "cvxpygen/writer.py:457-512", "cvxpygen/utils.py:87-131"]}
{"id": "C98", "title": "Gradients delivered in Python come from array code that stays within its arrays", "statement": "After every history of assignments, solves and calls of cpg_gradient from Python, the C code below keeps to its arrays, and the gradients then assigned to the user parameters are the derivative of the loss through the solution.", "quantifier": "all problems with the OSQP interface and gradient, all histories of Python operations, all solvers and orders of columns, all sizes", "why_tests_cant": "Tests follow a few histories on small problems; accesses outside of an array often have no visible effect, and whether the state kept between calls is right depends on the whole history.", "anchors": ["cvxpygen/templates/cpg_solver.py.jinja2:121-173", "cvxpygen/utils.py:904-935", "cvxpygen/utils.py:1272-1328", "cvxpygen/writer.py:145-312", "cvxpygen/writer.py:354-416"]}
{"id": "C99", "title": "The passes of CVXPYlayers come from array code that stays within its arrays", "statement": "For every interleaving of forward and backward calls by CVXPYlayers, of several layers on the same problem, with each other and with the user's assignments, solves and gradients, with or without a solution passed: the C code below keeps to its arrays, also when a solution is copied out and taken over again; forward calls return the values of the variables for their parameters, and the backward call of any earlier forward call returns the gradients of its parameters at the solution of that forward call.", "quantifier": "all problems with the OSQP interface and gradient, all contexts, solutions passed (also of a wrong length), interleavings, sizes", "why_tests_cant": "All interleavings: the solution of a forward call is copied out of the arrays and written back by a later backward call, in between other calls change the same arrays.", "anchors": ["cvxpygen/templates/cpg_solver.py.jinja2:135-212", "cvxpygen/utils.py:1254-1259", "cvxpygen/utils.py:1284-1294", "cvxpygen/writer.py:145-312"]}
{"id": "C100", "title": "Solving the same instance again gives the same result", "statement": "The result of a solve (solution and objective) is a function of the parameter values and the settings asked for; what was solved before has no influence, unless warm starting is asked for.", "quantifier": "all problems, solvers, libraries, histories of updates, settings and solves", "why_tests_cant": "A test solves a few instances in one order. Whether something of an earlier solve is left in the solver's object depends on which update calls create it again, for all histories.", "anchors": ["cvxpygen/solvers/scs.py:25-46", "cvxpygen/solvers/scs.py:247-256", "cvxpygen/solvers/osqp.py:20-62", "cvxpygen/solvers/osqp.py:110", "cvxpygen/solvers/ecos.py:89-99", "cvxpygen/solvers/qoco.py:267-312", "cvxpygen/solvers/clarabel.py:201-204", "cvxpygen/utils.py:1008-1052"]}
{"id": "C101", "title": "Values can be assigned in any form that CVXPY takes", "statement": "A parameter value has the same effect in generation and in problem.solve(method='CPG') whether it was assigned as an array (number, list) or as a sparse matrix with the same entries.", "quantifier": "all shapes, attributes, values", "why_tests_cant": "Tests assign dense arrays of a few shapes; how a value is read depends on size, attribute and type of the holding object, which has to be settled for all combinations.", "anchors": ["cvxpygen/templates/cpg_solver.py.jinja2:17-34", "cvxpygen/canonicalizer.py:249-258"]}
{"id": "C102", "title": "Incoming gradients reach their own variable and the next gradient only", "statement": "A call cpg_update_d<v>(idx, val) changes nothing but entry idx of the incoming gradient of variable v, whatever index is given, and what was given has no effect after the next call of cpg_gradient.", "quantifier": "all variables, sizes and offsets, all integer indices, all histories of delta updates and gradient computations, explicit mode or not", "why_tests_cant": "The effect of a wrong index depends on the order of the variables in the solver's vector and on all calls until the next gradient; tests use valid indices.", "anchors": ["cvxpygen/writer.py:222-230", "cvxpygen/writer.py:304-307", "cvxpygen/writer.py:458-467", "cvxpygen/writer.py:509-511"]}
{"id": "C103", "title": "Settings enabled by the user are offered and work, other names are reported", "statement": "Every name in enable_settings is either a setting of the solver, which the generated code then offers and which has an effect, or is reported in a warning and not offered; a setting that the code offers has an effect.", "quantifier": "all solvers, all lists of names, all histories of generate_code calls in one process", "why_tests_cant": "Settings are kept in class attributes and the build definition is made from the list of one call; whether both agree depends on all earlier calls in the process.", "anchors": ["cvxpygen/solvers/_interface.py:125-130", "cvxpygen/solvers/osqp.py:148-158", "cvxpygen/templates/CMakeLists.txt.jinja2:8-10"]}
{"id": "C104", "title": "The Python module is linked with all libraries that the generated code needs", "statement": "If building the C code succeeds, the files that setup.py hands to the linker exist and contain every library that the generated code is linked with, so that the module can be imported.", "quantifier": "all solvers, all cones, all systems on which code is generated and built", "why_tests_cant": "Libraries are named twice, in CMakeLists.txt and in setup.py, depending on solver, cones and the systems of two machines; a test runs on one.", "anchors": ["cvxpygen/solvers/clarabel.py:278-297", "cvxpygen/solvers/qoco.py:382-401", "cvxpygen/templates/setup.py.jinja2:30-75", "cvxpygen/templates/CMakeLists.txt.jinja2:91-101"]}
