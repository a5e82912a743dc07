{
 "claims": [
  {
   "property": "C01",
   "status": "proved",
   "theorems": [
    "Verif.Props.C01_every_solve_uses_current_parameters",
    "Verif.Props.C01_end_to_end"
   ],
   "note": "All histories, solvers, modes, change patterns and set orders; end-to-end form starts from arbitrary user parameters and sparse affine maps."
  },
  {
   "property": "C02",
   "status": "proved",
   "theorems": [
    "Verif.Props.C02_block_hands_over_every_outdated_parameter"
   ],
   "note": "Any memory state, all solvers/patterns/orders."
  },
  {
   "property": "C03",
   "status": "proved",
   "theorems": [
    "Verif.Props.C03_emitted_text_means_update_structure",
    "Verif.Props.C03_emitted_text_any_table",
    "Verif.Props.C03_fails_for_some_table",
    "Verif.Props.C03_inconsistent_mode_raises"
   ],
   "note": "Proved for all six solver tables and for every table whose blocks need at most one else; false for arbitrary tables (witness)."
  },
  {
   "property": "C04",
   "status": "partial",
   "theorems": [
    "Verif.Props.C04_initialisation_first_and_once_partial",
    "Verif.Props.C04_monitor",
    "Verif.Props.C04_clarabel_lp_initialises_every_time",
    "Verif.Props.C04_iff",
    "Verif.Props.C04_clarabel_lp_exact"
   ],
   "note": "All solvers except Clarabel on problems without quadratic part, where the initialisation branch is taken at every solve (witness). C01 shows that no update precedes the initialisation, for all solvers; C04_monitor pins down what its monitor notices. C04_iff: exactly for these programs. C04_clarabel_lp_exact: for every other one and every history, the calls are one initialisation per solve."
  },
  {
   "property": "C05",
   "status": "partial",
   "theorems": [
    "Verif.Props.C05_idle_solve_makes_no_call_partial",
    "Verif.Props.C05_idle_solve_osqp_qoco",
    "Verif.Props.C05_iff"
   ],
   "note": "Exact characterisation for all solvers and patterns: no call iff idlePattern; OSQP/QOCO always. False for SCS when exactly one of P, A changes, for ECOS when some but not all of A,b,G change, for Clarabel LPs. C05_iff: the same condition spelled out in terms of the canonical parameters that depend on user parameters."
  },
  {
   "property": "C06",
   "status": "proved",
   "theorems": [
    "Verif.Props.C06_unmarked_parameters_are_unaffected"
   ],
   "note": "Any sparse maps with explicit zeros, any layout with distinct names and positive sizes."
  },
  {
   "property": "C07",
   "status": "proved",
   "theorems": [
    "Verif.Props.C07_constant_parameters_are_constant"
   ],
   "note": "Any maps and parameter vectors."
  },
  {
   "property": "C08",
   "status": "proved",
   "theorems": [
    "Verif.Props.C08_canonicalization_loop",
    "Verif.Props.C08_canonicalization_is_affine_map",
    "Verif.Props.C08_values_held"
   ],
   "note": "Any valid compressed map, any commutative ring; absence of out-of-bounds accesses included."
  },
  {
   "property": "C09",
   "status": "proved",
   "theorems": [
    "Verif.Props.C09_stored_matrix_is_full_matrix",
    "Verif.Props.C09_column_pointers_valid"
   ],
   "note": "Any map, any sparsity pattern, any parameter values."
  },
  {
   "property": "C10",
   "status": "proved",
   "theorems": [
    "Verif.Props.C10_split_blocks",
    "Verif.Props.C10_block_indices_in_range"
   ],
   "note": "Any reduced constraint data satisfying the stated CVXPY guarantees (ConstrWF)."
  },
  {
   "property": "C100",
   "status": "partial",
   "theorems": [
    "Verif.Props.C100_clarabel",
    "Verif.Props.C100_partial",
    "Verif.Props.C100_scs",
    "Verif.Props.C100_fails",
    "Verif.Props.C100_iff"
   ],
   "note": "The libraries are parameters: any deterministic library with any object behind the pointer of the generated program. C100_clarabel: holds for every library, since every solve creates its solver. C100_partial: holds for OSQP, ECOS, QOCO and QOCOGEN if results do not depend on what the object went through, and settings are those asked for (C86). C100_scs: the exact results with SCS: a solve starts from the last result, of whatever instance, exactly if warm_start is on. C100_fails: for every problem and all other solvers (SCS: if its workspace is kept) a library that remembers gives two results for two equal solves in a row; OSQP with its default warm_starting is one. C100_iff: whatever the library does, results are repeatable exactly with Clarabel."
  },
  {
   "property": "C101",
   "status": "partial",
   "theorems": [
    "Verif.Props.C101_partial",
    "Verif.Props.C101_iff",
    "Verif.Props.C101_fails"
   ],
   "note": "C101_partial: values held by arrays arrive entry by entry, for all shapes and attributes, and files are generated from the same entries. C101_iff: sparse matrices have the same effect exactly for parameters declared sparse with more than one entry; generation from them always raises. C101_fails: diagonal and plain parameters assigned as sparse matrices raise. Trusted: which methods scipy's matrices have."
  },
  {
   "property": "C102",
   "status": "partial",
   "theorems": [
    "Verif.Props.C102_exact",
    "Verif.Props.C102_forgotten",
    "Verif.Props.C102_own_iff",
    "Verif.Props.C102_fails"
   ],
   "note": "For all histories and indices: C102_exact says what each gradient computation finds and when memory outside of the array is written, C102_forgotten that nothing survives a gradient computation (this part holds without restriction), C102_own_iff that a call keeps to its variable exactly if the index is that of an entry; indices are not checked (C102_fails)."
  },
  {
   "property": "C103",
   "status": "partial",
   "theorems": [
    "Verif.Props.C103_names",
    "Verif.Props.C103_partial",
    "Verif.Props.C103_printing_iff",
    "Verif.Props.C103_fails"
   ],
   "note": "C103_names: known names are offered, unknown ones warned about, for all histories. OSQP prints only if built with a definition that is made from this call's list: agrees with what is offered in a fresh process (C103_partial), and after any history exactly unless an earlier call for OSQP enabled verbose and this one does not (C103_printing_iff, C103_fails). What the solver does with other settings is trusted; enable_settings is a list of names."
  },
  {
   "property": "C104",
   "status": "partial",
   "theorems": [
    "Verif.Props.C104_iff",
    "Verif.Props.C104_partial",
    "Verif.Props.C104_fails_semidefinite",
    "Verif.Props.C104_fails_elsewhere"
   ],
   "note": "C104_iff: exact condition for all solvers, cones and pairs of machines. True where the code was generated, except for semidefinite cones with Clarabel, for which BLAS and LAPACK are linked with the example program but not with the Python module (C104_fails_semidefinite). Code for Clarabel cannot be built on a machine of another kind (C104_fails_elsewhere); for all other solvers it can. Where CMake and cargo put libraries is taken from their documentation; whether the symbols of BLAS are provided by the Python process in another way is not modelled."
  },
  {
   "property": "C11",
   "status": "proved",
   "theorems": [
    "Verif.Props.C11_qp_form"
   ],
   "note": "Any ordered commutative ring. Minus infinity is a separate value; the generated code replaces it by -1e30 (see C44)."
  },
  {
   "property": "C12",
   "status": "proved",
   "theorems": [
    "Verif.Props.C12_conic_form_joint",
    "Verif.Props.C12_conic_form_split"
   ],
   "note": "Any set K as cone; the order of the cones inside K is CVXPY/solver convention (see C48)."
  },
  {
   "property": "C13",
   "status": "proved",
   "theorems": [
    "Verif.Props.C13_selection_by_position",
    "Verif.Props.C13_each_datum_used_once",
    "Verif.Props.C13_qp_selection"
   ],
   "note": ""
  },
  {
   "property": "C14",
   "status": "proved",
   "theorems": [
    "Verif.Props.C14_equality_bounds_coincide"
   ],
   "note": ""
  },
  {
   "property": "C15",
   "status": "proved",
   "theorems": [
    "Verif.Props.C15_reported_objective",
    "Verif.Props.C15_objective_present",
    "Verif.Props.C15_used_present"
   ],
   "note": "The value of the canonical objective reported by the solver is an input; rounding not modelled. The constant of the objective and all data that solver functions use are canonical parameters of every solver."
  },
  {
   "property": "C16",
   "status": "partial",
   "theorems": [
    "Verif.Props.C16_cpg_obj_partial",
    "Verif.Props.C16_fails",
    "Verif.Props.C16_stored_iff",
    "Verif.Props.C16_stored_partial",
    "Verif.Props.C16_stored_fails_order",
    "Verif.Props.C16_stored_fails_aux"
   ],
   "note": "Holds for minimization problems without objective constant; cpg_obj omits the constant and the sign of maximization (witness). On what the explicit solver stores it is right exactly if all canonical variables are stored in canonical order (C16_stored_iff): by default and without auxiliary variables (C16_stored_partial). Fails if stored_vars lists the variables in another order, and for problems with auxiliary variables."
  },
  {
   "property": "C17",
   "status": "partial",
   "theorems": [
    "Verif.Props.C17_primal_values",
    "Verif.Props.C17_symmetric_entries",
    "Verif.Props.C17_blocks",
    "Verif.Props.C17_no_overlap",
    "Verif.Props.C17_fails_for_diagonal_variables",
    "Verif.Props.C17_diagonal"
   ],
   "note": "All full and symmetric variables of any shape; false for dimension-reduced variables such as diagonal ones (witness). C17_diagonal: for every diagonal variable with any number of rows, with any solver and other variables, exactly what is read: outside of the array if the solution ends before, otherwise right exactly if the entries that follow happen to fit."
  },
  {
   "property": "C18",
   "status": "partial",
   "theorems": [
    "Verif.Props.C18_dual_table",
    "Verif.Props.C18_rows_disjoint",
    "Verif.Props.C18_dual_values",
    "Verif.Props.C18_fails_without_inequalities",
    "Verif.Props.C18_iff",
    "Verif.Props.C18_split_iff"
   ],
   "note": "Joint duals always; split duals if there is an inequality constraint or no constraint; otherwise generation raises IndexError (witness). C18_iff: the table exists exactly in these cases; C18_split_iff: two vectors exactly for solvers that take equalities and inequalities separately."
  },
  {
   "property": "C19",
   "status": "proved",
   "theorems": [
    "Verif.Props.C19_blocks_partition",
    "Verif.Props.C19_update_changes_one_entry",
    "Verif.Props.C19_fails_for_duplicate_names"
   ],
   "note": "Distinct names and positive sizes (CVXPY rejects zero sizes); fails for duplicate names (witness), see C52."
  },
  {
   "property": "C20",
   "status": "proved",
   "theorems": [
    "Verif.Props.C20_history",
    "Verif.Props.C20_unknown_parameter",
    "Verif.Props.C20_missing_value"
   ],
   "note": "All histories of assignments and calls, all solvers, modes, orders. CVXPY checks that assigned values have the declared shape (OpsOK). Missing values raise without a change of parameters, solver or stored solution (C20_missing_value)."
  },
  {
   "property": "C21",
   "status": "partial",
   "theorems": [
    "Verif.Props.C21_settings_do_not_leak_partial",
    "Verif.Props.C21_unknown_setting",
    "Verif.Props.C21_scs_partial",
    "Verif.Props.C21_fails_for_scs",
    "Verif.Props.C21_scs_exact",
    "Verif.Props.C21_scs_iff"
   ],
   "note": "All solvers but SCS. SCS copies its settings when it is created, so settings of later calls are ignored unless the call re-creates the workspace (witness; exact sufficient condition proved). C21_scs_exact: the exact settings of every call with SCS, for all histories; C21_scs_iff: with SCS the property holds exactly if the objective is quadratic and exactly one of P and A depends on parameters."
  },
  {
   "property": "C22",
   "status": "partial",
   "theorems": [
    "Verif.Props.C22_partial",
    "Verif.Props.C22_block_ok",
    "Verif.Props.C22_fails_quadratic",
    "Verif.Props.C22_fails_settings",
    "Verif.Props.C22_settings_exact",
    "Verif.Props.C22_pointers_exact",
    "Verif.Props.C22_block_iff"
   ],
   "note": "Model of the class attributes that survive a call (update structures of OSQP and SCS, settings, workspace pointers). C22_partial: equal to a fresh process after every history of calls that are Harmless for this one; the excluded cases are counterexamples: an SCS problem without quadratic objective followed by one with (C22_fails_quadratic), and enabled settings (C22_fails_settings). Parameter values assigned by generation to parameters without value are state of the problem, not of the process. For all histories, exactly what earlier calls leave behind: settings offered, solution pointers, and when the update block differs from that of a fresh process."
  },
  {
   "property": "C23",
   "status": "partial",
   "theorems": [
    "Verif.Props.C23_partial",
    "Verif.Props.C23_fails_pointers",
    "Verif.Props.C23_exact",
    "Verif.Props.C23_outcome"
   ],
   "note": "C23_partial: a failing call that is Clean leaves the class attributes as they were, at any place of any history. Fails if a two-stage call raises while the workspace is written (C23_fails_pointers), because pointers are restored without try/finally. Failures inside CVXPY or the file system enter as failure points. C23_exact: the exact traces of one call (failing or not, at any place of any history) in a later successful call: settings, pointers, update block. C23_outcome: no earlier call makes a later one raise."
  },
  {
   "property": "C24",
   "status": "partial",
   "theorems": [
    "Verif.Props.C24_partial",
    "Verif.Props.C24_copy_all_partial",
    "Verif.Props.C24_fails_size_one",
    "Verif.Props.C24_fails_direct",
    "Verif.Props.C24_fails_second_solve",
    "Verif.Props.C24_iff"
   ],
   "note": "Holds (C24_partial, C24_copy_all_partial) when no canonical parameter other than d has exactly one entry; fails otherwise, because cpg_copy_<p> only redirects the pointer for size one (C24_fails_size_one, C24_fails_second_solve); QOCO is handed the originals (C24_fails_direct). C24_iff: the restriction to sizes other than one is necessary."
  },
  {
   "property": "C25",
   "status": "partial",
   "theorems": [
    "Verif.Props.C25_composition",
    "Verif.Props.C25_intermediate_unique",
    "Verif.Props.C25_end_to_end",
    "Verif.Props.C25_fails_constant",
    "Verif.Props.C25_constant_iff"
   ],
   "note": "Composition for all stages that fit together, all parameter values, and end to end for all histories of calls and any random values at generation time. The constant of the objective is not part of the composition and is lost (witness). C25_constant_iff: for all stages, the constant is right exactly where it is zero."
  },
  {
   "property": "C26",
   "status": "partial",
   "theorems": [
    "Verif.Props.C26_marks_partial",
    "Verif.Props.C26_generation_partial",
    "Verif.Props.C26_fails_constant",
    "Verif.Props.C26_fails_zero_entry",
    "Verif.Props.C26_fails_linear",
    "Verif.Props.C26_merge_iff",
    "Verif.Props.C26_params_iff"
   ],
   "note": "Marks are right whenever generation succeeds; generation fails if a parameter enters the constant of the objective, if an entry of A is zero at generation time, or if there is no quadratic part (witnesses). C26_params_iff and C26_merge_iff: exactly when there is an intermediate problem, and exactly when the stages are merged without an exception."
  },
  {
   "property": "C27",
   "status": "proved",
   "theorems": [
    "Verif.Props.C27_adjoint_of_canonicalization",
    "Verif.Props.C27_end_to_end"
   ],
   "note": "Any maps, parameters and canonical gradients, no out-of-bounds access; end-to-end with C28 for every history of calls (setting of C28)."
  },
  {
   "property": "C28",
   "status": "partial",
   "theorems": [
    "Verif.Props.C28_adjoint",
    "Verif.Props.C28_iff"
   ],
   "note": "Adjoint identity with exact error term: the inner products agree up to 1e-6 times the last correction of iterative refinement, so the identity is exact iff that correction is orthogonal to the perturbation. Exact equality as stated is false because of the regularization. P must be stored as upper triangle and symmetric, i.e. diagonal (see C33). C28_iff states this equivalence for every history and perturbation."
  },
  {
   "property": "C29",
   "status": "proved",
   "theorems": [
    "Verif.Props.C29_factor_exact",
    "Verif.Props.C29_history_independent"
   ],
   "note": "All histories of active sets and matrix refreshes, over any ordered field with square roots; QDLDL enters by its contract (QdldlOK). Setting: P stored without entries below the diagonal and without stored zeros above it (GradSetup); the other case violates the input format of QDLDL, see C33."
  },
  {
   "property": "C30",
   "status": "proved",
   "theorems": [
    "Verif.Props.C30_edit",
    "Verif.Props.C30_history",
    "Verif.Props.C30_represented",
    "Verif.Props.C30_symbolic_update"
   ],
   "note": "Any valid factor, any position, any sequence of insertions, value insertions and removals; the removal threshold is an arbitrary predicate."
  },
  {
   "property": "C31",
   "status": "proved",
   "theorems": [
    "Verif.Props.C31_in_range",
    "Verif.Props.C31_injective",
    "Verif.Props.C31_surjective"
   ],
   "note": ""
  },
  {
   "property": "C32",
   "status": "proved",
   "theorems": [
    "Verif.Props.C32_fits",
    "Verif.Props.C32_reserved",
    "Verif.Props.C32_history"
   ],
   "note": ""
  },
  {
   "property": "C33",
   "status": "partial",
   "theorems": [
    "Verif.Props.C33_initial",
    "Verif.Props.C33_history",
    "Verif.Props.C33_zero_entry_is_lost",
    "Verif.Props.C33_upper_triangular",
    "Verif.Props.C33_not_upper_triangular",
    "Verif.Props.C33_iff"
   ],
   "note": "Exact for any sequence of refreshes provided no stored entry of P + 1e-6 I vanishes at generation time; otherwise that entry is lost for good (proved). K is upper triangular, as QDLDL requires, iff P has no entry below its diagonal (proved both ways). C33_iff: exactly under this condition."
  },
  {
   "property": "C34",
   "status": "partial",
   "theorems": [
    "Verif.Props.C34_partial",
    "Verif.Props.C34_solution",
    "Verif.Props.C34_two_stage_partial",
    "Verif.Props.C34_factor_of_solved_partial",
    "Verif.Props.C34_fails",
    "Verif.Props.C34_exact",
    "Verif.Props.C34_two_stage_exact"
   ],
   "note": "One stage: holds unless an earlier gradient call came between an update of a matrix and the following solve (then the refresh flag is consumed too early, witness). Two stages: holds if no update came after the latest solve (witness otherwise). C34_exact, C34_two_stage_exact: which instance's matrices a gradient uses, for all interleavings."
  },
  {
   "property": "C35",
   "status": "partial",
   "theorems": [
    "Verif.Props.C35_partial",
    "Verif.Props.C35_fails",
    "Verif.Props.C35_exact",
    "Verif.Props.C35_iff"
   ],
   "note": "Holds for equality rows and for one-sided rows, the only rows that the QP form of C11 has; false for rows with two different finite bounds (witness), because the sign flag is not updated when a row switches directly from one bound to the other. C35_exact, C35_iff: for all histories the contribution goes to the bound at which the row entered the active set."
  },
  {
   "property": "C36",
   "status": "proved",
   "theorems": [
    "Verif.Props.C36_ldl"
   ],
   "note": "Any field; integer truncation of np.zeros_like for integer inputs is not modelled."
  },
  {
   "property": "C37",
   "status": "partial",
   "theorems": [
    "Verif.Props.C37_partial",
    "Verif.Props.C37_kept",
    "Verif.Props.C37_fails",
    "Verif.Props.C37_fails_equality",
    "Verif.Props.C37_last",
    "Verif.Props.C37_iff"
   ],
   "note": "Values within all declared bounds are stored as given (C37_kept, no restriction); the stored value meets the declared bounds if no bound is an equality and later bounds of an entry are not looser; both restrictions are needed (C37_fails, C37_fails_equality). C37_iff: the declared constraints always hold afterwards exactly if the bounds declared last imply them."
  },
  {
   "property": "C38",
   "status": "partial",
   "theorems": [
    "Verif.Props.C38_partial",
    "Verif.Props.C38_fails",
    "Verif.Props.C38_fails_fixed"
   ],
   "note": "Exact condition: a component is covered iff the coefficients of the varying parameters have one sign; otherwise false, a varying component may even be eliminated as fixed."
  },
  {
   "property": "C39",
   "status": "partial",
   "theorems": [
    "Verif.Props.C39_partial",
    "Verif.Props.C39_fails_single",
    "Verif.Props.C39_fails_repeated",
    "Verif.Props.C39_iff"
   ],
   "note": "Requests for distinct non-symmetric variables, none for a single entry of a larger variable; both restrictions needed. C39_iff: for distinct variables, answered with the requested entries exactly if not for a single entry of a larger variable (or entry 0 as first request)."
  },
  {
   "property": "C40",
   "status": "partial",
   "theorems": [
    "Verif.Props.C40_partial",
    "Verif.Props.C40_fails",
    "Verif.Props.C40_iff"
   ],
   "note": "Constraints before the first parameter constraint, rows before the first removed row; otherwise false. C40_iff: both restrictions are necessary."
  },
  {
   "property": "C41",
   "status": "partial",
   "theorems": [
    "Verif.Props.C41_partial",
    "Verif.Props.C41_fails"
   ],
   "note": "Exact condition on the pattern of zero rows; false otherwise."
  },
  {
   "property": "C42",
   "status": "proved",
   "theorems": [
    "Verif.Props.C42_elimination"
   ],
   "note": "The reduced problem at the theta computed by cpg_solve has cost q and right-hand sides u, for all values within the bounds."
  },
  {
   "property": "C43",
   "status": "proved",
   "theorems": [
    "Verif.Props.C43_adjoint",
    "Verif.Props.C43_table",
    "Verif.Props.C43_adjoint_law",
    "Verif.Props.C43_later_solves"
   ],
   "note": "Over all histories of solves, sensitivities and gradient calls. The table of affine laws is an assumption (LawTable: all laws one after the other, one row per entry of the solution); C43_adjoint_law states the adjoint for the laws themselves."
  },
  {
   "property": "C44",
   "status": "partial",
   "theorems": [
    "Verif.Props.C44_canonical",
    "Verif.Props.C44_partial",
    "Verif.Props.C44_indices",
    "Verif.Props.C44_fails",
    "Verif.Props.C44_iff"
   ],
   "note": "Canonical parameters and sparse matrices fully; user parameters and d are printed without replacing infinities, so an infinite user parameter is printed as inf (C44_fails). C44_iff: user parameters survive exactly if finite."
  },
  {
   "property": "C45",
   "status": "partial",
   "theorems": [
    "Verif.Props.C45_prefix_injective",
    "Verif.Props.C45_prefix_valid",
    "Verif.Props.C45_link_partial",
    "Verif.Props.C45_fails_osqp",
    "Verif.Props.C45_fails_explicit",
    "Verif.Props.C45_fails_mixed",
    "Verif.Props.C45_fails_names",
    "Verif.Props.C45_fails",
    "Verif.Props.C45_names_necessary"
   ],
   "note": "SCS, ECOS, Clarabel, QOCO, QOCOGEN: no name in common unless one prefix continues the other with a reserved name or the name of a variable. OSQP and explicit mode define names without prefix: any two of them clash (proved for all inputs). The code of the solvers themselves is not modelled, except for the names OSQP and PDAQP define per problem. C45_names_necessary: the names of variables with storage of their own must differ, for all solvers and modes."
  },
  {
   "property": "C46",
   "status": "partial",
   "theorems": [
    "Verif.Props.C46_partial",
    "Verif.Props.C46_total",
    "Verif.Props.C46_fails",
    "Verif.Props.C46_fails_default",
    "Verif.Props.C46_iff"
   ],
   "note": "solver=None raises AttributeError; with differentiation, OSQP must be in capitals. ASCII names. C46_iff: these are the only exceptions."
  },
  {
   "property": "C47",
   "status": "partial",
   "theorems": [
    "Verif.Props.C47_partial",
    "Verif.Props.C47_reasons",
    "Verif.Props.C47_cones",
    "Verif.Props.C47_fails",
    "Verif.Props.C47_iff"
   ],
   "note": "Explicit mode rejects after emptying the folder. C47_iff: these are the only calls that leave a changed folder."
  },
  {
   "property": "C48",
   "status": "partial",
   "theorems": [
    "Verif.Props.C48_partial",
    "Verif.Props.C48_others",
    "Verif.Props.C48_fails",
    "Verif.Props.C48_fails_general",
    "Verif.Props.C48_fails_order",
    "Verif.Props.C48_iff"
   ],
   "note": "Clarabel: declared number and listed cones agree iff there is at most one exponential cone; with two or more, trailing cones are dropped (witness). Order of cones and rows differs if exponential and second-order cones are mixed (witness). SCS, ECOS, QOCO: all combinations. C48_iff: Clarabel reads the stacked cones exactly without exponential cones, or with one and no second-order or semidefinite cone."
  },
  {
   "property": "C49",
   "status": "proved",
   "theorems": [
    "Verif.Props.C49_cut",
    "Verif.Props.C49_replace",
    "Verif.Props.C49_simul_unique",
    "Verif.Props.C49_interacting_fails"
   ],
   "note": ""
  },
  {
   "property": "C50",
   "status": "partial",
   "theorems": [
    "Verif.Props.C50_order",
    "Verif.Props.C50_reshape",
    "Verif.Props.C50_roundtrip",
    "Verif.Props.C50_dense",
    "Verif.Props.C50_partial",
    "Verif.Props.C50_fails",
    "Verif.Props.C50_iff"
   ],
   "note": "A sparse parameter with a single entry that may be nonzero is handed over as a list where the generated field is a number. C50_iff: this is the only exception."
  },
  {
   "property": "C51",
   "status": "partial",
   "theorems": [
    "Verif.Props.C51_partial",
    "Verif.Props.C51_fails"
   ],
   "note": "For every interleaving a backward call uses the solution of its own forward call and the matrices of the latest one; right iff the canonical matrices of both instances agree (exact characterisation); false otherwise (witness)."
  },
  {
   "property": "C52",
   "status": "partial",
   "theorems": [
    "Verif.Props.C52_partial",
    "Verif.Props.C52_storage",
    "Verif.Props.C19_blocks_partition",
    "Verif.Props.C19_fails_for_duplicate_names",
    "Verif.Props.C52_fails_solver",
    "Verif.Props.C52_fails_dual",
    "Verif.Props.C52_fails_delta",
    "Verif.Props.C52_fails_bare",
    "Verif.Props.C52_fails_sol",
    "Verif.Props.C52_fails_static",
    "Verif.Props.C52_fails",
    "Verif.Props.C52_names_necessary"
   ],
   "note": "No clash for every prefix, solver and mode (one stage) if variables avoid reserved names; blocks of parameters are disjoint. Six ways to clash without a message are witnessed; parameters of the same name are merged (witness). C52_names_necessary: exactly one definition for every variable with storage of its own, none of them a name of the solver's code, is necessary."
  },
  {
   "property": "C53",
   "status": "proved",
   "theorems": [
    "Verif.Props.C53_struct",
    "Verif.Props.C53_objects",
    "Verif.Props.C53_targets",
    "Verif.Props.C53_result"
   ],
   "note": ""
  },
  {
   "property": "C54",
   "status": "partial",
   "theorems": [
    "Verif.Props.C54_partial",
    "Verif.Props.C54_example_partial",
    "Verif.Props.C54_fails",
    "Verif.Props.C54_fails_two_stage",
    "Verif.Props.C54_fails_pdaqp",
    "Verif.Props.C54_fails_example",
    "Verif.Props.C54_error_without_P",
    "Verif.Props.C54_undefined_declaration",
    "Verif.Props.C54_iff",
    "Verif.Props.C54_example_iff"
   ],
   "note": "Proved for one stage (any solver, with and without derivatives, explicit mode) over all names, sizes and prefixes: every name used in a generated file is declared before its use, is defined, and every declared function is defined. Fails (proved for all inputs): no code for derivatives in two stages compiles; no code for PDAQP without explicit mode compiles; with a prefix the example program for derivatives does not compile; two stages with a canonical form without P raise KeyError. C54_iff: of all calls that write files, the code is complete exactly in one stage, with PDAQP in explicit mode only. C54_example_iff: the same for the example program."
  },
  {
   "property": "C55",
   "status": "partial",
   "theorems": [
    "Verif.Props.C55_partial",
    "Verif.Props.C55_python",
    "Verif.Props.C55_explicit_partial",
    "Verif.Props.C55_fails_symmetric_place",
    "Verif.Props.C55_fails_symmetric_bounds",
    "Verif.Props.C55_fails",
    "Verif.Props.C55_explicit_fails_single",
    "Verif.Props.C55_iff"
   ],
   "note": "Proved for problems without symmetric variables over all sequences of calls, and for explicit mode with the requests of C39. Fails for symmetric variables: the sensitivity of an entry overwrites another entry or is written beyond the end of dx; explicit mode with a single stored entry of a larger variable uses the wrong entry. C55_iff: right for all sequences of calls exactly if symmetric variables have at most one entry."
  },
  {
   "property": "C56",
   "status": "partial",
   "theorems": [
    "Verif.Props.C56_partial",
    "Verif.Props.C56_independent_iff",
    "Verif.Props.C56_fails_fresh",
    "Verif.Props.C56_fails_stale"
   ],
   "note": "Holds exactly for contexts that have all variables of the problem (C56_independent_iff). With fewer variables the call raises on a new problem or uses gradients of an earlier call. CVXPYlayers, which makes these calls, is not modelled."
  },
  {
   "property": "C57",
   "status": "partial",
   "theorems": [
    "Verif.Props.C57_partial",
    "Verif.Props.C57_name_iff",
    "Verif.Props.C57_first_wins",
    "Verif.Props.C57_fails_again",
    "Verif.Props.C57_fails_path",
    "Verif.Props.C57_fails"
   ],
   "note": "Holds for the first generation into a folder with a plain name. A second generation into a folder of the same name registers the code of the first; a path as code_dir raises. Python's import is modelled by sys.modules, sys.path and packages."
  },
  {
   "property": "C58",
   "status": "partial",
   "theorems": [
    "Verif.Props.C58_partial",
    "Verif.Props.C58_example_partial",
    "Verif.Props.C58_explicit_partial",
    "Verif.Props.C58_fails_example_gradient",
    "Verif.Props.C58_fails_sparse",
    "Verif.Props.C58_fails_single",
    "Verif.Props.C58_fails",
    "Verif.Props.C58_iff"
   ],
   "note": "Library and Python module: consistent for all problems and configurations (one stage), in explicit mode for the requests of C39. The example program is consistent exactly if no derivatives are generated for a problem with a variable of size one and the sizes of the value and of the stored entries of a parameter are both one or both not (C58_example_partial is an equivalence; whether CVXPY lets them differ for a sparse parameter is not modelled). A single stored entry of a larger variable in explicit mode is assigned to a pointer (C58_fails_single). Types of the C language are reduced to number, array and function. C58_iff: all files together are consistent exactly under these conditions."
  },
  {
   "property": "C59",
   "status": "partial",
   "theorems": [
    "Verif.Props.C59_partial",
    "Verif.Props.C59_no_symmetric",
    "Verif.Props.C59_fails_many",
    "Verif.Props.C59_fails_flags",
    "Verif.Props.C59_fails",
    "Verif.Props.C59_flags",
    "Verif.Props.C59_iff",
    "Verif.Props.C59_one"
   ],
   "note": "Exact condition for IndexError (C59_partial): flags are deleted by the index among all variables from a list that shrinks. Storing one of four variables always raises (C59_fails_many); the flag of another variable may be deleted (C59_fails_flags). C59_flags: exactly which flags remain. C59_iff: exactly when they are those of the stored variables. C59_one: always, if at most one variable is not stored."
  },
  {
   "property": "C60",
   "status": "partial",
   "theorems": [
    "Verif.Props.C60_partial",
    "Verif.Props.C60_gradient_partial",
    "Verif.Props.C60_gradient_iff",
    "Verif.Props.C60_print_partial",
    "Verif.Props.C60_fails_gradient",
    "Verif.Props.C60_fails_print",
    "Verif.Props.C60_fails_symmetric",
    "Verif.Props.C60_fails_twice",
    "Verif.Props.C60_fails"
   ],
   "note": "Evaluation, retrieval, objective and sensitivities are in bounds for all requests of C39 without symmetric variables; cpg_gradient of the last law is in bounds exactly if every variable with entries is stored (C60_gradient_iff); the example program if stored variables are stored completely. Counterexamples for the rest. PDAQP is modelled by the sizes of its output and table."
  },
  {
   "property": "C61",
   "status": "proved",
   "theorems": [
    "Verif.Props.C61_example",
    "Verif.Props.C61_explicit_iff"
   ],
   "note": "For all parameter lists, maps and solvers (one stage). In explicit mode an equivalence: the parameter vector is that of generation exactly if the first entry of every parameter lies within its bounds. Printing enters as one function for all numbers. Parameters with reduced dimension enter as the vectors that CVXPY replaces them by (assumption)."
  },
  {
   "property": "C62",
   "status": "partial",
   "theorems": [
    "Verif.Props.C62_fields_partial",
    "Verif.Props.C62_initialised_partial",
    "Verif.Props.C62_first_partial",
    "Verif.Props.C62_other_iff",
    "Verif.Props.C62_both_orders",
    "Verif.Props.C62_fails_missing",
    "Verif.Props.C62_fails_precision",
    "Verif.Props.C62_fails_status",
    "Verif.Props.C62_fails_order",
    "Verif.Props.C62_fails"
   ],
   "note": "One library: all fields exist and canonical parameters that are read are initialised (explicit mode with constant matrices). Several libraries in one file: the types have no prefix and are behind the guard CPG_TYPES_H, so all structs are seen with the types of the first header. Exact condition (C62_other_iff): the fields of the library are an initial part of those of the first one. Fails for any variable that the first problem does not have, for different order, if exactly one is in explicit mode, and if exactly one solver reports its status as text. Fields mentioned by calls of solvers, settings and two-stage derivatives are not modelled."
  },
  {
   "property": "C63",
   "status": "partial",
   "theorems": [
    "Verif.Props.C63_stored",
    "Verif.Props.C63_value",
    "Verif.Props.C63_no_leak",
    "Verif.Props.C63_ids_partial",
    "Verif.Props.C63_dual_partial",
    "Verif.Props.C63_dual_iff",
    "Verif.Props.C63_fails_first_map",
    "Verif.Props.C63_fails_explicit",
    "Verif.Props.C63_fails_twice",
    "Verif.Props.C63_fails"
   ],
   "note": "Primal values, value, status, return value and independence of earlier solves for all problems. Dual values: exactly if no constraint is listed again before all distinct ones have been listed (C63_dual_iff), and if the first reduction of CVXPY keeps the ids of constraints, because the code does not apply its map (C63_ids_partial, C63_fails_first_map; whether CVXPY ever changes them is not modelled). In explicit mode value and status stay None and the time is returned (C63_fails_explicit). CVXPY's objects and _clear_solution are modelled by assumption; save_dual_value of constraints with several dual variables is not modelled."
  },
  {
   "property": "C64",
   "status": "partial",
   "theorems": [
    "Verif.Props.C64_partial",
    "Verif.Props.C64_superset",
    "Verif.Props.C64_values_partial",
    "Verif.Props.C64_fails_slice",
    "Verif.Props.C64_fails_negative",
    "Verif.Props.C64_fails_mask",
    "Verif.Props.C64_fails_array",
    "Verif.Props.C64_fails_empty",
    "Verif.Props.C64_fails_rows",
    "Verif.Props.C64_fails_pairs",
    "Verif.Props.C64_fails",
    "Verif.Props.C64_list_iff",
    "Verif.Props.C64_array_iff",
    "Verif.Props.C64_mask_never",
    "Verif.Props.C64_one_axis_iff",
    "Verif.Props.C64_axes_iff",
    "Verif.Props.C64_rows_never"
   ],
   "note": "Proved for whole variables, lists of non-negative indices for one axis, and for several axes with slices, integers and at most one list of several indices; with C39 this gives the values (C64_values_partial). Fails, for all inputs of the kind: an integer or slice for a variable with one axis raises; negative indices in a list store an entry of another variable; masks are taken for the indices 0 and 1; arrays raise or stand for everything; an empty selection stores everything; a list alone for a matrix stores one entry instead of rows; two lists store their product. The form in which CVXPY hands over an index is an assumption. C64_one_axis_iff: exactly which indices work for variables with one axis; masks never do (C64_mask_never). C64_axes_iff: with proper indices for all axes of a variable, exactly those with at most one list of several elements; lists of rows never work (C64_rows_never)."
  },
  {
   "property": "C65",
   "status": "partial",
   "theorems": [
    "Verif.Props.C65_attributes",
    "Verif.Props.C65_bound",
    "Verif.Props.C65_members",
    "Verif.Props.C65_structs",
    "Verif.Props.C65_partial",
    "Verif.Props.C65_fails",
    "Verif.Props.C65_fails_prefix"
   ],
   "note": "Attributes, members and structs agree for all inputs. Names: exact condition (C65_partial, an equivalence): names of variables and parameters are identifiers and no keywords of C, C++ or Python, and stay so behind the prefix where a variable has its own array. Fails for a parameter named lambda (C65_fails) and for prefix static with a variable cast (C65_fails_prefix). ASCII only; macros of included headers, local variables, and names of settings beyond their characters are not modelled."
  },
  {
   "property": "C66",
   "status": "proved",
   "theorems": [
    "Verif.Props.C66_imports",
    "Verif.Props.C66_together",
    "Verif.Props.C66_fails"
   ],
   "note": "pybind11's registration of types (process-wide, by name, second registration raises) is taken from its documentation. C66_fails: with the default prefix two modules cannot be used together."
  },
  {
   "property": "C67",
   "status": "partial",
   "theorems": [
    "Verif.Props.C67_setup",
    "Verif.Props.C67_partial",
    "Verif.Props.C67_iff",
    "Verif.Props.C67_fails_ignored",
    "Verif.Props.C67_direct",
    "Verif.Props.C67_clarabel"
   ],
   "note": "OSQP: right at generation for all symmetric matrices (C67_setup); after updates exactly for diagonal matrices (C67_iff), whatever OSQP does with too many data; if it rejects them, updates never take effect (C67_fails_ignored). SCS, QOCO: the data are those of an upper triangle exactly if the matrix is diagonal (C67_direct). Clarabel: right for all symmetric matrices and all histories of updates and solves, since every solve makes a new solver (C67_clarabel). That OSQP and Clarabel keep the upper triangle, and that SCS and QOCO expect it, are assumptions taken from their documentation; the solvers are not part of the repository."
  },
  {
   "property": "C68",
   "status": "partial",
   "theorems": [
    "Verif.Props.C68_partial",
    "Verif.Props.C68_fails"
   ],
   "note": "End-to-end composition of C01, C08, C15, C17, C18, C20, C50 and C63 in one executable model, for all solvers outside of explicit mode. The solver is an arbitrary function of the number of the solve, of the data it uses and of the settings that reach it, with vectors of the right lengths. Missing, each with its own counterexample: diagonal variables (C17), constraints listed repeatedly (C63, C68_fails), split duals without inequalities (C18), sparse parameters with one entry (C50), settings of SCS after its creation (C21), explicit mode (C63). Gradient mode returns more and is covered by C34, C51, C55, C56."
  },
  {
   "property": "C69",
   "status": "partial",
   "theorems": [
    "Verif.Props.C69_partial",
    "Verif.Props.C69_limited_partial",
    "Verif.Props.C69_near",
    "Verif.Props.C69_rejects",
    "Verif.Props.C69_fails_exact",
    "Verif.Props.C69_fails_unbounded",
    "Verif.Props.C69_fails_linear",
    "Verif.Props.C69_fails_settings"
   ],
   "note": "End-to-end composition of C37-C43, C59, C60 and C63 in one executable model. The point delivered is optimal for the problem with 5e-7*|x|^2 added to the objective (C69_partial); with parameters out of bounds it is so for the values moved into their bounds, whatever the history, if the values at generation are within them (C69_limited_partial). It is hence feasible and, for the user's problem, worse than any feasible y by at most 5e-7*|y|^2 (C69_near). It is not optimal in general (C69_fails_exact), unbounded problems get a point and no status (C69_fails_unbounded). Missing: theta depending on varying parameters with both signs (C38), a zero row before an equality row (C41), symmetric variables, requests out of range, repeated or of one entry of a larger variable (C39), values at generation out of bounds, rounding. PDAQP is a function that is assumed to solve the problem it is given. Problems with P or A depending on parameters are rejected (C69_rejects), problems without quadratic part raise a KeyError (C69_fails_linear), keyword arguments are ignored (C69_fails_settings)."
  },
  {
   "property": "C70",
   "status": "partial",
   "theorems": [
    "Verif.Props.C70_partial",
    "Verif.Props.C70_accepts",
    "Verif.Props.C70_fails"
   ],
   "note": "End-to-end composition of C68 (solve), C55 (incoming gradients), C28, C29, C35 (factorization and linear system), C27 (to the parameters) and the assignment to parameters, in one executable model. The inner product of the gradients with every direction of the parameters is the derivative along the active constraints, up to 1e-6 times the last correction of the refinement. After every history the call succeeds exactly if every variable has a gradient of the right size and no parameter is diagonal or sparse (C70_accepts); with such a parameter every call raises (C70_fails). The problem must be convex at the parameters transferred. Missing, each with its counterexample: symmetric variables (C55), entries of P off the diagonal (C29), constraints with two different bounds and multipliers of the wrong sign (C35). QDLDL and the square root are functions that do what they are meant to; the arguments gradient_sol_primal, gradient_sol_dual are covered by C73."
  },
  {
   "property": "C71",
   "status": "partial",
   "theorems": [
    "Verif.Props.C71_partial",
    "Verif.Props.C71_solve_partial",
    "Verif.Props.C71_solution",
    "Verif.Props.C71_region",
    "Verif.Props.C71_fails_early",
    "Verif.Props.C71_fails_kept",
    "Verif.Props.C71_fails_limited"
   ],
   "note": "End-to-end composition of C69 (solve), C55 (incoming gradients), C60 (arrays), C43 (adjoint of the affine law, region kept between calls) and the assignment to parameters, in one executable model. PDAQP is an input: its search tree, tables and evaluation. For every history in which gradients are asked for after a solve and for regions that exist (C71_region: regions returned by solves do), no access is outside of an array, the call succeeds exactly if all stored variables have gradients and no parameter is diagonal or sparse, and the inner product of the gradients with every change of the parameters is the change of the function along the law of the region (C71_partial), hence of the points that solves deliver in this region (C71_solution, C71_solve_partial). Before the first solve the access is outside of the table (C71_fails_early); a region passed stays, so that later calls without one do not refer to the last solve (C71_fails_kept); parameters out of bounds get gradients though the solution does not depend on them (C71_fails_limited). Missing: variables that are not stored (C60), gradients of duals, what C69 excludes."
  },
  {
   "property": "C72",
   "status": "partial",
   "theorems": [
    "Verif.Props.C72_partial",
    "Verif.Props.C72_forward",
    "Verif.Props.C72_fails_context"
   ],
   "note": "Extends the model of C71 by the functions forward and backward that CVXPYlayers calls. After every interleaving the backward call of any earlier forward call returns the gradients along the law that holds at the parameters of that forward call (moved into their bounds), for the gradients of this call; forward calls in between do not matter. C72_forward: what forward returns and records. Missing: as for C71; contexts that lack a stored variable (first use raises, later uses take the gradient of another context's call: C72_fails_context, see also C56)."
  },
  {
   "property": "C73",
   "status": "partial",
   "theorems": [
    "Verif.Props.C73_mixed",
    "Verif.Props.C73_partial",
    "Verif.Props.C73_constant",
    "Verif.Props.C73_forward",
    "Verif.Props.C73_passed",
    "Verif.Props.C73_fails",
    "Verif.Props.C73_fails_kept"
   ],
   "note": "Extends the model of C70 by solutions passed to cpg_gradient and by the functions forward and backward that CVXPYlayers calls. Exactly what a backward call returns, after every interleaving: the gradients for the solution of its forward call, with the matrices P and A of the problem solved last (C73_mixed). Hence they are right if the matrices agree (C73_partial), always if P and A do not depend on parameters (C73_constant), and wrong in general (C73_fails: 1 and -1/2 in place of 2 and -1). C73_forward: what forward returns and records. C73_passed: solutions passed by the user. Passing a solution has a lasting effect, later calls without one differentiate it and not the solution of the last solve (C73_fails_kept). Missing: different matrices; as for C70; contexts that lack a variable (C56)."
  },
  {
   "property": "C74",
   "status": "partial",
   "theorems": [
    "Verif.Props.C74_outside",
    "Verif.Props.C74_keeps",
    "Verif.Props.C74_start",
    "Verif.Props.C74_fresh",
    "Verif.Props.C74_layout",
    "Verif.Props.C74_history",
    "Verif.Props.C74_license",
    "Verif.Props.C74_fails_user",
    "Verif.Props.C74_fails_nested",
    "Verif.Props.C74_fails_error",
    "Verif.Props.C74_fails_dot",
    "Verif.Props.C74_nested_iff"
   ],
   "note": "Model of every file operation of generate (wrapper=False) over an abstract file system. Nothing changes outside code_dir, whatever happens (C74_outside); errors of canonicalization change nothing at all (C74_keeps); exactly when generation starts, and that otherwise nothing is created (C74_start); once it starts, contents and errors are those of the same call in an empty file system (C74_fresh); on success the contents are exactly the layout (C74_layout), and stay so under calls for directories apart (C74_history). Not true: files of the user in code_dir are removed (C74_fails_user, for all calls); a directory that contains the code of another problem is emptied with it (C74_fails_nested); errors after canonicalization lose the old code (C74_fails_error); code_dir '.' empties the working directory and raises (C74_fails_dot). Missing: contents of the solver directories beyond C75; symbolic links, permissions, compilation. C74_nested_iff: code generated elsewhere stays exactly if the new code_dir is not above it."
  },
  {
   "property": "C75",
   "status": "proved",
   "theorems": [
    "Verif.Props.C75_sources",
    "Verif.Props.C75_headers",
    "Verif.Props.C75_subdirectories"
   ],
   "note": "For the files of c/src and c/include; the lists of sources of the solvers themselves (solver_src, osqp_src) come from their own build files, which are not part of the repository."
  },
  {
   "property": "C76",
   "status": "partial",
   "theorems": [
    "Verif.Props.C76_calls",
    "Verif.Props.C76_functions_partial",
    "Verif.Props.C76_types_partial",
    "Verif.Props.C76_tree",
    "Verif.Props.C76_embed_partial",
    "Verif.Props.C76_import_partial",
    "Verif.Props.C76_fails_info",
    "Verif.Props.C76_fails_dual",
    "Verif.Props.C76_fails_settings",
    "Verif.Props.C76_fails_embed",
    "Verif.Props.C76_fails_import",
    "Verif.Props.C76_dimension_iff",
    "Verif.Props.C76_fails_dimension"
   ],
   "note": "Documented types, functions, tree of files, list of files for embedding and import statement, compared with the models of C62 (types), C54 (functions), C74/C75 (files) and C57 (import). True outside of explicit mode and without a second stage. Not true: in explicit mode the struct with solver information, its field in the result and the functions for settings do not exist (C76_fails_info for all problems, C76_fails_settings), nor does the dual field without duals (C76_fails_dual); with a second stage the build file needs osqp_code, which is not to be copied (C76_fails_embed, for all configurations); the import statement is wrong for code_dir with dots (C76_fails_import). Dimensions in the summary tables are those of the object exactly with one or two axes (C76_dimension_iff); further axes are left out (C76_fails_dimension)."
  },
  {
   "property": "C77",
   "status": "partial",
   "theorems": [
    "Verif.Props.C77_own",
    "Verif.Props.C77_solver",
    "Verif.Props.C77_explicit",
    "Verif.Props.C77_qdldl",
    "Verif.Props.C77_fails_second"
   ],
   "note": "Include lines of all generated files and the two search paths, over the files that generation leaves (C74). CVXPYgen's own headers are always found and are those of this code (C77_own); other headers are found exactly if they are in the directories named for the solver, equally for C and C++ (C77_solver); in explicit mode pdaqp.h is found everywhere (C77_explicit). Not true: in two stages qdldl.h, written by OSQP to osqp_code, is on no search path (C77_fails_second). Missing: which headers the libraries contain is an input; directories added by linked targets."
  },
  {
   "property": "C78",
   "status": "partial",
   "theorems": [
    "Verif.Props.C78_exposes",
    "Verif.Props.C78_succeeds",
    "Verif.Props.C78_explicit",
    "Verif.Props.C78_pdaqp",
    "Verif.Props.C78_library",
    "Verif.Props.C78_library_two",
    "Verif.Props.C78_clarabel_lists",
    "Verif.Props.C78_fails_two",
    "Verif.Props.C78_fails_headers",
    "Verif.Props.C78_fails_clarabel"
   ],
   "note": "An interpreter for the commands of the generated build files (scopes, PARENT_SCOPE, lists, include directories, global targets), with arbitrary build files of libraries. One code: the three lists are exactly the generated files and the solver's, nothing else changes (C78_exposes), and it succeeds exactly if the libraries do and the names of targets are free (C78_succeeds); complete for explicit mode (C78_explicit). Not true: two codes in one project are always an error, since the targets cpg and cpg_example have no prefix (C78_fails_two, for all projects); with both codes on the search path sources of one get headers of the other (C78_fails_headers); Clarabel's build file looks for its library relative to the whole project (C78_fails_clarabel: right exactly if the code is the whole project). Missing: link libraries, packages, compiler flags."
  },
  {
   "property": "C79",
   "status": "partial",
   "theorems": [
    "Verif.Props.C79_call",
    "Verif.Props.C79_last",
    "Verif.Props.C79_partial",
    "Verif.Props.C79_own_name",
    "Verif.Props.C79_fails",
    "Verif.Props.C79_fails_two",
    "Verif.Props.C79_sends",
    "Verif.Props.C79_wrong_size",
    "Verif.Props.C79_missing_param",
    "Verif.Props.C79_missing_var",
    "Verif.Props.C79_iff",
    "Verif.Props.C79_after"
   ],
   "note": "True if the function stored last under the name is that of the problem's code (C79_partial, all histories), for example if each problem has a name of its own (C79_own_name). Not true in general: the registry belongs to the class Problem, so that 'CPG' is the method of the code generated last (C79_last); other problems with the same names and sizes get the solution of that one without a message (C79_fails, C79_fails_two); with other names a KeyError follows, before (parameters, C79_missing_param) or after (variables, C79_missing_var) the solution of the problem is cleared. That register_solve stores the function in the class is CVXPY's behaviour (external). C79_iff: exactly when a method succeeds on a problem, whichever problem its code was generated for. C79_after: what a call leaves as it was, also if it fails."
  },
  {
   "property": "C80",
   "status": "partial",
   "theorems": [
    "Verif.Props.C80_generated",
    "Verif.Props.C80_partial",
    "Verif.Props.C80_bindings",
    "Verif.Props.C80_changed",
    "Verif.Props.C80_unconfigured",
    "Verif.Props.C80_fails",
    "Verif.Props.C80_fails_make",
    "Verif.Props.C80_iff",
    "Verif.Props.C80_good_iff"
   ],
   "note": "True for code as generated: after any history, generating and any number of builds with any failures there is no module or one made of the generated sources (C80_generated), although no result is looked at. True for the first build, forced builds and after changes of the bindings, if everything succeeds (C80_partial, C80_bindings). Not true after changes of the C sources only: the static library is not among the dependencies of the extension, so that builds succeed and leave the old module (C80_fails, any number of builds); with a failing C compiler the old library is linked without an error (C80_fails_make). cmake and setuptools are modelled by documentation. C80_iff: exactly when a build leaves a module made of the sources in the directory, whatever succeeds and whatever happened before; C80_good_iff: for builds in which everything succeeds."
  },
  {
   "property": "C81",
   "status": "partial",
   "theorems": [
    "Verif.Props.C81_partial",
    "Verif.Props.C81_scs",
    "Verif.Props.C81_scs_partial",
    "Verif.Props.C81_fails_scs",
    "Verif.Props.C81_fails_updates",
    "Verif.Props.C81_fails_clarabel",
    "Verif.Props.C81_iff"
   ],
   "note": "True for OSQP and QOCOGEN (no object on the heap), ECOS and QOCO (at most one), and for SCS if neither P nor A depends on parameters (at most one). Not true for Clarabel: the number of objects is the number of solves. Not true for SCS otherwise: C81_scs gives the exact number after every history; every update of P or A costs one workspace (C81_fails_updates), and with a quadratic objective where exactly one of P and A depends on parameters every solve does, even without updates (C81_fails_scs). What solvers allocate inside is not modelled. C81_iff: exactly when the number of objects is bounded over all histories."
  },
  {
   "property": "C82",
   "status": "partial",
   "theorems": [
    "Verif.Props.C82_partial",
    "Verif.Props.C82_early",
    "Verif.Props.C82_again",
    "Verif.Props.C82_fails",
    "Verif.Props.C82_rng",
    "Verif.Props.C82_iff"
   ],
   "note": "True for parameters with values, whatever the outcome (C82_partial), for errors before parameters are listed (C82_early), and for all generations after the first (C82_again). Not true for parameters without a value: they get a random one that stays, also if generation raises later, and problem.solve() no longer reports it (C82_fails). In two stages numpy's random generator advances although all values are set (C82_rng gives the exact state). C82_iff: a sequence of generations leaves parameters alone exactly if all had values or all calls raised before listing them."
  },
  {
   "property": "C83",
   "status": "partial",
   "theorems": [
    "Verif.Props.C83_partial",
    "Verif.Props.C83_values",
    "Verif.Props.C83_fails",
    "Verif.Props.C83_text",
    "Verif.Props.C83_text_fails",
    "Verif.Props.C83_text_osqp_iff",
    "Verif.Props.C83_text_qoco_iff",
    "Verif.Props.C83_text_clarabel",
    "Verif.Props.C83_iff"
   ],
   "note": "True if all parameters have values (C83_values), and otherwise as soon as updates have made the parameters equal (C83_partial). Not true before: the first solve uses the values drawn at generation (C83_fails). The text of the updates is the same for SCS and ECOS (C83_text), for OSQP it depends on the order of sets (C83_text_fails). Exactly: for OSQP the text depends on the order if and only if a matrix and a vector depend on parameters (C83_text_osqp_iff), for QOCO and QOCOGEN if and only if two canonical parameters that are updated do (C83_text_qoco_iff), for Clarabel never (C83_text_clarabel). C83_iff: two programs do the same in a history exactly if data and constant agree at the parameter vectors of each solve."
  },
  {
   "property": "C84",
   "status": "partial",
   "theorems": [
    "Verif.Props.C84_dual_solution",
    "Verif.Props.C84_primal_solution",
    "Verif.Props.C84_defined_iff",
    "Verif.Props.C84_prim_partial",
    "Verif.Props.C84_dual_partial",
    "Verif.Props.C84_fails_offset",
    "Verif.Props.C84_fails_dual_copied",
    "Verif.Props.C84_gradient_iff",
    "Verif.Props.C84_fails",
    "Verif.Props.C84_fails_dual"
   ],
   "note": "The dual solution for derivatives is right and makes the quadratic program stationary (C84_dual_solution). Variables are right for SCS with at least two variables and for the other solvers if the user's variables come first in the second problem (C84_prim_partial); otherwise the copy of the solution reads outside of the solver's vector (C84_defined_iff) and copied fields leave out the offset (C84_fails_offset, C84_fails). Vector dual variables are right for SCS and QOCOGEN (C84_dual_partial); copied ones read another vector (C84_fails_dual_copied, C84_fails_dual). The loops of cpg_gradient stay inside of the maps only if the second problem has no further variables and rows (C84_gradient_iff). C54 and C77 show in addition that such code does not compile at this commit; names are not part of this model."
  },
  {
   "property": "C85",
   "status": "partial",
   "theorems": [
    "Verif.Props.C85_refines",
    "Verif.Props.C85_partial",
    "Verif.Props.C85_stored_partial",
    "Verif.Props.C85_accept_iff",
    "Verif.Props.C85_fails_matrix",
    "Verif.Props.C85_fails_twice",
    "Verif.Props.C85_fails_reduced",
    "Verif.Props.C85_fails"
   ],
   "note": "Proved for parameters all of whose entries are stored and limits that are single values or constants of the same shape of which only the last axis is longer than one (C85_partial: every entry has exactly the limits stated last; C85_stored_partial: stored values meet limits stated once; C85_refines: the accepted runs are those of the model used for C37 to C42). Other shapes raise ValueError (C85_accept_iff, C85_fails_matrix), the last of several limits wins over tighter ones (C85_fails_twice), and limits of diagonal or sparse parameters raise KeyError or also limit the entries behind (C85_fails_reduced, C85_fails). Equalities are part of C37."
  },
  {
   "property": "C86",
   "status": "partial",
   "theorems": [
    "Verif.Props.C86_data",
    "Verif.Props.C86_compiles",
    "Verif.Props.C86_exact",
    "Verif.Props.C86_partial",
    "Verif.Props.C86_setup_iff",
    "Verif.Props.C86_osqp_iff",
    "Verif.Props.C86_qocogen",
    "Verif.Props.C86_qocogen_partial",
    "Verif.Props.C86_fails_qocogen",
    "Verif.Props.C86_scs",
    "Verif.Props.C86_scs_iff",
    "Verif.Props.C86_scs_partial"
   ],
   "note": "Proved for ECOS, Clarabel and QOCO, unless a setting is read only while the object of ECOS or QOCO is set up (C86_partial, C86_setup_iff); for OSQP exactly if the values compiled in and those of its reset function are the interface's defaults (C86_osqp_iff). For SCS it holds exactly in the case in which every solve creates a workspace (C86_scs, C86_scs_iff), otherwise for programs that set before the first solve (C86_scs_partial). It fails for QOCOGEN whatever load_data does (C86_fails_qocogen); programs that reset first are right if load_data leaves settings alone (C86_qocogen_partial). Data are never affected (C86_data)."
  },
  {
   "property": "C87",
   "status": "partial",
   "theorems": [
    "Verif.Props.C87_number",
    "Verif.Props.C87_data",
    "Verif.Props.C87_partial",
    "Verif.Props.C87_exact",
    "Verif.Props.C87_fails",
    "Verif.Props.C87_fails_digits"
   ],
   "note": "Numbers go through the text of C44 and a compiler that rounds to nearest; doubles are a set of rationals, arithmetic is exact. Exact for all histories if all coefficients and initial values have at most 20 decimals or are at least 2^-13 in magnitude (C87_exact); in general every number is off by at most 1e-20, and the data by the sum of these errors (C87_partial). Not true for small coefficients: below 0.5e-20 they are lost, so that the objective is 0 at all solves (C87_fails); below about 1e-4 digits may be lost (C87_fails_digits)."
  },
  {
   "property": "C88",
   "status": "partial",
   "theorems": [
    "Verif.Props.C88_infinite",
    "Verif.Props.C88_value_scs",
    "Verif.Props.C88_value_osqp",
    "Verif.Props.C88_value_solved",
    "Verif.Props.C88_partial",
    "Verif.Props.C88_status_text",
    "Verif.Props.C88_fails",
    "Verif.Props.C88_fails_value",
    "Verif.Props.C88_fails_status_int",
    "Verif.Props.C88_fails_osqp",
    "Verif.Props.C88_fails_explicit",
    "Verif.Props.C88_value_iff",
    "Verif.Props.C88_iff"
   ],
   "note": "The solver's output is an input; what OSQP and SCS report is taken from their documentation. Value and status are CVXPY's with SCS (C88_partial). With OSQP the value is, exactly if the objective has no constant or one below 2^46 (C88_value_osqp), in floating point. Finite values of solved instances are kept (C88_value_solved). Not true otherwise: variables always get values (C88_fails), solvers with other reports give finite values (C88_fails_value), integer statuses become sentences (C88_fails_status_int), explicit mode reports nothing (C88_fails_explicit). C88_value_iff, C88_iff: exactly when the value, and the whole report, are CVXPY's."
  },
  {
   "property": "C89",
   "status": "proved",
   "theorems": [
    "Verif.Props.C89_call",
    "Verif.Props.C89_no_trace"
   ],
   "note": "For the exceptions listed in the statement, which are those of the method in a module that was compiled for the problem. Exceptions of saving for other problem objects are C79; values of the wrong size are C79_wrong_size."
  },
  {
   "property": "C90",
   "status": "partial",
   "theorems": [
    "Verif.Props.C90_partial",
    "Verif.Props.C90_double",
    "Verif.Props.C90_growth",
    "Verif.Props.C90_small",
    "Verif.Props.C90_limited",
    "Verif.Props.C90_updates",
    "Verif.Props.C90_explicit",
    "Verif.Props.C90_fails",
    "Verif.Props.C90_fails_limit"
   ],
   "note": "Types without bound on the size (no overflow), no excess precision. The error is bounded relative to the sum of absolute values of the products, for coefficients that survive printing (C87). Accuracy relative to the data themselves is false: cancellation (C90_fails). In single precision a parameter can exceed its limit by rounding (C90_fails_limit). Arithmetic of the solvers and of the tree of explicit solutions is not modelled in floating point."
  },
  {
   "property": "C91",
   "status": "partial",
   "theorems": [
    "Verif.Props.C91_partial",
    "Verif.Props.C91_generated",
    "Verif.Props.C91_sizes",
    "Verif.Props.C91_constant",
    "Verif.Props.C91_call",
    "Verif.Props.C91_fails",
    "Verif.Props.C91_fails_counter"
   ],
   "note": "True for arithmetic in which multiples and sums of zeros are zero (no infinity, no NaN; C91_partial), and for any arithmetic if the matrices are not refreshed (C91_constant) or the entry counter of the factor is current (C91_call). False with NaN: cpg_ldl_numeric does not reset L->nnz, and repeated refreshes with NaN write past the end of L->i and L->x (C91_fails). QDLDL is a contract (pattern of the factor depends on the pattern of the matrix only; factorization does not stop at a zero pivot); C integers do not overflow."
  },
  {
   "property": "C92",
   "status": "partial",
   "theorems": [
    "Verif.Props.C92_iff",
    "Verif.Props.C92_end_to_end",
    "Verif.Props.C92_changing",
    "Verif.Props.C92_compiles",
    "Verif.Props.C92_compiles_scs",
    "Verif.Props.C92_generates",
    "Verif.Props.C92_objective",
    "Verif.Props.C92_gradient",
    "Verif.Props.C92_faults",
    "Verif.Props.C92_defined",
    "Verif.Props.C92_unconstrained",
    "Verif.Props.C92_constrained",
    "Verif.Props.C92_fails"
   ],
   "note": "Exact characterisation: OSQP and QOCOGEN never follow a null pointer; ECOS, Clarabel and QOCO do at the first solve iff a matrix they are set up with has no entries (C92_iff, witness C92_fails); SCS programs compile iff A, b and (quadratic objectives) P have entries; OSQP without quadratic part raises KeyError; cpg_obj of explicit mode needs entries of P. What solvers do with null pointers they are handed is not modelled."
  },
  {
   "property": "C93",
   "status": "partial",
   "theorems": [
    "Verif.Props.C93_explicit",
    "Verif.Props.C93_ignored",
    "Verif.Props.C93_iterative",
    "Verif.Props.C93_fails_advice",
    "Verif.Props.C93_advice_floats",
    "Verif.Props.C93_fails_dual",
    "Verif.Props.C93_quad",
    "Verif.Props.C93_explicit_iff",
    "Verif.Props.C93_explicit_error"
   ],
   "note": "True for solver='explicit' (C93_explicit). False otherwise: for iterative solvers only use_quad_obj has an effect (C93_iterative, C93_quad), all other entries are dropped silently (C93_ignored); the exception for too large solutions advises to set max_reals, which has no effect (C93_fails_advice; max_floats has, C93_advice_floats); with solver='PDAQP' dual has no effect (C93_fails_dual). That CVXPY reads use_quad_obj only is a hypothesis; PDAQP is a parameter. C93_explicit_iff: exactly when two dicts give the same code in explicit mode. C93_explicit_error: exactly when and how generation fails."
  },
  {
   "property": "C94",
   "status": "partial",
   "theorems": [
    "Verif.Props.C94_refines",
    "Verif.Props.C94_factor_exact",
    "Verif.Props.C94_history_independent",
    "Verif.Props.C94_adjoint"
   ],
   "note": "The code on its arrays refines the model on index functions (C94_refines), for all sequences of calls; hence the factor is exact (C94_factor_exact), the gradient of the user parameters does not depend on the history (C94_history_independent) and is the adjoint of the derivative of the solution composed with the maps (C94_adjoint). Exact arithmetic; QDLDL is assumed to factor exactly and to substitute with the factor. Missing, as in C28 and C35: P with entries off the diagonal, rows with two different finite bounds."
  },
  {
   "property": "C95",
   "status": "partial",
   "theorems": [
    "Verif.Props.C95_any_index",
    "Verif.Props.C95_own_iff_in_range",
    "Verif.Props.C95_announced_calls_are_fresh",
    "Verif.Props.C95_in_range_is_announced",
    "Verif.Props.C95_constant_stays_wrong",
    "Verif.Props.C95_explicit_keeps_bounds",
    "Verif.Props.C95_fails"
   ],
   "note": "Exact effect of all histories of calls with any indices (C95_any_index); the call keeps to its own parameter if and only if its index is in range (C95_own_iff_in_range). Canonical data stay fresh for in-range calls and for out-of-range calls that hit a parameter whose dependents are marked (C95_announced_calls_are_fresh, C95_in_range_is_announced). A wrong constant persists through all in-range calls (C95_constant_stays_wrong). In explicit mode bounds and constant are protected for all indices (C95_explicit_keeps_bounds). The code does not check indices: C95_fails."
  },
  {
   "property": "C96",
   "status": "partial",
   "theorems": [
    "Verif.Props.C96_data_as_if_serial",
    "Verif.Props.C96_own_data",
    "Verif.Props.C96_settings_come_from_calls_partial",
    "Verif.Props.C96_unused_settings_default",
    "Verif.Props.C96_undisturbed_settings_partial",
    "Verif.Props.C96_fails",
    "Verif.Props.C96_fails_no_order"
   ],
   "note": "For all threads and interleavings, data, exceptions and stored solutions are those of some order of whole calls (C96_data_as_if_serial), and every call that transfers all parameters solves its own values (C96_own_data). Settings: every value is the default or one passed by some call (C96_settings_come_from_calls_partial, C96_unused_settings_default), and a call's own if no other thread stores settings meanwhile (C96_undisturbed_settings_partial). The full property is false for settings: they are stored in the module by separate calls before the solve, so another thread's call can replace them (C96_fails); no order of whole calls explains the outcome (C96_fails_no_order)."
  },
  {
   "property": "C97",
   "status": "partial",
   "theorems": [
    "Verif.Props.C97_partial",
    "Verif.Props.C97_double",
    "Verif.Props.C97_exact_chain",
    "Verif.Props.C97_explicit",
    "Verif.Props.C97_fails"
   ],
   "note": "For all programs, types and roundings the error of every entry is at most (1+u)^(k+2)-1 times the sum of the absolute values of the products, plus what is lost near zero (C97_partial); in double precision the exponent is k+1 and sums on a grid are exact (C97_double); the reference value is what the same loops give in exact arithmetic (C97_exact_chain). Explicit mode, after any history: exponent k+s+5, both sums included (C97_explicit). Relative accuracy of the gradient itself is false because of cancellation (C97_fails). The canonical gradients are inputs: rounding in the factorization and the triangular solves is not modelled. Coefficients are assumed to survive printing with 20 decimals (C87)."
  },
  {
   "property": "C98",
   "status": "partial",
   "theorems": [
    "Verif.Props.C98_partial",
    "Verif.Props.C98_arrays",
    "Verif.Props.C98_accepts",
    "Verif.Props.C98_fails"
   ],
   "note": "Composition of C70 (Python to gradient, with index functions) and C94 (the code on its arrays): for every history the run on arrays exists, that is, no access is outside of an array, and its state read as functions is the state of the model of C70 (C98_arrays); hence the gradients assigned in Python are right (C98_partial). The call succeeds exactly if every variable has a gradient of the right size and no parameter is diagonal or sparse (C98_accepts), and raises in all other cases (C98_fails). Convexity at the parameters transferred is required. Missing, as in C70: symmetric variables, entries of P off the diagonal, rows with two different finite bounds. Exact arithmetic; QDLDL is assumed to factor exactly and to substitute with the factor; rounding is covered by C97 for the last step only."
  },
  {
   "property": "C99",
   "status": "partial",
   "theorems": [
    "Verif.Props.C99_partial",
    "Verif.Props.C99_mixed",
    "Verif.Props.C99_arrays",
    "Verif.Props.C99_forward",
    "Verif.Props.C99_fails"
   ],
   "note": "Composition of C73 (forward and backward calls, with index functions) and C98 (arrays): after every interleaving no access is outside of an array and the arrays represent the state of C73 (C99_arrays). C99_forward: what a forward call returns and records. C99_mixed: exactly what a backward call returns, the gradients for the solution of its forward call, with the matrices P and A of the problem solved last; hence right if the matrices agree (C99_partial) and wrong otherwise (C99_fails: 1 and -1/2 in place of 2 and -1, computed on the arrays). Missing: different matrices, contexts that lack a variable (C56), as for C70 and C98."
  }
 ]
}