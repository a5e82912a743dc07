# Design of the formal model of cvxpygen

## Trusted base
* Lean 4.33.0's kernel and the installed Mathlib (for definitions such as `Finset.sum`, `ℚ`, `List`).
* Axioms: at most `propext`, `Classical.choice`, `Quot.sound`. The axioms of each theorem in `MANIFEST.json` are listed
  at the end of this file. No `sorry`, no added axioms, no `native_decide`/`bv_decide`.
* The correspondence between the Lean model and the Python/C text of `/repo` is by reading. Every definition
  cites the lines it models. Nothing in `/repo` was executed.

## Layout
* `lean/Verif/Model`: the code, function by function. `lean/Verif/Spec`: what is claimed, independent of the model's helpers.
* `lean/Verif/Lemmas`: auxiliary results. `lean/Verif/Props`: the theorems of `MANIFEST.json`, each with an `example` that
  meets its hypotheses. A theorem whose name ends in `_partial` proves less than the property says; `…_fails…` is a
  counterexample to the full statement, or a proof that it fails for all inputs of some kind.
* `seeded/LOG.jsonl`: wrong versions of the model that were tried, and the theorems that then failed.

## What is modelled
Generation-time Python functions are modelled as total Lean functions producing small program
terms / token lists / index lists; the generated C is modelled as the interpretation of those terms
(a state machine for update/solve/gradient). Exceptions are values (`Except`). Memory accesses of generated loops are
bounds-checked (`Option`). Numbers are elements of an arbitrary (ordered) ring or field, i.e. exact arithmetic.

| model | code |
|-------|------|
| `UpdateStructure`, `SolverTables`, `Runtime` | `analyze_pus`, `write_update_structure`, parameter update structures of the solver interfaces, `cpg_update_*`, `cpg_solve` |
| `Sparse`, `Canon`, `Defaults` | `write_canonicalize`, affine maps, adjacency, `_set_default_values`, offsets of parameters |
| `Retrieve` | variable and dual tables, retrieval functions, objective value, `cpg_obj` |
| `Wrapper` | generated Python method and settings functions |
| `Factor`, `GradFactor`, `Gradient`, `Uncanon`, `GradFlow` | sparse factor, rank-one updates, KKT refresh, gradient of the QP, adjoint of the maps, flags, forward/backward wrapper |
| `Explicit` | PDAQP interface and explicit gradient |
| `Text`, `Flatten` | text helpers, printing of numbers and structs, Python-side flattening |
| `Dispatch` | solver selection, configuration, order of the pipeline, prefix |
| `Cones` | cone lists of the conic interfaces |
| `Merge` | two-stage canonicalization |
| `Precond`, `Shared` | copies for in-place preconditioning, class-level state that survives a generation |
| `Deltas`, `Backward`, `Register` | incoming sensitivities, `backward`, registration of the generated module |
| `Kinds` | declarations and uses of user objects as numbers or arrays in each generated file |
| `Stored` | removal of variables that are not stored in explicit mode |
| `ExMem` | lengths of the arrays of explicit mode and all accesses to them |
| `Example` | update calls of the generated C example program |
| `Structs` | struct types, initialisers and field accesses; types seen by a file that includes several libraries |
| `Saved` | what the Python solve method stores in the problem object; ids of dual variables |
| `Requests` | the option `stored_vars`: from indices to stored entries |
| `PyModule` | C++ structs, bindings and the Python file: attributes, members, all names; registration of types by pybind11 |
| `Quad` | entries of the quadratic form: setup and updates of OSQP (by its interface), hand-over to SCS and QOCO, the solver Clarabel makes at every solve |
| `Pipeline` | the Python method as a whole (arrays in, arrays out), composed of `Flatten`, `Wrapper`, `Runtime`, `Canon`, `Retrieve`, `Saved`; the solver is an arbitrary function |
| `ExPipe` | explicit mode as a whole: generation up to PDAQP, update functions with clamping, `cpg_solve`, the Python method; PDAQP is a function that solves the problem it is given |
| `GradPipe` | one-stage differentiation in Python as a whole: `cpg_solve` with its flags, `cpg_gradient` from the gradients of variables to the arrays of parameters; QDLDL, the square root and the solver are functions |
| `ExGrad` | explicit mode with differentiation as a whole: `cpg_solve` with its region, `cpg_gradient` from the gradients of stored variables to the arrays of parameters; PDAQP's search tree, tables and evaluation are inputs |
| `Layers` | `forward` and `backward` of the generated Python file in explicit mode (template:176-212), called by CVXPYlayers in any order on one problem object; parameters and variables are identified by names |
| `LayersG` | solutions passed to `cpg_gradient` (template:145-155, utils.py:1284-1294) and `forward`, `backward` (template:176-212) with differentiation in one stage; as in `Layers` one problem object and names in place of identifiers |
| `Files` | file operations of `generate` (generator.py:65-101, 122-145), of `generate_code` of all solvers and of `CCodeWriter.write`; lists of files in CMakeLists.txt.jinja2:32-92. Abstract file system without links and permissions; the texts written and what the solver libraries write are inputs |
| `Readme` | types, functions, files and import statement shown in README.html (utils.py:1455-1531, README.html.jinja2:218-276, 315-329, 443, 517-530), dimensions in the summary tables (utils.py:1418-1432); static text is left out |
| `Includes` | `#include` lines of all generated files and the search paths of CMakeLists.txt and setup.py (citations in the file); includes in angle brackets, directories of the compiler and of linked targets are left out |
| `CMake` | an interpreter for the CMake commands of the generated build files (CMakeLists.txt.jinja2:31-101, utils.py:1144-1160, pdaqp.py:226-229), build files of libraries are arbitrary commands; link libraries, packages and flags are left out |
| `Methods` | the solve methods registered with the class `Problem` (compiler.py:33-40), `get_param_value` and the body of `cpg_solve` without updated parameters, settings and information on the solver (cpg_solver.py.jinja2:27-34, 64-85), any number of problems in one process |
| `Build` | building the Python module: `compile` (compiler.py:24-31) and the generated `setup.py` (setup.py.jinja2:71-75, 78-103, 117, 130-131); cmake and setuptools by documentation, sources as versions |
| `Memory` | solver objects on the heap: which update functions and solve calls create one (scs.py:25-32, ecos.py:89-99, qoco.py:94-97, 267-318, clarabel.py:201-204); nothing that is written releases any; on top of `Runtime` |
| `Assign` | what generation does to the parameters of the problem: `_get_parameter_info` (canonicalizer.py:249-258), order of the steps that raise (86-122, generator.py:80-88), second stage (54-65, 334-361) |
| `TwoRet` | retrieval in two stages: variables of `_merge` (canonicalizer.py:363-405), redirected pointers (writer.py:94-143), intermediate retrieval and bounds of the loops (writer.py:145-211, 272-307), retrieval (utils.py:575-629, 946-975) |
| `Limits` | limits on parameters with shapes and NumPy's assignment to slices (pdaqp.py:264-289), the clamping of updates (utils.py:904-924) |
| `Settings` | settings functions in C programs: initial values, set, reset, copying and hand-over at solves (utils.py:663-669, 1032-1034, 1069-1084 and the interfaces' attributes); what libraries store and read is a parameter |
| `Printed` | the numbers compiled into the program: text of maps, canonical and user parameters, read back by a compiler (utils.py:85-131, 279-294, 483-510, 541); the compiler's rounding is a parameter, what OSQP itself prints is taken to be the same |
| `Outcome` | objective and status from the solver to the problem object in floating point with infinities and NaN (utils.py:978-985, 1597-1601, cpg_solver.py.jinja2:76-117); the solver's output is an input, reports of OSQP and SCS are taken from their documentation |
| `Rounded` | numbers as compiled and converted to `cpg_float`, canonicalization loops with rounding of every `+=`, update functions with limits in explicit mode (utils.py:87-107, 117-131, 279-294, 483-510, 905-921); no overflow, no excess precision |
| `GradMem` | `cpg_gradient` with arrays of the generated sizes, every read and write checked (templates/cpg_osqp_grad_compute.c.jinja2, writer.py:222-311, 354-410; initial KKT matrices writer.py:362-370); QDLDL is a contract, arithmetic is a parameter without laws |
| `Empty` | which objects and null pointers the program defines for canonical parameters without entries, and every reference to them: canonicalization, update functions, setup, solve, static data, objective, gradient (utils.py:496-550, 987-1006, 1054-1067; `function_call` texts of all solvers); `_get_constraint_info` (canonicalizer.py:273-281) |
| `Options` | the entries of `solver_opts` that are read, and where they go (generator.py:71-86, 161-173; canonicalizer.py:59-63, 417-426; pdaqp.py:83-87, 144, 199-210); CVXPY and PDAQP are parameters |
| `Index` | utils.py:904-935 (update functions with any signed index, both modes), 279-294, 485, 560-561, 1012-1016, 1048-1050; pdaqp.py:270-272 (lengths and last entry of the bounds); the trailing constant is part of the array; index arithmetic does not overflow (for the unsigned `cpg_int` of Clarabel negative indices wrap around to the same addresses); parameters of size one have no index argument |
| `Threads` | cpg_solver.py.jinja2:40-117 (not explicit) executed by several threads, each on its own problem object; utils.py:1194-1269, 1392, 1408-1410; one step is one call into `cpg_module`, which keeps the interpreter lock (no call guard in the bindings; pybind11's behaviour is external); threads that share one problem object and free-threaded builds of Python are not modelled |
| `RoundedGrad` | writer.py:270-303 (from canonical gradients to `cpg_dp`) and 457-512 (explicit mode) in floating point, with the maps as printed and compiled (utils.py:87-131); rounding to nearest with any treatment of ties, products rounded or fused; no overflow, infinities or NaN; the canonical gradients (osqp_grad) are inputs, not rounded computations |
| `GradArr` | templates/cpg_solver.py.jinja2:121-173, utils.py:904-935 and 1272-1328, writer.py:145-312 and 354-416: the Python wrapper, the updates of incoming gradients and `cpg_gradient` on the arrays of `GradMem`, in one state machine with the solve of `Pipeline`; real arithmetic, QDLDL as a function on arrays |
| `LayersArr` | templates/cpg_solver.py.jinja2:135-173 and 176-212, utils.py:1254-1259 and 1284-1294: `cpg_gradient` with a solution passed, `forward` and `backward`, on the arrays of `GradArr`; the copies out of and into `sol_x`, `sol_y` are loops with checked accesses |
| `Again` | the solver's object from solve to solve: which calls create it (scs.py:25-46, ecos.py:89-99, qoco.py:94-97 and 267-312, clarabel.py:201-204), the start passed to SCS (scs.py:46, 247-256); libraries are parameters |
| `Holders` | `squeeze_scalar`, `get_param_value` (cpg_solver.py.jinja2:17-34) and `user_p_writable` (canonicalizer.py:249-258) by the type of `param.value`; simplified: two types, arrays and scipy's sparse matrices |
| `DeltaIndex` | `cpg_update_d<name>` with signed indices and the reset of `dx` (writer.py:222-230, 304-307, 458-467, 509-511); simplified: `cpg_gradient` reads `dx` as a whole and resets it |
| `Enable` | warnings of `configure_settings` (_interface.py:125-130) and `cmake_definitions` of OSQP (osqp.py:148-158); trusted: OSQP prints only with the definition |
| `Link` | libraries of the C targets (CMakeLists.txt.jinja2:22-29, 91-101) and objects of the extension (setup.py.jinja2:30-75, 117), contexts of all solvers; trusted: where CMake and cargo put libraries |
| `Symbols` | names declared, used and defined in each generated file |

## What is not modelled
* CVXPY (its canonicalization tensors, offsets and constraint lists are inputs of the model), SciPy and NumPy (the
  semantics that is used is written down where it is used), the external solvers (a solver is what it is told: the data
  passed by the last call for each datum; QDLDL and PDAQP enter by their contracts), the C compiler, CMake, pybind11,
  floating-point rounding (except decimal printing, C44), html documentation.
* Generated names: local variables, struct fields and types are not modelled, only objects and functions with file scope.
* C01 says what is handed to the solver. Whether the canonical parameters are still intact at the next solve depends on
  solvers not writing into them; for solvers that scale their data in place this is C24.

## Findings
Places where the code does not do what the property says. All are proved (theorem in parentheses), not only observed.
1. C04, C05: for problems without quadratic part Clarabel's initialisation branch is taken at every solve
   (`C04_clarabel_lp_initialises_every_time`); SCS and ECOS push data again for some patterns (`C05_idle_solve_makes_no_call_partial`
   gives the exact set).
2. C16: `cpg_obj` omits the constant and the sign of maximization (`C16_fails`); it reads the stored solution as the canonical
   one, which is wrong if `stored_vars` lists the variables in another order and if there are auxiliary variables
   (`C16_stored_fails_order`, `C16_stored_fails_aux`).
3. C17: dimension-reduced variables other than symmetric ones are read with the wrong layout (`C17_fails_for_diagonal_variables`).
4. C18: with split duals and no inequality constraints generation raises `IndexError` (`C18_fails_without_inequalities`).
5. C21: SCS ignores settings of later calls unless its workspace is created anew (`C21_fails_for_scs`).
6. C22, C23: class-level update structures, settings and pointers survive a generation (`C22_fails_quadratic`,
   `C22_fails_settings`, `C23_fails_pointers`).
7. C24: canonical parameters with one entry are not copied, and QOCO is handed the originals (`C24_fails_size_one`,
   `C24_fails_direct`, `C24_fails_second_solve`).
8. C25, C26: two-stage merging loses the constant, and generation fails for zero entries and for problems without
   quadratic part (`C25_fails_constant`, `C26_fails_…`).
9. C28: the gradient is that of a regularized system; the error term is exact in `C28_adjoint`.
10. C33: an entry of `P` that cancels 1e-6 at generation is lost; a full `P` makes the KKT matrix not upper triangular
   (`C33_zero_entry_is_lost`, `C33_not_upper_triangular`).
11. C34, C51: refresh flags consumed by an early gradient call, matrices of the latest forward call (`C34_fails`, `C51_fails`).
12. C35: a row that switches between two finite bounds keeps the old sign (`C35_fails`).
13. C37–C41: equality bounds of parameters, intervals with coefficients of both signs, single-entry requests, repeated
   requests, duals after a parameter constraint, equality indices after removed rows (`C37_fails…` to `C41_fails`).
14. C44: infinite user parameters are printed as `inf` (`C44_fails`).
15. C45: OSQP and explicit mode define names without prefix (`C45_fails_osqp`, `C45_fails_explicit`, `C45_fails_mixed`).
16. C46: `solver=None` raises; C47: explicit mode rejects after emptying the folder (`C46_fails…`, `C47_fails`).
17. C48: with several exponential cones Clarabel's list is shorter than declared (`C48_fails`, `C48_fails_general`); order
   of cones (`C48_fails_order`).
18. C50: a sparse parameter with a single entry (`C50_fails`).
19. C52: names of variables clash with generated names (`C52_fails_…`); equal names are merged (`C19_fails_for_duplicate_names`).
20. C54: code for derivatives in two stages, PDAQP without explicit mode, and the example program for derivatives with a prefix do
   not compile (`C54_fails_…`).
21. C55: sensitivities of symmetric variables are written to the wrong places of `dx` or beyond its end (`C55_fails_symmetric_…`);
   explicit mode with one stored entry of a larger variable (`C55_explicit_fails_single`).
22. C56: a backward call for some of the variables raises or uses gradients of an earlier call (`C56_fails_…`).
23. C57: a second generation into a folder of the same name registers the code of the first, and `code_dir` with a path raises
   (`C57_fails_…`).
24. C58: the example program does not compile for derivatives with a variable of size one and for sparse parameters with a
   single entry (`C58_fails_example_gradient`, `C58_fails_sparse`; the latter only if CVXPY lists such a parameter with its full
   value, which cannot be checked here); explicit mode with one stored entry of a larger variable
   assigns a number to a pointer (`C58_fails_single`).
25. C59: leaving out variables in explicit mode raises `IndexError` or deletes the flag of another variable
   (`C59_fails_many`, `C59_fails_flags`).
26. C60: in explicit mode the gradient reads beyond PDAQP's table if a variable is not stored (`C60_gradient_iff`,
   `C60_fails_gradient`), the example program prints entries beyond `sol_x` if a variable is stored in part (`C60_fails_print`),
   and evaluation writes beyond `sol_x` for symmetric variables and for variables listed twice (`C60_fails_symmetric`,
   `C60_fails_twice`).
27. C62: a file that includes the headers of two libraries with different prefixes sees the structs of the second with the
   fields, order and precision of the first (`C62_other_iff`, `C62_fails_missing`, `C62_fails_precision`, `C62_fails_order`): the
   types have no prefix and are behind one guard.
28. C63: dual values are stored by position in `problem.constraints` but listed once per constraint; a constraint that is
   listed twice in a row gets the dual value of the next one, which gets none (`C63_dual_iff`, `C63_fails_twice`). The map of
   the first reduction is not applied to the ids of constraints (`C63_fails_first_map`), which is harmless only if it keeps them.
   In explicit mode `problem.value` and `problem.status` stay `None` and the time is returned (`C63_fails_explicit`).
29. C64: `stored_vars` with an index on a variable with one axis raises for integers and slices (`C64_fails_slice`), stores
   an entry before the variable for negative indices (`C64_fails_negative`), reads masks as the indices 0 and 1
   (`C64_fails_mask`); an empty selection stores everything (`C64_fails_empty`); `X[[i, j]]` stores the entry (i, j) instead of two
   rows (`C64_fails_rows`); two lists store their product (`C64_fails_pairs`). This rests on the form in which CVXPY's indices
   keep their keys.
30. C65: names are inserted unchecked into C, C++ and Python. A parameter named `lambda` (the repository does not check names) gives
   `par.lambda = ...`, a syntax error (`C65_fails`); a prefix can turn a variable's name into a keyword (`C65_fails_prefix`).
31. C66: modules generated with the default prefix cannot be imported together (`C66_fails`): pybind11 registers types for
   the whole process. The tests of the project give every problem its own prefix.
32. C67: OSQP is updated with the data of the whole matrix `P`, but keeps the upper triangle. With an entry off the diagonal
   (a parameter times `quad_form`), updates of `P` do not take effect or put values at wrong places (`C67_iff`,
   `C67_fails_ignored`); SCS and QOCO get a matrix that is not upper triangular (`C67_direct`). The two-stage canonicalization
   asserts that `P` is diagonal (canonicalizer.py:345), the others do not check.
33. C69: explicit mode. The objective gets `½·10⁻⁶‖x‖²` (pdaqp.py:97), so that the point is near-optimal only, and unbounded problems
    get a point without any status. Keyword arguments of the method are ignored without a message (template:53-62 is only written
    outside of explicit mode). If CVXPY delivers no quadratic part, `p['P']` raises a KeyError (pdaqp.py:97), though README.md:20
    mentions linear programs.
34. C70: gradients of diagonal and sparse parameters. `cpg_gradient` reshapes the entries that may vary to the full shape
    (template:171-173, utils.py:1317-1324); numpy raises a ValueError at every call, for every problem with a diagonal parameter with
    two rows or more or a sparse parameter with missing entries (`C70_fails`). The C function is not affected.
35. C71: explicit mode with gradients. `pdaqp_active_region` is -1 until the first solve (pdaqp.py:254), a gradient asked for before
    reads outside of `pdaqp_hp_list` (`C71_fails_early`). A region passed to `cpg_gradient` is written to the same variable
    (utils.py:1284-1295) and stays: a later call without an argument refers to it and not to the last solve (`C71_fails_kept`). A
    parameter out of bounds is moved to its bound (utils.py:909-924), its gradient is computed as if it was not (`C71_fails_limited`).
36. C72: contexts of CVXPYlayers that lack a stored variable. `backward` sets the gradients of the variables of its context only
    (template:200-201), the gradient of a stored variable that is not among them is the one set last by anyone: the first use raises,
    and after a backward call of another layer its gradient is used (`C72_fails_context`).
37. C73: one stage, OSQP. `backward` passes the solution of its own forward call, but `cpg_gradient` uses the matrices of the problem
    solved last (`Canon_Params`, writer.py:240-246). If `P` or `A` depends on parameters and another forward call was made in between,
    as in every batch, the gradients are wrong (`C73_fails`). A solution passed stays in `sol_x`, `sol_y` and is differentiated by later
    calls without one (`C73_fails_kept`).
38. C74: `_setup_folder` empties `code_dir` without asking (generator.py:94): files of the user in it are lost (`C74_fails_user`), code of
    other problems generated in a directory below it is lost (`C74_fails_nested`), and with `code_dir='.'` the working directory is emptied
    before `os.mkdir('.')` raises `FileExistsError` (`C74_fails_dot`). It runs before the solver code is generated: if that fails, for
    instance because a solver library raises, the old code is gone and there is no new code (`C74_fails_error`).
39. C74: QOCO and QOCOGEN copy the license of the solver to `code_dir/LICENSE`, which `CCodeWriter` overwrites with the license of CVXPYgen
    (`C74_license`); only ECOS uses another name (`COPYING`). The copy in `c/solver_code` stays.
40. C76: README.html. In explicit mode it documents `CPG_Info_t`, `CPG_Result_t.info` and the functions for settings, none of which exist
    (`C76_fails_info`, `C76_fails_settings`), and without duals `CPG_Result_t.dual` (`C76_fails_dual`). With a second stage, the list of files to
    copy lacks `c/osqp_code`, which `c/CMakeLists.txt` adds (`C76_fails_embed`). `code_dir='./a'` gives `from ..a.cpg_solver import`
    (`C76_fails_import`). Parameters with more than two axes are shown with the first two (`C76_fails_dimension`).
41. C77: in two stages `cpg_osqp_grad_compute.c` includes `qdldl.h`, which OSQP writes to `c/osqp_code/inc/private`; no directory of
    `osqp_code` is on a search path (`C77_fails_second`).
42. C78: two generated codes cannot be added to one CMake project, whatever their prefixes: the targets `cpg` and `cpg_example` have no prefix
    (`C78_fails_two`). Headers have no prefix either: with both codes on the search path the sources of the second get headers of the first
    (`C78_fails_headers`). Clarabel's build file uses `${CMAKE_SOURCE_DIR}/solver_code/…`, which is wrong in a subdirectory
    (`C78_fails_clarabel`).
43. C79: the method `'CPG'` is registered with CVXPY's class `Problem`, not with the problem. After generating code for a second problem
    `first.solve(method='CPG')` runs the code of the second; if names and sizes agree, it stores the second's solution in the first problem
    without a message (`C79_fails`, `C79_fails_two`). Registering under names of their own avoids it (`C79_own_name`).
44. C80: `setup.py` does not declare the static library as a dependency of the extension. After the C sources of a built directory change,
    `python setup.py build_ext --inplace` succeeds and leaves the old module (`C80_fails`). The results of `cmake` are not looked at: if
    compiling C fails, an old library is linked without an error (`C80_fails_make`). Neither happens for code as generated, since the
    folder is replaced (`C80_generated`).
45. C81: nothing that is generated releases solver objects. Clarabel's solve call creates a new solver each time: after `n` solves there are
    `n` (`C81_fails_clarabel`). SCS's `init` and `PA` both call `scs_init` and drop the old workspace: one more per update of `P` or `A`
    (`C81_fails_updates`), and, with a quadratic objective and exactly one of `P`, `A` depending on parameters, one more per solve without
    any update, since the flag of the other is never reset (`C81_fails_scs`). README.md:6 calls the code suitable for embedded systems.
46. C82: parameters without a value get a random one (canonicalizer.py:251-254) that stays after generation, also if it fails later;
    `problem.solve()` then silently uses it instead of raising (`C82_fails`). With gradients and a solver other than OSQP the parameters of the
    second problem never have values, so that numpy's global generator advances at every generation (`C82_rng`).
47. C83: code generated without values solves a random instance until parameters are updated (`C83_fails`). For OSQP the text of
    `cpg_solve` depends on the order in which Python iterates over a set of names, which differs from process to process
    (`C83_text_fails`); what it does is the same (`C83_values`). For OSQP that is so exactly if a matrix and a vector depend on parameters
    (`C83_text_osqp_iff`), for QOCO and QOCOGEN exactly if two of the canonical parameters do (`C83_text_qoco_iff`).
48. C84: with derivatives and a solver other than OSQP, `_write_solve` does not redirect the pointers to the intermediate solution (its comment,
    writer.py:127-128, says it does; `_write_workspace` does). Fields copied by `cpg_retrieve_prim`/`cpg_retrieve_dual` read the vectors of the
    second problem at positions of the first (`C84_fails_offset`, `C84_fails_dual_copied`). `_write_gradient` passes the interface of the
    second stage (writer.py:556-575), so that lengths and loops have the sizes of the second problem (`C84_gradient_iff`), and the intermediate
    retrieval reads `offset` entries behind the end of the solver's vector (`C84_defined_iff`).
49. C85: in explicit mode a limit of matrix shape (also a column, shape `(n, 1)`) raises `ValueError` from NumPy, since the slice is one-dimensional
    and `rhs.value` is not flattened (`C85_accept_iff`, `C85_fails_matrix`). Of several limits of a parameter the last one is used and not the
    tightest (`C85_fails_twice`). The slice has the length of all entries; for parameters of which fewer are stored it reaches into the next
    parameter or the constant 1 (`C85_fails_reduced`, `C85_fails`), unless the id is unknown (`KeyError`).
50. C86: a C program for SCS that changes a setting after the first solve usually has no effect: the settings are read by `scs_init` only
    (`C86_scs_iff`), `warm_start` excepted. For QOCOGEN a program that never calls `cpg_set_solver_default_settings` starts with settings that are
    all 0, or, if `load_data` stores defaults, loses what was set before the first solve (`C86_fails_qocogen`; `cpg_example.c` calls no settings
    function). QOCO is set up with the library's defaults before settings are copied, so that settings read in `qoco_setup` (`ruiz_iters`) can
    never be changed (`C86_setup_iff`). Not modelled: SCS's settings of type `const char*` set from Python store a pointer that pybind11 keeps
    alive only during the call.
51. C87: all numbers are printed with 20 decimals, not with 17 significant digits. Coefficients below 0.5e-20 vanish from the generated
    program although the dependency remains (`C87_fails`); doubles below `2^-13` can lose digits (`C87_fails_digits`, a double of about 1e-6).
    Numbers of ordinary size are compiled exactly (`C87_exact`). `'%.17g'` would keep all of them.
52. C88: an instance without solution is never reported as CVXPY does it: variables keep the solver's vectors as values (`C88_fails`), the status is the
    solver's word or a sentence with its number (`C88_fails_status_int`, `C88_status_text`), and the value is infinite only if the solver reports
    `±1e30` or an infinity. With OSQP the constant of the objective is added to `1e30` before the comparison, so that constants above `2^46`
    hide the infeasibility (`C88_value_osqp`, `C88_fails_osqp`). Comparing the solver's own objective would help.
53. C90: data can be entirely wrong relative to their size when large values cancel (`C90_fails`), as in any floating-point sum; the order of
    summation is that of the columns and not chosen by size. In explicit mode the limits themselves are rounded to single precision, possibly
    outwards, so that a parameter can lie outside the limits for which regions were computed (`C90_fails_limit`).
54. C91: `cpg_ldl_symbolic` sets `L->nnz`, but `cpg_ldl_numeric`, which rewrites the column pointers of the factor after every change of `P` or
    `A`, does not. With finite values nothing is ever inserted into the factor and the counter stays right (`C91_partial`). With NaN (or
    infinity times zero) entries are inserted, the counter grows with every refresh (`C91_fails_counter`), and after enough refreshes
    `insert_nonzero` writes past the end of `L->i` and `L->x` (`C91_fails`): memory corruption from a NaN parameter.
55. C92: canonical parameters without entries have null pointers in `Canon_Params`, but the calls that set up ECOS, Clarabel and QOCO follow the
    pointers whenever the matrix has rows: `minimize x` subject to `x == 1`, `p >= 0` crashes at the first `cpg_solve` with ECOS
    (`C92_fails`). SCS names the undefined arrays, and the program does not compile (`C92_compiles_scs`). In explicit mode `cpg_obj` follows
    `Canon_Params.P`, null for linear objectives (`C92_objective`). `_get_constraint_info` takes the length of an index that is None for
    problems without constraint rows (`C92_unconstrained`).
56. C93: `solver_opts` is documented as "options passed to canonical solver", but for iterative solvers no entry other than `use_quad_obj`
    reaches the generated program (`C93_iterative`): tolerances and iteration limits are dropped silently. If an explicit solution is too
    large, the exception advises to increase `max_reals`, a key that nothing reads (`C93_fails_advice`); the key is `max_floats`.
57. C95: `cpg_update_<p>(idx, val)` does not check `idx` (utils.py:918-926). An index beyond the parameter changes the next
    parameters without marking the canonical parameters that depend on them, so that the following solves use the old values until some
    other call marks them; the index just behind the last parameter replaces the constant 1 that multiplies the constant parts of all
    affine maps, and no regular call repairs it (`C95_fails`, `C95_constant_stays_wrong`). In explicit mode the clamping to
    `cpg_params_vec_lower`/`_upper` protects the constant, whose bounds are both 1 (pdaqp.py:272; `C95_explicit_keeps_bounds`).
58. C96: the Python method stores settings in the module with separate calls before it solves (cpg_solver.py.jinja2:55-60, 72).
    If two threads use one module, a call of the one between these calls of the other resets or replaces the settings: a call with
    `max_iters=7` is solved with the default, or a call without settings with `max_iters=7` (`C96_fails`, `C96_fails_no_order`).
    Parameter values are passed together with the solve in one call and are never mixed up (`C96_own_data`).
59. C97: the loops that add up the gradients of the user parameters (writer.py:274-303) lose all digits if products cancel: with
    the objective `a * (x + y + z)` and the canonical gradients `2^p`, `1/2`, `-2^p` the gradient of `a` is 0 instead of 1/2
    (`C97_fails`). The error is small relative to the sum of absolute values (`C97_partial`, `C97_explicit`).
60. C100: the generated code resets settings before every solve from Python but never the solver's object. Except for Clarabel (and SCS while its
    workspace is created at every solve) results may depend on earlier solves; with OSQP they do by default, since `warm_starting` is 1 in the table
    of the interface (osqp.py:110). With SCS and `warm_start` the start survives even when the workspace is created again (`C100_scs`).
61. C101: a value assigned as a sparse matrix, which CVXPY takes, raises in generation (canonicalizer.py:258, only values that generation itself
    assigns are made dense, 251-254) and in the generated method for plain, diagonal and one-entry parameters (`C101_iff`, `C101_fails`).

Exact conditions: `Props/Exact.lean` to `Props/ExactZ.lean` show for C04, C05, C25 (constant), C28, C33, C54, C55, C58, C59, C64, C74 (nested directories), C88, C93 (explicit mode), C100, C79, C80, C81, C83, C17, C18, C21, C22, C23, C24, C26, C34, C35, C37, C39, C40, C44, C46, C47, C48, C50 and
C82 that the restrictions of the `_partial` theorems are necessary too (`_iff`), or say for all histories what happens instead (`_exact`).
62. C102: `cpg_update_d<v>` does not check its index: the entry after the last one of a variable belongs to the next one in the solver's
    vector, possibly an auxiliary one (`C102_fails`); unlike C95 the effect ends with the next gradient (`C102_forgotten`).
63. C103: after a call that enabled `verbose` for OSQP, later calls in the process offer the setting although their code is built without
    `OSQP_ENABLE_PRINTING` (osqp.py:154-155 reads the list of the call, _interface.py:187 the flag of the class; `C103_fails`).
64. C104: for semidefinite cones with Clarabel, `c/CMakeLists.txt` links BLAS and LAPACK (clarabel.py:281-283), `setup.py` does not
    (clarabel.py:290-297; `C104_fails_semidefinite`). The path of Clarabel's library in `setup.py` is that of the machine on which the code is
    generated (clarabel.py:291), not of the one on which it is built (`C104_fails_elsewhere`).

## Plan per property
| id | modelled | proof shape |
|----|----------|-------------|
| C01 | params vector, flags, canonical store, solver store, `cpg_update`, `cpg_solve` | refinement by induction over call histories, generic in the update structure, instantiated for all solvers |
| C02 | `analyze_pus`, `write_update_structure`, interpreter | generic lemma + exhaustive evaluation over all (finite) flag/change patterns; order-independent by membership |
| C03 | token emission, recursive-descent parser | induction over the emission, parser returns the intended tree |
| C04 | as C02 with `init` | induction over histories |
| C05 | as C01 with call trace | invariant for OSQP; negation witness for SCS/ECOS, partial theorem |
| C06,C07 | `_update_adjacency_matrix`, `changes` | algebra on sparse rows |
| C08 | `write_canonicalize` loops | loop invariant = matrix–vector product |
| C09,C10 | `_set_default_values` | index-set bijection, equality of represented matrices |
| C11,C12,C14 | `get_affine_map` signs | equivalence of feasibility |
| C13 | `_get_constraint_info`, row selections | partition of indices |
| C15,C16 | info retrieval, `cpg_obj`; stored part of the solution | algebra + negation witness; equivalence by unit vectors |
| C17,C18,C19 | offsets/cumsum/triu index | list induction, disjointness |
| C20,C21 | Python wrapper state machine | induction over call histories |
| C22,C23 | class-level mutable state of interfaces | negation witnesses + partial theorems |
| C24 | `cpg_copy` aliasing | negation witness + partial |
| C25,C26 | `_merge` | matrix composition; negation witness for constant `d` |
| C27 | gradient un-canonicalization loop | adjoint identity |
| C28 | `cpg_osqp_gradient` formulas | adjoint identity on KKT system |
| C29 | rank-1 update, delete, add | exact factor invariants, induction over histories |
| C30–C33 | sparse insert/remove, mask index, capacity, K refresh | representation invariants |
| C34,C35 | flags shared between solve and gradient; active vector | negation witness + partial |
| C36 | `utils.ldl` | algebraic identity by strong induction |
| C37–C43 | pdaqp interface | negation witnesses + partial theorems |
| C44 | decimal printing, `replace_inf` | rounding bound |
| C45 | prefix sanitising, names | string lemmas, shape of all names; negation for OSQP and explicit mode |
| C46,C47 | dispatch and pipeline order | decision logic over exceptions-as-values |
| C48 | cone counting | negation witness + partial |
| C49 | text helpers | list lemmas |
| C50 | Fortran flattening | bijection |
| C51 | forward/backward wrapper | negation witness + partial |
| C52–C54 | naming, struct definitions, prototypes | list lemmas, tags for families of names, negation witnesses |
| C55 | delta update functions, `dx`, reset | invariant over call sequences; general failure theorems |
| C56 | `backward`, reading `.gradient` | exact condition (iff) |
| C57 | `register`, `sys.modules`, `sys.path` | invariant over histories; general failure theorems |
| C58 | declarations and uses of objects per file | membership analysis over all problems; equivalence for the example program |
| C59 | loop of pdaqp.py:189-199 | induction over the names, exact condition |
| C60 | lengths and access lists of explicit mode | bounds for all requests; equivalence for the gradient; witnesses |
| C61 | update calls of the example program, start values | flattening lemmas and C01 end to end; equivalence in explicit mode |
| C62 | typedefs, designators, field accesses, guard of the types | membership analysis; prefix order of field lists (iff) |
| C63 | ids of dual variables, clearing and saving in the problem object, return value | induction over the lines of the wrapper; first occurrences as a prefix of the constraints (iff) |
| C64 | parsing of `stored_vars`, product and ravel | induction over axes; column-major position injective; composed with C39 |
| C65 | members, bindings, uses; all names as text | case analysis per class; every name is prefix ++ fixed part ++ rest, and no keyword contains the fixed part (complete table of keywords) |
| C66 | registration of types over a sequence of imports | invariant over the registry; names of structs decompose uniquely |
| C67 | entries of `P`, what OSQP keeps, updates without indices | permutation of triangles; induction over updates; the last entry of the pattern is diagonal |
| C68 | composition of all parts of the method for a history of assignments and calls | refinement of a machine with user arrays, by induction over histories, from `pySolve_ok`, C08, C17, C18, C50, C63 |
| C69 | composition of the models of explicit mode (`ExPipe`) | induction over histories, invariant: canonical parameters are those of the parameter vector unless marked; the reduced problem is the user's one (C41, C42), `theta` is in its box (C38) |
| C70 | composition of the models of the Python method, of the differentiation code and of the assignment to parameters (`GradPipe`) | induction over histories, invariant: the workspace is that of a sequence of calls whose matrices are those of the last solve unless marked; then C27, C55 and a sum over the entries of parameters |
| C71 | composition of the models of explicit mode, of its differentiation code and of the assignment to parameters (`ExGrad`) | induction over histories, invariant: as for C69 with values moved into the bounds, arrays of the gradient are those of a sequence of calls; then C43, C55, C60 and a sum over the entries of parameters |
| C72 | `forward` and `backward` on top of the model of C71, contexts with the region of their forward call (`Layers`) | induction over interleavings, invariant of C71 and: recorded regions are those of the parameters of the forward calls |
| C73 | solutions passed, `forward` and `backward` on top of the model of C70 (`LayersG`) | induction over interleavings, invariant of C70 with the solution passed in place of the last one; the derivative is moved from the parameters transferred last to those of the forward call |
| C74 | every file operation of `generate` as an operation on an abstract file system (`Files`) | simulation: operations below a directory act on its contents only and in the same way everywhere; frame lemma for each operation; induction over operations and over calls |
| C75 | lists of files in the CMake template (`Files`) | both lists are compared with the layout of C74, for all configurations |
| C76 | what README.html shows (`Readme`), next to `Structs`, `Symbols`, `Files`, `Register` | comparison of lists for all configurations; the import statement through the model of `import_module` |
| C77 | include lines and search paths (`Includes`) over the files left by generation (`Files`) | table over all flags lifted to all configurations; membership of directories |
| C78 | interpreter for the generated build files (`CMake`) | success of runs decomposed by `code_ok`, `tail_ok`; targets never removed, by induction over commands |
| C79 | process with problems and registered methods (`Methods`) | the registry by induction over histories; one call by induction over the lists of parameters, variables and constraints |
| C80 | directory with versions of sources, library and module (`Build`) | invariants by induction over builds |
| C81 | numbers of objects created by the calls of `Runtime` (`Memory`) | count by induction over histories, from the invariant of C01 |
| C82 | parameters and generator of random numbers as state of generation (`Assign`) | induction over parameters and generations |
| C83 | two instances of `Runtime` with different orders, memory, initial values | both refine the same specification (C01) |
| C84 | both tables of variables, redirected pointers, intermediate vectors (`TwoRet`) | reduction to C17 for moved variables; sums over rows; negation witnesses |
| C85 | loop over constraints with slices and shapes (`Limits`) | fold invariant over constraints entry by entry; NumPy's rules; refinement to `Explicit`; negation witnesses |
| C86 | state machine of update, set, reset and solve calls per solver (`Settings`) | induction over programs against a fold over the calls; which update functions a solve calls (C04, C81); equivalences and negations |
| C87 | generated program whose maps, constants and start values went through text and compiler (`Printed`) | literal value of the printed text (C44), gaps between doubles, loop over the printed map (C08), histories (C01) |
| C88 | objective, status, values from the solver's output to the problem object (`Outcome`, on top of `Saved`) | case analysis on the output, doubles around 1e30, C63 for what is stored |
| C89 | histories of assignments and calls, with exceptions (`Wrapper`) | a failed call changes only settings that the next reset overwrites (simulation), induction over the history |
| C90 | the compiled program with rounding in every operation (`Rounded`, on top of `Printed`) | standard model of rounding derived from nearest numbers, induction over the row for the sum, C01 for all histories, monotone rounding for limits |
| C91 | `cpg_gradient` in a monad that reports accesses outside arrays (`GradMem`) | invariant over all calls: sizes and the pattern of the factor (closed under elimination, nonzero work entries stay inside it); for arbitrary arithmetic validity of the factor (C30, C32); counterexample with NaN by evaluation |
| C92 | references of the program to canonical parameters (`Empty`), composed with the runtime model (C01-C05) | invariant over histories: which functions are called; per solver which pointers they follow; iff-characterisation and witness |
| C93 | dicts of Python values, `generate` as far as options are concerned (`Options`), composed with solver selection (C46) | refinement to the documented record for explicit mode; non-interference of all other keys |
| C94 | the arrays of `GradMem` in exact arithmetic represent the index functions of `Factor`, `GradFactor`, `Gradient` (`Spec/GradRef`) | refinement, function by function, composed over all sequences of calls; transfer of C28, C29, C35; transposition of the maps as a sum swap |
| C95 | update functions with any integer index on the array with its trailing constant, flags and canonical data (`Index`) | refinement to structured data and a walk over neighbouring parameters, induction over histories; equivalence for one call; counterexamples |
| C96 | the Python method cut into calls into the module, any number of threads and any schedule (`Threads`) | simulation by whole calls (linearization at the last step), invariants over schedules; counterexamples |
| C97 | loops of `cpg_gradient` with rounding (`RoundedGrad`) | each entry is a sum of products in loop order, error analysis of such sums; invariant over histories in explicit mode; counterexample |
| C98 | Python operations on the arrays of the C code (`GradArr`) | simulation: the array state read as functions follows the model of C70, step by step; bounds from C94; then C70 |
| C99 | CVXPYlayers' passes on the arrays (`LayersArr`) | simulation: the array state read as functions follows the model of C73, step by step; then C73 |
| C100 | results as a function of the instance (`Again`) | refinement to a function of values and settings, induction over histories; counting library as counterexample for all problems |
| C101 | values by the type of their holder (`Holders`) | decision logic over exceptions-as-values, composed with C50 |
| C102 | delta functions with signed indices (`DeltaIndex`) | induction over histories, exact content of `dx` at each gradient |
| C103 | names in `enable_settings`, warnings, build definition (`Enable`) | from the exact effect of all histories on settings (C22) |
| C104 | libraries named in `CMakeLists.txt` and `setup.py` (`Link`) | case analysis over the complete tables of solvers and systems, any list of cones |

## Axioms per theorem
All names are in the namespace `Verif.Props`.
<!-- axioms -->
* no axioms: C48_fails_order, C55_explicit_fails_single, C63_fails_first_map, C76_fails_dimension, C82_early
* `propext`: C03_fails_for_some_table, C04_clarabel_lp_initialises_every_time, C04_monitor, C102_fails, C104_fails_semidefinite, C15_objective_present, C15_used_present, C18_split_iff, C19_fails_for_duplicate_names, C24_fails_direct, C24_fails_second_solve, C34_fails, C37_fails_equality, C39_fails_repeated, C45_prefix_valid, C48_fails, C49_simul_unique, C50_fails, C51_fails, C59_fails, C59_fails_flags, C64_fails, C64_fails_array, C64_fails_empty, C64_fails_slice, C76_fails_embed, C78_fails_headers, C79_fails_two, C79_sends, C80_partial, C82_again, C82_iff, C82_partial, C82_rng, C83_text_fails, C84_fails_dual, C86_compiles, C88_status_text, C91_sizes, C92_faults, C92_generates, C92_unconstrained, C95_fails
* `propext`, `Quot.sound`: C03_inconsistent_mode_raises, C101_fails, C17_fails_for_diagonal_variables, C18_fails_without_inequalities, C18_rows_disjoint, C20_unknown_parameter, C21_fails_for_scs, C21_unknown_setting, C24_fails_size_one, C26_fails_linear, C26_params_iff, C32_fits, C32_reserved, C34_exact, C34_partial, C34_solution, C34_two_stage_exact, C34_two_stage_partial, C37_iff, C37_kept, C37_last, C39_fails_single, C43_table, C45_prefix_injective, C48_fails_general, C51_partial, C53_objects, C56_fails_fresh, C56_fails_stale, C57_fails_path, C57_first_wins, C57_name_iff, C58_fails_single, C60_fails_print, C60_fails_symmetric, C60_fails_twice, C63_fails_explicit, C63_fails_twice, C63_no_leak, C63_stored, C63_value, C64_fails_mask, C64_fails_negative, C67_partial, C68_fails, C69_fails_settings, C74_fails_dot, C74_fails_error, C74_fails_nested, C74_fresh, C74_history, C74_keeps, C74_outside, C74_start, C76_import_partial, C77_fails_second, C78_clarabel_lists, C78_fails_clarabel, C79_last, C80_bindings, C80_changed, C80_fails, C80_fails_make, C80_generated, C80_iff, C80_unconfigured, C82_fails, C83_text, C83_text_clarabel, C83_text_osqp_iff, C83_text_qoco_iff, C84_dual_partial, C84_fails_dual_copied, C84_primal_solution, C85_fails_matrix, C89_call, C89_no_trace, C92_changing, C92_compiles, C92_constrained, C92_defined, C92_gradient, C95_in_range_is_announced, C96_data_as_if_serial, C96_fails, C96_settings_come_from_calls_partial, C96_unused_settings_default
* `propext`, `Classical.choice`, `Quot.sound`: C01_end_to_end, C01_every_solve_uses_current_parameters, C02_block_hands_over_every_outdated_parameter, C03_emitted_text_any_table, C03_emitted_text_means_update_structure, C04_clarabel_lp_exact, C04_iff, C04_initialisation_first_and_once_partial, C05_idle_solve_makes_no_call_partial, C05_idle_solve_osqp_qoco, C05_iff, C06_unmarked_parameters_are_unaffected, C07_constant_parameters_are_constant, C08_canonicalization_is_affine_map, C08_canonicalization_loop, C08_values_held, C09_column_pointers_valid, C09_stored_matrix_is_full_matrix, C100_clarabel, C100_fails, C100_iff, C100_partial, C100_scs, C101_iff, C101_partial, C102_exact, C102_forgotten, C102_own_iff, C103_fails, C103_names, C103_partial, C103_printing_iff, C104_fails_elsewhere, C104_iff, C104_partial, C10_block_indices_in_range, C10_split_blocks, C11_qp_form, C12_conic_form_joint, C12_conic_form_split, C13_each_datum_used_once, C13_qp_selection, C13_selection_by_position, C14_equality_bounds_coincide, C15_reported_objective, C16_cpg_obj_partial, C16_fails, C16_stored_fails_aux, C16_stored_fails_order, C16_stored_iff, C16_stored_partial, C17_blocks, C17_diagonal, C17_no_overlap, C17_primal_values, C17_symmetric_entries, C18_dual_table, C18_dual_values, C18_iff, C19_blocks_partition, C19_update_changes_one_entry, C20_history, C20_missing_value, C21_scs_exact, C21_scs_iff, C21_scs_partial, C21_settings_do_not_leak_partial, C22_block_iff, C22_block_ok, C22_fails_quadratic, C22_fails_settings, C22_partial, C22_pointers_exact, C22_settings_exact, C23_exact, C23_fails_pointers, C23_outcome, C23_partial, C24_copy_all_partial, C24_iff, C24_partial, C25_composition, C25_constant_iff, C25_end_to_end, C25_fails_constant, C25_intermediate_unique, C26_fails_constant, C26_fails_zero_entry, C26_generation_partial, C26_marks_partial, C26_merge_iff, C27_adjoint_of_canonicalization, C27_end_to_end, C28_adjoint, C28_iff, C29_factor_exact, C29_history_independent, C30_edit, C30_history, C30_represented, C30_symbolic_update, C31_in_range, C31_injective, C31_surjective, C32_history, C33_history, C33_iff, C33_initial, C33_not_upper_triangular, C33_upper_triangular, C33_zero_entry_is_lost, C34_factor_of_solved_partial, C35_exact, C35_fails, C35_iff, C35_partial, C36_ldl, C37_fails, C37_partial, C38_fails, C38_fails_fixed, C38_partial, C39_iff, C39_partial, C40_fails, C40_iff, C40_partial, C41_fails, C41_partial, C42_elimination, C43_adjoint, C43_adjoint_law, C43_later_solves, C44_canonical, C44_fails, C44_iff, C44_indices, C44_partial, C45_fails, C45_fails_explicit, C45_fails_mixed, C45_fails_names, C45_fails_osqp, C45_link_partial, C45_names_necessary, C46_fails, C46_fails_default, C46_iff, C46_partial, C46_total, C47_cones, C47_fails, C47_iff, C47_partial, C47_reasons, C48_iff, C48_others, C48_partial, C49_cut, C49_interacting_fails, C49_replace, C50_dense, C50_iff, C50_order, C50_partial, C50_reshape, C50_roundtrip, C52_fails, C52_fails_bare, C52_fails_delta, C52_fails_dual, C52_fails_sol, C52_fails_solver, C52_fails_static, C52_names_necessary, C52_partial, C52_storage, C53_result, C53_struct, C53_targets, C54_error_without_P, C54_example_iff, C54_example_partial, C54_fails, C54_fails_example, C54_fails_pdaqp, C54_fails_two_stage, C54_iff, C54_partial, C54_undefined_declaration, C55_explicit_partial, C55_fails, C55_fails_symmetric_bounds, C55_fails_symmetric_place, C55_iff, C55_partial, C55_python, C56_independent_iff, C56_partial, C57_fails, C57_fails_again, C57_partial, C58_example_partial, C58_explicit_partial, C58_fails, C58_fails_example_gradient, C58_fails_sparse, C58_iff, C58_partial, C59_fails_many, C59_flags, C59_iff, C59_no_symmetric, C59_one, C59_partial, C60_fails, C60_fails_gradient, C60_gradient_iff, C60_gradient_partial, C60_partial, C60_print_partial, C61_example, C61_explicit_iff, C62_both_orders, C62_fails, C62_fails_missing, C62_fails_order, C62_fails_precision, C62_fails_status, C62_fields_partial, C62_first_partial, C62_initialised_partial, C62_other_iff, C63_dual_iff, C63_dual_partial, C63_fails, C63_ids_partial, C64_array_iff, C64_axes_iff, C64_fails_pairs, C64_fails_rows, C64_list_iff, C64_mask_never, C64_one_axis_iff, C64_partial, C64_rows_never, C64_superset, C64_values_partial, C65_attributes, C65_bound, C65_fails, C65_fails_prefix, C65_members, C65_partial, C65_structs, C66_fails, C66_imports, C66_together, C67_clarabel, C67_direct, C67_fails_ignored, C67_iff, C67_setup, C68_partial, C69_fails_exact, C69_fails_linear, C69_fails_unbounded, C69_limited_partial, C69_near, C69_partial, C69_rejects, C70_accepts, C70_fails, C70_partial, C71_fails_early, C71_fails_kept, C71_fails_limited, C71_partial, C71_region, C71_solution, C71_solve_partial, C72_fails_context, C72_forward, C72_partial, C73_constant, C73_fails, C73_fails_kept, C73_forward, C73_mixed, C73_partial, C73_passed, C74_fails_user, C74_layout, C74_license, C74_nested_iff, C75_headers, C75_sources, C75_subdirectories, C76_calls, C76_dimension_iff, C76_embed_partial, C76_fails_dual, C76_fails_import, C76_fails_info, C76_fails_settings, C76_functions_partial, C76_tree, C76_types_partial, C77_explicit, C77_own, C77_qdldl, C77_solver, C78_explicit, C78_exposes, C78_fails_two, C78_library, C78_library_two, C78_pdaqp, C78_succeeds, C79_after, C79_call, C79_fails, C79_iff, C79_missing_param, C79_missing_var, C79_own_name, C79_partial, C79_wrong_size, C80_good_iff, C81_fails_clarabel, C81_fails_scs, C81_fails_updates, C81_iff, C81_partial, C81_scs, C81_scs_partial, C83_fails, C83_iff, C83_partial, C83_values, C84_defined_iff, C84_dual_solution, C84_fails, C84_fails_offset, C84_gradient_iff, C84_prim_partial, C85_accept_iff, C85_fails, C85_fails_reduced, C85_fails_twice, C85_partial, C85_refines, C85_stored_partial, C86_data, C86_exact, C86_fails_qocogen, C86_osqp_iff, C86_partial, C86_qocogen, C86_qocogen_partial, C86_scs, C86_scs_iff, C86_scs_partial, C86_setup_iff, C87_data, C87_exact, C87_fails, C87_fails_digits, C87_number, C87_partial, C88_fails, C88_fails_explicit, C88_fails_osqp, C88_fails_status_int, C88_fails_value, C88_iff, C88_infinite, C88_partial, C88_value_iff, C88_value_osqp, C88_value_scs, C88_value_solved, C90_double, C90_explicit, C90_fails, C90_fails_limit, C90_growth, C90_limited, C90_partial, C90_small, C90_updates, C91_call, C91_constant, C91_fails, C91_fails_counter, C91_generated, C91_partial, C92_compiles_scs, C92_end_to_end, C92_fails, C92_iff, C92_objective, C93_advice_floats, C93_explicit, C93_explicit_error, C93_explicit_iff, C93_fails_advice, C93_fails_dual, C93_ignored, C93_iterative, C93_quad, C94_adjoint, C94_factor_exact, C94_history_independent, C94_refines, C95_announced_calls_are_fresh, C95_any_index, C95_constant_stays_wrong, C95_explicit_keeps_bounds, C95_own_iff_in_range, C96_fails_no_order, C96_own_data, C96_undisturbed_settings_partial, C97_double, C97_exact_chain, C97_explicit, C97_fails, C97_partial, C98_accepts, C98_arrays, C98_fails, C98_partial, C99_arrays, C99_fails, C99_forward, C99_mixed, C99_partial
<!-- end axioms -->
