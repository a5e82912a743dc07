import Verif.Model.Structs
import Verif.Model.Files
import Verif.Model.Register
/-!
What the generated `README.html` says.

Sources: /repo/cvxpygen/utils.py:1455-1531 (`readme_context`), /repo/cvxpygen/templates/README.html.jinja2:218-276 (tree of files),
315-329 (types and functions), 443, 462, 475 (import), 517-530 (embedding in a project). For comparison with the functions:
/repo/cvxpygen/utils.py:1099-1141 (prototypes) and 904-937, 1009, 1053-1084 (definitions). Of the summary tables (utils.py:1418-1432): the dimensions.
Not modelled: names and links of solvers, the static text.
-/
namespace Verif.Model.Readme
open Verif.Model.Text Verif.Model.Dispatch Verif.Model.Symbols Verif.Model.Structs

variable (I : In)

/-- The types shown (utils.py:1460-1492); `none`: not shown. -/
def docTypedef : STy → Option (List (Txt × FTy))
  | .prim => some (I.vars.map fun v => (v.name, byOne (single I) v.size))
  | .dual => if I.duals = [] then none else some (I.duals.map fun v => (v.1, byOne (single I) v.2))
  | .info => some [(F.obj_val, .num (single I)), (F.iter, .int), (F.status, if statusInt I.iface then .int else .text),
      (F.pri_res, .num (single I)), (F.dua_res, .num (single I))]
  | .result => some ([(F.prim, .ptr .prim)] ++ (if I.duals ≠ [] then [(F.dual, .ptr .dual)] else []) ++ [(F.info, .ptr .info)])
  | _ => none

/-- Types of arguments: `cpg_int`, `cpg_float`, the type of a setting. -/
inductive Arg where
  | int
  | float
  | setting (s : Txt)
  deriving DecidableEq

/-- The functions shown (utils.py:1494-1510), with the settings listed in place of the placeholder. -/
def docFunctions : List (Txt × List Arg) :=
  (I.params.map fun q => (I.pre ++ S.cpg_update_ ++ q.1, if q.2 = 1 then [.float] else [.int, .float])) ++
  [(I.pre ++ S.cpg_solve, [])] ++
  [(I.pre ++ S.cpg_set_solver_default_settings, [])] ++
  I.settings.map fun s => (I.pre ++ S.cpg_set_solver_ ++ s, [.setting s])

/-- Prototypes in `cpg_solve.h` of functions with arguments, and of those without that a user calls (utils.py:1099-1104, 1130-1141). -/
def prototypes : List (Txt × List Arg) :=
  (I.params.map fun q => (I.pre ++ S.cpg_update_ ++ q.1, if q.2 = 1 then [.float] else [.int, .float])) ++
  [(I.pre ++ S.cpg_solve, [])] ++
  (if I.explicit ≠ 0 ∧ I.reduced = false then [(I.pre ++ S.cpg_obj, [])] else []) ++
  (if I.explicit = 0 then [(I.pre ++ S.cpg_set_solver_default_settings, [])] ++
    I.settings.map fun s => (I.pre ++ S.cpg_set_solver_ ++ s, [.setting s]) else [])

/-- Their definitions in `cpg_solve.c` (utils.py:904-937, 1009, 1053-1084). -/
def definitions : List (Txt × List Arg) :=
  (I.params.map fun q => (I.pre ++ S.cpg_update_ ++ q.1, if q.2 = 1 then [.float] else [.int, .float])) ++
  [(I.pre ++ S.cpg_solve, [])] ++
  (if I.explicit ≠ 0 ∧ I.reduced = false then [(I.pre ++ S.cpg_obj, [])] else []) ++
  (if I.explicit = 0 then [(I.pre ++ S.cpg_set_solver_default_settings, [])] ++
    I.settings.map fun s => (I.pre ++ S.cpg_set_solver_ ++ s, [.setting s]) else [])

open Verif.Model.Files in
/-- The tree of files (template:218-276). -/
def tree (j : Job) : List Path :=
  [["c"], sc, ["c", "include"], inc "cpg_workspace.h", inc "cpg_solve.h"] ++
  (if j.gradient then [inc "cpg_gradient.h"] else []) ++ (if j.twoStage then [inc "cpg_gradient_workspace.h"] else []) ++
  [["c", "src"], src "cpg_workspace.c", src "cpg_solve.c"] ++
  (if j.gradient then [src "cpg_gradient.c"] else []) ++ (if j.twoStage then [src "cpg_gradient_workspace.c"] else []) ++
  [src "cpg_example.c", ["c", "build"], ["c", "CMakeLists.txt"], ["cpp"], ["cpp", "include"], ["cpp", "include", "cpg_module.hpp"],
   ["cpp", "src"], ["cpp", "src", "cpg_module.cpp"], ["setup.py"], ["cpg_solver.py"], ["LICENSE"], ["README.html"]]

open Verif.Model.Files in
/-- Is a path among what has to be copied to embed the code (template:519-522)? -/
def copied (p : Path) : Bool :=
  p == ["c", "CMakeLists.txt"] || ["c", "src"].isPrefixOf p || ["c", "include"].isPrefixOf p || ["c", "solver_code"].isPrefixOf p

/-- `code_dir_python` (utils.py:1518): the package in the import statement (template:443, 462, 475). -/
def package (codeDir : Txt) : Txt := replaceAll ['\\'] ['.'] (replaceAll ['/'] ['.'] codeDir)

/-- What is printed as the dimension of a parameter or variable (utils.py:1421-1430): the numbers joined by `by`, and the number in
parentheses. `none`: no shape is known (canonicalizer.py:203-207, for some dual variables). -/
def dimension (shape : Option (List Nat)) (size : Nat) : List Nat × Option Nat :=
  match shape with
  | none => ([size], none)
  | some [] => ([1], none)
  | some [a] => ([a], none)
  | some (a :: b :: _) => ([a, b], some size)

end Verif.Model.Readme
