import Verif.Model.Files
/-!
`#include` lines of the generated files, and where the compilers look for headers.

Sources: /repo/cvxpygen/utils.py:478-481 (`cpg_workspace.c`, `cpg_gradient_workspace.c`), 699-704 (`cpg_workspace.h`,
`cpg_gradient_workspace.h`), 891-895 (`cpg_solve.c`), 1093-1096 (`cpg_solve.h`), 1169-1184 (`cpg_module.cpp`);
/repo/cvxpygen/writer.py:165-170, 329, 373, 434, 451-453 (gradients); templates cpg_example.c.jinja2:7-12,
cpg_osqp_grad_compute.c.jinja2:2-7, cpg_osqp_grad_compute.h.jinja2:2, cpg_osqp_grad_workspace.h.jinja2:2; `header_files` in
/repo/cvxpygen/solvers: osqp.py:65, scs.py:49, ecos.py:26, clarabel.py:29, qoco.py:27, 201, pdaqp.py:39. Search paths:
templates/CMakeLists.txt.jinja2:38-46, 89 and templates/setup.py.jinja2:104-112 with `cmake_context_extra`, `setup_py_context` of
_interface.py:205-232, osqp.py:148-167, scs.py:166-179, ecos.py:159-179, qoco.py:160-171, 382-397.

Simplifications: only `"..."` includes, that is without those of the standard library, pybind11 and `<Clarabel>`; directories of the
compiler itself are not searched (they contain none of these headers); CMake adds the directories with `include_directories` in the
order of the list; directories that linked targets of solvers may add are left out. Paths are relative to `code_dir`.
-/
namespace Verif.Model.Includes
open Verif.Model.Files

/-- `header_files`, those in quotes. -/
def headerFiles : SKind → List Path
  | .osqp => [["osqp.h"], ["workspace.h"]]
  | .scs => [["scs.h"]]
  | .ecos => [["ecos.h"]]
  | .clarabel => []
  | .qocogen => [["qoco_custom.h"]]
  | .qoco => [["qoco.h"]]
  | .pdaqp => [["pdaqp.h"]]

/-- utils.py:479-481, 893-895. -/
def second (j : Job) : List Path := if j.twoStage then [["cpg_gradient.h"], ["cpg_gradient_workspace.h"]] else []

/-- All generated files with includes, and these. -/
def includesOf (j : Job) : List (Path × List Path) :=
  [(inc "cpg_workspace.h", headerFiles j.kind),
   (src "cpg_workspace.c", ["cpg_workspace.h"] :: second j),
   (inc "cpg_solve.h", ["cpg_workspace.h"] :: if j.explicit then headerFiles j.kind else []),
   (src "cpg_solve.c", ["cpg_solve.h"] :: ["cpg_workspace.h"] :: second j)] ++
  (if j.gradient then
    (if j.explicit then
      [(inc "cpg_gradient.h", [["cpg_workspace.h"]]),
       (src "cpg_gradient.c", [["cpg_gradient.h"], ["cpg_workspace.h"], ["..", "solver_code", "include", "pdaqp.h"]])]
     else
      [(src "cpg_osqp_grad_compute.c",
         (if j.twoStage then [["cpg_gradient.h"]] else []) ++ [["qdldl.h"], ["cpg_osqp_grad_workspace.h"]]),
       (inc "cpg_osqp_grad_compute.h", [["cpg_osqp_grad_workspace.h"]]),
       (inc "cpg_osqp_grad_workspace.h", [["cpg_workspace.h"]]),
       (src "cpg_osqp_grad_workspace.c", [["cpg_osqp_grad_workspace.h"]]),
       (inc "cpg_gradient.h", [["cpg_workspace.h"]]),
       (src "cpg_gradient.c", ["cpg_gradient.h"] :: (if j.twoStage then [["cpg_gradient_workspace.h"], ["cpg_workspace.h"]] else []) ++
         [["cpg_osqp_grad_workspace.h"], ["cpg_osqp_grad_compute.h"]])] ++
      if j.twoStage then
        [(inc "cpg_gradient_workspace.h", [["cpg_workspace.h"]]), (src "cpg_gradient_workspace.c", ["cpg_workspace.h"] :: second j)]
      else [])
   else []) ++
  [(src "cpg_example.c", [["cpg_workspace.h"], ["cpg_solve.h"]] ++ if j.gradient then [["cpg_gradient.h"]] else []),
   (["cpp", "src", "cpg_module.cpp"], [["cpg_module.hpp"], ["include", "cpg_workspace.h"], ["include", "cpg_solve.h"]] ++
     (if j.gradient then ["include", "cpg_gradient.h"] ::
       (if j.explicit then [] else [["include", "cpg_osqp_grad_workspace.h"], ["include", "cpg_osqp_grad_compute.h"]]) else []) ++
     if j.twoStage then [["include", "cpg_gradient_workspace.h"]] else [])]

/-- `solver_code_cmake_include_dir` and `extra_cmake_include_dirs`. -/
def cmakeSolver : SKind → List Path
  | .osqp => [sc ++ ["include"], sc, sc ++ ["inc", "public"], sc ++ ["inc", "private"]]
  | .scs => [sc ++ ["include"], sc ++ ["linsys"]]
  | .ecos => [sc ++ ["include"], sc ++ ["external", "SuiteSparse_config"], sc ++ ["external", "amd", "include"], sc ++ ["external", "ldl", "include"]]
  | .clarabel => [sc ++ ["include"]]
  | .qocogen => [sc]
  | .qoco => [sc ++ ["include"], sc ++ ["lib", "amd"], sc ++ ["lib", "qdldl", "include"]]
  | .pdaqp => [sc ++ ["include"]]

/-- The list `<prefix>cpg_include` of CMakeLists.txt. -/
def cmakePath (j : Job) : List Path := ["c", "include"] :: cmakeSolver j.kind

/-- `extra_cpp_include_dirs`, `solver_code_include_dir`, `extra_solver_include_dirs`. -/
def setupSolver : SKind → List Path
  | .osqp => [sc, sc ++ ["inc", "public"], sc ++ ["inc", "private"], sc ++ ["include"]]
  | .scs => [sc ++ ["include"], sc ++ ["linsys"]]
  | .ecos => [sc ++ ["include"], sc ++ ["external", "SuiteSparse_config"], sc ++ ["external", "amd", "include"], sc ++ ["external", "ldl", "include"]]
  | .clarabel => [sc ++ ["include"]]
  | .qocogen => [sc]
  | .qoco => [sc ++ ["include"], sc ++ ["lib", "amd"], sc ++ ["lib", "qdldl", "include"]]
  | .pdaqp => [sc ++ ["include"]]

/-- `include_dirs` of setup.py, without pybind11. -/
def setupPath (j : Job) : List Path := ["c"] :: ["cpp", "include"] :: setupSolver j.kind

/-- A relative path seen from a directory. -/
def join (d : Path) (p : Path) : Path := p.foldl (fun d a => if a = ".." then d.dropLast else d ++ [a]) d

def isFile : Option Node → Bool
  | some (.file _) => true
  | _ => false

/-- `#include "p"` in `file`: the directory of the file, then the search path. -/
def find (t : FS) (path : List Path) (file p : Path) : Option Path :=
  ((file.dropLast :: path).map fun d => join d p).find? fun q => isFile (t q)

end Verif.Model.Includes
