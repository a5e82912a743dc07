import Verif.Model.Includes
/-!
Generated code as part of a CMake project.

Sources: /repo/cvxpygen/templates/CMakeLists.txt.jinja2:31-101 (`c/CMakeLists.txt`), /repo/cvxpygen/writer.py:617-639 with
/repo/cvxpygen/utils.py:1144-1160 (lines added to the build files of solvers), /repo/cvxpygen/solvers/pdaqp.py:226-230 (build file of
PDAQP), `cmake_headers`, `cmake_sources` of osqp.py:66-71, scs.py:50-61, ecos.py:27-28, clarabel.py:30, qoco.py:28-29, 202-203,
clarabel.py:247-269 (paths in the build file of Clarabel). README.html.jinja2:517-530 says how to use it.

CMake: a directory starts with a copy of the variables and include directories of its parent; `PARENT_SCOPE` changes variables of the
parent only; names of targets are global, a second target of the same name is an error (policy CMP0002, set by
`cmake_minimum_required`). Simplifications: compiler flags, packages and `target_link_libraries` are left out; `file(GLOB …)` expands
to an input; the build files of libraries contain any commands (an input). Variables in lists of SCS that depend on others
(`${${PROJECT_NAME}_HDR}`, `${DIRSRC}/private.h`) are named by their text.
-/
namespace Verif.Model.CMake
open Verif.Model.Files Verif.Model.Includes

/-- `${CMAKE_SOURCE_DIR}`: the directory of the whole project, `${CMAKE_CURRENT_SOURCE_DIR}`: the one of the current file. -/
inductive Root where
  | source
  | current
  deriving DecidableEq

inductive Item where
  | file (r : Root) (p : Path)
  | glob (r : Root) (p : Path) (pattern : String)
  | ref (v : String)

inductive Cmd where
  | append (v : String) (l : List Item)
  | set (v : String) (l : List Item)
  | parent (v : String) (l : List Item)
  | dirs (l : List Item)
  | target (n : String) (l : List Item)

/-- A second target of the same name. -/
inductive CErr where
  | duplicate (n : String)
  deriving DecidableEq, Repr

structure Env where
  root : Path
  cur : Path
  globs : Path → String → List Path

/-- Variables (lists, empty if not set), assignments to the parent's variables, include directories, targets with their sources. -/
structure CSt where
  vars : String → List Path
  up : List (String × List Path)
  incs : List Path
  targets : List (String × List Path)

def place (e : Env) : Root → Path
  | .source => e.root
  | .current => e.cur

def eval (e : Env) (vars : String → List Path) : Item → List Path
  | .file r p => [place e r ++ p]
  | .glob r p g => e.globs (place e r ++ p) g
  | .ref v => vars v

def evals (e : Env) (vars : String → List Path) (l : List Item) : List Path := l.flatMap (eval e vars)

def assign (vars : String → List Path) (v : String) (x : List Path) : String → List Path := fun w => if w = v then x else vars w

def run (e : Env) (s : CSt) : Cmd → Except CErr CSt
  | .append v l => .ok { s with vars := assign s.vars v (s.vars v ++ evals e s.vars l) }
  | .set v l => .ok { s with vars := assign s.vars v (evals e s.vars l) }
  | .parent v l => .ok { s with up := s.up ++ [(v, evals e s.vars l)] }
  | .dirs l => .ok { s with incs := s.incs ++ evals e s.vars l }
  | .target n l => if n ∈ s.targets.map Prod.fst then .error (.duplicate n) else .ok { s with targets := s.targets ++ [(n, evals e s.vars l)] }

/-- `add_subdirectory(d)`; the body is run in a scope of its own. -/
def subdir {α : Type} (go : Env → CSt → α → Except CErr CSt) (e : Env) (s : CSt) (d : Path) (body : List α) : Except CErr CSt :=
  match body.foldlM (go { e with cur := e.cur ++ d }) { s with up := [] } with
  | .error x => .error x
  | .ok s' => .ok { s with vars := s'.up.foldl (fun v a => assign v a.1 a.2) s.vars, targets := s'.targets }

/-- Lines of `c/CMakeLists.txt`. -/
inductive Step where
  | cmd (c : Cmd)
  | sub (d : Path) (body : List Cmd)

def step (e : Env) (s : CSt) : Step → Except CErr CSt
  | .cmd c => run e s c
  | .sub d body => subdir run e s d body

/-- `cmake_headers`. -/
def headItems : SKind → List Item
  | .osqp => [.glob .current [] "*.h", .glob .current ["inc", "public"] "*.h", .glob .current ["inc", "private"] "*.h"]
  | .scs => [.ref "${PROJECT_NAME}_HDR", .ref "DIRSRC/private.h", .ref "${PROJECT_NAME}_LDL_EXTERNAL_HDR", .ref "${PROJECT_NAME}_AMD_EXTERNAL_HDR"]
  | .ecos => [.ref "ecos_headers"]
  | .clarabel => []
  | .qocogen => [.ref "qoco_custom_headers"]
  | .qoco => [.ref "qoco_headers"]
  | .pdaqp => [.file .current ["include", "pdaqp.h"]]

/-- `cmake_sources`. -/
def srcItems : SKind → List Item
  | .osqp => [.ref "OSQP_SOURCES", .file .current ["workspace.c"]]
  | .scs => [.ref "${PROJECT_NAME}_SRC", .ref "DIRSRC/private.c", .ref "EXTERNAL/qdldl/qdldl.c", .ref "${PROJECT_NAME}_AMD_EXTERNAL_SRC"]
  | .ecos => [.ref "ecos_sources"]
  | .clarabel => []
  | .qocogen => [.ref "qoco_custom_sources"]
  | .qoco => [.ref "qoco_sources"]
  | .pdaqp => [.file .current ["src", "pdaqp.c"]]

/-- `write_canon_cmake` (utils.py:1144-1160). -/
def exports (name : String) (k : SKind) : List Cmd :=
  (if (headItems k).length > 0 then [.set "SOLVER_HEAD" (headItems k), .parent (name ++ "_head") [.ref "SOLVER_HEAD"]] else []) ++
  (if (srcItems k).length > 0 then [.set "SOLVER_SRC" (srcItems k), .parent (name ++ "_src") [.ref "SOLVER_SRC"]] else [])

/-- pdaqp.py:226-230. -/
def pdaqpFile : List Cmd :=
  [.append "pdaqp_src" [.file .current ["src", "pdaqp.c"]], .append "pdaqp_head" [.file .current ["include", "pdaqp.h"]],
   .parent "solver_src" [.ref "pdaqp_src"], .parent "solver_head" [.ref "pdaqp_head"]]

/-- The build file in `solver_code`; `lib` is what the file of the library contains. -/
def solverFile (j : Job) (lib : List Cmd) : List Cmd :=
  match j.kind with
  | .pdaqp => pdaqpFile
  | k => lib ++ exports "solver" k

/-- Generated code with its prefix (with `_`, or empty), and the build files of the libraries. -/
structure Code where
  job : Job
  pre : String
  lib : List Cmd
  libO : List Cmd

/-- Items for paths relative to `code_dir`, seen from `c`. -/
def here (p : Path) : Item := .file .current p.tail

/-- Line 32-101 of the template. -/
def codeFile (c : Code) : List Step :=
  [.sub ["solver_code"] (solverFile c.job c.lib)] ++
  (if c.job.twoStage then [.sub ["osqp_code"] (c.libO ++ exports "osqp" .osqp)] else []) ++
  [.cmd (.append (c.pre ++ "cpg_include") ((cmakePath c.job).map here)),
   .cmd (.parent (c.pre ++ "cpg_include") [.ref (c.pre ++ "cpg_include")]),
   .cmd (.append (c.pre ++ "cpg_head") ((cmakeHead c.job).map here ++ (if c.job.twoStage then [.ref "osqp_head"] else []) ++ [.ref "solver_head"])),
   .cmd (.parent (c.pre ++ "cpg_head") [.ref (c.pre ++ "cpg_head")]),
   .cmd (.append (c.pre ++ "cpg_src") ((cmakeSrc c.job).map here ++ (if c.job.twoStage then [.ref "osqp_src"] else []) ++ [.ref "solver_src"])),
   .cmd (.parent (c.pre ++ "cpg_src") [.ref (c.pre ++ "cpg_src")]),
   .cmd (.dirs [.ref (c.pre ++ "cpg_include")]),
   .cmd (.target "cpg_example" [.ref (c.pre ++ "cpg_head"), .ref (c.pre ++ "cpg_src"), here cmakeExample]),
   .cmd (.target "cpg" [.ref (c.pre ++ "cpg_head"), .ref (c.pre ++ "cpg_src")])]

/-- What a project does: commands of its own, and `add_subdirectory` of generated code. -/
inductive Top where
  | cmd (c : Cmd)
  | add (d : Path) (c : Code)

def top (e : Env) (s : CSt) : Top → Except CErr CSt
  | .cmd c => run e s c
  | .add d c => subdir step e s d (codeFile c)

/-- A project in the directory `root`. -/
def project (root : Path) (globs : Path → String → List Path) (l : List Top) : Except CErr CSt :=
  l.foldlM (top ⟨root, root, globs⟩) ⟨fun _ => [], [], [], []⟩

/-- Where the build file of Clarabel's wrapper looks for the library that cargo builds (clarabel.py:247-262). -/
def clarabelOut : Item := .file .source ["solver_code", "rust_wrapper", "target", "release"]

end Verif.Model.CMake
