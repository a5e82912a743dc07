import Verif.Model.Files
/-! The layout of a generated directory, listed by directory, and what may be assumed of a file system. -/
namespace Verif.Spec.Files
open Verif.Model.Files

/-- Whatever exists is in a directory. -/
def Tree (fs : FS) : Prop := ∀ p r : Path, r ≠ [] → fs (p ++ r) ≠ none → fs p = some .dir

/-- Neither directory contains the other. -/
def Apart (p q : Path) : Prop := ¬ p <+: q ∧ ¬ q <+: p

/-- The two directories in which solvers keep their code. -/
def SolverArea (r : Path) : Prop := (∃ l, r = "c" :: "solver_code" :: l) ∨ ∃ l, r = "c" :: "osqp_code" :: l

/-- Directories other than those of solvers. -/
def IsDirectory : Path → Prop
  | [] => True
  | [a] => a = "c" ∨ a = "cpp"
  | [a, b] => (a = "c" ∧ (b = "src" ∨ b = "include" ∨ b = "build")) ∨ (a = "cpp" ∧ (b = "src" ∨ b = "include"))
  | _ => False

/-- C files: the workspace and the solve functions always; with gradients the gradient functions; unless in explicit mode, their linear
algebra and workspace; the workspace of the second stage where the solver is not OSQP. -/
def CFile (explicit gradient two : Bool) (name : String) : Prop :=
  name = "cpg_workspace" ∨ name = "cpg_solve" ∨ (gradient = true ∧ (name = "cpg_gradient" ∨
    (explicit = false ∧ (name = "cpg_osqp_grad_compute" ∨ name = "cpg_osqp_grad_workspace" ∨ (two = true ∧ name = "cpg_gradient_workspace")))))

/-- Second stage: differentiation requested, the solver was not given as OSQP, not explicit. -/
def two (j : Job) : Bool := match j.gradient, j.named, j.kind with
  | true, false, .pdaqp => false
  | true, false, _ => true
  | _, _, _ => false

def isExplicit (j : Job) : Bool := match j.kind with
  | .pdaqp => true
  | _ => false

/-- Files written from templates. -/
def IsWritten (j : Job) : Path → Prop
  | [f] => f = "LICENSE" ∨ f = "__init__.py" ∨ f = "setup.py" ∨ f = "cpg_solver.py" ∨ f = "README.html"
  | [a, b] => a = "c" ∧ b = "CMakeLists.txt"
  | [a, b, f] =>
    (a = "c" ∧ b = "include" ∧ ∃ n, CFile (isExplicit j) j.gradient (two j) n ∧ f = n ++ ".h") ∨
    (a = "c" ∧ b = "src" ∧ ((∃ n, CFile (isExplicit j) j.gradient (two j) n ∧ f = n ++ ".c") ∨ f = "cpg_example.c")) ∨
    (a = "cpp" ∧ b = "include" ∧ f = "cpg_module.hpp") ∨ (a = "cpp" ∧ b = "src" ∧ f = "cpg_module.cpp")
  | _ => False

open Classical in
/-- What is at a path outside the directories of solvers. -/
noncomputable def layout (j : Job) (r : Path) : Option Node :=
  if IsDirectory r then some .dir
  else if IsWritten j r then some (.file (j.text r))
  else if r = ["COPYING"] ∧ j.kind = .ecos then j.pkg ["ecos", "COPYING"]
  else none

end Verif.Spec.Files
