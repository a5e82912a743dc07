/-!
Model of compilation and registration: which code the method registered with the problem belongs to.

Sources: /repo/cvxpygen/compiler.py:24-40 (`compile`, `register`), /repo/cvxpygen/generator.py:92-101 (`_setup_folder`),
154-157 (`_run_compilation`), /repo/cvxpygen/utils.py:1591 (`code_dir_module`), templates/cpg_solver.py.jinja2:12. Python's
`import_module` is modelled by its documentation: a module that was imported before is returned from `sys.modules`; otherwise
the packages of a dotted name are searched one after the other, the first in the directories of `sys.path` in order, and a
package found once is kept. Names of directory entries have no `/`. Not modelled: caches of directory listings, packages of
the same name that are not generated code.
-/
namespace Verif.Model.Register

/-- `s.split(c)`. -/
def split (c : Char) : List Char → List (List Char)
  | [] => [[]]
  | a :: s =>
    if a = c then [] :: split c s
    else match split c s with
      | [] => [[a]]
      | w :: ws => (a :: w) :: ws

/-- A directory, from the root. -/
abbrev Path := List (List Char)

/-- Generated code in a directory: which generation it comes from, and whether its extension module was built. -/
structure Code where
  ver : Nat
  built : Bool
  deriving DecidableEq

inductive Err where
  | moduleNotFound
  | importError
  deriving DecidableEq

/-- State of the Python process and of the disk. -/
structure St where
  fs : Path → Option Code
  cwd : Path
  sysPath : List Path
  /-- packages in `sys.modules`, with their directory -/
  pkgs : List Char → Option Path
  /-- `<name>.cpg_solver` in `sys.modules` -/
  mods : List Char → Option Nat
  /-- number of generations so far -/
  count : Nat

/-- The directory of generated code: `code_dir`, relative to the working directory. -/
def target (cwd : Path) (codeDir : List Char) : Path := cwd ++ split '/' codeDir

/-- The directory in which a package of a dotted name is found, searching `sys.path`. -/
def search (fs : Path → Option Code) (sysPath : List Path) (name : List Char) : Option Path :=
  if (split '.' name).any fun w => w.contains '/' then none
  else (sysPath.find? fun p => (fs (p ++ split '.' name)).isSome).map (· ++ split '.' name)

/-- `importlib.import_module(f'{code_dir}.cpg_solver')`: outcome and the modules kept. `cpg_solver.py` imports `cpg_module` of
the same package, which exists if the code was built. -/
def importSolver (s : St) (name : List Char) : St × Except Err Nat :=
  match s.mods name with
  | some v => (s, .ok v)
  | none =>
    match (s.pkgs name).or (search s.fs s.sysPath name) with
    | none => (s, .error .moduleNotFound)
    | some p =>
      let s := { s with pkgs := fun n => if n = name then some p else s.pkgs n }
      match s.fs p with
      | none => (s, .error .moduleNotFound)
      | some c =>
        if c.built then ({ s with mods := fun n => if n = name then some c.ver else s.mods n }, .ok c.ver)
        else (s, .error .importError)

/-- What a user does: change the working directory, or generate code with `wrapper=True`; `ok` says whether the compiler
succeeds (its result is not looked at, compiler.py:29). -/
inductive Op where
  | chdir (p : Path)
  | generate (codeDir : List Char) (ok : Bool)

/-- The folder is replaced, the code is built, `cwd` is put on `sys.path`, the module is imported and its `cpg_solve`
registered. The outcome is the generation whose code gets registered. -/
def generate (s : St) (codeDir : List Char) (ok : Bool) : St × Except Err Nat :=
  let s := { s with
    fs := fun p => if p = target s.cwd codeDir then some ⟨s.count, ok⟩ else s.fs p
    sysPath := if s.cwd ∈ s.sysPath then s.sysPath else s.cwd :: s.sysPath
    count := s.count + 1 }
  importSolver s codeDir

def step (s : St) : Op → St
  | .chdir p => { s with cwd := p }
  | .generate cd ok => (generate s cd ok).1

/-- A new process. -/
def fresh (fs : Path → Option Code) (cwd : Path) (sysPath : List Path) : St := ⟨fs, cwd, sysPath, fun _ => none, fun _ => none, 0⟩

def run (s : St) (ops : List Op) : St := ops.foldl step s

end Verif.Model.Register
