/-!
What generation does to the file system.

Sources: /repo/cvxpygen/generator.py:65-101 (`generate`, `_setup_folder`), 122-145 (`_run_solver_code_generation`),
/repo/cvxpygen/writer.py:62-113, 134-144, 418-446, 514-516, 518-646 (files written), /repo/cvxpygen/utils.py:35-53 (writing and
changing files), `generate_code` in /repo/cvxpygen/solvers: osqp.py:120-146, ecos.py:135-157, scs.py:137-164,
clarabel.py:216-276, qoco.py:142-158, 362-380, pdaqp.py:205-229.

Simplifications: no symbolic links, no permissions, paths are given as lists of names from the root; a copy of a directory happens
completely or not at all; what is written is an input by path; the sources of the solvers are an input and not part of the file
system; the libraries OSQP, qocogen and PDAQP write a given set of files to the directory they are called with, or raise.
-/
namespace Verif.Model.Files

abbrev Path := List String

inductive Node where
  | dir
  | file (s : String)
  deriving DecidableEq, Repr

abbrev FS := Path → Option Node

/-- `FileExistsError`, `FileNotFoundError`, `NotADirectoryError`, `IsADirectoryError`, and what canonicalization or a library raises. -/
inductive FsErr where
  | exist | notFound | notADir | isADir | other
  deriving DecidableEq, Repr

def FS.set (fs : FS) (p : Path) (n : Node) : FS := fun q => if q = p then some n else fs q

/-- Everything at or below `p` is gone. -/
def FS.remove (fs : FS) (p : Path) : FS := fun q => if p <+: q then none else fs q

/-- A tree is put at `p`, over what is there. -/
def FS.graft (fs : FS) (p : Path) (t : FS) : FS := fun q =>
  if p <+: q then (match t (q.drop p.length) with
    | some n => some n
    | none => fs q) else fs q

/-- `os.mkdir`. -/
def mkdir (fs : FS) (p : Path) : FS × Option FsErr :=
  match fs p with
  | some _ => (fs, some .exist)
  | none => match fs p.dropLast with
    | some .dir => (fs.set p .dir, none)
    | some (.file _) => (fs, some .notADir)
    | none => (fs, some .notFound)

/-- Creating or overwriting a file. -/
def put (fs : FS) (p : Path) (s : String) : FS × Option FsErr :=
  match fs p with
  | some .dir => (fs, some .isADir)
  | some (.file _) => (fs.set p (.file s), none)
  | none => match fs p.dropLast with
    | some .dir => (fs.set p (.file s), none)
    | some (.file _) => (fs, some .notADir)
    | none => (fs, some .notFound)

/-- What the stages after `_setup_folder` do; paths relative to `code_dir`. -/
inductive FOp where
  | mkdir (p : Path)
  | makedirs (p : Path) (existOk : Bool)
  | rmtree (p : Path)
  | copytree (src : FS) (p : Path)
  | extern (src : Option FS) (p : Path)
  | copyfile (src : Option Node) (p : Path)
  | write (p : Path) (s : String)
  | append (p : Path) (s : String)
  | modify (p : Path) (f : String → String)
  | copy (a b : Path)
  | move (a b : Path)

/-- `os.makedirs` below an existing `base`: the parents that are missing, outermost first. -/
def parents (base : Path) (fs : FS) : List Path → FS × Option FsErr
  | [] => (fs, none)
  | p :: l =>
    match fs (base ++ p) with
    | some _ => parents base fs l
    | none => match Files.mkdir fs (base ++ p) with
      | (fs, some e) => (fs, some e)
      | (fs, none) => parents base fs l

/-- Proper parents of a relative path, without `base` itself. -/
def parentsOf (p : Path) : List Path := ((List.range p.length).drop 1).map fun k => p.take k

/-- The directory itself; with `exist_ok` a directory that is there is fine. -/
def lastDir (fs : FS) (p : Path) (existOk : Bool) : FS × Option FsErr :=
  match Files.mkdir fs p with
  | (fs, none) => (fs, none)
  | (fs, some e) => if existOk && decide (fs p = some .dir) then (fs, none) else (fs, some e)

def makedirs (base : Path) (fs : FS) (p : Path) (existOk : Bool) : FS × Option FsErr :=
  match parents base fs (parentsOf p) with
  | (fs, some e) => (fs, some e)
  | (fs, none) => lastDir fs (base ++ p) existOk

def exec (base : Path) (fs : FS) : FOp → FS × Option FsErr
  | .mkdir p => Files.mkdir fs (base ++ p)
  | .makedirs p ok => makedirs base fs p ok
  -- `if os.path.isdir(d): shutil.rmtree(d)`
  | .rmtree p => if fs (base ++ p) = some .dir then (fs.remove (base ++ p), none) else (fs, none)
  -- `shutil.copytree`
  | .copytree src p =>
    if src [] = some .dir then
      match Files.mkdir fs (base ++ p) with
      | (fs, some e) => (fs, some e)
      | (fs, none) => (fs.graft (base ++ p) src, none)
    else (fs, some .notFound)
  | .extern src p =>
    match src with
    | none => (fs, some .other)
    | some t => (fs.graft (base ++ p) t, none)
  -- `shutil.copyfile` from the package
  | .copyfile src p =>
    match src with
    | some (.file s) => put fs (base ++ p) s
    | some .dir => (fs, some .isADir)
    | none => (fs, some .notFound)
  | .write p s => put fs (base ++ p) s
  -- `open(path, 'a')`
  | .append p s =>
    match fs (base ++ p) with
    | some (.file t) => (fs.set (base ++ p) (.file (t ++ s)), none)
    | _ => put fs (base ++ p) s
  -- `read_write_file`
  | .modify p f =>
    match fs (base ++ p) with
    | some (.file t) => (fs.set (base ++ p) (.file (f t)), none)
    | some .dir => (fs, some .isADir)
    | none => (fs, some .notFound)
  -- `shutil.copyfile` within `code_dir`
  | .copy a b =>
    match fs (base ++ a) with
    | some (.file s) => put fs (base ++ b) s
    | some .dir => (fs, some .isADir)
    | none => (fs, some .notFound)
  -- `shutil.move` of a file
  | .move a b =>
    match fs (base ++ a) with
    | some (.file s) =>
      match put fs (base ++ b) s with
      | (fs, some e) => (fs, some e)
      | (fs, none) => (fs.remove (base ++ a), none)
    | some .dir => (fs, some .isADir)
    | none => (fs, some .notFound)

/-- A sequence; the first error ends it. -/
def execs (base : Path) (fs : FS) : List FOp → FS × Option FsErr
  | [] => (fs, none)
  | op :: l =>
    match exec base fs op with
    | (fs, some e) => (fs, some e)
    | (fs, none) => execs base fs l

/-- Solver interfaces. -/
inductive SKind where
  | osqp | scs | ecos | clarabel | qocogen | qoco | pdaqp
  deriving DecidableEq, Repr

/-- A call of `generate`: `base` is `code_dir`, `dot` says that it ends with the component `.`; `canon` is what canonicalization
raises; `named` says that the solver was given as `OSQP`; `sdp`: semidefinite cones (Clarabel). -/
structure Job where
  base : Path
  dot : Bool
  kind : SKind
  named : Bool
  gradient : Bool
  sdp : Bool
  canon : Option FsErr
  pkg : FS
  ext : Option FS
  extO : Option FS
  text : Path → String
  patch : Path → String → String
  cmake : String
  cmakeO : String

def Job.explicit (j : Job) : Bool := decide (j.kind = .pdaqp)

/-- generator.py:77. -/
def Job.twoStage (j : Job) : Bool := j.gradient && !j.named && !j.explicit

def sc : Path := ["c", "solver_code"]
def oc : Path := ["c", "osqp_code"]

/-- The common part of ecos.py:139-150, scs.py:141-151, clarabel.py:225-235, qoco.py:366-377. -/
def copyOps (j : Job) (name : String) (dirs files : List String) : List FOp :=
  [.rmtree sc, .mkdir sc] ++ (dirs.map fun d => .copytree (fun r => j.pkg (name :: d :: r)) (sc ++ [d])) ++
    files.map fun f => .copyfile (j.pkg [name, f]) (sc ++ [f])

/-- osqp.py:125-146, in directory `d`. -/
def osqpOps (j : Job) (ext : Option FS) (d : Path) : List FOp :=
  [.extern ext d, .copyfile (j.pkg ["osqp-python", "LICENSE"]) (d ++ ["LICENSE"]),
   .modify (d ++ ["workspace.h"]) (j.patch (d ++ ["workspace.h"])), .modify (d ++ ["CMakeLists.txt"]) (j.patch (d ++ ["CMakeLists.txt"]))]

def solverOps (j : Job) : List FOp :=
  match j.kind with
  | .osqp => osqpOps j j.ext sc
  | .ecos => copyOps j "ecos" ["src", "include", "external", "ecos_bb"] ["CMakeLists.txt", "COPYING"] ++
      [.copyfile (j.pkg ["ecos", "COPYING"]) ["COPYING"],
       .modify (sc ++ ["include", "glblopts.h"]) (j.patch (sc ++ ["include", "glblopts.h"]))]
  | .scs => copyOps j "scs" ["src", "include", "linsys", "cmake"] ["scs.mk", "CMakeLists.txt", "LICENSE.txt"] ++
      [.modify (sc ++ ["scs.mk"]) (j.patch (sc ++ ["scs.mk"])), .modify (sc ++ ["CMakeLists.txt"]) (j.patch (sc ++ ["CMakeLists.txt"]))]
  | .clarabel => copyOps j "Clarabel.cpp" ["rust_wrapper", "include", "Clarabel.rs"] ["CMakeLists.txt", "LICENSE.md"] ++
      [.modify (sc ++ ["CMakeLists.txt"]) (j.patch (sc ++ ["CMakeLists.txt"]))] ++
      (if j.sdp then [.modify (sc ++ ["CMakeLists.txt"]) (j.patch (sc ++ ["sdp"]))] else []) ++
      [.modify (sc ++ ["rust_wrapper", "CMakeLists.txt"]) (j.patch (sc ++ ["rust_wrapper", "CMakeLists.txt"])),
       .modify (sc ++ ["include", "Clarabel"]) (j.patch (sc ++ ["include", "Clarabel"]))]
  | .qoco => copyOps j "qoco" ["src", "include", "lib", "configure", "algebra"] ["CMakeLists.txt", "LICENSE"] ++
      [.copyfile (j.pkg ["qoco", "LICENSE"]) ["LICENSE"]]
  | .qocogen => [.extern j.ext sc, .copy (sc ++ ["LICENSE"]) ["LICENSE"]]
  | .pdaqp =>
      [.extern j.ext sc, .makedirs (sc ++ ["include"]) true, .makedirs (sc ++ ["src"]) true,
       .move (sc ++ ["pdaqp.h"]) (sc ++ ["include", "pdaqp.h"]), .move (sc ++ ["pdaqp.c"]) (sc ++ ["src", "pdaqp.c"])] ++
      (if j.gradient then [.modify (sc ++ ["include", "pdaqp.h"]) (j.patch (sc ++ ["include", "pdaqp.h"])),
        .modify (sc ++ ["src", "pdaqp.c"]) (j.patch (sc ++ ["src", "pdaqp.c"]))] else []) ++
      [.write (sc ++ ["CMakeLists.txt"]) (j.text (sc ++ ["CMakeLists.txt"]))]

/-- generator.py:127-145. -/
def solverStage (j : Job) : List FOp := solverOps j ++ if j.twoStage then osqpOps j j.extO oc else []

def inc (f : String) : Path := ["c", "include", f]
def src (f : String) : Path := ["c", "src", f]

/-- writer.py:64-70 with 76-144, 418-446, 514-588: the files written one after another. -/
def writtenFirst (j : Job) : List Path :=
  [["LICENSE"], ["__init__.py"], ["c", "CMakeLists.txt"], ["setup.py"]] ++
  [inc "cpg_workspace.h", src "cpg_workspace.c", inc "cpg_solve.h", src "cpg_solve.c"] ++
  (if j.gradient then
    (if j.explicit then [inc "cpg_gradient.h", src "cpg_gradient.c"]
     else [src "cpg_osqp_grad_compute.c", inc "cpg_osqp_grad_compute.h", inc "cpg_osqp_grad_workspace.h", src "cpg_osqp_grad_workspace.c"] ++
      (if j.twoStage then [inc "cpg_gradient_workspace.h", src "cpg_gradient_workspace.c"] else []) ++
      [inc "cpg_gradient.h", src "cpg_gradient.c"])
   else []) ++
  [src "cpg_example.c", ["cpp", "include", "cpg_module.hpp"], ["cpp", "src", "cpg_module.cpp"], ["cpg_solver.py"]]

/-- writer.py:617-639. -/
def cmakeOps (j : Job) : List FOp :=
  (if j.explicit then [] else [.append (sc ++ ["CMakeLists.txt"]) j.cmake]) ++
  (if j.twoStage then [.modify (oc ++ ["CMakeLists.txt"]) (j.patch (oc ++ ["src"])), .append (oc ++ ["CMakeLists.txt"]) j.cmakeO] else [])

/-- `CCodeWriter.write` (writer.py:62-74). -/
def writeStage (j : Job) : List FOp :=
  ((writtenFirst j).map fun p => .write p (j.text p)) ++ cmakeOps j ++ [.write ["README.html"] (j.text ["README.html"])]

/-- The headers listed in `c/CMakeLists.txt` (templates/CMakeLists.txt.jinja2:49-66, without those of the solver). -/
def cmakeHead (j : Job) : List Path :=
  [inc "cpg_workspace.h", inc "cpg_solve.h"] ++
  if j.gradient then
    inc "cpg_gradient.h" :: if !j.explicit then
      [inc "cpg_osqp_grad_compute.h", inc "cpg_osqp_grad_workspace.h"] ++ (if j.twoStage then [inc "cpg_gradient_workspace.h"] else [])
    else []
  else []

/-- The sources listed there (templates/CMakeLists.txt.jinja2:69-86). -/
def cmakeSrc (j : Job) : List Path :=
  [src "cpg_workspace.c", src "cpg_solve.c"] ++
  if j.gradient then
    src "cpg_gradient.c" :: if !j.explicit then
      [src "cpg_osqp_grad_compute.c", src "cpg_osqp_grad_workspace.c"] ++ (if j.twoStage then [src "cpg_gradient_workspace.c"] else [])
    else []
  else []

/-- The source of the executable besides those (templates/CMakeLists.txt.jinja2:92). -/
def cmakeExample : Path := src "cpg_example.c"

/-- The subdirectories (templates/CMakeLists.txt.jinja2:32-35). -/
def cmakeSub (j : Job) : List Path := sc :: if j.twoStage then [oc] else []

/-- `shutil.rmtree(code_dir, ignore_errors=True)` (generator.py:94): a directory and all below; files stay. The directory `.` itself
cannot be removed, its contents can. -/
def clean (fs : FS) (j : Job) : FS :=
  if fs j.base = some .dir then (if j.dot then (fs.remove j.base).set j.base .dir else fs.remove j.base) else fs

/-- `os.mkdir(code_dir)` (generator.py:95). -/
def makeBase (fs : FS) (j : Job) : FS × Option FsErr :=
  if j.dot then
    match fs j.base with
    | some .dir => (fs, some .exist)
    | some (.file _) => (fs, some .notADir)
    | none => (fs, some .notFound)
  else Files.mkdir fs j.base

/-- generator.py:97-101. -/
def folderOps : List FOp :=
  [.makedirs ["c", "src"] false, .makedirs ["c", "include"] false, .makedirs ["c", "build"] false, .makedirs ["cpp", "src"] false,
   .makedirs ["cpp", "include"] false]

/-- What follows, in order. -/
def allOps (j : Job) : List FOp := folderOps ++ (solverStage j ++ writeStage j)

/-- `generate` with `wrapper=False` (generator.py:65-88): canonicalization, folder, solver code, written code. -/
def generate (fs : FS) (j : Job) : FS × Option FsErr :=
  match j.canon with
  | some e => (fs, some e)
  | none =>
    match makeBase (clean fs j) j with
    | (fs, some e) => (fs, some e)
    | (fs, none) => execs j.base fs (allOps j)

end Verif.Model.Files
