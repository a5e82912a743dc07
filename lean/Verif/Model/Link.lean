import Verif.Model.Dispatch
/-!
Libraries of the C targets and of the Python extension.

Sources: /repo/cvxpygen/templates/CMakeLists.txt.jinja2:22-29, 91-101 (`c/CMakeLists.txt`), /repo/cvxpygen/templates/setup.py.jinja2:30-75, 117
(`setup.py`), /repo/cvxpygen/writer.py:85-92 (both are written for the interface of the solver), `cmake_context_extra` and `setup_py_context` of
/repo/cvxpygen/solvers/_interface.py:205-232, clarabel.py:278-297, qoco.py:160-171, 382-401; those of osqp.py, scs.py, ecos.py leave the lists of
libraries and objects empty and pdaqp.py has none of its own. The place of Clarabel's library is that of clarabel.py:250-269.

Paths are lists of names below the directory `c`; `'aarch64-apple-darwin/release'` counts as two names. Outside of the repository, by documentation of
CMake: the library of target `t` is `lib<t>.a` in the directory `LIBRARY_OUTPUT_PATH`, with Visual Studio `<t>.lib` in its directory `Release`. BLAS and
LAPACK are libraries of the system.
-/
namespace Verif.Model.Link
open Verif.Model.Dispatch

/-- `platform.system()` with `platform.machine() == 'arm64'`; the same for `CMAKE_SYSTEM_NAME`, `CMAKE_SYSTEM_PROCESSOR`. -/
inductive Machine where
  | windows
  | linux
  | mac (arm : Bool)
  | other
  deriving DecidableEq, Repr

/-- Arguments of `target_link_libraries`, and the target `cpg` itself. -/
inductive Lib where
  | cpg
  | qocostatic
  | clarabel
  | blas
  | lapack
  deriving DecidableEq, Repr

/-- Names of a path below the directory `c`. -/
abbrev Below := List String

/-- `cmake_target_link_libs`: clarabel.py:279-283, qoco.py:387, otherwise `_interface.py:215`. `psd` is `canon_constants['cone_dims_psd']`. -/
def linkLibs (i : Iface) (psd : List Nat) : List Lib :=
  match i with
  | .clarabel => .clarabel :: (if 0 < psd.length then [.blas, .lapack] else [])
  | .qoco => [.qocostatic]
  | _ => []

/-- `add_library (cpg STATIC …)` with its `target_link_libraries` (CMakeLists.txt.jinja2:97-101): what a program that uses the generated code has to be
linked with. -/
def required (i : Iface) (psd : List Nat) : List Lib := .cpg :: linkLibs i psd

/-- An expression in `extra_objects`: `libqoco_name` has its value when `setup.py` runs. -/
inductive Obj where
  | path (p : Below)
  | libqoco (dir : Below)
  deriving DecidableEq, Repr

/-- `'extra_objects'` on the machine `g` that generates (clarabel.py:290-297, qoco.py:400, otherwise `_interface.py:230`). -/
def extraObjects (i : Iface) (g : Machine) : List Obj :=
  match i with
  | .clarabel => [.path (["solver_code", "rust_wrapper", "target"] ++
      (if g = .mac true then ["aarch64-apple-darwin", "release"] else ["release"]) ++ ["libclarabel_c.a"])]
  | .qoco => [.libqoco ["build", "out"]]
  | _ => []

/-- `lib_subdir`, `lib_name` and, for QOCO, `libqoco_name` in `setup.py` on the machine that builds (setup.py.jinja2:30-68, qoco.py:398-399);
`none`: `OSError('Unknown operating system!')`. -/
def names (b : Machine) : Option (Below × Below) :=
  match b with
  | .windows => some (["Release", "cpg.lib"], ["Release", "qocostatic.lib"])
  | .linux => some (["libcpg.a"], ["libqocostatic.a"])
  | .mac _ => some (["libcpg.a"], ["libqocostatic.a"])
  | .other => none

def evalObj (qoco : Below) : Obj → Below
  | .path p => p
  | .libqoco d => d ++ qoco

/-- `extra_objects` of the extension (setup.py.jinja2:70-75, 117) if the code was generated on `g` and is built on `b`. -/
def objects (i : Iface) (g b : Machine) : Option (List Below) :=
  (names b).map fun n => (["build", "out"] ++ n.1) :: (extraObjects i g).map (evalObj n.2)

/-- Where the build on machine `b` puts a library (`none`: not below `c`, a library of the system). `LIBRARY_OUTPUT_PATH` is
`${PROJECT_BINARY_DIR}/out` (CMakeLists.txt.jinja2:29), the build directory is `c/build` (setup.py.jinja2:73); Clarabel: clarabel.py:253-261. -/
def built (b : Machine) : Lib → Option Below
  | .cpg => match b with
    | .windows => some ["build", "out", "Release", "cpg.lib"]
    | _ => some ["build", "out", "libcpg.a"]
  | .qocostatic => match b with
    | .windows => some ["build", "out", "Release", "qocostatic.lib"]
    | _ => some ["build", "out", "libqocostatic.a"]
  | .clarabel => match b with
    | .windows => some ["solver_code", "rust_wrapper", "target", "release", "clarabel_c.lib"]
    | .mac true => some ["solver_code", "rust_wrapper", "target", "aarch64-apple-darwin", "release", "libclarabel_c.a"]
    | _ => some ["solver_code", "rust_wrapper", "target", "release", "libclarabel_c.a"]
  | .blas => none
  | .lapack => none

/-- `_get_interface_class` accepts the solver on the machine that generates (canonicalizer.py:69-71). -/
def accepted (i : Iface) (g : Machine) : Bool := !(decide (g = .windows) && decide (i = .clarabel))

end Verif.Model.Link
