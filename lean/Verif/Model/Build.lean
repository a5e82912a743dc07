import Verif.Model.Py
/-!
Building the Python module from generated code: `compile` (/repo/cvxpygen/compiler.py:24-31), which runs the generated `setup.py`
(template setup.py.jinja2:71-75, 78-99, 102-103, 117, 130-131) and looks at none of its results.

External, modelled by documentation: `subprocess.call` returns the result of a command and raises nothing if it is not zero; `cmake --build`
brings a static library up to date or fails and leaves the old one; setuptools' `build_extension` skips an extension if the file is newer than
all of `sources` and `depends` unless forced (`extra_objects` are not among these), otherwise compiles all of `sources` and links them with
`extra_objects`; a failure leaves the old file and ends `setup.py` with an error.

Simplifications: the C sources are one thing with a version, and so are the C++ sources; times are the number of operations so far; libraries
of the solver are taken to be part of the C sources.
-/
namespace Verif.Model.Build

/-- A file with what it was made from, and the time. -/
structure Module where
  c : Nat
  cpp : Nat
  time : Nat
  deriving DecidableEq, Repr

/-- The directory of generated code. -/
structure Dir where
  /-- version of the C sources in `c` -/
  c : Nat
  /-- version of `cpp/src/*.cpp`, and the time of the last change -/
  cpp : Nat
  cppTime : Nat
  /-- `c/build` is configured -/
  configured : Bool
  /-- `c/build/out/libcpg.a`: version of the C sources in it -/
  lib : Option Nat
  /-- `cpg_module.*.so` -/
  module : Option Module
  now : Nat
  deriving DecidableEq, Repr

/-- What succeeds in a build: `cmake ..`, compilation of C, of C++, linking; and whether the build is forced (`--force`, not what `compile`
does). -/
structure Outcome where
  configure : Bool
  make : Bool
  compile : Bool
  link : Bool
  force : Bool
  deriving DecidableEq, Repr

inductive Op where
  /-- `generate_code`: the folder is removed and written anew (generator.py:92-101, see C75) -/
  | generate (c cpp : Nat)
  /-- other C sources, for example those of newly generated code copied over -/
  | changeC (c : Nat)
  | changeCpp (cpp : Nat)
  /-- the built module is removed -/
  | clean
  /-- `python setup.py build_ext --inplace` -/
  | build (o : Outcome)
  deriving DecidableEq, Repr

/-- setup.py.jinja2:92: `call(['cmake'] + cmake_args + ['..'])`. -/
def configure (s : Dir) (o : Outcome) : Dir := if o.configure then { s with configured := true } else s

/-- setup.py.jinja2:93: `call(['cmake', '--build', '.', '--target', 'cpg'])`. -/
def make (s : Dir) (o : Outcome) : Dir := if s.configured && o.make then { s with lib := some s.c } else s

/-- setuptools: the module is newer than the C++ sources, and the build is not forced. -/
def skip (s : Dir) (o : Outcome) : Bool :=
  match s.module with
  | some m => !o.force && decide (s.cppTime ≤ m.time)
  | none => false

/-- setup.py.jinja2:99: `build_ext.build_extensions(self)` for the extension of lines 102-117. -/
def extension (s : Dir) (o : Outcome) : Dir × Option PyErr :=
  if skip s o then (s, none)
  else
    match s.lib with
    | none => (s, some .osError)
    | some c => if o.compile && o.link then ({ s with module := some ⟨c, s.cpp, s.now⟩ }, none) else (s, some .osError)

/-- setup.py.jinja2:78-99. -/
def build (s : Dir) (o : Outcome) : Dir × Option PyErr := extension (make (configure s o) o) o

/-- What is left on the disk by an operation. `compile` ignores the error of `build` (compiler.py:29). -/
def step (s : Dir) (op : Op) : Dir :=
  let s := { s with now := s.now + 1 }
  match op with
  | .generate c cpp => ⟨c, cpp, s.now, false, none, none, s.now⟩
  | .changeC c => { s with c := c }
  | .changeCpp cpp => { s with cpp := cpp, cppTime := s.now }
  | .clean => { s with module := none }
  | .build o => (build s o).1

def run (s : Dir) (ops : List Op) : Dir := ops.foldl step s

end Verif.Model.Build
