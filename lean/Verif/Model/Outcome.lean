import Verif.Model.Saved
import Verif.Model.Structs
import Verif.Model.Text
/-!
What the Python method makes of the solver's verdict, in floating point.

Sources: /repo/cvxpygen/utils.py:978-985 (`cpg_retrieve_info`), 1597-1601 (`status_int_fmt`),
/repo/cvxpygen/templates/cpg_solver.py.jinja2:76-117 (by `Saved.save`), `docu` of the solvers (osqp.py:118, scs.py:116, ecos.py:75,
clarabel.py:126, qoco.py:80, 254, pdaqp.py:68), `status_is_int` (by `Structs.statusInt`). The solver's objective, status and vectors are
inputs. Numbers are rationals, infinities and NaN, without signed zeros and without overflow of sums; `rd` rounds.
-/
namespace Verif.Model.Outcome
open Verif.Model Verif.Model.Saved Verif.Model.Structs Verif.Model.Text Verif.Model.Dispatch

/-- A number of type `double`. -/
inductive Flt where
  | num (x : ℚ)
  | inf (neg : Bool)
  | nan
  deriving DecidableEq

instance : Neg Flt where
  neg
    | .num x => .num (-x)
    | .inf b => .inf !b
    | .nan => .nan

/-- `a + b` in C. -/
def plus (rd : ℚ → ℚ) : Flt → Flt → Flt
  | .num x, .num y => .num (rd (x + y))
  | .num _, .inf b => .inf b
  | .inf b, .num _ => .inf b
  | .inf b, .inf c => if b = c then .inf b else .nan
  | .nan, _ => .nan
  | _, .nan => .nan

/-- What of the problem is written into `cpg_retrieve_info` and the Python file. -/
structure Conf where
  iface : Iface
  isMax : Bool
  nonzeroD : Bool

/-- The solver's status: a number or a text. -/
inductive Status where
  | code (n : Int)
  | text (t : String)

/-- The solver after a run, and `Canon_Params.d`. -/
structure Run where
  obj : Flt
  d : Flt
  status : Status
  prim : String → List Flt
  dual : Nat → List Flt
  time : Flt

/-- utils.py:980. -/
def infoObj (rd : ℚ → ℚ) (c : Conf) (r : Run) : Flt :=
  let v := if c.nonzeroD then plus rd r.obj r.d else r.obj
  if c.isMax then -v else v

/-- `docu`. -/
def docu : Iface → String
  | .osqp => "https://osqp.org/docs/codegen/python.html"
  | .scs => "https://www.cvxgrp.org/scs/api/c.html"
  | .ecos => "https://github.com/embotech/ecos/wiki/Usage-from-C"
  | .clarabel => "https://oxfordcontrol.github.io/ClarabelDocs/"
  | .qoco | .qocogen => "https://qoco-org.github.io/qoco/"
  | .pdaqp => "https://github.com/darnstrom/pdaqp"

/-- template:93-97 with utils.py:1598-1601: a number is put into a sentence, a text is stored as it is. A text where a number is expected
(or the reverse) does not compile and is left as it is here; `Fits` excludes it. -/
def statusText (i : Iface) : Status → String
  | .code n => toString n ++ " (for description visit " ++ docu i ++ ")"
  | .text t => t

/-- The type of the field `status` of the solver (utils.py:633, 1478-1482 by `Structs.statusInt`). -/
def Fits (i : Iface) : Status → Prop
  | .code _ => statusInt i = true
  | .text _ => statusInt i = false

/-- What the compiled module returns. -/
def result (rd : ℚ → ℚ) (c : Conf) (r : Run) : Res Flt where
  prim := r.prim
  dual := r.dual
  objVal := infoObj rd c r
  status := statusText c.iface r.status
  time := r.time

/-- The double `1e30` (template:98). -/
def big : Flt := .num big30

/-- template:76-117. -/
def solve (rd : ℚ → ℚ) (c : Conf) (f : PyFile) (vars : List String) (cons : List Nat) (r : Run) (before : PObj Flt) :
    Except PyErr (PObj Flt × Ret Flt) := save big f vars cons (result rd c r) before

end Verif.Model.Outcome
