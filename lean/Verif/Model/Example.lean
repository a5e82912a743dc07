import Verif.Model.Canon
import Verif.Model.Flatten
import Verif.Model.Explicit
/-!
Model of the update calls in the generated example program `cpg_example.c`.

Sources: /repo/cvxpygen/canonicalizer.py:249-258 (`writable`), 260-265 (`flat_usp`), /repo/cvxpygen/utils.py:485
(`cpg_params_vec`), 100-105 (printing of its entries), 1537-1542 (`example_c_context`),
/repo/cvxpygen/templates/cpg_example.c.jinja2:18-28. Parameters have a value at generation. Parameters with reduced
dimension enter as the vectors that CVXPY replaces them by.
-/
namespace Verif.Model.Example
open Verif.Model Verif.Model.Flatten Verif.Model.Explicit
variable {R : Type}

/-- A parameter with its value at generation. -/
structure EPar (R : Type) where
  name : String
  shape : List Nat
  val : List Nat → R

/-- Name and `name_to_size_usp` (canonicalizer.py:239-242). -/
def EPar.upar (p : EPar R) : UParam := ⟨p.name, size p.shape⟩

/-- Its block of `flat_usp`: CVXPY's `get_parameter_vector` flattens in order F (canonicalizer.py:260-265). -/
def EPar.block (p : EPar R) : List R := flattenF p.shape p.val

/-- Its entry in `writable`, as the list of its entries (canonicalizer.py:255-258): vectors and numbers are kept. -/
def EPar.writable (p : EPar R) : List R :=
  if p.shape.length < 2 then ravelC p.shape p.val else flattenF p.shape p.val

/-- `cpg_params_vec` without the constant at the end; `pr` is the number that the text `%.20f` denotes. -/
def startVec (pr : R → R) (ps : List (EPar R)) : List R := (ps.flatMap EPar.block).map pr

/-- The call for one parameter (utils.py:1539-1542, template:19-25): `cpg_update_p(val)` for a number and
`cpg_update_p(0, val)` otherwise; in both cases the first entry, printed. `none`: `IndexError`. -/
def exampleCall (pr : R → R) (p : EPar R) : Option (UpdCall R) :=
  (p.writable.head?).map fun v => ⟨p.name, 0, pr v⟩

/-- All calls before `cpg_solve` (template:19-28). -/
def exampleCalls (pr : R → R) (ps : List (EPar R)) : Option (List (UpdCall R)) := ps.mapM (exampleCall pr)

/-- The same in explicit mode, where the update functions clamp (utils.py:909-924): first positions of the parameters. -/
def exampleExplicit [LT R] [DecidableRel (fun x y : R => x < y)] (b : Bounds R) (θ : Nat → R) (us : List UParam)
    (cs : List (UpdCall R)) : Nat → R :=
  clampRun b θ (cs.zipIdx.map fun c => (colOf us c.2 + c.1.idx, c.1.val))

end Verif.Model.Example
