import Verif.Model.Flatten
/-!
Model of `cpg_gradient`, `forward` and `backward` of the generated Python file, as far as the attributes `gradient` of
variables and parameters are concerned.

Sources: /repo/cvxpygen/templates/cpg_solver.py.jinja2:133-212. CVXPY's `Variable` starts with `gradient = None`; the types
of `CPG_VDelta_cpp_t` are in cpg_module.hpp.jinja2:83-87; pybind11 converts a list to `std::array<double, n>` if it has `n`
entries, and `None` to nothing. The compiled function `gradient` is a parameter of the model.
-/
namespace Verif.Model.Backward
open Verif.Model.Flatten
variable {R : Type}

/-- Exceptions raised here. -/
inductive Err where
  | typeError
  | attributeError
  | stopIteration
  deriving DecidableEq

/-- A numpy array: its shape and the value at each index. -/
structure Arr (R : Type) where
  shape : List Nat
  val : List Nat → R

/-- A variable of the problem: identifier, name and shape. -/
structure PVar where
  id : Nat
  name : String
  shape : List Nat

/-- The attributes `gradient` of the variables, by identifier. -/
abbrev Grads (R : Type) := Nat → Option (Arr R)

/-- One field of `vdelta` (template:159-165): the value must be convertible to `double` (size one) or to an array of that
size. A missing gradient has no `flatten`, and is not a number. -/
def field (v : PVar) (g : Option (Arr R)) : Except Err (List R) :=
  match g with
  | none => if size v.shape = 1 then .error .typeError else .error .attributeError
  | some a =>
    if size v.shape = 1 then
      if size a.shape = 1 then .ok [a.val (a.shape.map fun _ => 0)] else .error .typeError
    else if size a.shape = size v.shape then .ok (flattenF a.shape a.val) else .error .typeError

/-- All fields of `vdelta`, in the order of the variables of the code. -/
def vdelta (vs : List PVar) (gr : Grads R) : Except Err (List (List R)) := vs.mapM fun v => field v (gr v.id)

/-- `next(v for v in vars if v.id == variable.id).gradient = dv` (template:200-201). -/
def assign (ids : List Nat) : Grads R → List (Nat × Arr R) → Except Err (Grads R)
  | gr, [] => .ok gr
  | gr, (i, a) :: l =>
    if i ∈ ids then assign ids (fun j => if j = i then some a else gr j) l else .error .stopIteration

/-- What a user does between generation and a call of `backward`. -/
inductive Op (R : Type) where
  /-- the user sets an attribute -/
  | setGrad (i : Nat) (a : Option (Arr R))
  /-- `forward` only assigns parameter values and solves -/
  | forward
  /-- `backward` of a context with these variables -/
  | backward (ctx : List Nat) (dvars : List (Arr R))

/-- The values that reach the compiled function in one call of `backward` (template:196-209), and the attributes afterwards:
they were set before an error occurs. `zip` stops at the shorter list. -/
def backward (vs : List PVar) (gr : Grads R) (ctx : List Nat) (dvars : List (Arr R)) :
    Grads R × Except Err (List (List R)) :=
  match assign (vs.map PVar.id) gr (ctx.zip dvars) with
  | .error e => (assignPrefix gr (ctx.zip dvars), .error e)
  | .ok gr' => (gr', vdelta vs gr')
where
  /-- The attributes set before the first unknown variable. -/
  assignPrefix (gr : Grads R) : List (Nat × Arr R) → Grads R
  | [] => gr
  | (i, a) :: l => if i ∈ vs.map PVar.id then assignPrefix (fun j => if j = i then some a else gr j) l else gr

def step (vs : List PVar) (gr : Grads R) : Op R → Grads R
  | .setGrad i a => fun j => if j = i then a else gr j
  | .forward => gr
  | .backward ctx dvars => (backward vs gr ctx dvars).1

/-- The attributes after a history; all are `None` at first. -/
def run (vs : List PVar) (ops : List (Op R)) : Grads R := ops.foldl (step vs) fun _ => none

end Verif.Model.Backward
