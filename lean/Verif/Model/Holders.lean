import Verif.Model.Py
import Verif.Model.Flatten
/-!
Model of how parameter values are read, by the kind of object that holds them. CVXPY turns numbers and lists assigned to `value` into
numpy arrays, and keeps scipy's sparse matrices as they are (external).

Sources: /repo/cvxpygen/templates/cpg_solver.py.jinja2:17-34 (`squeeze_scalar`, `get_param_value`), cpg_module.hpp.jinja2:9-13;
/repo/cvxpygen/canonicalizer.py:249-258. By scipy's and numpy's documentation, a sparse matrix is no `np.ndarray`, has no attribute
`flatten`, and `np.diag` takes it for an array without axes, for which it raises `ValueError`.
-/
namespace Verif.Model.Holders
open Verif.Model.Flatten

variable {R : Type}

/-- The type of `param.value`. -/
inductive Holder where
  | array
  | sparse
  deriving DecidableEq

/-- What Python holds: the object, and its entry at each index. -/
structure Value (R : Type) where
  holder : Holder
  entry : List Nat → R

/-- A result of `get_param_value`: numbers, or the matrix itself. -/
inductive Got (R : Type) where
  | val (v : PyVal R)
  | matrix

/-- `squeeze_scalar` (template:17-22), for a value with one entry. -/
def squeezeScalar (shape : List Nat) (v : Value R) : Got R :=
  match v.holder with
  | .array => .val (.scalar (v.entry (shape.map fun _ => 0)))
  | .sparse => .matrix

/-- `list(np.diag(param.value))` (template:30). -/
def diagonal (shape : List Nat) (v : Value R) : Except PyErr (Got R) :=
  match v.holder with
  | .array => .ok (.val (.list ((List.range (shape.headD 0)).map fun i => v.entry [i, i])))
  | .sparse => .error .valueError

/-- `list(param.value.flatten(order="F"))` (template:34, canonicalizer.py:258). -/
def flattened (shape : List Nat) (v : Value R) : Except PyErr (List R) :=
  match v.holder with
  | .array => .ok (flattenF shape v.entry)
  | .sparse => .error .attributeError

/-- `get_param_value` (template:26-34); `value_sparse` holds the entries whatever was assigned. -/
def getValue (shape : List Nat) (attr : PAttr) (v : Value R) : Except PyErr (Got R) :=
  if size shape = 1 then .ok (squeezeScalar shape v)
  else match attr with
    | .diag => diagonal shape v
    | .sparse coords => .ok (.val (.list (coords.map v.entry)))
    | .plain => (flattened shape v).map fun l => .val (.list l)

/-- The assignment to the field of the bound struct (cpg_module.hpp.jinja2:11): pybind11 converts numbers to `double` and lists of the
right length to `std::array`. -/
def toStruct (n : Nat) : Got R → Except PyErr (List R)
  | .matrix => .error .typeError
  | .val x => match toField n x with
    | some l => .ok l
    | none => .error .typeError

/-- From `param.value` to the arguments of the update function. -/
def deliver (shape : List Nat) (attr : PAttr) (v : Value R) : Except PyErr (List R) :=
  getValue shape attr v >>= toStruct (sizeUsp shape attr)

/-- The values written into the generated files (canonicalizer.py:249-258), for a parameter that has a value: with fewer than two axes the
value itself. A value with fewer than two axes is an array, as scipy's matrices have two. -/
def writable (shape : List Nat) (v : Value R) : Except PyErr (List R) :=
  if shape.length < 2 then .ok (flattenF shape v.entry) else flattened shape v

end Verif.Model.Holders
