/-!
Model of the flattening of parameters and the reshaping of variables in the Python wrapper.

Sources: /repo/cvxpygen/templates/cpg_solver.py.jinja2:26-34 (`get_param_value`), 77-79 (saving of
variables), cpg_module.hpp.jinja2:9-13 (types of the fields), /repo/cvxpygen/utils.py:161-172
(`write_dense_mat_def`), 1198-1206 (passing of parameters). numpy's `flatten` and `reshape` are modelled by
their documentation: order `'C'` runs through the last index fastest, order `'F'` is order `'C'` of the
array with its axes reversed. An array is its shape and the value at each index.
-/
namespace Verif.Model.Flatten

variable {R : Type}

/-- Number of entries. -/
def size : List Nat → Nat
  | [] => 1
  | d :: ds => d * size ds

/-- `a.flatten(order='C')`. -/
def ravelC : List Nat → (List Nat → R) → List R
  | [], t => [t []]
  | d :: ds, t => (List.range d).flatMap fun i => ravelC ds fun r => t (i :: r)

/-- `a.flatten(order='F')`. -/
def flattenF (shape : List Nat) (t : List Nat → R) : List R := ravelC shape.reverse fun r => t r.reverse

/-- `l.reshape(shape, order='C')`; the value at an index, none if the index is out of bounds. -/
def reshapeC : List Nat → List R → List Nat → Option R
  | [], l, [] => l.head?
  | d :: ds, l, i :: r => if i < d then reshapeC ds ((l.drop (i * size ds)).take (size ds)) r else none
  | _, _, _ => none

/-- `l.reshape(shape, order='F')`; an error if the number of entries is wrong. -/
def reshapeF (shape : List Nat) (l : List R) : Option (List Nat → Option R) :=
  if l.length = size shape then some fun idx => reshapeC shape.reverse l idx.reverse else none

/-- `write_dense_mat_def` (utils.py:168-170): the entries in the order in which they are written. -/
def denseOrder (rows cols : Nat) (m : Nat → Nat → R) : List R :=
  (List.range cols).flatMap fun j => (List.range rows).map fun i => m i j

/-- Attribute of a parameter as far as the wrapper asks for it (template:29-33); `sparse` carries the
coordinates in the order of `value_sparse`. -/
inductive PAttr where
  | plain
  | diag
  | sparse (coords : List (List Nat))

/-- What Python hands over. -/
inductive PyVal (R : Type) where
  | scalar (x : R)
  | list (l : List R)

/-- `get_param_value` (template:26-34). -/
def getParamValue (shape : List Nat) (attr : PAttr) (t : List Nat → R) : PyVal R :=
  if size shape = 1 then .scalar (t (shape.map fun _ => 0))
  else match attr with
    | .diag => .list ((List.range (shape.headD 0)).map fun i => t [i, i])
    | .sparse coords => .list (coords.map t)
    | .plain => .list (flattenF shape t)

/-- Number of values that the generated code keeps for a parameter (`name_to_size_usp`). -/
def sizeUsp (shape : List Nat) : PAttr → Nat
  | .plain => size shape
  | .diag => shape.headD 0
  | .sparse coords => coords.length

/-- The conversion by pybind11 to the field of the parameter, `double` or `std::array<double, n>`
(cpg_module.hpp.jinja2:11); none is a `TypeError`. -/
def toField (n : Nat) : PyVal R → Option (List R)
  | .scalar x => if n ≤ 1 then some [x] else none
  | .list l => if 1 < n ∧ l.length = n then some l else none

/-- The values that arrive in `cpg_update_<name>` (utils.py:1198-1206), position by position. -/
def delivered (shape : List Nat) (attr : PAttr) (t : List Nat → R) : Option (List R) :=
  toField (sizeUsp shape attr) (getParamValue shape attr t)

end Verif.Model.Flatten
