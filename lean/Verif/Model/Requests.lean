import Verif.Model.Explicit
import Verif.Model.Py
import Verif.Model.Flatten
/-!
Model of the option `stored_vars` of explicit mode: from the expressions given by the user to the indices of the entries
that are stored.

Source: /repo/cvxpygen/solvers/pdaqp.py:144-161, 167-171. CVXPY is an input: an index with integers and slices arrives as
one slice with start, stop and step per axis (`index.get_data()`), one with lists or arrays arrives as it was given
(`special_index.get_data()`), and `format_slice` keeps a slice within its axis. Masks for variables with several axes and
expressions other than variables and their entries are not modelled.
-/
namespace Verif.Model.Requests
open Verif.Model

/-- The index for one axis of a variable with several axes: an integer or a slice, by the indices it stands for, or a list
of integers. -/
inductive AxKey where
  | sl (l : List Nat)
  | ints (l : List Int)

/-- An element of `stored_vars`. -/
inductive Req where
  /-- the variable itself -/
  | whole
  /-- `x[i]`, `x[a:b:c]` for a variable with one axis -/
  | oneSlice (l : List Nat)
  /-- `x[[...]]` with a list of integers, a list of Booleans, a numpy array of integers -/
  | oneList (l : List Int)
  | oneMask (l : List Bool)
  | oneArray (l : List Int)
  /-- `X[k0, k1, ...]` for a variable with several axes -/
  | many (keys : List AxKey)
  /-- `X[[...]]` for a variable with several axes -/
  | rows (l : List Int)

/-- What `product` runs over for one axis (pdaqp.py:157). -/
def AxKey.vals : AxKey → List Int
  | .sl l => l.map Int.ofNat
  | .ints l => l

/-- `itertools.product`. -/
def prod : List (List Int) → List (List Int)
  | [] => [[]]
  | l :: ls => l.flatMap fun i => (prod ls).map (i :: ·)

/-- `np.ravel_multi_index(id, shape, order='F')`: raises unless there is one index per axis, within its axis. -/
def ravel : List Nat → List Int → Except PyErr Nat
  | [], [] => .ok 0
  | d :: ds, i :: r =>
    if 0 ≤ i ∧ i < d then
      match ravel ds r with
      | .ok k => .ok (i.toNat + d * k)
      | .error e => .error e
    else .error .valueError
  | _, _ => .error .valueError

/-- `format_slice(key, dim)` for an integer: raises outside of the axis, a negative one counts from the end. -/
def formatInt (d : Nat) (i : Int) : Except PyErr AxKey :=
  if 0 ≤ i ∧ i < d then .ok (.sl [i.toNat])
  else if i < 0 ∧ 0 ≤ i + d then .ok (.sl [(i + d).toNat])
  else .error .indexError

/-- pdaqp.py:155-158; `zip` stops at the shorter of the two. -/
def indsOf (shape : List Nat) (keys : List AxKey) : Except PyErr (List Nat) :=
  (prod (((keys.zip shape).map Prod.fst).map AxKey.vals)).mapM (ravel shape)

/-- pdaqp.py:155-156 for a list: its elements are taken for the indices of the axes. -/
def axesOf (shape : List Nat) (l : List Int) : Except PyErr (List AxKey) :=
  (l.zip shape).mapM fun e => formatInt e.2 e.1

/-- `np.array(inds, dtype='int') if inds else np.arange(size)` (pdaqp.py:171) for lists. -/
def orAll (n : Nat) (l : List Int) : List Int := if l = [] then (List.range n).map Int.ofNat else l

/-- pdaqp.py:147-159, 171: the array `inds` for one element of `stored_vars`. A slice is no integer; the truth value of an
array is that of its only element, and not defined for several. -/
def resolve (shape : List Nat) : Req → Except PyErr (List Int)
  | .whole => .ok (orAll (Flatten.size shape) [])
  | .oneSlice _ => .error .typeError
  | .oneList l => .ok (orAll (Flatten.size shape) l)
  | .oneMask l => .ok (orAll (Flatten.size shape) (l.map fun b => if b then 1 else 0))
  | .oneArray l =>
    match l with
    | [] => .ok (orAll (Flatten.size shape) [])
    | [i] => .ok (if i = 0 then orAll (Flatten.size shape) [] else [i])
    | _ => .error .valueError
  | .many keys =>
    match indsOf shape keys with
    | .ok l => .ok (orAll (Flatten.size shape) (l.map Int.ofNat))
    | .error e => .error e
  | .rows l =>
    match axesOf shape l with
    | .error e => .error e
    | .ok keys =>
      match indsOf shape keys with
      | .ok l => .ok (orAll (Flatten.size shape) (l.map Int.ofNat))
      | .error e => .error e

end Verif.Model.Requests
