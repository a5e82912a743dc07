import Verif.Model.Py
import Verif.Model.Flatten
import Verif.Model.Explicit
/-!
Limits on parameters in explicit mode, with shapes and NumPy's rules for assignment to a slice.

Source: `_get_parameter_delta_bounds` (/repo/cvxpygen/solvers/pdaqp.py:264-289), called at pdaqp.py:112. NumPy's
assignment is modelled by its documentation: leading axes of length one are dropped, what is left must be a single
value or have exactly the length of the slice, and slices end where the array ends. Values of constants are dense arrays.
The removal of dual variables (pdaqp.py:291-297) is part of the module `Explicit`.
-/
namespace Verif.Model.Limits
variable {R : Type}

/-- `rhs.value` of a `cp.Constant`: shape and the value at each index. -/
structure Arr (R : Type) where
  shape : List Nat
  val : List Nat → R

/-- One side of a constraint: a parameter with its id and `size` (all entries, whether or not they are stored), a
constant, or another expression (pdaqp.py:279, 282-289). -/
inductive Arg (R : Type) where
  | param (id size : Nat)
  | const (a : Arr R)
  | other

/-- A constraint; `vars`, `params`: `constraint.variables()`, `constraint.parameters()` are not empty. -/
structure Con (R : Type) where
  vars : Bool
  params : Bool
  lhs : Arg R
  rhs : Arg R

/-- The shape without leading axes of length one (as long as there are two or more). -/
def lead : List Nat → List Nat
  | 1 :: d :: ds => lead (d :: ds)
  | l => l

/-- Index of entry `i` along the last axis. -/
def lastIdx (shape : List Nat) (i : Nat) : List Nat := List.replicate (shape.length - 1) 0 ++ [i]

/-- The values that are assigned to a slice of length `len`. -/
def spread (a : Arr R) (len : Nat) : Option (List R) :=
  match lead a.shape with
  | [] => some (List.replicate len (a.val []))
  | [k] =>
    if k = len then some ((List.range len).map fun i => a.val (lastIdx a.shape i))
    else if k = 1 then some (List.replicate len (a.val (lastIdx a.shape 0)))
    else none
  | _ :: _ :: _ => none

/-- `vec[lo:hi] = a`, `lo ≤ hi`; a shape that does not fit is a `ValueError`. -/
def assign (vec : List R) (lo hi : Nat) (a : Arr R) : Except PyErr (List R) :=
  match spread a (min hi vec.length - min lo vec.length) with
  | none => .error .valueError
  | some v => .ok (vec.take lo ++ v ++ vec.drop hi)

/-- `lower`, `upper`. -/
structure Lim (R : Type) where
  lower : List R
  upper : List R

/-- Body of the loop, pdaqp.py:274-289; `cols` is `id_to_col`. -/
def step (cols : List (Nat × Nat)) (b : Lim R) (c : Con R) : Except PyErr (Lim R) :=
  if c.vars = false ∧ c.params = true then
    match c.lhs, c.rhs with
    | .param id size, .const a =>
      match cols.lookup id with
      | none => .error .keyError
      | some col =>
        match assign b.upper col (col + size) a with
        | .error e => .error e
        | .ok u => .ok { b with upper := u }
    | .const a, .param id size =>
      match cols.lookup id with
      | none => .error .keyError
      | some col =>
        match assign b.lower col (col + size) a with
        | .error e => .error e
        | .ok l => .ok { b with lower := l }
    | _, _ => .error .valueError
  else .ok b

/-- pdaqp.py:270-272; `NP` entries, the last one belongs to the constant 1. -/
def init [Neg R] [One R] (NP : Nat) (big : R) : Lim R :=
  ⟨List.replicate (NP - 1) (-big) ++ [1], List.replicate (NP - 1) big ++ [1]⟩

/-- pdaqp.py:270-289. -/
def limits [Neg R] [One R] (cols : List (Nat × Nat)) (NP : Nat) (big : R) (cons : List (Con R)) : Except PyErr (Lim R) :=
  cons.foldlM (step cols) (init NP big)

/-- `cpg_update_<name>(idx, val)` for entry `k = idx + base_col` (utils.py:904-924). -/
def store [LT R] [DecidableRel (fun x y : R => x < y)] (b : Lim R) (k : Nat) (val : R) : Option R := do
  let l ← b.lower[k]?
  let u ← b.upper[k]?
  let val := if val < l then l else val
  pure (if u < val then u else val)

/-- The corresponding input of the module `Explicit`. -/
def toSide (cols : List (Nat × Nat)) : Arg R → Explicit.Side R
  | .param id size => .param ((cols.lookup id).getD 0) size
  | .const a => .const fun i =>
      match lead a.shape with
      | [] => a.val []
      | k :: _ => a.val (lastIdx a.shape (if k = 1 then 0 else i))
  | .other => .other

def toPCon (cols : List (Nat × Nat)) (c : Con R) : Explicit.PCon R :=
  ⟨c.vars, c.params, false, toSide cols c.lhs, toSide cols c.rhs⟩

end Verif.Model.Limits
