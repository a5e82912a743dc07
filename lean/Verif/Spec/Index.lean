import Mathlib.Algebra.BigOperators.Group.Finset.Basic
import Mathlib.Algebra.Ring.Defs
/-!
What a call `cpg_update_<p>(idx, val)` is meant to do, and what else can happen to the data of a problem.
-/
namespace Verif.Spec.Index

/-- The data behind the update functions: one list of values per parameter, and the number that multiplies the
constant parts of the affine maps (1 in a correct program). -/
structure Data (R : Type) where
  params : List (List R)
  one : R

variable {R : Type}

/-- The array in which the data are kept. -/
def Data.flat (d : Data R) : List R := d.params.flatten ++ [d.one]

/-- Entry `i` of parameter `j`. -/
def Data.entry (d : Data R) (j i : Nat) : Option R := (d.params[j]?).bind fun p => p[i]?

/-- The data with entry `i` of parameter `j` replaced. -/
def Data.setEntry (d : Data R) (j i : Nat) (v : R) : Data R := { d with params := d.params.modify j fun p => p.set i v }

/-- Where the assignment of a call goes. -/
inductive Target where
  /-- entry of a parameter -/
  | entry (j i : Nat)
  /-- the constant -/
  | one
  /-- not in the array -/
  | outside
  deriving DecidableEq

/-- Walk `n` entries to the right from the beginning of the first of the parameters with sizes `sizes` (the first of
them has number `j`). -/
def right : List Nat → Nat → Nat → Target
  | [], _, 0 => .one
  | [], _, _ + 1 => .outside
  | s :: l, j, n => if n < s then .entry j n else right l (j + 1) (n - s)

/-- Walk `n` further entries to the left from the end of the parameters with sizes `sizes` given in reverse order. -/
def left : List Nat → Nat → Target
  | [], _ => .outside
  | s :: l, n => if n < s then .entry l.length (s - 1 - n) else left l (n - s)

/-- Target of a call for parameter `j` with index `idx`. -/
def target (sizes : List Nat) (j : Nat) (idx : Int) : Target :=
  if 0 ≤ idx then right (sizes.drop j) j idx.toNat else left (sizes.take j).reverse (-idx - 1).toNat

/-- Effect on the data. -/
def Target.write (t : Target) (v : R) (d : Data R) : Option (Data R) :=
  match t with
  | .entry j i => some (d.setEntry j i v)
  | .one => some { d with one := v }
  | .outside => none

/-- Uses of the program: `set j idx v` is the call of the update function of parameter `j`. -/
inductive Use (R : Type) where
  | set (j : Nat) (idx : Int) (v : R)
  | solve

/-- The data after a history; `none` if an assignment is made outside of the array. -/
def track (sizes : List Nat) : Data R → List (Use R) → Option (Data R)
  | d, [] => some d
  | d, .set j idx v :: us => ((target sizes j idx).write v d).bind fun d => track sizes d us
  | d, .solve :: us => track sizes d us

/-- All calls are made for existing entries of their parameter. -/
def InRange (sizes : List Nat) : Use R → Prop
  | .set j idx _ => ∃ s, sizes[j]? = some s ∧ 0 ≤ idx ∧ idx < s
  | .solve => True

end Verif.Spec.Index
