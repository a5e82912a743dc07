import Verif.Model.Retrieve
import Verif.Spec.Linear
/-!
Where a user's variable, dual variable and objective value live in the solver's results.
-/
namespace Verif.Spec
open Verif.Model Finset

/-- Position of entry `(i, j)`, `i ≤ j`, in the upper triangle of an `n × n` matrix listed row by
row. -/
def triPos (n i j : Nat) : Nat := (∑ a ∈ range i, (n - a)) + (j - i)

/-- Number of entries the solver has for a variable: a symmetric `n × n` variable is represented by its
upper triangle, any other variable by all its entries. -/
def solverSize (v : UVar) : Nat :=
  match v.sym, v.shape with
  | true, n :: _ => n * (n + 1) / 2
  | _, _ => v.size

/-- Position in the solver's vector of entry `k` (column-major) of a variable. -/
def entryPos (v : UVar) (k : Nat) : Nat :=
  match v.sym, v.shape with
  | true, n :: _ => v.offset + triPos n (min (k % n) (k / n)) (max (k % n) (k / n))
  | _, _ => v.offset + k

/-- Symmetric variables are square matrices (CVXPY's requirement). -/
def SymOK (v : UVar) : Prop := v.sym = true → ∃ n, v.shape = [n, n]

/-- Start row of constraint `i` within its dual vector: the sizes of all preceding constraints in the
same vector. -/
def dualStart (split : Bool) (nEq : Nat) (con : List CCon) (i : Nat) : Nat :=
  if split && decide (nEq ≤ i) then (((con.take i).drop nEq).map CCon.size).sum
  else ((con.take i).map CCon.size).sum

/-- The vector that holds the dual variable of constraint `i`. -/
def dualVec (split : Bool) (nEq i : Nat) : Nat := if split && decide (nEq ≤ i) then 1 else 0

/-- Length of the dual vectors. -/
def dualLen (split : Bool) (nEq : Nat) (con : List CCon) (v : Nat) : Nat :=
  if split then
    if v = 0 then ((con.take nEq).map CCon.size).sum else ((con.drop nEq).map CCon.size).sum
  else (con.map CCon.size).sum

end Verif.Spec
