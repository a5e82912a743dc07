import Verif.Spec.Linear
import Mathlib.Order.Interval.Finset.Nat
import Mathlib.Algebra.Order.Ring.Defs
/-!
What compressed-column data and CVXPY's canonical constraints mean.
-/
namespace Verif.Spec
open Finset

/-- Compressed-column storage: entry `(i, c)` is the sum of all data of column `c` with row index
`i`. -/
def csc {R : Type} [AddCommMonoid R] (indptr indices : Nat → Nat) (data : Nat → R) (i c : Nat) : R :=
  ∑ k ∈ Ico (indptr c) (indptr (c + 1)), if indices k = i then data k else 0

/-- A list of natural numbers as a function. -/
def nfn (l : List Nat) (i : Nat) : Nat := l.getD i 0

/-- CVXPY's canonical constraint function, row `i` of `A x + b`, where `M` is the matrix `[A b]`
with `n + 1` columns. -/
def affineRow {R : Type} [CommRing R] (n : Nat) (M : Nat → Nat → R) (x : Nat → R) (i : Nat) : R :=
  mulVec n M x i + M i n

/-- Feasibility in CVXPY's canonical form: the first `nEq` rows are zero, the other rows are
nonnegative (`QP` form). -/
def FeasibleCvxpy {R : Type} [CommRing R] [LE R] (n nEq nIneq : Nat) (M : Nat → Nat → R)
    (x : Nat → R) : Prop :=
  (∀ i < nEq, affineRow n M x i = 0) ∧
    (∀ i, nEq ≤ i → i < nEq + nIneq → 0 ≤ affineRow n M x i)

/-- Feasibility of `l ≤ A x ≤ u`; a missing entry of `l` is minus infinity. -/
def FeasibleQP {R : Type} [CommRing R] [LE R] (n m : Nat) (A : Nat → Nat → R)
    (l : Nat → Option R) (u : Nat → R) (x : Nat → R) : Prop :=
  ∀ i < m, (∀ v, l i = some v → v ≤ mulVec n A x i) ∧ mulVec n A x i ≤ u i

end Verif.Spec
