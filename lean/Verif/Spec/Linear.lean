import Mathlib.Algebra.BigOperators.Group.Finset.Basic
/-!
Linear algebra on index functions, used in specifications.
-/
namespace Verif.Spec
open Finset

/-- Matrix–vector product: entry `i` of `M v`, with `n` columns. -/
def mulVec {R : Type} [AddCommMonoid R] [Mul R] (n : Nat) (M : Nat → Nat → R) (v : Nat → R) (i : Nat) : R :=
  ∑ j ∈ range n, M i j * v j

/-- Inner product of two vectors with `n` entries. -/
def dot {R : Type} [AddCommMonoid R] [Mul R] (n : Nat) (u v : Nat → R) : R :=
  ∑ j ∈ range n, u j * v j

/-- The list as a function, zero outside. -/
def fn {R : Type} [Zero R] (l : List R) (i : Nat) : R := l.getD i 0

end Verif.Spec
