import Verif.Model.TwoRet
import Verif.Spec.Retrieve
import Mathlib.Algebra.BigOperators.Group.Finset.Basic
/-!
The solution of the user's quadratic program in terms of the solution of the problem that states it again for another
solver.
-/
namespace Verif.Spec.TwoRet
open Verif.Model Verif.Model.TwoRet Finset

variable {R : Type}

/-- Entry `i` of the primal solution of the quadratic program: the variable `osqp_x` of the second problem. -/
def qpX [Zero R] (s : Second) (x : List R) (i : Nat) : R := fn x (s.offset + i)

/-- Multiplier of `l ≤ A x` on row `i`. -/
def lowerMult [Zero R] (s : Second) (duals : Nat → List R) (i : Nat) : R := fn (duals s.d0.vec) (s.d0.offset + i)

/-- Multiplier of `A x ≤ u` on row `i`. -/
def upperMult [Zero R] (s : Second) (duals : Nat → List R) (i : Nat) : R := fn (duals s.d1.vec) (s.d1.offset + i)

/-- Entry `i` of the dual solution of the quadratic program (`l ≤ A x ≤ u`, lower bounds on the first `d0.size` rows). -/
def qpY [Zero R] [Sub R] (s : Second) (duals : Nat → List R) (i : Nat) : R :=
  if i < s.d0.size then upperMult s duals i - lowerMult s duals i else upperMult s duals i

/-- Vectors of the second stage with the lengths that belong to it. -/
structure Fits (s : Second) (x : List R) (duals : Nat → List R) : Prop where
  len : x.length = s.nVar
  block : s.offset + s.nx ≤ s.nVar
  pos : 0 < s.nx
  low : s.d0.offset + s.d0.size ≤ (duals s.d0.vec).length
  up : s.d1.offset + s.d1.size ≤ (duals s.d1.vec).length
  eqs : s.d0.size ≤ s.d1.size
  rows : s.d1.size ≤ s.rows

/-- Variables of the first stage lie inside of the quadratic program. -/
def Inside (s : Second) (vs : List UVar) : Prop := ∀ v ∈ vs, v.offset + solverSize v ≤ s.nx

/-- Stationarity of the second problem in direction `j`, `l ≤ A x` written as `l - A x ≤ 0`. -/
def Stationary2 [CommRing R] (m mEq : Nat) (A : Nat → Nat → R) (g : Nat → R) (lo up : Nat → R) (j : Nat) : Prop :=
  g j - (∑ i ∈ range mEq, A i j * lo i) + ∑ i ∈ range m, A i j * up i = 0

/-- Stationarity of the quadratic program with the multipliers `y`, as OSQP defines them. -/
def Stationary1 [CommRing R] (m : Nat) (A : Nat → Nat → R) (g : Nat → R) (y : Nat → R) (j : Nat) : Prop :=
  g j + ∑ i ∈ range m, A i j * y i = 0

end Verif.Spec.TwoRet
