import Verif.Model.Explicit
import Verif.Spec.Linear
/-!
Specifications for explicit mode, stated in terms of the user's problem.
-/
namespace Verif.Spec.Explicit
open Verif.Model.Explicit
variable {R : Type}

/-- The constraint is `parameter ≤ constant` or `parameter == constant`, bounding entry `k` of the
parameter vector by the given value. -/
def upperAt (c : PCon R) (k : Nat) : Option R :=
  match c.lhs, c.rhs with
  | .param col size, .const v => if col ≤ k ∧ k < col + size then some (v (k - col)) else none
  | _, _ => none

/-- The constraint is `constant ≤ parameter` or `constant == parameter`. -/
def lowerAt (c : PCon R) (k : Nat) : Option R :=
  match c.lhs, c.rhs with
  | .const v, .param col size => if col ≤ k ∧ k < col + size then some (v (k - col)) else none
  | _, _ => none

/-- The user's parameter constraint holds at entry `k`, for the value `x` of this entry. -/
def HoldsAt [LE R] (c : PCon R) (k : Nat) (x : R) : Prop :=
  (∀ v, upperAt c k = some v → x ≤ v ∧ (c.isEq = true → x = v)) ∧
  (∀ v, lowerAt c k = some v → v ≤ x ∧ (c.isEq = true → x = v))

/-- A constraint on parameters only. -/
def OnParams (c : PCon R) : Prop := c.hasVars = false ∧ c.hasParams = true

/-- Value last given to entry `k`, if any. -/
def lastGiven : List (Nat × R) → Nat → Option R
  | [], _ => none
  | u :: us, k => match lastGiven us k with
    | some v => some v
    | none => if u.1 = k then some u.2 else none

/-- All user parameters within their bounds. -/
def InBox [LE R] (NP : Nat) (b : Bounds R) (p : Nat → R) : Prop :=
  ∀ c < NP, b.lower c ≤ p c ∧ p c ≤ b.upper c

/-- Number of kept rows before row `r`: the position of row `r`, if kept, in the reduced problem. -/
def rank (mask : List Bool) (r : Nat) : Nat := (mask.take r).count true

/-- Affine law of a region: entry `i` of the solution; the last of the `K + 1` columns is the offset. -/
def affLaw [AddCommMonoid R] [Mul R] (K : Nat) (Z : Nat → Nat → R) (theta : Nat → R) (i : Nat) : R :=
  ∑ k ∈ Finset.range K, Z i k * theta k + Z i K

/-- The region a gradient call without `use_sol` refers to: that of the most recent call that names one
(a solve, or a gradient call with `use_sol`). -/
def regionOf (ops : List (ExOp R)) : Option Nat :=
  (ops.filterMap fun
    | .solve r => some r
    | .gradient u => u
    | .setD _ _ => none).getLast?

/-- The sensitivities given since the last gradient call. -/
def givenDx [Zero R] (ops : List (ExOp R)) (k : Nat) : R :=
  ops.foldl (fun v o => match o with
    | .setD j w => if k = j then w else v
    | .gradient _ => 0
    | .solve _ => v) 0

end Verif.Spec.Explicit
