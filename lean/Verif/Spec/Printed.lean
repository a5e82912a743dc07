import Verif.Spec.Runtime
import Mathlib.Algebra.Order.Ring.Rat
import Mathlib.Algebra.Order.Field.Basic
/-!
Floating-point numbers and what it means that a program computes with the numbers of the problem.
-/
namespace Verif.Spec.Printed

/-- The numbers of type `double` (without bound on the size). -/
def Double (x : ℚ) : Prop := ∃ (m : Int) (e : Int), m.natAbs < 2 ^ 53 ∧ -1074 ≤ e ∧ x = m * (2 : ℚ) ^ e

/-- The compiler represents a literal by a number of type `double` next to it. -/
def Nearest (cc : ℚ → ℚ) : Prop := ∀ y, Double (cc y) ∧ ∀ d, Double d → |cc y - y| ≤ |d - y|

/-- Numbers of type `double` that have at most 20 decimals (such as zero) or are not small. -/
def Safe (x : ℚ) : Prop := Double x ∧ ((∃ n : Int, x = n / 10 ^ 20) ∨ (1 : ℚ) / 2 ^ 13 ≤ |x|)

/-- Two vectors of the same length whose entries differ by at most `ε`. -/
def Close (ε : ℚ) (v w : List ℚ) : Prop :=
  v.length = w.length ∧ ∀ (i : Nat) (x y : ℚ), v[i]? = some x → w[i]? = some y → |x - y| ≤ ε

end Verif.Spec.Printed
