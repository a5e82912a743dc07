import Verif.Spec.Printed
/-!
Floating-point types of any precision, rounding, and sums computed with rounding.
-/
namespace Verif.Spec.Rounded

/-- The numbers of a floating-point type with `p` binary digits and smallest exponent `emin` (without bound on the size):
`double` is `Rep 53 (-1074)`, `float` is `Rep 24 (-149)`. -/
def Rep (p : Nat) (emin : Int) (x : ℚ) : Prop := ∃ (m : Int) (e : Int), m.natAbs < 2 ^ p ∧ emin ≤ e ∧ x = m * (2 : ℚ) ^ e

/-- Rounding to a nearest number of the type, ties either way. -/
def NearestIn (p : Nat) (emin : Int) (fl : ℚ → ℚ) : Prop :=
  ∀ y, Rep p emin (fl y) ∧ ∀ d, Rep p emin d → |fl y - y| ≤ |d - y|

/-- `s += a * b` in arithmetic that rounds with `fl`: the product is rounded or, on machines that multiply and add at once,
not. -/
def Mac (fl : ℚ → ℚ) (mac : ℚ → ℚ → ℚ → ℚ) : Prop :=
  ∀ s a b, mac s a b = fl (s + fl (a * b)) ∨ mac s a b = fl (s + a * b)

/-- Largest relative error of one rounding. -/
def unit (p : Nat) : ℚ := 1 / 2 ^ p

/-- Largest absolute error of one rounding of a number that is small for the type. -/
def tiny (emin : Int) : ℚ := (2 : ℚ) ^ (emin - 1)

/-- A number that is zero or not small for the type. -/
def Normal (p : Nat) (emin : Int) (x : ℚ) : Prop := x = 0 ∨ (2 : ℚ) ^ (emin + p - 1) ≤ |x|

/-- `v` moved into `[lo, up]`. -/
def within (lo up v : ℚ) : ℚ := min up (max lo v)

/-- Effect of rounding small numbers in a sum of `k` products. -/
def small (p : Nat) (emin : Int) : Nat → ℚ
  | 0 => 0
  | k + 1 => (1 + unit p) * small p emin k + (2 + unit p) * tiny emin

/-- Value of entry `k` of the parameters in explicit mode: what was set last, moved into its limits, or the value at
generation. -/
def current (lo up : Nat → ℚ) (θ0 : List ℚ) (calls : List (Nat × ℚ)) (k : Nat) : ℚ :=
  match calls.reverse.find? (fun c => c.1 == k) with
  | some c => within (lo k) (up k) c.2
  | none => θ0.getD k 0

end Verif.Spec.Rounded
