import Verif.Model.Text
import Mathlib.Algebra.Order.Ring.Rat
/-!
Specifications for the text helpers.
-/
namespace Verif.Spec.Text
open Verif.Model.Text

/-- Simultaneous replacement, from left to right: an occurrence of one of the old texts becomes the
corresponding new text, a character at which none begins is kept. -/
inductive Simul (reps : List (Txt × Txt)) : Txt → Txt → Prop where
  | nil : Simul reps [] []
  | hit (r : Txt × Txt) (t out : Txt) : r ∈ reps → Simul reps t out → Simul reps (r.1 ++ t) (r.2 ++ out)
  | lit (c : Char) (t out : Txt) : (∀ r ∈ reps, ¬ r.1 <+: c :: t) → Simul reps t out →
      Simul reps (c :: t) (c :: out)

/-- One text is a prefix of the other. -/
def Comparable (a b : Txt) : Prop := a <+: b ∨ b <+: a

instance (a b : Txt) : Decidable (Comparable a b) := inferInstanceAs (Decidable (_ ∨ _))

/-- Two replacements, the first applied before the second, do not interact: no end of the first's new
text can begin an occurrence of the second's old text, the old texts cannot overlap, and the first's new
text cannot complete an occurrence of the second's old text. -/
def Apart (r s : Txt × Txt) : Prop :=
  (∀ σ ∈ r.2.tails, σ ≠ [] → ¬ Comparable s.1 σ) ∧
  (∀ σ ∈ s.1.tails, σ ≠ [] → ¬ Comparable r.1 σ) ∧
  (∀ τ ∈ s.1.tail.tails, τ ≠ [] → ¬ Comparable r.2 τ)

instance (r s : Txt × Txt) : Decidable (Apart r s) := inferInstanceAs (Decidable (_ ∧ _ ∧ _))

/-- Value of a digit. -/
def digitVal (c : Char) : Option Nat :=
  if '0' ≤ c ∧ c ≤ '9' then some (c.toNat - '0'.toNat) else none

/-- Value of a sequence of digits. -/
def digitsVal (l : Txt) : Option Nat :=
  l.foldlM (fun a c => (digitVal c).map fun d => 10 * a + d) 0

/-- Value of a decimal literal `[-]digits.digits`. -/
def litVal (l : Txt) : Option ℚ :=
  let neg := l.head? = some '-'
  let l := if l.head? = some '-' then l.tail else l
  let int := l.takeWhile (· ≠ '.')
  let frac := (l.dropWhile (· ≠ '.')).tail
  if int = [] then none else
  match digitsVal int, digitsVal frac with
  | some a, some b => some ((if neg then -1 else 1) * ((a : ℚ) + b / 10 ^ frac.length))
  | _, _ => none

/-- What a finite number or an infinity is to become in C: infinities are `±1e30`. -/
def wanted : FVal → Option ℚ
  | .fin neg mag => some ((if neg then -1 else 1) * mag)
  | .inf neg => some ((if neg then -1 else 1) * big30)
  | .nan => none

/-- The printed text stands for the number, up to half a unit in the twentieth decimal, and shows its
sign. -/
def Shows (t : Txt) (x : FVal) : Prop :=
  ∃ y w : ℚ, litVal t = some y ∧ wanted x = some w ∧ |y - w| ≤ 1 / 2 / 10 ^ 20 ∧
    (t.head? = some '-' ↔ match x with | .fin neg _ => neg = true | .inf neg => neg = true | .nan => False)

/-- The value of a field of a struct with designated initialisers: the last line for this field counts. -/
def fieldValue (lines : List (String × String × String)) (f : String) : Option (String × String) :=
  (lines.reverse.find? (fun l => l.1 = f)).map (·.2)

end Verif.Spec.Text
