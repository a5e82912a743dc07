import Verif.Model.Flatten
/-!
Specification of the layout: column-major position.
-/
namespace Verif.Spec.Flatten
open Verif.Model.Flatten

/-- An index within the bounds of a shape. -/
def InBounds : List Nat → List Nat → Prop
  | [], [] => True
  | d :: ds, i :: r => i < d ∧ InBounds ds r
  | _, _ => False

/-- Column-major position: the first index runs fastest. -/
def pos : List Nat → List Nat → Nat
  | d :: ds, i :: r => i + d * pos ds r
  | _, _ => 0

/-- A value has the attribute: entries outside the diagonal or the given coordinates vanish. -/
def HasAttr {R : Type} [Zero R] (shape : List Nat) (t : List Nat → R) : PAttr → Prop
  | .plain => True
  | .diag => ∃ n, shape = [n, n] ∧ ∀ i j, i < n → j < n → i ≠ j → t [i, j] = 0
  | .sparse coords => ∀ idx, InBounds shape idx → idx ∉ coords → t idx = 0

/-- Position at which the generated code keeps an entry. -/
def slot (shape : List Nat) (idx : List Nat) : PAttr → Option Nat
  | .plain => some (pos shape idx)
  | .diag => match idx with | [i, j] => if i = j then some i else none | _ => none
  | .sparse coords => if idx ∈ coords then some (coords.idxOf idx) else none

end Verif.Spec.Flatten
