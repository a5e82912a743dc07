import Verif.Model.Requests
import Verif.Spec.Flatten
/-!
Specification: the entries that an index selects, as in numpy.
-/
namespace Verif.Spec.Requests
open Verif.Model.Requests Verif.Spec.Flatten

/-- A negative index counts from the end. -/
def Wraps (d : Nat) (z : Int) (i : Nat) : Prop := if z < 0 then (i : Int) = z + d else (i : Int) = z

/-- Slices select independently of each other; lists are run through together, a list of one element is repeated. -/
def Together (t : Nat) : List AxKey → List Nat → List Nat → Prop
  | [], [], [] => True
  | .sl l :: ks, d :: ds, i :: r => (i < d ∧ i ∈ l) ∧ Together t ks ds r
  | .ints l :: ks, d :: ds, i :: r =>
    (i < d ∧ ∃ z, l[if l.length = 1 then 0 else t]? = some z ∧ Wraps d z i) ∧ Together t ks ds r
  | _, _, _ => False

/-- The entries selected. -/
def Selected (shape : List Nat) (idx : List Nat) : Req → Prop
  | .whole => InBounds shape idx
  | .oneSlice l => InBounds shape idx ∧ ∃ i, idx = [i] ∧ i ∈ l
  | .oneList l | .oneArray l => InBounds shape idx ∧ ∃ d i z, shape = [d] ∧ idx = [i] ∧ z ∈ l ∧ Wraps d z i
  | .oneMask l => InBounds shape idx ∧ ∃ i, idx = [i] ∧ l[i]? = some true
  | .many keys => ∃ t, Together t keys shape idx
  | .rows l => InBounds shape idx ∧ ∃ d ds i r z, shape = d :: ds ∧ idx = i :: r ∧ z ∈ l ∧ Wraps d z i

end Verif.Spec.Requests
