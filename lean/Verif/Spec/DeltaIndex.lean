import Verif.Model.DeltaIndex
/-!
What calls of the delta functions with arbitrary indices may do: every call is for a place, counted from the beginning of its variable.
-/
namespace Verif.Spec.DeltaIndex
open Verif.Model.DeltaIndex
variable {R : Type}

/-- The place that a call is for, counted from the beginning of the solver's vector. -/
def place (vs : List Var) (u : Upd R) : Int :=
  ((vs.find? fun v => v.name == u.name).map fun v => (v.offset : Int)).getD 0 + u.idx

/-- The value last given for each place since the latest gradient computation, zero if none was given. -/
def given [Zero R] (vs : List Var) : List (Op R) → Int → R :=
  List.foldl (fun g o => match o with
    | .upd u => fun p => if p = place vs u then u.val else g p
    | .gradient => fun _ => 0) fun _ => 0

/-- The call names a variable, and has no index if its function has none. -/
def Exists (vs : List Var) : Op R → Prop
  | .upd u => ∃ v, vs.find? (fun v => v.name == u.name) = some v ∧ (v.size = 1 → u.idx = 0)
  | .gradient => True

/-- The place is in the array. -/
def Inside (vs : List Var) (n : Nat) : Op R → Prop
  | .upd u => 0 ≤ place vs u ∧ place vs u < n
  | .gradient => True

/-- Number of gradient computations. -/
def gradients : List (Op R) → Nat
  | [] => 0
  | .gradient :: ops => gradients ops + 1
  | .upd _ :: ops => gradients ops

end Verif.Spec.DeltaIndex
