import Verif.Model.Wrapper
/-!
Histories without the calls that raised an exception.
-/
namespace Verif.Spec.Failed
open Verif.Model

variable {R S O : Type}

/-- The operations of a history, without the solves that raised; `rs` are the outcomes of the solves, in their order. -/
def succeeded : List (PyOp R S) → List (Except PyErr O) → List (PyOp R S)
  | .setVal n v :: ops, rs => .setVal n v :: succeeded ops rs
  | .solve u kw :: ops, .ok _ :: rs => .solve u kw :: succeeded ops rs
  | .solve _ _ :: ops, .error _ :: rs => succeeded ops rs
  | _, _ => []

/-- The outcomes of the other solves. -/
def results (rs : List (Except PyErr O)) : List (Except PyErr O) := rs.filter fun r => match r with
  | .ok _ => true
  | .error _ => false

end Verif.Spec.Failed
