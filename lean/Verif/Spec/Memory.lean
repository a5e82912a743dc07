import Verif.Model.Runtime
/-! How many workspaces a program for SCS creates, from the history alone. -/
namespace Verif.Spec.Memory
open Verif.Model
variable {Act : Type}

/-- Number of solves in a history. -/
def solves : List (Call Act) → Nat
  | [] => 0
  | .update _ :: cs => solves cs
  | .solve :: cs => 1 + solves cs

/-- One workspace for the first solve, and one for every later solve that is due. `due`: a new one is due at the next solve, because of an
update (`marks`) or `always`. -/
def renewals (always : Bool) (marks : Act → Bool) : (started due : Bool) → List (Call Act) → Nat
  | _, _, [] => 0
  | s, d, .update a :: cs => renewals always marks s (d || marks a) cs
  | s, d, .solve :: cs => (if !s || d then 1 else 0) + renewals always marks true always cs

end Verif.Spec.Memory
