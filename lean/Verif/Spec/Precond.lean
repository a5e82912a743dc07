import Verif.Model.Precond
/-!
What canonical parameters should be, whatever the solver does.
-/
namespace Verif.Spec.Precond
open Verif.Model Verif.Model.Precond

variable {V : Type}

/-- The value that canonicalization stored last (initially `v0`). -/
def stored (v0 : CId → List V) (ops : List (Op V)) : CId → List V :=
  ops.foldl (fun v op => match op with
    | .canonicalize c x => fun c' => if c' = c then x else v c'
    | _ => v) v0

/-- Arrays keep their lengths; pointers of `Canon_Params` are not handed out. -/
def OpOK (size : CId → Nat) : Op V → Prop
  | .canonicalize c v => v.length = size c
  | .copy _ => True
  | .call direct _ _ => direct = false

end Verif.Spec.Precond
