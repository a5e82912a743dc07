import Verif.Model.Backward
/-! What a backward call should work with: the gradients passed to it. -/
namespace Verif.Spec.Backward
open Verif.Model.Flatten Verif.Model.Backward
variable {R : Type}

/-- The gradient that belongs to a variable in this call: the one passed at the place of the variable. -/
def own (ctx : List Nat) (dvars : List (Arr R)) (i : Nat) : Option (Arr R) := (ctx.zip dvars).lookup i

/-- A gradient of the shape of its variable. -/
def Fits (v : PVar) (a : Arr R) : Prop := a.shape = v.shape

/-- What should be delivered for variable `v`: the entries of its own gradient, in column-major order. -/
def ownEntries (ctx : List Nat) (dvars : List (Arr R)) (v : PVar) : List R :=
  match own ctx dvars v.id with
  | some a => flattenF v.shape a.val
  | none => []

end Verif.Spec.Backward
