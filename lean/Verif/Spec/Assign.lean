import Verif.Model.Assign
import Mathlib.Data.List.Forall2
/-! What generation may do to a problem. -/
namespace Verif.Spec.Assign
open Verif.Model.Assign
variable {Attr V S : Type}

/-- The problem is as before. -/
def Untouched (ps ps' : List (Par Attr V)) : Prop := ps' = ps

/-- Same parameters in the same order; those that had a value have it still. -/
def Kept (ps ps' : List (Par Attr V)) : Prop :=
  List.Forall₂ (fun p p' => p'.attr = p.attr ∧ ∀ v, p.value = some v → p'.value = some v) ps ps'

/-- All values fit the attributes of their parameters. -/
def Fit (fits : Attr → V → Prop) (ps : List (Par Attr V)) : Prop := ∀ p ∈ ps, ∀ v, p.value = some v → fits p.attr v

/-- Every parameter has a value. -/
def Full (ps : List (Par Attr V)) : Prop := ∀ p ∈ ps, p.value.isSome

end Verif.Spec.Assign
