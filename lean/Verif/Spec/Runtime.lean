import Verif.Model.Runtime
import Mathlib.Data.List.Forall2
/-!
Specification of the run-time behaviour: the only state is the current parameter vector; a solve
works on the canonicalization of it.
-/
namespace Verif.Spec
open Verif.Model

variable {Θ V Act : Type}

/-- The solves in a history, each with the parameter vector at the time of the solve. -/
def solveParams (assign : Act → Θ → Θ) : Θ → List (Call Act) → List Θ
  | _, [] => []
  | θ, .update a :: cs => solveParams assign (assign a θ) cs
  | θ, .solve :: cs => θ :: solveParams assign θ cs

/-- Observation `o` is what the user expects at parameter vector `θ`. -/
def Fresh (canonOf : CId → Θ → V) (uses : List CId) (θ : Θ) (o : Obs V) : Prop :=
  (∀ p ∈ uses, o.data p = canonOf p θ) ∧ o.offset = canonOf .d θ

/-- The generated dependency information is sound. -/
structure Sound (g : Gen Θ V Act) : Prop where
  /-- an update does not affect canonical parameters it does not mark -/
  marks : ∀ a p θ, p ∉ g.outdated a → g.canonOf p (g.assign a θ) = g.canonOf p θ
  /-- canonical parameters that are said not to change are constant -/
  const : ∀ p θ θ', g.changes.getD p = false → g.canonOf p θ = g.canonOf p θ'
  /-- those are written correctly at generation time -/
  written : ∀ p θ, g.changes.getD p = false → g.canon0 p = g.canonOf p θ

end Verif.Spec
