import Verif.Spec.Runtime
/-! When two programs behave alike. -/
namespace Verif.Spec.Repeat
open Verif.Model
variable {Θ V Act : Type}

/-- Two solves work on the same data. -/
def Alike (uses : List CId) (o o' : Obs V) : Prop := (∀ p ∈ uses, o.data p = o'.data p) ∧ o.offset = o'.offset

/-- Parameter vector after a list of updates. -/
def after (assign : Act → Θ → Θ) (θ : Θ) (acts : List Act) : Θ := acts.foldl (fun θ a => assign a θ) θ

end Verif.Spec.Repeat
