import Verif.Model.GradFlow
/-!
Which data a gradient call should use.
-/
namespace Verif.Spec.GradFlow
open Verif.Model.GradFlow

variable {ι ν θ V S D : Type} [DecidableEq ι]

/-- The values of the user parameters after a sequence of calls. -/
def paramsAfter (p : θ) (ops : List (Op ν θ S D)) : θ :=
  ops.foldl (fun p op => match op with | .update _ f => f p | _ => p) p

/-- The values of the user parameters at the latest solve (the initial values if there is none). -/
def solvedParams (p : θ) (ops : List (Op ν θ S D)) : θ :=
  (ops.foldl (fun (s : θ × θ) op => match op with
    | .update _ f => (f s.1, s.2)
    | .solve => (s.1, s.1)
    | _ => s) (p, p)).2

/-- The content of canonical matrix `i` in the KKT matrices after the logged gradient calls. -/
def matIn (i : ι) (v : V) (log : List (Emit ι V S D)) : V :=
  log.foldl (fun v e => (e.refresh i).getD v) v

/-- Updates declare what they change; canonical parameters that do not change are constant. -/
structure Sound (G : Gen ι ν θ V S) (ops : List (Op ν θ S D)) : Prop where
  deps : ∀ name f, Op.update name f ∈ ops → ∀ i, i ∉ G.deps name → ∀ p, G.canonOf i (f p) = G.canonOf i p
  const : ∀ i, G.changes i = false → ∀ p p', G.canonOf i p = G.canonOf i p'

/-- Per canonical parameter `i`: was `i` updated since the latest solve? -/
def pending (deps : ν → List ι) (i : ι) (ops : List (Op ν θ S D)) : Bool :=
  ops.foldl (fun b op => match op with
    | .update name _ => if i ∈ deps name then true else b
    | .solve => false
    | _ => b) false

/-- Per canonical parameter `i`: was a gradient computed between an update of `i` and the solve that
follows it, without another update of `i` since? -/
def lost (deps : ν → List ι) (i : ι) (ops : List (Op ν θ S D)) : Bool :=
  (ops.foldl (fun (s : Bool × Bool) op => match op with
    | .update name _ => if i ∈ deps name then (true, false) else s
    | .solve => (false, s.2)
    | .gradient _ => (s.1, s.1 || s.2)
    | _ => s) (false, false)).2

/-- Parameter values after one call of the wrapper, with the list of instances solved so far. -/
def forwardStep (s : θ × List θ) : WOp ν θ D → θ × List θ
  | .forward us => (us.foldl (fun p u => u.2 p) s.1, s.2 ++ [us.foldl (fun p u => u.2 p) s.1])
  | .backward _ _ => s

/-- The instance of a forward call: the values of the user parameters after forward call `k` and all
calls before it. -/
def forwardParams (p : θ) (ops : List (WOp ν θ D)) : List θ := (ops.foldl forwardStep (p, [])).2

end Verif.Spec.GradFlow
