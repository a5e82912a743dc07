import Verif.Model.Deltas
import Verif.Spec.Retrieve
import Mathlib.Algebra.BigOperators.Group.Finset.Basic
/-!
What incoming gradients should mean: the entry last set since the last gradient computation, zero if none was set; all
entries together are a linear functional of the solver's vector.
-/
namespace Verif.Spec.Deltas
open Verif.Model Verif.Model.Deltas Verif.Spec
variable {R : Type}

/-- The value last given for every entry since the last gradient computation. -/
def pending [Zero R] : List (Op R) → String → Nat → R :=
  List.foldl (fun g o => match o with
    | .upd u => fun n k => if n = u.name ∧ k = u.idx then u.val else g n k
    | .gradient => fun _ _ => 0) fun _ _ => 0

/-- The values pending before a call, if this is a gradient computation. -/
def atGradient [Zero R] : List (Op R) × Option (Op R) → Option (String → Nat → R)
  | (ops, some .gradient) => some (pending ops)
  | _ => none

/-- The values pending at each gradient computation: of each beginning of the list of calls and the call that follows. -/
def pendings [Zero R] (ops : List (Op R)) : List (String → Nat → R) :=
  (ops.inits.zip (ops.map some ++ [none])).filterMap atGradient

/-- The functional `x ↦ Σ_v Σ_k g v k * v_k`, where `v_k` is entry `k` of variable `v` in the solver's vector `x`. -/
def functional [NonUnitalNonAssocSemiring R] (vs : List UVar) (g : String → Nat → R) (x : Nat → R) : R :=
  (vs.map fun v => ∑ k ∈ Finset.range v.size, g v.name k * x (entryPos v k)).sum

/-- A call names an existing variable and one of its entries. -/
def ValidOp (vs : List UVar) : Op R → Prop
  | .upd u => ∃ v ∈ vs, v.name = u.name ∧ u.idx < v.size
  | .gradient => True

/-- The variables have disjoint blocks within the solver's vector of length `n`. -/
structure Blocks (vs : List UVar) (n : Nat) : Prop where
  names : (vs.map UVar.name).Nodup
  bound : ∀ v ∈ vs, v.offset + solverSize v ≤ n
  disj : vs.Pairwise fun v w => v.offset + solverSize v ≤ w.offset ∨ w.offset + solverSize w ≤ v.offset

end Verif.Spec.Deltas
