import Verif.Model.Merge
/-!
What the intermediate parameters of two-stage canonicalization are, independently of how the maps are
merged.
-/
namespace Verif.Spec.Merge
open Verif.Model Verif.Model.Merge

variable {R : Type} [CommRing R] [DecidableEq R]

/-- `θ2` is the parameter vector of the intermediate QP at user parameters `θ`: at the place of
parameter `osqp_<c>` it has the canonical parameter `c` of the first stage. -/
structure IsQpVector (maps1 : CId → Option (RawMap R)) (ps2 : List UParam) (θ θ2 : List R) : Prop where
  length : θ2.length = totalSize ps2
  block : ∀ (j : Nat) (hj : j < ps2.length) (c : CId), c ∈ [CId.P, .q, .d, .A, .l, .u] →
    ps2[j].name = "osqp_" ++ idName c →
    canonVal (maps1 c) c.isUpper θ = some ((θ2.drop (colOf ps2 j)).take ps2[j].size)

/-- The stages fit together: every parameter of the second problem is named after a canonical
parameter of the first stage and has its size; the second stage has maps for all its canonical
parameters. -/
structure Fits (maps1 : CId → Option (RawMap R)) (ids2 : List CId) (maps2 : CId → Option (RawMap R))
    (ps2 : List UParam) : Prop where
  params : ∀ p ∈ ps2, ∃ c ∈ [CId.P, .q, .d, .A, .l, .u], ∃ m, maps1 c = some m ∧
    p.name = "osqp_" ++ idName c ∧ p.size = (m.final c.isUpper).rows
  maps : ∀ c ∈ ids2, ∃ m, maps2 c = some m

end Verif.Spec.Merge
