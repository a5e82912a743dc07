import Verif.Model.Cones
/-!
Rows of the cones and their order in the canonical problem.
-/
namespace Verif.Spec.Cones
open Verif.Model.Cones

/-- Number of rows of a cone. -/
def rows : Cone → Nat
  | .zero n => n
  | .nonneg n => n
  | .exp => 3
  | .soc n => n
  | .psd n => n * (n + 1) / 2
  | .pow _ => 3

/-- Number of constraint rows of the canonical problem. -/
def rowsOf (d : Dims) : Nat :=
  d.zero + d.nonneg + 3 * d.exp + d.soc.sum + (d.psd.map fun n => n * (n + 1) / 2).sum + 3 * d.p3d.length

/-- The order in which CVXPY stacks the rows: equalities, inequalities, second-order, semidefinite,
exponential, power cones. -/
def stacked (d : Dims) : List Cone :=
  (if d.zero = 0 then [] else [.zero d.zero]) ++ (if d.nonneg = 0 then [] else [.nonneg d.nonneg]) ++
    d.soc.map .soc ++ d.psd.map .psd ++ List.replicate d.exp .exp ++ d.p3d.map .pow

end Verif.Spec.Cones
