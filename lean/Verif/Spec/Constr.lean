import Verif.Spec.Canonical
import Verif.Model.Defaults
/-!
CVXPY's canonical constraints as a function of the parameters, and what may be assumed about CVXPY's
reduced constraint data.
-/
namespace Verif.Spec
open Verif.Model Finset

/-- What CVXPY guarantees about `reduced_A`: valid column pointers of the `nVar + 1` columns of
`[A b]`, row indices in range, one map row per datum, and no repeated row index in the column `b`. -/
structure ConstrWF {R : Type} (d : ConstrData R) : Prop where
  len : d.indptr.length = d.nVar + 2
  zero : nfn d.indptr 0 = 0
  mono : ∀ c ≤ d.nVar, nfn d.indptr c ≤ nfn d.indptr (c + 1)
  last : nfn d.indptr (d.nVar + 1) = d.indices.length
  range : ∀ r < d.indices.length, nfn d.indices r < d.nEq + d.nIneq
  rows : d.red.rows = d.indices.length
  wf : d.red.WF
  nodup : ∀ r r', nfn d.indptr d.nVar ≤ r → r < d.indices.length → nfn d.indptr d.nVar ≤ r' →
    r' < d.indices.length → nfn d.indices r = nfn d.indices r' → r = r'

/-- Datum `r` at the parameter values `θ`: `reduced_mat @ (θ, 1)`. -/
def datum {R : Type} [CommRing R] (d : ConstrData R) (θ : List R) (r : Nat) : R :=
  mulVec d.red.cols d.red.at (fn (θ ++ [1])) r

/-- The matrix `[A b]` at the parameter values `θ`. -/
def fullMat {R : Type} [CommRing R] (d : ConstrData R) (θ : List R) (i c : Nat) : R :=
  csc (nfn d.indptr) (nfn d.indices) (datum d θ) i c

end Verif.Spec
