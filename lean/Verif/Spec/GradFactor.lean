import Verif.Spec.Factor
import Verif.Model.GradFactor
import Mathlib.Algebra.BigOperators.Group.Finset.Basic
import Mathlib.Algebra.Order.Field.Basic
import Mathlib.Order.Interval.Finset.Nat
/-!
What it means to be a factorization, and which matrix is to be factorized.
-/
namespace Verif.Spec.Factor
open Verif.Model.Factor Finset

variable {R : Type} [Field R]

/-- `L` is unit lower triangular on `0..N-1`. -/
def UnitLower (N : Nat) (L : Nat → Nat → R) : Prop :=
  (∀ r < N, L r r = 1) ∧ ∀ r < N, ∀ c < N, r < c → L r c = 0

/-- `L · diag(D) · Lᵀ = A` on the leading `N × N` block. -/
def IsLDL (N : Nat) (L : Nat → Nat → R) (D : Nat → R) (A : Nat → Nat → R) : Prop :=
  ∀ r < N, ∀ c < N, ∑ t ∈ range N, L r t * D t * L c t = A r c

/-- The entry of a compressed column matrix at row `r`, column `c` (sum of what is stored there). -/
def ent (M : CscL R) (r c : Nat) : R :=
  ∑ k ∈ Ico (M.p c) (M.p (c + 1)), if M.i k = r then M.x k else 0

/-- The unit lower triangular matrix whose strict lower part is stored. -/
def unitOf (M : CscL R) (r c : Nat) : R := if r = c then 1 else ent M r c

/-- The symmetric matrix of which the upper triangle is stored. -/
def symOf (K : CscL R) (r c : Nat) : R := if r ≤ c then ent K r c else ent K c r

/-- The KKT matrix with the inactive constraints decoupled: their rows and columns are those of minus
the identity. -/
def decoupled (K : Nat → Nat → R) (act : Nat → Prop) [DecidablePred act] (r c : Nat) : R :=
  if act r ∧ act c then K r c else if r = c then -1 else 0

/-- A valid upper triangular compressed column matrix of size `N` with a stored diagonal: row indices
strictly increasing up to the diagonal entry, which is the last one of its column. -/
structure UpperValid (N : Nat) (K : CscL R) : Prop where
  nonempty : ∀ c < N, K.p c < K.p (c + 1)
  diag : ∀ c < N, K.i (K.p (c + 1) - 1) = c
  sorted : ∀ c < N, ∀ k, K.p c ≤ k → k + 1 < K.p (c + 1) → K.i k < K.i (k + 1)

/-- The structure of `[[H, Aᵀ], [A, -E]]`: `H` positive semidefinite, `E` diagonal and positive. -/
structure QuasiDef [LinearOrder R] (n N : Nat) (K : CscL R) : Prop where
  nN : n ≤ N
  psd : ∀ x : Nat → R, 0 ≤ ∑ r ∈ range n, ∑ c ∈ range n, x r * symOf K r c * x c
  offdiag : ∀ r c, n ≤ r → r < c → c < N → ent K r c = 0
  neg : ∀ r, n ≤ r → r < N → ent K r r < 0

/-- The stored pattern contains the pattern of `K` and is closed under elimination: this is what a
symbolic factorization returns. -/
structure Pattern (N : Nat) (L K : CscL R) : Prop where
  valid : Valid N L
  covers : ∀ r c, r < c → c < N → ent K r c ≠ 0 → Occupied L c r
  closed : ∀ j r s, j < N → r < s → Occupied L r j → Occupied L s j → Occupied L s r

end Verif.Spec.Factor
