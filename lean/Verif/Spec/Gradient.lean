import Verif.Spec.GradFactor
import Verif.Spec.Linear
import Verif.Model.Gradient
/-!
The KKT matrix of a QP, and what it means that stored matrices are that matrix.
-/
namespace Verif.Spec.Grad
open Verif.Model.Factor Verif.Model.Grad Verif.Spec.Factor Finset

variable {R : Type} [Field R]

/-- `[[P + eps I, Aᵀ], [A, -eps I]]`. -/
def kkt (eps : R) (n : Nat) (P A : Nat → Nat → R) (r c : Nat) : R :=
  if r < n then
    if c < n then P r c + (if r = c then eps else 0) else A (c - n) r
  else
    if c < n then A (r - n) c else if r = c then -eps else 0

/-- Positions within a compressed line are distinct and lines follow one another. -/
structure ColValid (N : Nat) (M : CscL R) : Prop where
  mono : ∀ c < N, M.p c ≤ M.p (c + 1)
  inj : ∀ c < N, ∀ k k', M.p c ≤ k → k < k' → k' < M.p (c + 1) → M.i k ≠ M.i k'

/-- The stored pair (`K` by columns, `K_true` by rows) is the KKT matrix of `P`, `A`; of the regularized
matrix, the block below `P` is left out. -/
structure IsKkt (eps : R) (n N : Nat) (P A : Nat → Nat → R) (K Kt : CscL R) : Prop where
  reg : ∀ r < N, ∀ c < N, ent K r c = if n ≤ r ∧ c < n then 0 else kkt eps n P A r c
  true : ∀ r < N, ∀ c < N, ent Kt c r = kkt 0 n P A r c

/-- Every stored position of `P` and `A` has a place in `K` and `K_true`. -/
structure HasSlots (n N : Nat) (P A K Kt : CscL R) : Prop where
  nN : n ≤ N
  vP : ColValid n P
  vA : ColValid n A
  vK : ColValid N K
  vKt : ColValid N Kt
  Prow : ∀ r, ∀ c < n, Occupied P r c → r < n
  Arow : ∀ r, ∀ c < n, Occupied A r c → n + r < N
  PK : ∀ r, ∀ c < n, Occupied P r c → Occupied K r c ∧ Occupied Kt c r
  KtN : ∀ c, ∀ r < N, Occupied Kt c r → c < N
  AK : ∀ r, ∀ c < n, Occupied A r c → Occupied K c (n + r) ∧ Occupied Kt (n + r) c ∧ Occupied Kt c (n + r)

/-- The data of a QP: shapes and compressed storage of `P` and `A`. -/
structure QpData (n N : Nat) (P A : CscL R) : Prop where
  nN : n ≤ N
  vP : ColValid n P
  vA : ColValid n A
  Prow : ∀ r, ∀ c < n, Occupied P r c → r < n
  Arow : ∀ r, ∀ c < n, Occupied A r c → n + r < N

/-- Two matrices with the same stored positions. -/
def SamePattern (M M' : CscL R) : Prop := M'.p = M.p ∧ M'.i = M.i

/-- The symmetric matrix whose upper triangle is given. -/
def symUp (P : Nat → Nat → R) (r c : Nat) : R := if r ≤ c then P r c else P c r

/-- Positive semidefinite on the first `n` coordinates. -/
def Psd [LinearOrder R] (n : Nat) (P : Nat → Nat → R) : Prop :=
  ∀ x : Nat → R, 0 ≤ ∑ r ∈ range n, ∑ c ∈ range n, x r * P r c * x c

/-- The data in use after a sequence of refreshes. -/
def current (P A : CscL R) (fs : List (Refresh R)) : CscL R × CscL R :=
  fs.foldl (fun d f => (f.P.getD d.1, f.A.getD d.2)) (P, A)

/-- New data have the stored pattern of the generation-time data (the generated code only ever writes
the value arrays). -/
def Refresh.OK (P A : CscL R) (f : Refresh R) : Prop :=
  (∀ P', f.P = some P' → SamePattern P P') ∧ ∀ A', f.A = some A' → SamePattern A A'

/-- Is row `r` of the KKT system kept at dual solution `y`: stationarity rows always, constraint rows if
the multiplier is not negligible. -/
def Kept [LinearOrder R] (tol : R) (n : Nat) (y : Nat → R) (r : Nat) : Prop :=
  r < n ∨ y (r - n) < -tol ∨ tol < y (r - n)

instance [LinearOrder R] (tol : R) (n : Nat) (y : Nat → R) : DecidablePred (Kept tol n y) := fun r => by
  unfold Kept; infer_instance

/-- The contract of QDLDL (external library): upper triangular input with full diagonal, positive
definite upper left block, negative definite diagonal lower right block; output an exact `LDLᵀ`
factorization whose stored pattern is that of the symbolic factorization. -/
def QdldlOK [LinearOrder R] (n N : Nat) (qdldl : CscL R → Fac R) : Prop :=
  ∀ K : CscL R, UpperValid N K → QuasiDef n N K →
    (∀ x : Nat → R, (∃ i < n, x i ≠ 0) → 0 < ∑ r ∈ range n, ∑ c ∈ range n, x r * symOf K r c * x c) →
    Pattern N (qdldl K).L K ∧ IsLDL N (unitOf (qdldl K).L) (qdldl K).D (symOf K) ∧
    (∀ t < N, (qdldl K).D t ≠ 0) ∧ ∀ t < N, (qdldl K).Dinv t = 1 / (qdldl K).D t

/-- Problems for which the differentiation code is meant: convex, the matrix `P` stored without entries
below the diagonal and without stored zeros above it. -/
structure GradSetup [LinearOrder R] (eps : R) (n N : Nat) (P A : CscL R) : Prop where
  data : QpData n N P A
  upper : ∀ r, ∀ c < n, Occupied P r c → r ≤ c
  stored : ∀ r, ∀ c < n, Occupied P r c → r < c → ent P r c ≠ 0
  convex : Psd n (symUp (ent P))
  eps : 0 < eps

/-- A sequence of calls of which the data keep the stored pattern and convexity. -/
def CallsOK [LinearOrder R] (n : Nat) (P A : CscL R) (cs : List (Call R)) : Prop :=
  ∀ c ∈ cs, Refresh.OK P A c.f ∧ ∀ P', c.f.P = some P' → Psd n (symUp (ent P'))

/-- Constraint `k` counts as active at dual solution `y`. -/
def Active [LinearOrder R] (tol : R) (y : Nat → R) (k : Nat) : Prop := y k < -tol ∨ tol < y k

instance [LinearOrder R] (tol : R) (y : Nat → R) : DecidablePred (Active tol y) := fun k => by
  unfold Active; infer_instance

/-- `(x', y')` is the derivative of the primal and dual solution `(x, y)` of
`minimize ½ xᵀPx + qᵀx  subject to  A x = b on the active rows` in the direction `(dP, dA, dq, db)`: the
optimality conditions `P x + q + Aᵀ y = 0`, `A x = b` (active rows) differentiated once. -/
structure Linearised (n m : Nat) (P A dP dA : Nat → Nat → R) (act : Nat → Prop) [DecidablePred act]
    (dq db x y x' y' : Nat → R) : Prop where
  stationarity : ∀ i < n, ∑ j ∈ range n, (P i j * x' j + dP i j * x j) + dq i +
    ∑ k ∈ range m, (if act k then A k i * y' k + dA k i * y k else 0) = 0
  feasibility : ∀ k < m, act k → ∑ j ∈ range n, (A k j * x' j + dA k j * x j) = db k

/-- The inner product of a gradient stored at the positions of `M` with a matrix of the same pattern. -/
def storedDot (n : Nat) (g : Nat → R) (M : CscL R) : R :=
  ∑ j ∈ range n, ∑ k ∈ Ico (M.p j) (M.p (j + 1)), g k * M.x k

end Verif.Spec.Grad
