import Verif.Model.Factor
/-!
What a compressed column matrix represents, independently of how it is edited.
-/
namespace Verif.Spec.Factor
open Verif.Model.Factor

/-- The matrix has the value `v` stored at row `r`, column `c`. -/
def Stored {R : Type} (M : CscL R) (r c : Nat) (v : R) : Prop :=
  ∃ k, M.p c ≤ k ∧ k < M.p (c + 1) ∧ M.i k = r ∧ M.x k = v

/-- Something is stored at row `r`, column `c`. -/
def Occupied {R : Type} (M : CscL R) (r c : Nat) : Prop := ∃ v, Stored M r c v

/-- A valid strictly lower triangular compressed column matrix of size `N`: monotone column
pointers from `0` to `nnz`, and in each column strictly increasing row indices below the diagonal. -/
structure Valid {R : Type} (N : Nat) (M : CscL R) : Prop where
  zero : M.p 0 = 0
  mono : ∀ c < N, M.p c ≤ M.p (c + 1)
  last : M.p N = M.nnz
  sorted : ∀ c < N, ∀ k, M.p c ≤ k → k + 1 < M.p (c + 1) → M.i k < M.i (k + 1)
  lower : ∀ c < N, ∀ k, M.p c ≤ k → k < M.p (c + 1) → c < M.i k ∧ M.i k < N

end Verif.Spec.Factor

namespace Verif.Spec.Factor
open Verif.Model.Factor

/-- The edits of the sparse factor that the generated code can make. -/
inductive Edit (R : Type) where
  | insert (row col : Nat)
  | put (row col : Nat) (v : R)
  | remove (row col : Nat)

/-- The position an edit refers to. -/
def Edit.at {R : Type} : Edit R → Nat × Nat
  | .insert r c => (r, c)
  | .put r c _ => (r, c)
  | .remove r c => (r, c)

/-- The edit refers to a position below the diagonal of an `N × N` matrix, or above it. -/
def Edit.OK {R : Type} (N : Nat) (e : Edit R) : Prop :=
  e.at.1 < e.at.2 ∨ (e.at.2 < e.at.1 ∧ e.at.1 < N)

/-- A partial matrix: which entries are stored, and their values. -/
abbrev Partial (R : Type) := Nat → Nat → Option R

/-- Change one entry of a partial matrix. -/
def Partial.set {R : Type} (f : Partial R) (r c : Nat) (o : Option R) : Partial R :=
  fun r' c' => if r' = r ∧ c' = c then o else f r' c'

/-- What an edit means: only the entry it refers to is affected, and nothing above the diagonal. -/
def Edit.meaning {R : Type} [Zero R] (big : R → Bool) (f : Partial R) (e : Edit R) : Partial R :=
  if e.at.1 < e.at.2 then f else
  match e with
  | .insert r c => f.set r c (some ((f r c).getD 0))
  | .put r c v => f.set r c (some v)
  | .remove r c => f.set r c ((f r c).filter big)

/-- The compressed matrix represents the partial matrix. -/
def Represents {R : Type} (N : Nat) (M : CscL R) (f : Partial R) : Prop :=
  ∀ r c v, c < N → (Stored M r c v ↔ f r c = some v)

/-- Executing an edit. -/
def Edit.exec {R : Type} [Zero R] (big : R → Bool) (N : Nat) (M : CscL R) : Edit R → CscL R
  | .insert r c => insertNonzero N M r c
  | .put r c v => insertNonzeroAndValue N M r c v
  | .remove r c => removeNonzero big N M r c

/-- A marked position of the mask is a stored position. -/
def MaskSound {R : Type} (N : Nat) (S : MaskedL R) : Prop :=
  ∀ r c, c < r → r < N → S.mask (maskIndex N r c) = true → Occupied S.L r c

/-- `g` stores what `f` stores and possibly some extra zeros. -/
def OnlyZerosAdded {R : Type} [Zero R] (f g : Partial R) : Prop :=
  ∀ r c, g r c = f r c ∨ (f r c = none ∧ g r c = some 0)

end Verif.Spec.Factor
