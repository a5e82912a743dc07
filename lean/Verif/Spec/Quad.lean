import Mathlib.Algebra.Field.Rat
import Mathlib.Algebra.BigOperators.Group.List.Basic
/-! Quadratic forms, independently of how the code stores them. -/
namespace Verif.Spec.Quad

variable {R : Type} [Field R]

/-- `½ xᵀ P x` for a matrix given by all its entries. -/
def fullForm (l : List ((Nat × Nat) × R)) (x : Nat → R) : R :=
  (1 / 2) * (l.map fun e => e.2 * x e.1.1 * x e.1.2).sum

/-- `½ xᵀ P x` for a symmetric matrix given by the entries of its upper triangle. -/
def upperForm (l : List ((Nat × Nat) × R)) (x : Nat → R) : R :=
  (1 / 2) * (l.map fun e => (if e.1.1 = e.1.2 then 1 else 2) * (e.2 * x e.1.1 * x e.1.2)).sum

/-- Compressed columns: columns increase, rows increase within each column. -/
def ColumnMajor (pat : List (Nat × Nat)) : Prop :=
  pat.Pairwise fun a b => a.2 < b.2 ∨ (a.2 = b.2 ∧ a.1 < b.1)

/-- Positions of a symmetric matrix. -/
def SymPat (pat : List (Nat × Nat)) : Prop := ∀ r c, (r, c) ∈ pat → (c, r) ∈ pat

/-- Values of a symmetric matrix. -/
def SymVal (val : Nat × Nat → R) : Prop := ∀ r c, val (r, c) = val (c, r)

/-- With an entry, the diagonal entry of its column is stored (as for every positive semidefinite matrix: if a diagonal entry
is zero, so is its column). -/
def HasDiag (pat : List (Nat × Nat)) : Prop := ∀ r c, (r, c) ∈ pat → (c, c) ∈ pat

/-- No entry off the diagonal. -/
def Diagonal (pat : List (Nat × Nat)) : Prop := ∀ r c, (r, c) ∈ pat → r = c

/-- The quadratic forms to be minimized, one for each solve: those of the values at that time. An operation is either new values
or (`none`) a solve. -/
def formsOf (pat : List (Nat × Nat)) (x : Nat → R) : (Nat × Nat → R) → List (Option (Nat × Nat → R)) → List R
  | _, [] => []
  | _, some w :: l => formsOf pat x w l
  | v, none :: l => fullForm (pat.map fun e => (e, v e)) x :: formsOf pat x v l

end Verif.Spec.Quad
