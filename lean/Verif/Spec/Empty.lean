import Verif.Model.Empty
/-!
Which data a problem has to have.
-/
namespace Verif.Spec.Empty
open Verif.Model Verif.Model.Empty

/-- A canonical parameter exists and has an entry. -/
def Has (d : Data) (id : CId) : Prop := ∃ n, d.len id = some n ∧ 0 < n

/-- What CVXPY delivers for a job: all canonical parameters except `P`, which is delivered iff there is a quadratic part; vectors have an
entry per variable or row; there are variables. -/
structure Delivered (k : Kind) (quad lp : Bool) (d : Data) : Prop where
  all : ∀ id ∈ k.canonIds quad, id ≠ .P → (d.len id).isSome = true
  none : ∀ id, id ∉ k.canonIds quad → d.len id = none
  P : CId.P ∈ k.canonIds quad → ((d.len .P).isSome = true ↔ lp = false)
  n : 0 < d.n
  q : ∀ id, id = .q ∨ id = .c → id ∈ k.canonIds quad → d.len id = some d.n
  b : CId.b ∈ k.canonIds quad → d.len .b = some d.eq
  h : CId.h ∈ k.canonIds quad → d.len .h = some d.ineq

/-- The matrices that a solver needs to have entries: ECOS the inequalities, and the equalities if there are any; Clarabel the constraints, and the
quadratic part if there is one; QOCO each matrix that has rows. -/
def Present (k : Kind) (lp : Bool) (d : Data) : Prop :=
  match k with
  | .osqp | .scs | .qocogen => True
  | .ecos => Has d .G ∧ (0 < d.eq → Has d .A)
  | .clarabel => Has d .A ∧ (lp = false → Has d .P)
  | .qoco => (lp = false → Has d .P) ∧ (0 < d.eq → Has d .A) ∧ (0 < d.ineq → Has d .G)

/-- No reference follows a null pointer. -/
def NoNull (d : Data) (l : List Use) : Prop := ∀ id, Use.follow id ∈ l → d.len id ≠ some 0

/-- Everything that is referred to exists. -/
def Compiles (d : Data) (l : List Use) : Prop :=
  (∀ id, Use.follow id ∈ l ∨ Use.pass id ∈ l → (d.len id).isSome = true) ∧ ∀ id, Use.name id ∈ l → Has d id

end Verif.Spec.Empty
