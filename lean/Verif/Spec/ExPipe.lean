import Verif.Model.ExPipe
import Verif.Spec.Pipeline
import Verif.Spec.Explicit
import Mathlib.Algebra.Order.Field.Basic
/-!
What a user expects of explicit mode: after each solve the stored entries of the variables are those of a solution of the
problem at the parameter values last transferred.
-/
namespace Verif.Spec.ExPipe
open Verif.Model Verif.Model.Pipeline Verif.Model.Saved Verif.Model.Flatten Verif.Model.Explicit Verif.Model.ExPipe
open Verif.Spec.Flatten Verif.Spec.Pipeline Verif.Spec.Explicit Finset

variable {R : Type}

/-- A quadratic program: minimize `½ xᵀHx + qᵀx` subject to `A x ≤ u`, with equality in the rows in `eq`. -/
structure Qp (R : Type) where
  (n m : Nat)
  (H A : Nat → Nat → R)
  (q u : Nat → R)
  eq : Nat → Prop

section
variable [Field R] [LinearOrder R]

def Qp.Feasible (Q : Qp R) (x : Nat → R) : Prop :=
  ∀ j < Q.m, ∑ c ∈ range Q.n, Q.A j c * x c ≤ Q.u j ∧ (Q.eq j → ∑ c ∈ range Q.n, Q.A j c * x c = Q.u j)

def Qp.cost (Q : Qp R) (x : Nat → R) : R :=
  (∑ i ∈ range Q.n, ∑ j ∈ range Q.n, x i * Q.H i j * x j) / 2 + ∑ i ∈ range Q.n, Q.q i * x i

def Qp.Optimal (Q : Qp R) (x : Nat → R) : Prop := Q.Feasible x ∧ ∀ y, Q.Feasible y → Q.cost x ≤ Q.cost y

/-- The canonical problem at a parameter vector. -/
def problemAt (E : EProb R) (θ : List R) : Qp R where
  n := E.n
  m := E.m
  H := E.mat .P ((dataAt E.prob θ .P).getD [])
  A := E.mat .A ((dataAt E.prob θ .A).getD [])
  q := fun i => (((dataAt E.prob θ .q).getD [])[i]?).getD 0
  u := fun i => (((dataAt E.prob θ .u).getD [])[i]?).getD 0
  eq := fun j => j < E.eqM

/-- The problem with `½ r ‖x‖²` added to the objective. -/
def Qp.regularised (Q : Qp R) (r : R) : Qp R := { Q with H := fun i j => Q.H i j + if i = j then r else 0 }

/-- What is expected of PDAQP for the problem it is given: for every `theta` in the box for which there are feasible points,
an optimal one. -/
def PdaqpOK (F : EFiles R) (n : Nat) (sol : List R → Nat → R) : Prop :=
  ∀ th : List R, th.length = F.M.F.length →
    (∀ (k : Nat) x, th[k]? = some x → (∀ y, F.lo[k]? = some y → y ≤ x) ∧ ∀ y, F.up[k]? = some y → x ≤ y) →
    let Q : Qp R :=
      { n := n
        m := F.M.rows.length
        H := F.H
        A := fun r c => F.A (F.M.rows.getD r 0) c
        q := fun i => F.M.f i + colDot F.M.F th i
        u := fun r => F.M.b r + colDot F.M.B th r
        eq := fun r => r ∈ F.eq }
    (∃ x, Q.Feasible x) → Q.Optimal (sol th)

/-- The parameters are within the bounds declared by the user, and within ±1e30. -/
def Admissible (E : EProb R) (θ : List R) : Prop :=
  ∀ (k : Nat) x, θ[k]? = some x → -E.big ≤ x ∧ x ≤ E.big ∧ ∀ c ∈ E.pcons, OnParams c → HoldsAt c k x

/-- Entry `i` of the variable `v` is stored. -/
def Requested (E : EProb R) (v : UVar) (i : Nat) : Prop := ∃ r ∈ E.reqs, r.1 = v.name ∧ (r.2 = [] ∨ i ∈ r.2)

open Classical in
/-- The values in the problem object belong to the canonical point `x`: requested entries are those of `x`, other entries
of stored variables are zero, variables that are not stored have no value; there is no objective value and no status, the
measured time is returned. -/
structure Delivered (E : EProb R) (x : Nat → R) (time : R) (o : PObj R) (r : Except PyErr (Ret R)) : Prop where
  prim : ∀ v ∈ E.vs, v.name ∈ E.reqs.map Prod.fst → ∃ l f, o.prim v.name = some l ∧ reshapeF v.shape l = some f ∧
    ∀ idx, InBounds v.shape idx → f idx = some (if Requested E v (pos v.shape idx) then x (v.offset + pos v.shape idx) else 0)
  absent : ∀ v ∈ E.vs, v.name ∉ E.reqs.map Prod.fst → o.prim v.name = none
  dual : ∀ c ∈ E.cons, o.dual c = none
  value : o.value = none
  status : o.status = none
  returned : r = .ok (.time time)

/-- The arguments are good: parameters of the problem are named, and all have values. -/
def EGood (E : EProb R) (a : UAbs R) (u : Option (List String)) : Prop :=
  (∀ L, u = some L → ∀ n ∈ L, ∃ p ∈ E.tps, p.name = n) ∧ ∀ p ∈ E.tps, ∃ t, a.vals p.name = some t

/-- The outcomes `rs` are those expected of a history, as long as the parameters transferred are within their bounds. -/
def EFollows {S : Type} (E : EProb R) (clock : Nat → R) :
    UAbs R → Nat → PObj R → List (TOp R S) → List (PObj R × Except PyErr (Ret R)) → Prop
  | _, _, _, [], rs => rs = []
  | a, k, o, .setVal m t :: ops, rs =>
      EFollows E clock { a with vals := fun m' => if m' = m then some t else a.vals m' } k o ops rs
  | a, k, o, .solve u _ :: ops, rs => ∃ o' r rs', rs = (o', r) :: rs' ∧
      ((EGood E a u ∧
        (Admissible E (vector E.prob (a.transfer u).sent) →
          (∃ x, Delivered E x (clock k) o' r ∧
            ((∃ y, (problemAt E (vector E.prob (a.transfer u).sent)).Feasible y) →
              ((problemAt E (vector E.prob (a.transfer u).sent)).regularised E.reg).Optimal x)) ∧
          EFollows E clock (a.transfer u) (k + 1) o' ops rs')) ∨
       (¬ EGood E a u ∧ o' = o ∧ (∃ e, r = .error e) ∧ EFollows E clock a (k + 1) o ops rs'))

end
end Verif.Spec.ExPipe
