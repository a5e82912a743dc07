import Verif.Spec.ExPipe
/-!
What a user expects of explicit mode for parameter values out of the declared bounds: they are moved to the nearest bound.
-/
namespace Verif.Spec.ExPipe
open Verif.Model Verif.Model.Pipeline Verif.Model.Saved Verif.Model.Flatten Verif.Model.Explicit Verif.Model.ExPipe
open Verif.Spec.Flatten Verif.Spec.Pipeline Verif.Spec.Explicit Finset

variable {R : Type}

/-- The last value that constraints on parameters give for entry `k`. -/
def given (f : PCon R → Nat → Option R) (cons : List (PCon R)) (k : Nat) : Option R :=
  ((cons.filter fun c => !c.hasVars && c.hasParams).filterMap fun c => f c k).getLast?

section
variable [Field R] [LinearOrder R]

/-- Bounds of entry `k` of the parameter vector. -/
def lowest (E : EProb R) (k : Nat) : R := (given lowerAt E.pcons k).getD (-E.big)
def highest (E : EProb R) (k : Nat) : R := (given upperAt E.pcons k).getD E.big

/-- The parameter vector with every entry moved into its bounds. -/
def limitVec (E : EProb R) (θ : List R) : List R :=
  (List.range θ.length).map fun k => min (highest E k) (max (lowest E k) (fn θ k))

/-- As `EFollows`, without a condition on the parameters: the problem solved is the one at the values last transferred, moved
into the bounds. -/
def CFollows {S : Type} (E : EProb R) (clock : Nat → R) :
    UAbs R → Nat → PObj R → List (TOp R S) → List (PObj R × Except PyErr (Ret R)) → Prop
  | _, _, _, [], rs => rs = []
  | a, k, o, .setVal m t :: ops, rs =>
      CFollows E clock { a with vals := fun m' => if m' = m then some t else a.vals m' } k o ops rs
  | a, k, o, .solve u _ :: ops, rs => ∃ o' r rs', rs = (o', r) :: rs' ∧
      ((EGood E a u ∧
        (∃ x, Delivered E x (clock k) o' r ∧
          ((∃ y, (problemAt E (limitVec E (vector E.prob (a.transfer u).sent))).Feasible y) →
            ((problemAt E (limitVec E (vector E.prob (a.transfer u).sent))).regularised E.reg).Optimal x)) ∧
        CFollows E clock (a.transfer u) (k + 1) o' ops rs') ∨
       (¬ EGood E a u ∧ o' = o ∧ (∃ e, r = .error e) ∧ CFollows E clock a (k + 1) o ops rs'))

end
end Verif.Spec.ExPipe
