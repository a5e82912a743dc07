import Verif.Model.Wrapper
import Verif.Spec.Runtime
/-!
What a user expects of `prob.solve(method='cpg', updated_params=…, **settings)`: an abstract machine
whose only state is the current parameter values and the values last transferred to the solver.
-/
namespace Verif.Spec
open Verif.Model

variable {R S : Type}

/-- Abstract state. -/
structure Abs (R : Type) where
  vals : String → Option (List R)
  /-- value of each parameter at its last transfer -/
  sent : String → List R

/-- The user's parameter vector: the values last transferred, one parameter after the other. -/
def Abs.vector (ps : List UParam) (a : Abs R) : List R := ps.flatMap fun p => a.sent p.name

/-- The value of setting `n` for the keyword arguments of this call alone: the last argument that
means `n`, otherwise the default. -/
def settingFor (sg : Stgs S) (kw : List (String × S)) (n : String) : S :=
  match (kw.filter fun kv => (sg.translate.lookup kv.1).getD kv.1 == n).getLast? with
  | some kv => kv.2
  | none => sg.default n

/-- The arguments name existing parameters and available settings with admissible values. -/
structure GoodArgs (ps : List UParam) (sg : Stgs S) (updated : Option (List String))
    (kw : List (String × S)) : Prop where
  known : ∀ L, updated = some L → ∀ n ∈ L, ∃ p ∈ ps, p.name = n
  settings : ∀ kv ∈ kw, (sg.translate.lookup kv.1).getD kv.1 ∈ sg.enabled ∧
    sg.accepts ((sg.translate.lookup kv.1).getD kv.1) kv.2 = true

/-- All parameters have values. -/
def HaveValues (ps : List UParam) (vals : String → Option (List R)) : Prop :=
  ∀ p ∈ ps, ∃ v, vals p.name = some v

/-- Transfer of the values of exactly the named parameters (all if not given). -/
def Abs.transfer (a : Abs R) (updated : Option (List String)) : Abs R where
  vals := a.vals
  sent n := if (∀ L, updated = some L → n ∈ L) then (a.vals n).getD [] else a.sent n

/-- Expected outcome of a solve. -/
inductive Expect (R S : Type) where
  /-- an exception -/
  | fails
  /-- a solve for this parameter vector with these settings -/
  | solves (θ : List R) (settings : String → S)

open Classical in
/-- Expected outcomes of a history. -/
noncomputable def expected (ps : List UParam) (sg : Stgs S) :
    Abs R → List (PyOp R S) → List (Expect R S)
  | _, [] => []
  | a, .setVal n v :: ops =>
      expected ps sg { a with vals := fun m => if m = n then some v else a.vals m } ops
  | a, .solve u kw :: ops =>
      if GoodArgs ps sg u kw ∧ HaveValues ps a.vals then
        .solves ((a.transfer u).vector ps) (settingFor sg kw) :: expected ps sg (a.transfer u) ops
      else .fails :: expected ps sg a ops

/-- A call's result is as expected, up to the settings on which `ok` says nothing. -/
def Matches (canonOf : CId → List R → Option (List R)) (uses : List CId) (ok : String → Prop) :
    Expect R S → Except PyErr (PyObs S (Option (List R))) → Prop
  | .fails, .error _ => True
  | .solves θ s, .ok r => (∀ p ∈ uses, r.obs.data p = canonOf p θ) ∧ r.obs.offset = canonOf .d θ ∧
      ∀ n, ok n → r.settings n = s n
  | _, _ => False

/-- Values assigned to CVXPY parameters have the declared size (CVXPY checks shapes). -/
def OpsOK (ps : List UParam) (ops : List (PyOp R S)) : Prop :=
  ∀ n v, PyOp.setVal n v ∈ ops → ∀ p ∈ ps, p.name = n → v.length = p.size

end Verif.Spec
