import Verif.Model.Outcome
import Verif.Spec.Printed
/-!
What CVXPY reports of an instance without solution, by its documentation, and what solvers report by theirs.
-/
namespace Verif.Spec.Outcome
open Verif.Model Verif.Model.Saved Verif.Model.Outcome

inductive Lack where
  | infeasible
  | unbounded
  deriving DecidableEq

/-- The statuses of CVXPY (`cvxpy.settings`). -/
def statuses : List String :=
  ["optimal", "infeasible", "unbounded", "optimal_inaccurate", "infeasible_inaccurate", "unbounded_inaccurate", "infeasible_or_unbounded",
   "user_limit", "solver_error"]

def Lack.status : Lack → String
  | .infeasible => "infeasible"
  | .unbounded => "unbounded"

/-- Whether the optimal value is minus infinity: of an infeasible maximization or an unbounded minimization. -/
def low (isMax : Bool) : Lack → Bool
  | .infeasible => isMax
  | .unbounded => !isMax

/-- The number that `problem.value` is. -/
def shown : Val Flt → Flt
  | .fin x => x
  | .posInf => .inf false
  | .negInf => .inf true

/-- `problem.value` says that there is no solution, and which way. -/
def ValueTold (k : Lack) (isMax : Bool) (o : PObj Flt) : Prop := o.value.map shown = some (.inf (low isMax k))

/-- The whole report of CVXPY: value, status, and no values of variables. -/
def Told (k : Lack) (isMax : Bool) (vars : List String) (o : PObj Flt) : Prop :=
  ValueTold k isMax o ∧ o.status = some k.status ∧ ∀ n ∈ vars, o.prim n = none

/-- OSQP's report (its constant `OSQP_INFTY` is 1e30): the objective of the minimization, status in words. -/
def osqpSays (x : ℚ) : Lack → Flt × String
  | .infeasible => (.num x, "primal infeasible")
  | .unbounded => (.num (-x), "dual infeasible")

/-- The report of SCS. -/
def scsSays : Lack → Flt × String
  | .infeasible => (.inf false, "infeasible")
  | .unbounded => (.inf true, "unbounded")

end Verif.Spec.Outcome
