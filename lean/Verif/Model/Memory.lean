import Verif.Model.Runtime
/-!
Solver objects on the heap that the generated program creates.

Sources: /repo/cvxpygen/solvers/scs.py:25-32 (`init` and `PA` call `scs_init`), ecos.py:89-99 (`ECOS_setup`), qoco.py:267-312, 315-318
(QOCO: `malloc`, `qoco_setup`), qoco.py:94-97 (QOCOGEN: `load_data` into a static workspace), clarabel.py:201-204
(`clarabel_DefaultSolver_new` in the call that solves), osqp.py:20-62 (static workspace). No generated function releases anything: there is no
call of `scs_finish`, `ECOS_cleanup`, `clarabel_DefaultSolver_free`, `qoco_cleanup` or `free` in any of the texts that are written.

Simplifications: everything allocated in one set-up counts as one object; what solvers allocate while they solve is theirs.
-/
namespace Verif.Model.Memory
open Verif.Model

/-- Objects created by an update function. -/
def createdBy : Kind → CId → Nat
  | .scs, .init => 1
  | .scs, .PA => 1
  | .ecos, .init => 1
  | .qoco, .init => 1
  | _, _ => 0

/-- Objects created by the call that solves (`solve_function_call`). -/
def createdBySolve : Kind → Nat
  | .clarabel => 1
  | _ => 0

variable {Θ V Act : Type}

/-- Objects on the heap after a history: those of all update functions called and of all solves. -/
def live (k : Kind) (m : Mem Θ V) (solves : Nat) : Nat := (m.calls.map (createdBy k)).sum + solves * createdBySolve k

end Verif.Model.Memory
