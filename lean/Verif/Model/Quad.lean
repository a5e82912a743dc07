import Mathlib.Algebra.Field.Rat
/-!
Model of how the quadratic part of the objective reaches the solver.

Sources: /repo/cvxpygen/canonicalizer.py:448-479 (`p['P']` has one datum per entry of CVXPY's matrix, nothing is cut off),
/repo/cvxpygen/solvers/osqp.py:127-129 (setup of OSQP at generation), 22-28 (update during `cpg_solve`: all data of
`Canon_Params.P`, their number, no indices), /repo/cvxpygen/utils.py:456-458 (the call is a statement: its result is not
looked at), /repo/cvxpygen/solvers/scs.py:207-216, /repo/cvxpygen/solvers/qoco.py:148-155, 121-125, 341-344 (data handed over
entry by entry), /repo/cvxpygen/solvers/clarabel.py:157-204 (a new solver is made by every `cpg_solve`).

OSQP itself is not part of /repo. It is modelled by its interface: it keeps the upper triangle of the matrix it was set up
with; an update without indices concerns all entries it keeps. What it does if the number of data is another one is left open:
`Reaction` lists the two possibilities.
-/
namespace Verif.Model.Quad

/-- Positions (row, column) of the entries of `P`, in the order of storage. -/
abbrev Pat := List (Nat × Nat)

/-- Entries as kept by a solver. -/
abbrev Stored (R : Type) := List ((Nat × Nat) × R)

variable {R : Type}

/-- All entries of `P`; `val` are the current values. -/
def entries (pat : Pat) (val : Nat × Nat → R) : Stored R := pat.map fun e => (e, val e)

/-- `Canon_Params.P->x`. -/
def pData (pat : Pat) (val : Nat × Nat → R) : List R := pat.map val

/-- Setup of OSQP (osqp.py:127-129): the upper triangle is kept. -/
def setupP (pat : Pat) (val : Nat × Nat → R) : Stored R :=
  (entries pat val).filter fun e => decide (e.1.1 ≤ e.1.2)

/-- What an update does that brings more data than there are entries: nothing (an error is returned), or the first data are
used. -/
inductive Reaction where
  | reject
  | useFirst
  deriving DecidableEq

/-- `osqp_update_data_mat(&solver, P->x, 0, P->nnz, …)` (osqp.py:23, 27). -/
def updateP (c : Reaction) (s : Stored R) (data : List R) : Stored R :=
  if data.length = s.length then s.zipWith (fun e v => (e.1, v)) data
  else
    match c with
    | .reject => s
    | .useFirst => s.zipWith (fun e v => (e.1, v)) data

/-- Solver after the code was generated for values `v0` and `P` was updated with each of `vs` in turn. -/
def runP (c : Reaction) (pat : Pat) (v0 : Nat × Nat → R) (vs : List (Nat × Nat → R)) : Stored R :=
  vs.foldl (fun s v => updateP c s (pData pat v)) (setupP pat v0)

/-! ### Clarabel -/

/-- `Canon_Params.P`, `Canon_Params_conditioning.P`, `Canon_Outdated.P`, the pointer `solver`, and the matrices of all calls of
`clarabel_DefaultSolver_new` so far. -/
structure ClSt (R : Type) where
  canon : Nat × Nat → R
  cond : Nat × Nat → R
  outdated : Bool
  solver : Bool
  made : List (Stored R)

/-- An update of a parameter in the quadratic part (with the values of `P` that result from it), and `cpg_solve`. -/
inductive ClOp (R : Type) where
  | update (v : Nat × Nat → R)
  | solve

/-- Clarabel keeps the upper triangle of the matrix it is given (its interface, like `setupP`).
`cpg_solve`: `if (!solver) { cpg_copy_all(); … } else { if (Canon_Outdated.P) { cpg_copy_P(); … } … }`
(clarabel.py:172-180, 195-199, utils.py:422-458), then `clarabel_DefaultSolver_new(&P, …)` (clarabel.py:201-204). The values of
`canon` are set by `update` at once, `cpg_solve` computes them before it uses them (utils.py:1012-1016). -/
def clStep (pat : Pat) (s : ClSt R) : ClOp R → ClSt R
  | .update v => { s with canon := v, outdated := true }
  | .solve =>
    let cond := if !s.solver then s.canon else if s.outdated then s.canon else s.cond
    { canon := s.canon, cond := cond, outdated := false, solver := true, made := s.made ++ [setupP pat cond] }

/-- All calls, from code generated for `v0`; `c0`, `o` are the content of `Canon_Params_conditioning` and the flag at the start. -/
def clRun (pat : Pat) (v0 c0 : Nat × Nat → R) (o : Bool) (ops : List (ClOp R)) : ClSt R :=
  ops.foldl (clStep pat) { canon := v0, cond := c0, outdated := o, solver := false, made := [] }

end Verif.Model.Quad
