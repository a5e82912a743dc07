import Verif.Model.Runtime
import Verif.Model.Dispatch
import Verif.Model.SolverTables
/-!
Model of what code generation keeps between calls in one process: attributes of the interface classes that
are changed in place.

Sources: /repo/cvxpygen/solvers/_interface.py:87-130 (`__init__`, `configure_settings`), 185-195;
/repo/cvxpygen/writer.py:94-143; /repo/cvxpygen/utils.py:446-447, 598, 627, 947-948, 1029-1030, 1078;
generator.py:65-88. Update structures are class attributes for OSQP (osqp.py:20-61) and SCS (scs.py:24-45),
and made in `__init__` for the others; settings and workspace pointers are class attributes for all.
-/
namespace Verif.Model.Shared
open Verif.Model Verif.Model.Text Verif.Model.Dispatch

/-- The class attributes `parameter_update_structure` (OSQP, SCS), `stgs` (name, `enabled`) and `ws_ptrs`
(primal and dual solution). -/
structure Classes where
  pusOsqp : Pus
  pusScs : Pus
  stgs : Iface → List (Txt × Bool)
  ptrs : Iface → Txt × Txt

/-- `stgs` as written in the classes: osqp.py:102-115, scs.py:92-109, ecos.py:60-68, clarabel.py:63-119,
qoco.py:235-247, 62-74, pdaqp.py:34. -/
def settings0 : Iface → List (Txt × Bool)
  | .osqp =>
    [("max_iter".toList, true), ("eps_abs".toList, true), ("eps_rel".toList, true),
     ("eps_prim_inf".toList, true), ("eps_dual_inf".toList, true), ("scaled_termination".toList, true),
     ("check_termination".toList, true), ("warm_starting".toList, true), ("verbose".toList, false),
     ("polishing".toList, false), ("polish_refine_iter".toList, false), ("delta".toList, false)]
  | .scs =>
    [("normalize".toList, true), ("scale".toList, true), ("adaptive_scale".toList, true),
     ("rho_x".toList, true), ("max_iters".toList, true), ("eps_abs".toList, true), ("eps_rel".toList, true),
     ("eps_infeas".toList, true), ("alpha".toList, true), ("time_limit_secs".toList, true),
     ("verbose".toList, true), ("warm_start".toList, true), ("acceleration_lookback".toList, true),
     ("acceleration_interval".toList, true), ("write_data_filename".toList, true),
     ("log_csv_filename".toList, true)]
  | .ecos =>
    [("feastol".toList, true), ("abstol".toList, true), ("reltol".toList, true),
     ("feastol_inacc".toList, true), ("abstol_inacc".toList, true), ("reltol_inacc".toList, true),
     ("maxit".toList, true)]
  | .clarabel =>
    [("max_iter".toList, true), ("time_limit".toList, true), ("verbose".toList, true),
     ("max_step_fraction".toList, true), ("tol_gap_abs".toList, true), ("tol_gap_rel".toList, true),
     ("tol_feas".toList, true), ("tol_infeas_abs".toList, true), ("tol_infeas_rel".toList, true),
     ("tol_ktratio".toList, true), ("reduced_tol_gap_abs".toList, true), ("reduced_tol_gap_rel".toList, true),
     ("reduced_tol_feas".toList, true), ("reduced_tol_infeas_abs".toList, true),
     ("reduced_tol_infeas_rel".toList, true), ("reduced_tol_ktratio".toList, true),
     ("equilibrate_enable".toList, true), ("equilibrate_max_iter".toList, true),
     ("equilibrate_min_scaling".toList, true), ("equilibrate_max_scaling".toList, true),
     ("linesearch_backtrack_step".toList, true), ("min_switch_step_length".toList, true),
     ("min_terminate_step_length".toList, true), ("direct_kkt_solver".toList, true),
     ("static_regularization_enable".toList, true), ("static_regularization_constant".toList, true),
     ("static_regularization_proportional".toList, true), ("dynamic_regularization_enable".toList, true),
     ("dynamic_regularization_eps".toList, true), ("dynamic_regularization_delta".toList, true),
     ("iterative_refinement_enable".toList, true), ("iterative_refinement_reltol".toList, true),
     ("iterative_refinement_abstol".toList, true), ("iterative_refinement_max_iter".toList, true),
     ("iterative_refinement_stop_ratio".toList, true), ("presolve_enable".toList, true)]
  | .qoco =>
    [("max_iters".toList, true), ("bisect_iters".toList, true), ("ruiz_iters".toList, true),
     ("iter_ref_iters".toList, true), ("kkt_static_reg".toList, true), ("kkt_dynamic_reg".toList, true),
     ("abstol".toList, true), ("reltol".toList, true), ("abstol_inacc".toList, true),
     ("reltol_inacc".toList, true), ("verbose".toList, true)]
  | .qocogen =>
    [("max_iters".toList, true), ("bisect_iters".toList, true), ("ruiz_iters".toList, true),
     ("iter_ref_iters".toList, true), ("kkt_static_reg".toList, true), ("kkt_dynamic_reg".toList, true),
     ("abstol".toList, true), ("reltol".toList, true), ("abstol_inacc".toList, true),
     ("reltol_inacc".toList, true), ("verbose".toList, true)]
  | .pdaqp => []

/-- `ws_ptrs.primal_solution`, `ws_ptrs.dual_solution` as written in the classes: osqp.py:84-85,
scs.py:74-75, ecos.py:41-42, clarabel.py:43-44, qoco.py:216-217, 42-43, pdaqp.py:55-56. -/
def ptrs0 : Iface → Txt × Txt
  | .osqp => ("sol_x".toList, "sol_{dual_var_name}".toList)
  | .scs => ("scs_x".toList, "scs_{dual_var_name}".toList)
  | .ecos => ("ecos_workspace->x".toList, "ecos_workspace->{dual_var_name}".toList)
  | .clarabel => ("solution.x".toList, "solution.{dual_var_name}".toList)
  | .qoco => ("qoco_solver->sol->x".toList, "qoco_solver->sol->{dual_var_name}".toList)
  | .qocogen => ("qoco_custom_workspace.sol.x".toList, "qoco_custom_workspace.sol.{dual_var_name}".toList)
  | .pdaqp => ("sol_x".toList, "sol_{dual_var_name}".toList)

/-- The classes after importing the package. -/
def fresh : Classes where
  pusOsqp := osqp.pus
  pusScs := (scs true).pus
  stgs := settings0
  ptrs := ptrs0

/-- Places where a call may fail for reasons outside of this model (CVXPY, file system, compiler). -/
inductive Point where
  /-- before the interface is created (wrong solver name, problem not canonicalizable, no parameters) -/
  | beforeInterface
  /-- between creating the interface and writing (merging, code generation of the solver, folder) -/
  | beforeWriting
  /-- while `cpg_workspace.h` and `cpg_workspace.c` are written (writer.py:107-116) -/
  | inWorkspace
  /-- after that and before the update structure is written -/
  | beforeUpdate
  /-- after the update structure was written -/
  | afterUpdate
  deriving DecidableEq

/-- What a call of `generate_code` brings along, as far as it meets the class attributes. `order` is the
iteration order of a set, `retPrim` is `ret_prim_func_exists` of the second problem. -/
structure Call where
  iface : Iface
  twoStage : Bool
  quad : Bool
  lp : Bool
  changes : Changes
  order : List CId → List CId
  enable : List Txt
  pfx : Txt
  retPrim : Bool
  fails : Option Point

/-- What ends up in the generated code: names of the settings that can be set, pointers used in
`cpg_workspace.*` and in `cpg_solve.*`/`cpg_gradient.*`, and the update block. -/
structure Out where
  settings : List Txt
  wsPtrs : Txt × Txt
  solvePtrs : Txt × Txt
  block : List Tok

inductive Err where
  | failed (p : Point)
  | py (e : PyErr)

/-- `configure_settings` (_interface.py:125-128). -/
def configure (enable : List Txt) (l : List (Txt × Bool)) : List (Txt × Bool) :=
  l.map fun s => (s.1, s.2 || enable.contains s.1)

/-- Replace an attribute of one class. -/
def put {α : Type} (f : Iface → α) (i : Iface) (a : α) : Iface → α := fun j => if j = i then a else f j

/-- `solver_interface.parameter_update_structure`. -/
def pusOf (s : Classes) (c : Call) : Pus :=
  match c.iface with
  | .osqp => s.pusOsqp
  | .scs => s.pusScs
  | .ecos => ecos.pus
  | .clarabel => (clarabel c.lp).pus
  | .qoco => (qoco c.lp).pus
  | .qocogen => (qocogen c.lp).pus
  | .pdaqp => []

/-- Store a changed update structure where it came from (an instance attribute is lost). -/
def putPus (s : Classes) (c : Call) (p : Pus) : Classes :=
  match c.iface with
  | .osqp => { s with pusOsqp := p }
  | .scs => { s with pusScs := p }
  | _ => s

/-- The redirected pointers (writer.py:103-105). -/
def redirect (c : Call) (p : Txt × Txt) : Txt × Txt :=
  (if c.retPrim then "gradient_".toList ++ c.pfx ++ "sol_x".toList else p.1,
   "gradient_".toList ++ c.pfx ++ "sol_y".toList)

/-- The update block of `cpg_solve` (utils.py:1018-1030); there is none in explicit mode. If writing it
raises, the changes made until then are not modelled (`C22_block_ok`: it does not raise). -/
def block (s : Classes) (c : Call) : Except Err (List Tok × Classes) :=
  if c.iface = .pdaqp then .ok ([], s)
  else match genBlock (pusOf s c) c.quad c.changes c.order with
    | .ok (toks, p) => .ok (toks, putPus s c p)
    | .error e => .error (.py e)

/-- Writing `cpg_solve.*` and the rest. -/
def writeSolve (s : Classes) (c : Call) (ws : Txt × Txt) : Classes × Except Err Out :=
  if c.fails = some .beforeUpdate then (s, .error (.failed .beforeUpdate))
  else match block s c with
    | .error e => (s, .error e)
    | .ok (toks, s') =>
      if c.fails = some .afterUpdate then (s', .error (.failed .afterUpdate))
      else (s', .ok (Out.mk (((s'.stgs c.iface).filter fun t => t.2).map Prod.fst) ws (s'.ptrs c.iface) toks))

/-- Writing (writer.py:62-73, 94-143). -/
def write (s : Classes) (c : Call) : Classes × Except Err Out :=
  if c.twoStage then
    let saved := s.ptrs c.iface
    let s := { s with ptrs := put s.ptrs c.iface (redirect c saved) }
    if c.fails = some .inWorkspace then (s, .error (.failed .inWorkspace))
    else
      let ws := s.ptrs c.iface
      writeSolve { s with ptrs := put s.ptrs c.iface saved } c ws
  else if c.fails = some .inWorkspace then (s, .error (.failed .inWorkspace))
  else writeSolve s c (s.ptrs c.iface)

/-- One call of `generate_code` (generator.py:65-88): the classes afterwards and the outcome. -/
def gen (s : Classes) (c : Call) : Classes × Except Err Out :=
  if c.fails = some .beforeInterface then (s, .error (.failed .beforeInterface))
  else
    let s := { s with stgs := put s.stgs c.iface (configure c.enable (s.stgs c.iface)) }
    if c.fails = some .beforeWriting then (s, .error (.failed .beforeWriting))
    else write s c

/-- Several calls in one process. -/
def history (s : Classes) (cs : List Call) : Classes := cs.foldl (fun s c => (gen s c).1) s

end Verif.Model.Shared
