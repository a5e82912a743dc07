import Verif.Model.Dispatch
/-!
Model of the file-scope names in the generated C code: which names every file defines, which its headers declare, and
which names it mentions.

Sources: /repo/cvxpygen/utils.py:117-131, 297-321, 470-1141, 1163-1412, /repo/cvxpygen/writer.py:62-588, the
`declare_workspace`/`define_workspace` methods and the class attributes of the solver interfaces, and the templates
cpg_osqp_grad_compute.c.jinja2, cpg_osqp_grad_workspace.h.jinja2, cpg_example.c.jinja2, CMakeLists.txt.jinja2. Not
modelled: types, struct fields, function bodies beyond the names they mention, and the names that only occur inside
the code of the solvers.
-/
namespace Verif.Model.Symbols
open Verif.Model.Text Verif.Model.Dispatch

/-! ### pieces of names, as they occur in the f-strings of the writer -/
namespace S
def cpg_params_vec : Txt := "cpg_params_vec".toList
def cpg_params_vec_lower : Txt := "cpg_params_vec_lower".toList
def cpg_params_vec_upper : Txt := "cpg_params_vec_upper".toList
def canon_ : Txt := "canon_".toList
def _map : Txt := "_map".toList
def _conditioning : Txt := "_conditioning".toList
def _i : Txt := "_i".toList
def _p : Txt := "_p".toList
def _x : Txt := "_x".toList
def cpg_theta : Txt := "cpg_theta".toList
def sol_x : Txt := "sol_x".toList
def sol_y : Txt := "sol_y".toList
def Canon_Params : Txt := "Canon_Params".toList
def Canon_Params_conditioning : Txt := "Canon_Params_conditioning".toList
def Canon_Outdated : Txt := "Canon_Outdated".toList
def Canon_Outdated_Grad : Txt := "Canon_Outdated_Grad".toList
def cpg_ : Txt := "cpg_".toList
def CPG_Prim : Txt := "CPG_Prim".toList
def CPG_Dual : Txt := "CPG_Dual".toList
def CPG_Info : Txt := "CPG_Info".toList
def CPG_Result : Txt := "CPG_Result".toList
def Canon_Settings : Txt := "Canon_Settings".toList
def cpg_dp : Txt := "cpg_dp".toList
def CPG_Delta : Txt := "CPG_Delta".toList
def gradient_ : Txt := "gradient_".toList
def scs_ : Txt := "scs_".toList
def Scs_ : Txt := "Scs_".toList
def Scs_D : Txt := "Scs_D".toList
def scs_q : Txt := "scs_q".toList
def Scs_K : Txt := "Scs_K".toList
def scs_x : Txt := "scs_x".toList
def scs_y : Txt := "scs_y".toList
def scs_s : Txt := "scs_s".toList
def Scs_Sol : Txt := "Scs_Sol".toList
def Scs_Info : Txt := "Scs_Info".toList
def Scs_Work : Txt := "Scs_Work".toList
def ecos_q : Txt := "ecos_q".toList
def ecos_workspace : Txt := "ecos_workspace".toList
def ecos_flag : Txt := "ecos_flag".toList
def cones : Txt := "cones".toList
def settings : Txt := "settings".toList
def solver : Txt := "solver".toList
def solution : Txt := "solution".toList
def qoco_q : Txt := "qoco_q".toList
def qoco_solver : Txt := "qoco_solver".toList
def qoco_flag : Txt := "qoco_flag".toList
def qoco_custom_q : Txt := "qoco_custom_q".toList
def qoco_custom_workspace : Txt := "qoco_custom_workspace".toList
def qoco_custom_flag : Txt := "qoco_custom_flag".toList
def cpg_update_ : Txt := "cpg_update_".toList
def cpg_update_d : Txt := "cpg_update_d".toList
def cpg_canonicalize_ : Txt := "cpg_canonicalize_".toList
def cpg_retrieve_prim : Txt := "cpg_retrieve_prim".toList
def cpg_retrieve_dual : Txt := "cpg_retrieve_dual".toList
def cpg_retrieve_info : Txt := "cpg_retrieve_info".toList
def cpg_copy_ : Txt := "cpg_copy_".toList
def cpg_copy_all : Txt := "cpg_copy_all".toList
def cpg_solve : Txt := "cpg_solve".toList
def cpg_obj : Txt := "cpg_obj".toList
def cpg_set_solver_default_settings : Txt := "cpg_set_solver_default_settings".toList
def cpg_set_solver_ : Txt := "cpg_set_solver_".toList
def cpg_gradient : Txt := "cpg_gradient".toList
def cpg_retrieve_intermediate_primal : Txt := "cpg_retrieve_intermediate_primal".toList
def cpg_retrieve_intermediate_dual : Txt := "cpg_retrieve_intermediate_dual".toList
def obj_val : Txt := "obj_val".toList
def CPG_OSQP_Grad : Txt := "CPG_OSQP_Grad".toList
def cpg_osqp_grad_ : Txt := "cpg_osqp_grad_".toList
def cpg_ldl_symbolic : Txt := "cpg_ldl_symbolic".toList
def cpg_ldl_numeric : Txt := "cpg_ldl_numeric".toList
def cpg_osqp_gradient : Txt := "cpg_osqp_gradient".toList
def _to_K : Txt := "_to_K".toList
def cpg_grad_a : Txt := "cpg_grad_a".toList
def cpg_grad_a_bar : Txt := "cpg_grad_a_bar".toList
def cpg_grad_gamma : Txt := "cpg_grad_gamma".toList
def insert_nonzero : Txt := "insert_nonzero".toList
def insert_nonzero_and_value : Txt := "insert_nonzero_and_value".toList
def remove_nonzero : Txt := "remove_nonzero".toList
def symbolic_ldl_update : Txt := "symbolic_ldl_update".toList
def symbolic_ldl_downdate : Txt := "symbolic_ldl_downdate".toList
def cpg_rank_1_update : Txt := "cpg_rank_1_update".toList
def cpg_ldl_delete : Txt := "cpg_ldl_delete".toList
def cpg_ldl_add : Txt := "cpg_ldl_add".toList
def cpg_P_to_K : Txt := "cpg_P_to_K".toList
def cpg_A_to_K : Txt := "cpg_A_to_K".toList
def pdaqp_evaluate : Txt := "pdaqp_evaluate".toList
def pdaqp_active_region : Txt := "pdaqp_active_region".toList
def pdaqp_feedbacks : Txt := "pdaqp_feedbacks".toList
def pdaqp_hp_list : Txt := "pdaqp_hp_list".toList
def cpg_dx : Txt := "cpg_dx".toList
def cpg_dtheta : Txt := "cpg_dtheta".toList
def solve_cpp : Txt := "solve_cpp".toList
def gradient_cpp : Txt := "gradient_cpp".toList
def main : Txt := "main".toList
def i : Txt := "i".toList
def j : Txt := "j".toList
def k : Txt := "k".toList
def kk : Txt := "kk".toList
def n : Txt := "n".toList
def N : Txt := "N".toList
def d : Txt := "d".toList
def P : Txt := "P".toList
def A : Txt := "A".toList
def G : Txt := "G".toList
def q : Txt := "q".toList
def u : Txt := "u".toList
def l : Txt := "l".toList
def b : Txt := "b".toList
def c : Txt := "c".toList
def h : Txt := "h".toList
def PYBIND11_MODULE : Txt := "PYBIND11_MODULE".toList
end S

/-- A file-scope definition in a generated C file: its name and the file-scope identifiers that its initialiser or
body mentions. A name is also listed if its mention depends on details that are left out of `In` (whether `d` is
nonzero, which flags a parameter sets, which updates are written). Types, struct fields and the identifiers of the solver libraries are left out. -/
structure Item where
  name : Txt
  uses : List Txt
deriving DecidableEq

/-- A generated source file: identifiers declared by the headers it includes, its `static` variables, and its
definitions in the order of writing. -/
structure CFile where
  headers : List Txt
  statics : List Txt
  items : List Item

structure Var where
  name : Txt
  size : Nat
  /-- symmetric, PSD or NSD -/
  sym : Bool

/-- A canonical parameter: `has` says whether it is a key of `parameter_canon.p` (it is not if there is no affine
map, canonicalizer.py:302, 326-329), `len` is the number of stored entries, `changes` is `p_id_to_changes`. -/
structure CanonP where
  id : Txt
  has : Bool
  len : Nat
  changes : Bool

/-- What the writer depends on. Names and sizes are the dictionaries of canonicalizer.py:124-271 in their order;
`gcanon` and `gret` belong to differentiation in two stages: the canonical parameters of the OSQP form, and
`ret_prim_func_exists` for the problem given to the solver. -/
structure In where
  pre : Txt
  gradient : Bool
  explicit : Nat
  two : Bool
  iface : Iface
  quad : Bool
  soc : Bool
  reduced : Bool
  params : List (Txt × Nat)
  vars : List Var
  duals : List (Txt × Nat)
  canon : List CanonP
  settings : List Txt
  gcanon : List CanonP
  gret : Bool

variable (I : In)

/-! ### attributes of the solver interfaces -/

/-- `sol_statically_allocated`: osqp.py:89, scs.py:79, qoco.py:48, pdaqp.py:59; false: ecos.py:47,
clarabel.py:49, qoco.py:222. -/
def solStatic : Iface → Bool
  | .osqp | .scs | .qocogen | .pdaqp => true
  | .ecos | .clarabel | .qoco => false

/-- `ws_statically_allocated_in_solver_code`: osqp.py:77, pdaqp.py:48; false: scs.py:67, ecos.py:34,
clarabel.py:36, qoco.py:35, 209. -/
def wsStatic : Iface → Bool
  | .osqp | .pdaqp => true
  | _ => false

/-- `inmemory_preconditioning`: ecos.py:31, clarabel.py:33, qoco.py:206; false: osqp.py:74, scs.py:64,
qoco.py:32, pdaqp.py:43. -/
def precond : Iface → Bool
  | .ecos | .clarabel | .qoco => true
  | _ => false

/-- `stgs_requires_extra_struct_type`: osqp.py:99, ecos.py:57, clarabel.py:59, qoco.py:232; false: scs.py:89,
qoco.py:58, pdaqp.py:63. -/
def stgsExtra : Iface → Bool
  | .osqp | .ecos | .clarabel | .qoco => true
  | .scs | .qocogen | .pdaqp => false

/-- `stgs_dynamically_allocated`: ecos.py:56, clarabel.py:58, qoco.py:231; false: osqp.py:98, scs.py:88,
qoco.py:57, pdaqp.py:64. -/
def stgsDynamic : Iface → Bool
  | .ecos | .clarabel | .qoco => true
  | _ => false

/-- `ret_prim_func_exists` (_interface.py:117-119; always true: ecos.py:127-129, clarabel.py:208-210,
qoco.py:134-136, 354-356). -/
def retPrim : Bool :=
  match I.iface with
  | .ecos | .clarabel | .qoco | .qocogen => true
  | _ => I.vars.any (fun v => v.sym) || I.vars.any (fun v => v.size == 1)

/-- `ret_dual_func_exists` (_interface.py:121-123; always true: ecos.py:131-133, clarabel.py:212-214,
qoco.py:138-140, 358-360). -/
def retDual : Bool :=
  match I.iface with
  | .ecos | .clarabel | .qoco | .qocogen => true
  | _ => I.duals.any (fun v => v.2 == 1)

/-- `result_prefix` (utils.py:585, 946). -/
def resultPre : Txt := if wsStatic I.iface then [] else I.pre

/-- The object named by `ws_ptrs.primal_solution`: osqp.py:84, pdaqp.py:55, scs.py:74, ecos.py:41, clarabel.py:43,
qoco.py:216, 42. -/
def primObj : Iface → Txt
  | .osqp | .pdaqp => S.sol_x
  | .scs => S.scs_x
  | .ecos => S.ecos_workspace
  | .clarabel => S.solution
  | .qoco => S.qoco_solver
  | .qocogen => S.qoco_custom_workspace

/-- The object named by `ws_ptrs.dual_solution` (osqp.py:85, pdaqp.py:56, scs.py:75, ecos.py:42, clarabel.py:44,
qoco.py:217, 43), with `y` as name of the vector where only one occurs. -/
def dualObj : Iface → Txt
  | .osqp | .pdaqp => S.sol_y
  | .scs => S.scs_y
  | .ecos => S.ecos_workspace
  | .clarabel => S.solution
  | .qoco => S.qoco_solver
  | .qocogen => S.qoco_custom_workspace

/-- The objects named by the pointers to objective value, iterations, status and residuals: osqp.py:79-83,
pdaqp.py:50-54, scs.py:69-73, ecos.py:36-40, clarabel.py:38-42, qoco.py:211-215, 37-41. -/
def infoObjs : Iface → List Txt
  | .osqp => [S.solver]
  | .pdaqp => [S.obj_val]
  | .scs => [S.Scs_Info]
  | .ecos => [S.ecos_workspace, S.ecos_flag]
  | .clarabel => [S.solution]
  | .qoco => [S.qoco_solver]
  | .qocogen => [S.qoco_custom_workspace]

/-- The object named by `ws_ptrs.settings`, where it is used (utils.py:1032-1034): ecos.py:43, clarabel.py:45,
qoco.py:218. -/
def primObjStgs : Iface → Txt
  | .ecos => S.ecos_workspace
  | .clarabel => S.settings
  | _ => S.qoco_solver

/-! ### workspace: cpg_workspace.h and cpg_workspace.c -/

/-- `p_id.isupper()`. -/
def upperId (t : Txt) : Bool := !t.isEmpty && t.all (fun c => 65 ≤ c.toNat && c.toNat ≤ 90)

/-- `write_mat_def` (utils.py:117-131). -/
def matItems (name : Txt) : List Item :=
  [⟨name ++ S._i, []⟩, ⟨name ++ S._p, []⟩, ⟨name ++ S._x, []⟩,
   ⟨name, [name ++ S._p, name ++ S._i, name ++ S._x]⟩]

/-- `write_param_def` (utils.py:297-308) for an id other than `d`. -/
def paramItems (pre suffix : Txt) (c : CanonP) : List Item :=
  if c.len = 0 then []
  else if upperId c.id then matItems (pre ++ S.canon_ ++ c.id ++ suffix)
  else [⟨pre ++ S.canon_ ++ c.id ++ suffix, []⟩]

/-- The keys of `parameter_canon.p`. -/
def keys (l : List CanonP) : List CanonP := l.filter (fun c => c.has)

/-- The ids that are written (utils.py:496-501). -/
def pIds : List CanonP :=
  (keys I.canon).filter fun c => I.explicit == 0 || (c.id != S.A && !(I.reduced && c.id == S.P))

/-- Does a user variable get an array of its own (utils.py:577-582, 595)? -/
def ownArray (v : Var) : Bool := v.size != 1 && (v.sym || !solStatic I.iface)
def ownDual (v : Txt × Nat) : Bool := v.2 != 1 && !solStatic I.iface

/-- The prefix used for the gradient's canonicalization in two stages. -/
def gpre : Txt := S.gradient_ ++ I.pre

/-- The object that primal and dual solution are read from while the workspace is written (writer.py:100-105). -/
def primPtr : Txt := resultPre I ++ (if I.two && I.gret then gpre I ++ S.sol_x else primObj I.iface)
def dualPtr : Txt := resultPre I ++ (if I.two then gpre I ++ S.sol_y else dualObj I.iface)

/-- Addresses in the definition of `Canon_Params` (utils.py:529-550). -/
def structUses (pre suffix : Txt) (l : List CanonP) : List Txt :=
  (l.filter fun c => c.len != 0 && c.id != S.d).map fun c => pre ++ S.canon_ ++ c.id ++ suffix

/-- Definitions of maps and canonical parameters (utils.py:490-554). -/
def canonItems (pre : Txt) (cond : Bool) (canon ids : List CanonP) : List Item :=
  ((canon.filter fun c => c.changes).flatMap fun c => matItems (pre ++ S.canon_ ++ c.id ++ S._map)) ++
  ((ids.filter fun c => c.id != S.d).flatMap fun c =>
    paramItems pre [] c ++ (if cond then paramItems pre S._conditioning c else []))

/-- `define_workspace` of the solver interfaces: scs.py:207-269, ecos.py:190-197, clarabel.py:308-323,
qoco.py:182-189, 412-419. -/
def solverItems : List Item :=
  let p := I.pre
  match I.iface with
  | .osqp | .pdaqp => []
  | .scs =>
    ((if I.quad then [S.P, S.A] else [S.A]).map fun m =>
      ⟨p ++ S.Scs_ ++ m, [p ++ S.canon_ ++ m ++ S._x, p ++ S.canon_ ++ m ++ S._i, p ++ S.canon_ ++ m ++ S._p]⟩) ++
    [⟨p ++ S.Scs_D, [p ++ S.Scs_ ++ S.A] ++ (if I.quad then [p ++ S.Scs_ ++ S.P] else []) ++
      [p ++ S.canon_ ++ S.b, p ++ S.canon_ ++ S.c]⟩] ++
    (if I.soc then [⟨p ++ S.scs_q, []⟩] else []) ++
    [⟨p ++ S.Scs_K, if I.soc then [p ++ S.scs_q] else []⟩, ⟨p ++ S.Canon_Settings, []⟩, ⟨p ++ S.scs_x, []⟩,
     ⟨p ++ S.scs_y, []⟩, ⟨p ++ S.scs_s, []⟩, ⟨p ++ S.Scs_Sol, [p ++ S.scs_x, p ++ S.scs_y, p ++ S.scs_s]⟩,
     ⟨p ++ S.Scs_Info, []⟩, ⟨p ++ S.Scs_Work, []⟩]
  | .ecos => (if I.soc then [⟨p ++ S.ecos_q, []⟩] else []) ++ [⟨p ++ S.ecos_workspace, []⟩, ⟨p ++ S.ecos_flag, []⟩]
  | .clarabel => [⟨p ++ S.P, []⟩, ⟨p ++ S.A, []⟩, ⟨p ++ S.cones, []⟩, ⟨p ++ S.settings, []⟩, ⟨p ++ S.solver, []⟩,
      ⟨p ++ S.solution, []⟩]
  | .qoco => (if I.soc then [⟨p ++ S.qoco_q, []⟩] else []) ++ [⟨p ++ S.qoco_solver, []⟩, ⟨p ++ S.qoco_flag, []⟩]
  | .qocogen => (if I.soc then [⟨p ++ S.qoco_custom_q, []⟩] else []) ++
      [⟨p ++ S.qoco_custom_workspace, []⟩, ⟨p ++ S.qoco_custom_flag, []⟩]

/-- `declare_workspace`: scs.py:181-204, ecos.py:181-188, clarabel.py:299-306, qoco.py:173-180, 403-410. -/
def solverDecls : List Txt :=
  let p := I.pre
  match I.iface with
  | .osqp | .pdaqp => []
  | .scs =>
    ((if I.quad then [S.P, S.A] else [S.A]).map fun m => p ++ S.scs_ ++ m) ++ [p ++ S.Scs_D] ++
    (if I.soc then [p ++ S.scs_q] else []) ++
    [p ++ S.Scs_K, p ++ S.Canon_Settings, p ++ S.scs_x, p ++ S.scs_y, p ++ S.scs_s, p ++ S.Scs_Sol, p ++ S.Scs_Info,
     p ++ S.Scs_Work]
  | .ecos => (if I.soc then [p ++ S.ecos_q] else []) ++ [p ++ S.ecos_workspace, p ++ S.ecos_flag]
  | .clarabel => [p ++ S.P, p ++ S.A, p ++ S.cones, p ++ S.settings, p ++ S.solver, p ++ S.solution]
  | .qoco => (if I.soc then [p ++ S.qoco_q] else []) ++ [p ++ S.qoco_solver, p ++ S.qoco_flag]
  | .qocogen => (if I.soc then [p ++ S.qoco_custom_q] else []) ++
      [p ++ S.qoco_custom_workspace, p ++ S.qoco_custom_flag]

/-- `write_workspace_def` with `full=True` (utils.py:470-689). -/
def wsItems : List Item :=
  let p := I.pre
  [⟨p ++ S.cpg_params_vec, []⟩] ++
  (if I.explicit = 0 then [] else [⟨p ++ S.cpg_params_vec_lower, []⟩, ⟨p ++ S.cpg_params_vec_upper, []⟩]) ++
  canonItems p (precond I.iface) I.canon (pIds I) ++
  (if I.explicit = 0 then [] else [⟨p ++ S.cpg_theta, []⟩, ⟨S.sol_x, []⟩]) ++
  (if I.explicit = 2 then [⟨S.sol_y, []⟩] else []) ++
  [⟨p ++ S.Canon_Params, structUses p [] (pIds I)⟩] ++
  (if precond I.iface then [⟨p ++ S.Canon_Params_conditioning, structUses p S._conditioning (pIds I)⟩] else []) ++
  [⟨p ++ S.Canon_Outdated, []⟩] ++
  (if I.gradient && !I.two then [⟨p ++ S.Canon_Outdated_Grad, []⟩] else []) ++
  ((I.vars.filter fun v => ownArray I v).map fun v => ⟨p ++ v.name, []⟩) ++
  [⟨p ++ S.CPG_Prim, (I.vars.filter fun v => v.size != 1).map fun v => if ownArray I v then p ++ v.name else primPtr I⟩] ++
  (if I.explicit = 1 ∨ I.duals = [] then [] else
    ((I.duals.filter fun v => ownDual I v).map fun v => ⟨p ++ v.1, []⟩) ++
    [⟨p ++ S.CPG_Dual, (I.duals.filter fun v => v.2 != 1).map fun v => if ownDual I v then p ++ v.1 else dualPtr I⟩]) ++
  (if I.explicit = 0 then [⟨p ++ S.CPG_Info, []⟩] else []) ++
  [⟨p ++ S.CPG_Result, [p ++ S.CPG_Prim] ++ (if I.explicit = 1 ∨ I.duals = [] then [] else [p ++ S.CPG_Dual]) ++
    (if I.explicit = 0 then [p ++ S.CPG_Info] else [])⟩] ++
  (if I.explicit = 0 ∧ stgsExtra I.iface = true then [⟨p ++ S.Canon_Settings, []⟩] else []) ++
  solverItems I ++
  (if I.gradient then [⟨p ++ S.cpg_dp, []⟩, ⟨p ++ S.CPG_Delta, I.params.map fun _ => p ++ S.cpg_dp⟩] else [])

/-- Declarations by the headers of the solver that the generated code relies on: `workspace.h` of OSQP as patched in
osqp.py:137-142, `pdaqp.h` as written by PDAQP and patched in pdaqp.py:238-261. -/
def libDecls : List Txt :=
  match I.iface with
  | .osqp => [S.solver, S.sol_x, S.sol_y]
  | .pdaqp => [S.pdaqp_evaluate] ++
      (if I.gradient then [S.pdaqp_active_region, S.pdaqp_feedbacks, S.pdaqp_hp_list] else [])
  | _ => []

/-- Declarations of canonical parameters (utils.py:808-832); the copies for preconditioning are declared with the
prefix of the configuration in either case (818). -/
def canonDecls (p cp : Txt) (cond : Bool) (canon : List CanonP) : List Txt :=
  ((canon.filter fun c => c.changes).map fun c => p ++ S.canon_ ++ c.id ++ S._map) ++
  (((keys canon).filter fun c => c.id != S.d && c.len != 0).flatMap fun c =>
    [p ++ S.canon_ ++ c.id] ++ (if cond then [cp ++ S.canon_ ++ c.id ++ S._conditioning] else []))

/-- `write_workspace_prot` with `full=True` (utils.py:692-882). -/
def wsDecls : List Txt :=
  let p := I.pre
  libDecls I ++
  [p ++ S.cpg_params_vec] ++
  (if I.explicit = 0 then [] else [p ++ S.cpg_params_vec_lower, p ++ S.cpg_params_vec_upper]) ++
  canonDecls p p (precond I.iface) I.canon ++
  (if I.explicit = 0 then [] else [p ++ S.cpg_theta, S.sol_x]) ++
  (if I.explicit = 2 then [S.sol_y] else []) ++
  [p ++ S.Canon_Params] ++
  (if precond I.iface then [p ++ S.Canon_Params_conditioning] else []) ++
  [p ++ S.Canon_Outdated] ++
  (if I.gradient && !I.two then [p ++ S.Canon_Outdated_Grad] else []) ++
  ((I.vars.filter fun v => ownArray I v).map fun v => p ++ S.cpg_ ++ v.name) ++
  ((I.duals.filter fun v => ownDual I v).map fun v => p ++ S.cpg_ ++ v.1) ++
  [p ++ S.CPG_Prim] ++
  (if I.explicit = 1 ∨ I.duals = [] then [] else [p ++ S.CPG_Dual]) ++
  (if I.explicit = 0 then [p ++ S.CPG_Info] else []) ++
  [p ++ S.CPG_Result] ++
  (if stgsExtra I.iface then [p ++ S.Canon_Settings] else []) ++
  solverDecls I ++
  (if I.gradient then [p ++ S.cpg_dp, p ++ S.CPG_Delta] else [])

/-- `cpg_gradient_workspace.h` and `.c`: the same two functions with `full=False` (writer.py:544-559). -/
def gwsItems : List Item :=
  canonItems (gpre I) false I.gcanon (keys I.gcanon) ++
  [⟨gpre I ++ S.Canon_Params, structUses (gpre I) [] (keys I.gcanon)⟩, ⟨gpre I ++ S.Canon_Outdated_Grad, []⟩]

def gwsDecls : List Txt :=
  canonDecls (gpre I) I.pre false I.gcanon ++ [gpre I ++ S.Canon_Params, gpre I ++ S.Canon_Outdated_Grad]

/-! ### cpg_solve.h and cpg_solve.c -/

/-- `write_solve_prot` (utils.py:1087-1141). -/
def solveDecls : List Txt :=
  let p := I.pre
  (I.params.map fun q => p ++ S.cpg_update_ ++ q.1) ++
  ((I.canon.filter fun c => c.changes).map fun c => p ++ S.cpg_canonicalize_ ++ c.id) ++
  (if retPrim I then [p ++ S.cpg_retrieve_prim] else []) ++
  (if I.explicit ≠ 1 ∧ retDual I = true then [p ++ S.cpg_retrieve_dual] else []) ++
  (if I.explicit = 0 then [p ++ S.cpg_retrieve_info] else []) ++
  (if precond I.iface then
    ((I.canon.filter fun c => c.id != S.d).map fun c => p ++ S.cpg_copy_ ++ c.id) ++ [p ++ S.cpg_copy_all] else []) ++
  [p ++ S.cpg_solve] ++
  (if I.explicit ≠ 0 ∧ I.reduced = false then [p ++ S.cpg_obj] else []) ++
  (if I.explicit = 0 then [p ++ S.cpg_set_solver_default_settings] ++
    (I.settings.map fun s => p ++ S.cpg_set_solver_ ++ s) else [])

/-- Is `cpg_retrieve_dual` written (utils.py:963, 1042)? -/
def writesDual : Bool := decide (I.explicit ≠ 1) && (retDual I || I.two)

/-- What the calls of the update structure and the call of the solver mention: osqp.py:20-62, scs.py:24-46,
ecos.py:23, 88-117, clarabel.py:172-204, qoco.py:24, 93-124, 198, 267-344, pdaqp.py:78-79. -/
def solverUses : List Txt :=
  let p := I.pre
  match I.iface with
  | .osqp => [S.solver, p ++ S.Canon_Params]
  | .scs => [p ++ S.Scs_Work, p ++ S.Scs_D, p ++ S.Scs_K, p ++ S.Canon_Settings, p ++ S.Canon_Params, p ++ S.Scs_Sol,
      p ++ S.Scs_Info]
  | .ecos => [S.i, p ++ S.ecos_workspace, p ++ S.ecos_flag, p ++ S.cpg_copy_all, p ++ S.Canon_Params_conditioning] ++
      (if I.soc then [p ++ S.ecos_q] else []) ++
      ((I.canon.filter fun c => c.id == S.c || c.id == S.h).map fun c => p ++ S.cpg_copy_ ++ c.id)
  | .clarabel => [p ++ S.solver, p ++ S.P, p ++ S.A, p ++ S.settings, p ++ S.cones, p ++ S.solution,
        p ++ S.cpg_copy_all, p ++ S.Canon_Params_conditioning] ++
      ((I.canon.filter fun c => c.changes && c.id != S.d).map fun c => p ++ S.cpg_copy_ ++ c.id)
  | .qoco => [p ++ S.qoco_solver, p ++ S.cpg_copy_all, p ++ S.Canon_Params] ++ (if I.soc then [p ++ S.qoco_q] else [])
  | .qocogen => [p ++ S.qoco_custom_workspace, p ++ S.Canon_Params]
  | .pdaqp => [S.pdaqp_evaluate, p ++ S.cpg_theta, S.sol_x] ++ (if I.explicit = 2 then [S.sol_y] else [])

/-- The object that `cpg_set_solver_default_settings` mentions (utils.py:1072-1076), if any. -/
def resetUses : List Txt :=
  match I.iface with
  | .osqp => [S.solver]
  | .qocogen => [I.pre ++ S.qoco_custom_workspace]
  | .scs => [I.pre ++ S.Canon_Settings]
  | _ => I.settings.map fun _ => I.pre ++ S.Canon_Settings

/-- The object that the other functions for settings write (utils.py:1080-1083). -/
def setUses : Txt :=
  match I.iface with
  | .osqp => S.solver
  | .qocogen => I.pre ++ S.qoco_custom_workspace
  | _ => I.pre ++ S.Canon_Settings

/-- `write_canonicalize` (utils.py:279-294). -/
def canonicalizeUses (p pp id : Txt) : List Txt :=
  [p ++ S.Canon_Params, p ++ S.canon_ ++ id ++ S._map, pp ++ S.cpg_params_vec]

/-- `write_solve_def` (utils.py:885-1084); the flags set by an update function are those of
`user_p_name_to_canon_outdated`, some of which may be missing for a particular parameter. -/
def solveItems : List Item :=
  let p := I.pre
  (I.params.map fun q => ⟨p ++ S.cpg_update_ ++ q.1,
    (if I.explicit = 0 then [] else [p ++ S.cpg_params_vec_lower, p ++ S.cpg_params_vec_upper]) ++
    [p ++ S.cpg_params_vec, p ++ S.Canon_Outdated] ++
    (if I.gradient && !I.two then [p ++ S.Canon_Outdated_Grad] else []) ++
    (if I.two then [gpre I ++ S.Canon_Outdated_Grad] else [])⟩) ++
  ((I.canon.filter fun c => c.changes).map fun c =>
    ⟨p ++ S.cpg_canonicalize_ ++ c.id, S.i :: S.j :: canonicalizeUses p p c.id⟩) ++
  (if retPrim I then [⟨p ++ S.cpg_retrieve_prim,
    (if I.two then [gpre I ++ S.cpg_retrieve_intermediate_primal] else []) ++
    [p ++ S.CPG_Prim, resultPre I ++ primObj I.iface]⟩] else []) ++
  (if writesDual I then [⟨p ++ S.cpg_retrieve_dual,
    (if I.two then [gpre I ++ S.cpg_retrieve_intermediate_dual] else []) ++
    (if I.duals = [] then [] else [p ++ S.CPG_Dual, resultPre I ++ dualObj I.iface])⟩] else []) ++
  (if I.explicit = 0 then [⟨p ++ S.cpg_retrieve_info, [p ++ S.CPG_Info, p ++ S.Canon_Params] ++
    ((infoObjs I.iface).map fun o => resultPre I ++ o)⟩] else []) ++
  (if precond I.iface then
    ((I.canon.filter fun c => c.id != S.d).map fun c =>
      ⟨p ++ S.cpg_copy_ ++ c.id, if c.len = 0 then [] else [S.i, p ++ S.Canon_Params_conditioning, p ++ S.Canon_Params]⟩) ++
    [⟨p ++ S.cpg_copy_all, ((keys I.canon).filter fun c => c.id != S.d).map fun c => p ++ S.cpg_copy_ ++ c.id⟩]
    else []) ++
  [⟨p ++ S.cpg_solve, [p ++ S.Canon_Outdated] ++
    ((I.canon.filter fun c => c.changes).map fun c => p ++ S.cpg_canonicalize_ ++ c.id) ++
    (if I.explicit = 0 then [] else [p ++ S.cpg_theta, p ++ S.Canon_Params]) ++
    solverUses I ++
    (if stgsDynamic I.iface then I.settings.flatMap fun _ =>
      [p ++ primObjStgs I.iface, p ++ S.Canon_Settings] else []) ++
    (if retPrim I then [p ++ S.cpg_retrieve_prim] else []) ++
    (if writesDual I then [p ++ S.cpg_retrieve_dual] else []) ++
    (if I.explicit = 0 then [p ++ S.cpg_retrieve_info] else [])⟩] ++
  (if I.explicit ≠ 0 ∧ I.reduced = false then
    [⟨p ++ S.cpg_obj, [S.obj_val, S.i, S.j, S.sol_x, p ++ S.Canon_Params]⟩] else []) ++
  (if I.explicit = 0 then [⟨p ++ S.cpg_set_solver_default_settings, resetUses I⟩] ++
    (I.settings.map fun s => ⟨p ++ S.cpg_set_solver_ ++ s, [setUses I]⟩) else [])

/-! ### gradient -/

/-- `cpg_gradient.h` (writer.py:315-351, 432-442). -/
def gradDecls : List Txt :=
  (if I.two then
    (if I.gret then [gpre I ++ S.cpg_retrieve_intermediate_primal] else []) ++
    [gpre I ++ S.cpg_retrieve_intermediate_dual, gpre I ++ S.sol_x, gpre I ++ S.sol_y] else []) ++
  (I.vars.map fun v => I.pre ++ S.cpg_update_d ++ v.name) ++ [I.pre ++ S.cpg_gradient]

/-- The canonical parameters that `cpg_gradient` works with, and their prefix (writer.py:153-156, 560-588). -/
def gradCanon : List CanonP := if I.two then I.gcanon else I.canon
def gradPre : Txt := if I.two then gpre I else I.pre

/-- `_write_gradient_def` (writer.py:145-312). -/
def gradItems : List Item :=
  let p := I.pre
  let g := gradPre I
  (if I.two then
    [⟨g ++ S.sol_x, if I.gret then [] else [resultPre I ++ primObj I.iface]⟩, ⟨g ++ S.sol_y, []⟩] ++
    (if I.gret then [⟨g ++ S.cpg_retrieve_intermediate_primal, [g ++ S.sol_x, resultPre I ++ primObj I.iface]⟩]
      else []) ++
    [⟨g ++ S.cpg_retrieve_intermediate_dual, [g ++ S.sol_y, resultPre I ++ dualObj I.iface]⟩] ++
    ((I.gcanon.filter fun c => c.changes).map fun c =>
      ⟨g ++ S.cpg_canonicalize_ ++ c.id, S.i :: S.j :: canonicalizeUses g p c.id⟩) else []) ++
  (I.vars.map fun v => ⟨p ++ S.cpg_update_d ++ v.name, [g ++ S.CPG_OSQP_Grad]⟩) ++
  [⟨p ++ S.cpg_gradient,
    (if I.two then ((gradCanon I).filter fun c => c.changes).map fun c => g ++ S.cpg_canonicalize_ ++ c.id else []) ++
    (((gradCanon I).filter fun c => c.changes && upperId c.id).flatMap fun c =>
      [S.cpg_ ++ c.id ++ S._to_K, g ++ S.Canon_Params]) ++
    [g ++ S.CPG_OSQP_Grad, S.cpg_ldl_symbolic, S.cpg_ldl_numeric, S.cpg_osqp_gradient, p ++ S.cpg_dp] ++
    (((gradCanon I).filter fun c => c.changes && c.id != S.d).map fun c => g ++ S.canon_ ++ c.id ++ S._map) ++
    (((gradCanon I).filter fun c => c.changes).map fun _ => g ++ S.Canon_Outdated_Grad)⟩]

/-- `_write_gradient_explicit` (writer.py:449-512). -/
def gradItemsExplicit : List Item :=
  let p := I.pre
  (I.vars.map fun v => ⟨p ++ S.cpg_update_d ++ v.name, [S.cpg_dx]⟩) ++
  [⟨p ++ S.cpg_gradient, [S.pdaqp_hp_list, S.pdaqp_active_region, S.pdaqp_feedbacks, S.cpg_dtheta, S.cpg_dx,
      p ++ S.cpg_dp] ++
    ((I.canon.filter fun c => c.changes && (c.id == S.q || c.id == S.u)).map fun c =>
      p ++ S.canon_ ++ c.id ++ S._map)⟩]

/-- The workspace of the derivative (writer.py:354-416). -/
def gradWsNames : List (Txt × Bool) :=
  ["a", "etree", "Lnz", "iwork", "bwork", "fwork"].map (fun s => (s.toList, false)) ++ [("L".toList, true)] ++
  ["Lmask", "D", "Dinv"].map (fun s => (s.toList, false)) ++ [("K".toList, true), ("K_true".toList, true)] ++
  ["rhs", "delta", "c", "w", "wi", "l", "li", "lx", "dx", "r", "dq", "dl", "du"].map (fun s => (s.toList, false)) ++
  [("dP".toList, true), ("dA".toList, true)]

def gradWsItems : List Item :=
  (gradWsNames.flatMap fun w => if w.2 then matItems (I.pre ++ S.cpg_osqp_grad_ ++ w.1)
    else [⟨I.pre ++ S.cpg_osqp_grad_ ++ w.1, []⟩]) ++
  [⟨I.pre ++ S.CPG_OSQP_Grad, gradWsNames.map fun w => I.pre ++ S.cpg_osqp_grad_ ++ w.1⟩]

/-- `sol_x_var` and `sol_y_var` (utils.py:1623-1624). -/
def gradSolX : Txt := if I.two then I.pre ++ S.sol_x else S.sol_x
def gradSolY : Txt := if I.two then I.pre ++ S.sol_y else S.sol_y

/-- cpg_osqp_grad_compute.c.jinja2; its header declares the functions from `cpg_rank_1_update` on but is not included
by the file itself. -/
def computeItems : List Item :=
  let w := I.pre ++ S.CPG_OSQP_Grad
  [⟨S.n, []⟩, ⟨S.N, []⟩, ⟨S.cpg_grad_a, []⟩, ⟨S.cpg_grad_a_bar, []⟩, ⟨S.cpg_grad_gamma, []⟩,
   ⟨S.insert_nonzero, [S.N]⟩, ⟨S.insert_nonzero_and_value, [S.N]⟩, ⟨S.remove_nonzero, [S.N]⟩,
   ⟨S.symbolic_ldl_update, [w, S.N, S.insert_nonzero]⟩, ⟨S.symbolic_ldl_downdate, [S.remove_nonzero]⟩,
   ⟨S.cpg_rank_1_update, [w, S.N, S.cpg_grad_a, S.cpg_grad_a_bar, S.cpg_grad_gamma]⟩,
   ⟨S.cpg_ldl_delete, [w, S.N, S.symbolic_ldl_update, S.cpg_rank_1_update]⟩,
   ⟨S.cpg_ldl_add, [w, S.N, S.insert_nonzero_and_value, S.cpg_rank_1_update]⟩,
   ⟨S.cpg_ldl_symbolic, [w, S.N]⟩, ⟨S.cpg_ldl_numeric, [w, S.N]⟩,
   ⟨S.cpg_P_to_K, [S.n]⟩, ⟨S.cpg_A_to_K, [S.n]⟩,
   ⟨S.cpg_osqp_gradient, [w, S.n, S.N, gradSolX I, gradSolY I, S.cpg_ldl_add, S.cpg_ldl_delete]⟩]

/-- cpg_osqp_grad_compute.h.jinja2 and cpg_osqp_grad_workspace.h.jinja2. -/
def computeDecls : List Txt :=
  [S.cpg_rank_1_update, S.cpg_ldl_add, S.cpg_ldl_delete, S.cpg_P_to_K, S.cpg_A_to_K, S.cpg_ldl_symbolic,
   S.cpg_ldl_numeric, S.cpg_osqp_gradient]
def gradWsDecls : List Txt := [I.pre ++ S.CPG_OSQP_Grad]

/-! ### example program and Python module -/

/-- cpg_example.c.jinja2; `CPG_Result` has no prefix where sensitivities are passed. -/
def exampleItems : List Item :=
  let p := I.pre
  [⟨S.main, (I.params.map fun q => p ++ S.cpg_update_ ++ q.1) ++ [p ++ S.cpg_solve, p ++ S.CPG_Result] ++
    (if I.gradient then
      (I.vars.flatMap fun v => [p ++ S.cpg_update_d ++ v.name, S.CPG_Result]) ++ [p ++ S.cpg_gradient] ++
      (I.params.map fun _ => p ++ S.CPG_Delta) else [])⟩]

/-- cpg_module.cpp (utils.py:1193-1328, 1331, 1392, 1406-1410). -/
def moduleItems : List Item :=
  let p := I.pre
  [⟨p ++ S.solve_cpp, (I.params.map fun q => p ++ S.cpg_update_ ++ q.1) ++ [p ++ S.cpg_solve] ++
    (I.vars.map fun _ => p ++ S.CPG_Prim) ++
    (if I.explicit = 1 then [] else I.duals.map fun _ => p ++ S.CPG_Dual) ++
    (if I.explicit = 0 then [p ++ S.CPG_Info] else []) ++
    (if I.gradient then if I.explicit = 0 then [S.sol_x, S.sol_y] else [S.pdaqp_active_region] else [])⟩] ++
  (if I.gradient then [⟨p ++ S.gradient_cpp,
    (if I.explicit = 0 then [S.sol_x, S.sol_y] else [S.pdaqp_active_region]) ++
    (I.vars.map fun v => p ++ S.cpg_update_d ++ v.name) ++ [p ++ S.cpg_gradient] ++
    (I.params.map fun _ => p ++ S.CPG_Delta)⟩] else []) ++
  [⟨S.PYBIND11_MODULE, [p ++ S.solve_cpp] ++ (if I.gradient then [p ++ S.gradient_cpp] else []) ++
    (if I.explicit = 0 then [p ++ S.cpg_set_solver_default_settings] ++
      (I.settings.map fun s => p ++ S.cpg_set_solver_ ++ s) else [])⟩]

/-! ### all files -/

def wsFile : CFile :=
  ⟨wsDecls I ++ (if I.two then gradDecls I ++ gwsDecls I else []), [], wsItems I⟩
def solveFile : CFile :=
  ⟨wsDecls I ++ solveDecls I ++ (if I.two then gradDecls I ++ gwsDecls I else []),
   [S.i, S.j] ++ (if I.explicit = 0 then [] else [S.obj_val]), solveItems I⟩
def gradFile : CFile :=
  if I.explicit = 0 then
    ⟨wsDecls I ++ gradDecls I ++ (if I.two then gwsDecls I else []) ++ gradWsDecls I ++ computeDecls,
     [S.i, S.j, S.k], gradItems I⟩
  else ⟨wsDecls I ++ gradDecls I, [S.i, S.j, S.kk, S.cpg_dx, S.cpg_dtheta], gradItemsExplicit I⟩
def computeFile : CFile :=
  ⟨wsDecls I ++ gradWsDecls I ++ (if I.two then gradDecls I else []), [], computeItems I⟩
def gradWsFile : CFile := ⟨wsDecls I ++ gradWsDecls I, [], gradWsItems I⟩
def gwsFile : CFile := ⟨wsDecls I ++ gwsDecls I ++ gradDecls I, [], gwsItems I⟩
def exampleFile : CFile :=
  ⟨wsDecls I ++ solveDecls I ++ (if I.gradient then gradDecls I else []), [S.i], exampleItems I⟩
def moduleFile : CFile :=
  ⟨wsDecls I ++ solveDecls I ++ (if I.gradient then gradDecls I ++
      (if I.explicit = 0 then gradWsDecls I ++ computeDecls else []) else []) ++ (if I.two then gwsDecls I else []),
   [S.i], moduleItems I⟩

/-- The files of the library (CMakeLists.txt.jinja2, target `cpg`). -/
def libFiles : List CFile :=
  [wsFile I, solveFile I] ++
  (if I.gradient then [gradFile I] ++
    (if I.explicit = 0 then [computeFile I, gradWsFile I] ++ (if I.two then [gwsFile I] else []) else []) else [])

/-- Writing the workspace of the derivative looks up `P` and `A` of the canonical parameters (writer.py:359-370,
540-542), which in two stages are those handed to the solver. -/
def writeFiles : Except Err (List CFile) :=
  if I.gradient && decide (I.explicit = 0) && !((keys I.canon).any (fun c => c.id == S.P) &&
    (keys I.canon).any (fun c => c.id == S.A)) then .error .keyError
  else .ok (libFiles I)

/-- Definitions with external linkage in the library, and what the code of the solver defines for it. -/
def libDefs : List Txt := (libFiles I).flatMap fun f => f.items.map fun it => it.name
def extDefs : List Txt := libDecls I

end Verif.Model.Symbols
