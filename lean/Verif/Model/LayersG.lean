import Verif.Model.GradPipe
import Verif.Model.Layers
/-!
Differentiation in one stage with a solution passed as argument, and the functions `forward` and `backward` of the generated
Python file, which CVXPYlayers calls.

Sources: /repo/cvxpygen/templates/cpg_solver.py.jinja2:117, 135-155, 176-212, /repo/cvxpygen/utils.py:1254-1259 (solution returned
by `solve_cpp`), 1284-1294 (solution taken over by `gradient_cpp`), /repo/cvxpygen/templates/cpg_module.hpp.jinja2:42-45
(`std::array`s, to which pybind11 assigns lists of the same length only). As in `Layers`, parameters and variables are identified
by their names and one problem object is used throughout.
-/
namespace Verif.Model.LayersG
open Verif.Model Verif.Model.Pipeline Verif.Model.Saved Verif.Model.GradPipe Verif.Model.Layers
open Verif.Spec (fn)

variable {R S : Type}

/-- A solution in canonical form, as lists. -/
abbrev GSol (R : Type) := List R × List R

/-- What `solve_cpp` copies (utils.py:1254-1259) and `cpg_solve_and_gradient_info` returns (template:117). -/
def solInfo (G : GProb R) (sol : (Nat → R) × (Nat → R)) : GSol R :=
  ((List.range G.dims.n).map sol.1, (List.range G.dims.nu).map sol.2)

/-- The loops of utils.py:1288-1293. -/
def overwrite [Zero R] (n : Nat) (l : List R) (old : Nat → R) : Nat → R := fun i => if i < n then fn l i else old i

section
variable [Field R] [DecidableEq R] [LT R] [DecidableRel (fun x y : R => x < y)]

/-- `cpg_gradient(prob, gradient_sol_primal, gradient_sol_dual)`, template:135-173. If one of the two is missing, the other one is
ignored (template:147). The solution reaches `sol_x`, `sol_y` in `gradient_cpp`, that is after the gradients of the variables
were collected without an error. -/
def gradientAt (lib : Lib R) (G : GProb R) (θ0 : G.prob.Vec) (F : Files) (st : St R S G) (sp sd : Option (List R)) :
    Option (St R S G × Except PyErr Unit) :=
  match sp, sd with
  | some x, some y =>
    if x.length = G.dims.n ∧ y.length = G.dims.nu then
      match vdelta G.prob.vs st.vgrad with
      | .error e => some (st, .error (toPyErr e))
      | .ok _ => gradient lib G θ0 F { st with sol := (overwrite G.dims.n x st.sol.1, overwrite G.dims.nu y st.sol.2) }
    else some (st, .error .typeError)
  | _, _ => gradient lib G θ0 F st

/-- State of the process, and the contexts of the forward calls so far with `info["gradient_primal"]`, `info["gradient_dual"]`. -/
structure GLSt (R S : Type) (G : GProb R) where
  st : St R S G
  infos : List (Ctx × GSol R)

/-- `forward(params, context)` (template:176-193). -/
def forward (G : GProb R) (θ0 : G.prob.Vec) (sg : Stgs S) (big : R) (solver : SolverFn R S) (F : Files) (s : GLSt R S G)
    (ctx : Ctx) (vals : List (List Nat → R)) (u : Option (List String)) (kw : List (String × S)) :
    Option (GLSt R S G × Except LErr (List (Option (List R)))) :=
  let (tv, found) := putVals (G.prob.tps.map (·.name)) s.st.pipe.tvals (ctx.params.zip vals)
  let st1 : St R S G := { s.st with pipe := { s.st.pipe with tvals := tv } }
  if found then
    match GradPipe.solve G θ0 sg big solver F st1 u kw with
    | none => none
    | some (st2, .error e) => some ({ s with st := st2 }, .error (.py e))
    | some (st2, .ok _) =>
      if ctx.vars.all fun n => (G.prob.vs.map UVar.name).contains n then
        some (⟨st2, s.infos ++ [(ctx, solInfo G st2.sol)]⟩, .ok (ctx.vars.map st2.pipe.obj.prim))
      else some ({ s with st := st2 }, .error .stop)
  else some ({ s with st := st1 }, .error .stop)

/-- `backward(dvars, context)` (template:196-212) of the context of the forward call number `k`. -/
def backward (lib : Lib R) (G : GProb R) (θ0 : G.prob.Vec) (F : Files) (s : GLSt R S G) (k : Nat) (dvars : List (Backward.Arr R)) :
    Option (GLSt R S G × Except LErr (List (Option (List Nat → Option R)))) :=
  match s.infos[k]? with
  | none => some (s, .error .stop)
  | some (ctx, sol) =>
    let (gr, found) := putGrads (G.prob.vs.map UVar.name) s.st.vgrad (ctx.vars.zip dvars)
    let st1 : St R S G := { s.st with vgrad := gr }
    if found then
      match gradientAt lib G θ0 F st1 (some sol.1) (some sol.2) with
      | none => none
      | some (st2, .error e) => some ({ s with st := st2 }, .error (.py e))
      | some (st2, .ok _) =>
        if ctx.params.all fun n => (G.prob.tps.map (·.name)).contains n then some ({ s with st := st2 }, .ok (ctx.params.map st2.pgrad))
        else some ({ s with st := st2 }, .error .stop)
    else some ({ s with st := st1 }, .error .stop)

/-- What happens in a process: operations of the user, gradients with a solution passed, and calls by CVXPYlayers. -/
inductive GLOp (R S : Type) where
  | user (op : GradPipe.Op R S)
  | gradientAt (sp sd : Option (List R))
  | forward (ctx : Ctx) (vals : List (List Nat → R)) (updated : Option (List String)) (kwargs : List (String × S))
  | backward (k : Nat) (dvars : List (Backward.Arr R))

def glstep (lib : Lib R) (G : GProb R) (θ0 : G.prob.Vec) (sg : Stgs S) (big : R) (solver : SolverFn R S) (F : Files)
    (s : GLSt R S G) : GLOp R S → Option (GLSt R S G)
  | .user op => (GradPipe.step lib G θ0 sg big solver F s.st op).map fun st => { s with st := st }
  | .gradientAt sp sd => (gradientAt lib G θ0 F s.st sp sd).map fun r => { s with st := r.1 }
  | .forward ctx vals u kw => (forward G θ0 sg big solver F s ctx vals u kw).map Prod.fst
  | .backward k dvars => (backward lib G θ0 F s k dvars).map Prod.fst

def glrun (lib : Lib R) (G : GProb R) (θ0 : G.prob.Vec) (sg : Stgs S) (big : R) (solver : SolverFn R S) (F : Files)
    (s : GLSt R S G) (ops : List (GLOp R S)) : Option (GLSt R S G) := ops.foldlM (glstep lib G θ0 sg big solver F) s

end
end Verif.Model.LayersG
