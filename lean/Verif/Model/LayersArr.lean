import Verif.Model.GradArr
import Verif.Model.LayersG
/-!
The functions `forward` and `backward` that CVXPYlayers calls, and `cpg_gradient` with a solution passed as argument, down to the arrays
of the C code: as `LayersG`, but with the arrays of `GradArr`, every access to which is checked.

Sources: /repo/cvxpygen/templates/cpg_solver.py.jinja2:135-173 (`cpg_gradient`), 176-212 (`forward`, `backward`),
/repo/cvxpygen/utils.py:1254-1259 (`sol_x`, `sol_y` copied by `solve_cpp`), 1284-1294 (taken over by `gradient_cpp`).
-/
namespace Verif.Model.LayersArr
open Verif.Model Verif.Model.Pipeline Verif.Model.GradPipe Verif.Model.GradArr Verif.Model.Layers Verif.Model.LayersG

variable {R S : Type}

/-- `sol_x[i] = CPG_GSol_cpp.primal[i];` (utils.py:1289, 1292). `none`: an access outside of an array. -/
def takeOne (l : List R) (a : List R) (i : Nat) : Option (List R) := do
  let v ← l[i]?
  if i < a.length then some (a.set i v) else none

/-- The loops over `i` (utils.py:1288-1293). -/
def takeOver (n : Nat) (l : List R) (a : List R) : Option (List R) := (List.range n).foldlM (takeOne l) a

/-- `for(i=0; i<n; i++) { CPG_Info_cpp.gradient_primal[i] = sol_x[i]; }` (utils.py:1254-1259); the `std::array` on the left has `n`
entries (cpg_module.hpp.jinja2:63-64). `none`: an access outside of an array. -/
def copyOut (n : Nat) (a : List R) : Option (List R) := (List.range n).mapM fun i => a[i]?

section
variable [Field R] [DecidableEq R] [LT R] [DecidableRel (fun x y : R => x < y)]

/-- `cpg_gradient(prob, gradient_sol_primal, gradient_sol_dual)` (template:135-173). Lists of a wrong length are rejected when they are
assigned to the `std::array`s of `gradient_sol` (template:148-149); `sol_x` and `sol_y` are overwritten in `gradient_cpp`, after the
gradients of the variables were collected. -/
def gradientAt (F : GradMem.Flops R) (Q : GradMem.Qdldl R) (A : AProb R) (files : Files) (st : GradArr.St R S A.toG)
    (sp sd : Option (List R)) : Option (GradArr.St R S A.toG × Except PyErr Unit) :=
  match sp, sd with
  | some x, some y =>
    if x.length = A.dims.n ∧ y.length = A.dims.nu then
      match vdelta A.prob.vs st.vgrad with
      | .error e => some (st, .error (toPyErr e))
      | .ok _ =>
        match takeOver A.dims.n x st.x, takeOver A.dims.nu y st.y with
        | some x', some y' => GradArr.gradient F Q A files { st with x := x', y := y' }
        | _, _ => none
    else some (st, .error .typeError)
  | _, _ => GradArr.gradient F Q A files st

/-- State of the process, and the contexts of the forward calls so far with `info["gradient_primal"]`, `info["gradient_dual"]`. -/
structure ALSt (R S : Type) (A : AProb R) [Zero R] where
  st : GradArr.St R S A.toG
  infos : List (Ctx × GSol R)

/-- `forward(params, context)` (template:176-193). -/
def forward (A : AProb R) (θ0 : A.prob.Vec) (sg : Stgs S) (big : R) (solver : SolverFn R S) (files : Files) (s : ALSt R S A)
    (ctx : Ctx) (vals : List (List Nat → R)) (u : Option (List String)) (kw : List (String × S)) :
    Option (ALSt R S A × Except LErr (List (Option (List R)))) :=
  let (tv, found) := putVals (A.prob.tps.map (·.name)) s.st.pipe.tvals (ctx.params.zip vals)
  let st1 : GradArr.St R S A.toG := { s.st with pipe := { s.st.pipe with tvals := tv } }
  if found then
    match GradArr.solve A.toG θ0 sg big solver files st1 u kw with
    | none => none
    | some (st2, .error e) => some ({ s with st := st2 }, .error (.py e))
    | some (st2, .ok _) =>
      match copyOut A.dims.n st2.x, copyOut A.dims.nu st2.y with
      | some x, some y =>
        if ctx.vars.all fun n => (A.prob.vs.map UVar.name).contains n then
          some (⟨st2, s.infos ++ [(ctx, x, y)]⟩, .ok (ctx.vars.map st2.pipe.obj.prim))
        else some ({ s with st := st2 }, .error .stop)
      | _, _ => none
  else some ({ s with st := st1 }, .error .stop)

/-- `backward(dvars, context)` (template:196-212) of the context of the forward call number `k`. -/
def backward (F : GradMem.Flops R) (Q : GradMem.Qdldl R) (A : AProb R) (files : Files) (s : ALSt R S A) (k : Nat)
    (dvars : List (Backward.Arr R)) : Option (ALSt R S A × Except LErr (List (Option (List Nat → Option R)))) :=
  match s.infos[k]? with
  | none => some (s, .error .stop)
  | some (ctx, sol) =>
    let (gr, found) := putGrads (A.prob.vs.map UVar.name) s.st.vgrad (ctx.vars.zip dvars)
    let st1 : GradArr.St R S A.toG := { s.st with vgrad := gr }
    if found then
      match gradientAt F Q A files st1 (some sol.1) (some sol.2) with
      | none => none
      | some (st2, .error e) => some ({ s with st := st2 }, .error (.py e))
      | some (st2, .ok _) =>
        if ctx.params.all fun n => (A.prob.tps.map (·.name)).contains n then some ({ s with st := st2 }, .ok (ctx.params.map st2.pgrad))
        else some ({ s with st := st2 }, .error .stop)
    else some ({ s with st := st1 }, .error .stop)

/-- One operation; errors are raised to the caller, who goes on. `none`: an access outside of an array. -/
def step (F : GradMem.Flops R) (Q : GradMem.Qdldl R) (A : AProb R) (θ0 : A.prob.Vec) (sg : Stgs S) (big : R) (solver : SolverFn R S)
    (files : Files) (s : ALSt R S A) : GLOp R S → Option (ALSt R S A)
  | .user op => (GradArr.step F Q A θ0 sg big solver files s.st op).map fun st => { s with st := st }
  | .gradientAt sp sd => (gradientAt F Q A files s.st sp sd).map fun r => { s with st := r.1 }
  | .forward ctx vals u kw => (forward A θ0 sg big solver files s ctx vals u kw).map Prod.fst
  | .backward k dvars => (backward F Q A files s k dvars).map Prod.fst

def run (F : GradMem.Flops R) (Q : GradMem.Qdldl R) (A : AProb R) (θ0 : A.prob.Vec) (sg : Stgs S) (big : R) (solver : SolverFn R S)
    (files : Files) (s : ALSt R S A) (ops : List (GLOp R S)) : Option (ALSt R S A) :=
  ops.foldlM (step F Q A θ0 sg big solver files) s

end
end Verif.Model.LayersArr
