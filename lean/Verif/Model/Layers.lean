import Verif.Model.ExGrad
/-!
The functions `forward` and `backward` of the generated Python file, which CVXPYlayers calls, in explicit mode.

Sources: /repo/cvxpygen/templates/cpg_solver.py.jinja2:176-212. CVXPYlayers keeps a context per forward call: the ids of the
parameters, the variables, and what `forward` returned as `info`. Parameters and variables are identified by their names here
(the generated code needs distinct names anyway, C52). Arrays assigned to `p.value` have the shape of the parameter, otherwise CVXPY
raises. One problem object is used throughout (`solver_args["problem"]`).
-/
namespace Verif.Model.Layers
open Verif.Model Verif.Model.Pipeline Verif.Model.Saved Verif.Model.ExPipe Verif.Model.ExGrad

variable {R : Type}

/-- The part of a context that is fixed when the layer is made. -/
structure Ctx where
  params : List String
  vars : List String

/-- What is raised: errors of the generated functions, `StopIteration` of `next`. -/
inductive LErr where
  | py (e : PyErr)
  | stop

/-- State of the process and the contexts of the forward calls so far, with `info["region"]`. -/
structure LSt (E : EProb R) where
  st : XSt E
  infos : List (Ctx × Option Nat)

/-- template:182-183: `next(p for p in parameters if p.id == pid).value = val` for each; `zip` stops at the shorter list. The flag
says whether all were found; values assigned before stay. -/
def putVals (names : List String) : (String → Option (List Nat → R)) → List (String × (List Nat → R)) → (String → Option (List Nat → R)) × Bool
  | tv, [] => (tv, true)
  | tv, (n, t) :: l => if names.contains n then putVals names (fun m => if m = n then some t else tv m) l else (tv, false)

/-- template:200-201. -/
def putGrads (names : List String) : (String → Option (Backward.Arr R)) → List (String × Backward.Arr R) → (String → Option (Backward.Arr R)) × Bool
  | gr, [] => (gr, true)
  | gr, (n, g) :: l => if names.contains n then putGrads names (fun m => if m = n then some g else gr m) l else (gr, false)

section
variable [Field R] [LinearOrder R]

/-- `forward(params, context)` (template:176-193): the values of the variables of the context. -/
def forward {S : Type} (E : EProb R) (θ0 : E.prob.Vec) (F : EFiles R) (T : XTab R) (sol : List R → Nat → R) (clock : Nat → R) (s : LSt E)
    (ctx : Ctx) (vals : List (List Nat → R)) (u : Option (List String)) (kw : List (String × S)) :
    Option (LSt E × Except LErr (List (Option (List R)))) :=
  let (tv, found) := putVals (E.tps.map (·.name)) s.st.base.tvals (ctx.params.zip vals)
  let st1 : XSt E := { s.st with base := { s.st.base with tvals := tv } }
  if found then
    match xsolve E θ0 F T sol clock st1 u kw with
    | none => none
    | some (st2, .error e) => some ({ s with st := st2 }, .error (.py e))
    | some (st2, .ok (_, region)) =>
      if ctx.vars.all fun n => (E.vs.map UVar.name).contains n then
        some (⟨st2, s.infos ++ [(ctx, region)]⟩, .ok (ctx.vars.map st2.base.obj.prim))
      else some ({ s with st := st2 }, .error .stop)
  else some ({ s with st := st1 }, .error .stop)

/-- `backward(dvars, context)` (template:196-212) of the context of the forward call number `k`: the gradients of its parameters.
Nothing happens if there was no such call. -/
def backward (E : EProb R) (F : EFiles R) (T : XTab R) (s : LSt E) (k : Nat) (dvars : List (Backward.Arr R)) :
    Option (LSt E × Except LErr (List (Option (List Nat → Option R)))) :=
  match s.infos[k]? with
  | none => some (s, .error .stop)
  | some (ctx, region) =>
    let (gr, found) := putGrads (E.vs.map UVar.name) s.st.vgrad (ctx.vars.zip dvars)
    let st1 : XSt E := { s.st with vgrad := gr }
    if found then
      match xgradient E F T st1 region with
      | none => none
      | some (st2, .error e) => some ({ s with st := st2 }, .error (.py e))
      | some (st2, .ok _) =>
        if ctx.params.all fun n => (E.tps.map (·.name)).contains n then some ({ s with st := st2 }, .ok (ctx.params.map st2.pgrad))
        else some ({ s with st := st2 }, .error .stop)
    else some ({ s with st := st1 }, .error .stop)

/-- What happens in a process: operations of the user, and calls by CVXPYlayers. -/
inductive LOp (R S : Type) where
  | user (op : XOp R S)
  | forward (ctx : Ctx) (vals : List (List Nat → R)) (updated : Option (List String)) (kwargs : List (String × S))
  | backward (k : Nat) (dvars : List (Backward.Arr R))

def lstep {S : Type} (E : EProb R) (θ0 : E.prob.Vec) (F : EFiles R) (T : XTab R) (sol : List R → Nat → R) (clock : Nat → R) (s : LSt E) :
    LOp R S → Option (LSt E)
  | .user op => (xstep E θ0 F T sol clock s.st op).map fun st => { s with st := st }
  | .forward ctx vals u kw => (forward E θ0 F T sol clock s ctx vals u kw).map Prod.fst
  | .backward k dvars => (backward E F T s k dvars).map Prod.fst

def lrun {S : Type} (E : EProb R) (θ0 : E.prob.Vec) (F : EFiles R) (T : XTab R) (sol : List R → Nat → R) (clock : Nat → R) (s : LSt E)
    (ops : List (LOp R S)) : Option (LSt E) := ops.foldlM (lstep E θ0 F T sol clock) s

end
end Verif.Model.Layers
