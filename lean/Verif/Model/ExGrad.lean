import Verif.Model.ExPipe
import Verif.Model.GradPipe
/-!
Explicit mode with differentiation as a whole: arrays of parameters and of variables' gradients in, arrays of parameters'
gradients out.

Sources: /repo/cvxpygen/templates/cpg_solver.py.jinja2:37-38, 87-88, 121-173 (`cpg_solve`, `cpg_gradient` with `region`),
/repo/cvxpygen/utils.py:1250-1252 (region of a solve), 1272-1328 (`gradient_cpp`), /repo/cvxpygen/writer.py:418-516 (`cpg_gradient`),
/repo/cvxpygen/solvers/pdaqp.py:238-262 (active region). Composed of the models of the parts: `ExPipe.esolve`, `GradPipe.vdelta`,
`exCalls`, `exStep`, `ExGen.deltas`, `ExGen.gradient`, `GradPipe.assignGrads`. PDAQP is an input: its solution, the leaf of its search
tree for each `theta`, and its tables.
-/
namespace Verif.Model.ExGrad
open Verif.Model Verif.Model.Pipeline Verif.Model.Saved Verif.Model.Flatten Verif.Model.Explicit Verif.Model.ExPipe Verif.Model.GradPipe
open Verif.Model.Deltas
open Verif.Spec (fn)

variable {R : Type}

/-- The code PDAQP generates: `PDAQP_N_PARAMETER`, number of affine laws, `pdaqp_feedbacks`, `pdaqp_hp_list`, the leaf reached for a
`theta`. -/
structure XTab (R : Type) where
  K : Nat
  nLaws : Nat
  fb : Nat → R
  hps : List Nat
  leaf : List R → Nat

section
variable [Field R] [LinearOrder R]

/-- The maps and the mask used by the gradient (writer.py:486-507). -/
def exCanon (E : EProb R) (F : EFiles R) : ExCanon R where
  n := E.n
  m := E.m
  qc := mapChanges (E.maps .q) false
  uc := mapChanges (E.maps .u) false
  q := csrOf (E.maps .q) false
  u := csrOf (E.maps .u) false
  mask := F.M.thMask

/-- Numbers and tables used by the gradient (writer.py:426-428, 476-482). -/
def exTab (E : EProb R) (T : XTab R) : ExTab R where
  K := T.K
  nSol := E.exGen.nSol
  nLoop := E.exGen.nRed
  NP := totalSize E.prob.ps + 1
  fb := T.fb
  hp := fun r => T.hps.getD r 0

/-- Sizes of the arrays. -/
def exArrays (E : EProb R) (T : XTab R) : ExGen :=
  { E.exGen with
    K := T.K
    nLaws := T.nLaws }

/-- State of the process: the part of `ExPipe`, attributes `gradient`, region and arrays of the gradient code, number of solves. -/
structure XSt (E : EProb R) where
  base : ESt E
  vgrad : String → Option (Backward.Arr R)
  pgrad : String → Option (List Nat → Option R)
  ex : ExSt R
  n : Nat

/-- `theta` as read by `pdaqp_evaluate` (utils.py:1018-1027): from the canonical parameters in memory, which are up to date
after `cpg_solve`. -/
def thetaIn (E : EProb R) (F : EFiles R) (m : EMem E) : List R :=
  thetaUpdate E.n E.m F.M.thMask (fun i => (((m.canon .q).getD [])[i]?).getD 0) fun i => (((m.canon .u).getD [])[i]?).getD 0

/-- `cpg_solve_and_gradient_info` (template:38-88); `cpg_solve` is the same without the region in the result (template:122-129).
Arguments that are not accepted raise before the solve; saving the result does not raise here (C63). -/
def xsolve {S : Type} (E : EProb R) (θ0 : E.prob.Vec) (F : EFiles R) (T : XTab R) (sol : List R → Nat → R) (clock : Nat → R) (st : XSt E)
    (u : Option (List String)) (kw : List (String × S)) : Option (XSt E × Except PyErr (Ret R × Option Nat)) :=
  match esolve E θ0 F sol (clock st.n) st.base u kw with
  | none => none
  | some (b, .error e) => some ({ st with base := b }, .error e)
  | some (b, .ok ret) =>
    match exStep (exTab E T) (exCanon E F) st.ex (.solve (T.leaf (thetaIn E F b.mem))) with
    | none => none
    | some ex =>
      some ({ st with
        base := b
        ex := ex
        n := st.n + 1 }, .ok (ret, ex.region))

/-- The calls of `cpg_update_d<name>` (utils.py:1297-1304); `name_to_size` has the stored variables only. Their order does not
matter. -/
def xcalls (E : EProb R) (fields : List (String × List R)) : List (Nat × R) :=
  E.exGen.store.info.flatMap fun e => exCalls (E.exGen.size e.1) e.2 fun k => fn ((fields.lookup e.1).getD []) k

/-- `cpg_gradient(prob, region)` (template:133-173). `none`: an access outside of an array. -/
def xgradient (E : EProb R) (F : EFiles R) (T : XTab R) (st : XSt E) (region : Option Nat) : Option (XSt E × Except PyErr Unit) :=
  match vdelta (E.vs.filter fun v => F.names.contains v.name) st.vgrad with
  | .error e => some (st, .error (toPyErr e))
  | .ok fields =>
    -- the active region, after it was set from the argument
    match region.or st.ex.region with
    | none => none
    | some r =>
      match T.hps[r]? with
      | none => none
      | some h =>
        if ((exArrays E T).deltas ++ (exArrays E T).gradient h).any fun e => decide ((exArrays E T).len e.1 ≤ e.2) then none
        else
          match ((xcalls E fields).map (fun c : Nat × R => ExOp.setD c.1 c.2) ++ [ExOp.gradient region]).foldlM (exStep (exTab E T) (exCanon E F)) st.ex with
          | none => none
          | some ex =>
            match assignGrads E.prob.ps ex.dp st.pgrad E.tps with
            | none => none
            | some (pg, res) =>
              some ({ st with
                pgrad := pg
                ex := ex }, res)

/-- What a user does. -/
inductive XOp (R S : Type) where
  | setVal (name : String) (t : List Nat → R)
  | setGrad (name : String) (a : Option (Backward.Arr R))
  | solve (updated : Option (List String)) (kwargs : List (String × S))
  | gradient (region : Option Nat)

/-- One operation; errors are raised to the user, who goes on. -/
def xstep {S : Type} (E : EProb R) (θ0 : E.prob.Vec) (F : EFiles R) (T : XTab R) (sol : List R → Nat → R) (clock : Nat → R) (st : XSt E) :
    XOp R S → Option (XSt E)
  | .setVal n t => some { st with base := { st.base with tvals := fun m => if m = n then some t else st.base.tvals m } }
  | .setGrad n a => some { st with vgrad := fun m => if m = n then a else st.vgrad m }
  | .solve u kw => (xsolve E θ0 F T sol clock st u kw).map Prod.fst
  | .gradient r => (xgradient E F T st r).map Prod.fst

def xrun {S : Type} (E : EProb R) (θ0 : E.prob.Vec) (F : EFiles R) (T : XTab R) (sol : List R → Nat → R) (clock : Nat → R) (st : XSt E)
    (ops : List (XOp R S)) : Option (XSt E) := ops.foldlM (xstep E θ0 F T sol clock) st

/-- The process after import; `pdaqp_active_region` is -1 (pdaqp.py:254). -/
def xinit (E : EProb R) (θ0 : E.prob.Vec) (vals : String → Option (List Nat → R)) (before : PObj R) : XSt E where
  base := ⟨vals, einit E θ0, before⟩
  vgrad := fun _ => none
  pgrad := fun _ => none
  ex := exInit (totalSize E.prob.ps + 1)
  n := 0

end
end Verif.Model.ExGrad
