import Verif.Model.Pipeline
import Verif.Model.Uncanon
import Verif.Model.Deltas
import Verif.Model.Backward
import Verif.Spec.Linear
/-!
The generated Python module with differentiation in one stage (OSQP) as a whole: arrays of parameters and of variables'
gradients in, arrays of parameters' gradients out.

Sources: /repo/cvxpygen/templates/cpg_solver.py.jinja2:121-173 (`cpg_solve`, `cpg_gradient`),
/repo/cvxpygen/utils.py:904-935 (flags), 565-569 (initial flags), 677-689 (`cpg_dp`, `CPG_Delta`), 1272-1328 (`gradient_cpp`),
/repo/cvxpygen/writer.py:145-312 (`cpg_gradient` of the C code). Composed of the models of the parts: `Pipeline.solve`, `Deltas`
(incoming gradients), `Grad.gradCall` (canonical gradients), `uncanonicalize`; QDLDL and the square root are inputs.
The optional arguments `gradient_sol_primal`, `gradient_sol_dual` are left out here (see `GradFlow`).
-/
namespace Verif.Model.GradPipe
open Verif.Model Verif.Model.Pipeline Verif.Model.Saved Verif.Model.Flatten Verif.Model.Factor Verif.Model.Grad
open Verif.Spec (fn)

variable {R S : Type}

/-- A problem with its dimensions (writer.py:158-161) and the stored positions of `P` and `A`
(`parameter_canon.p['P']`, `parameter_canon.p['A']`); the values of `patP`, `patA` are not used. -/
structure GProb (R : Type) where
  prob : Prob R
  dims : QpDims
  patP : CscL R
  patA : CscL R

/-- A matrix with given positions and the values of a canonical parameter (`Canon_Params.P->x`). -/
def withVals [Zero R] (pat : CscL R) (v : Option (List R)) : CscL R := { pat with x := fn (v.getD []) }

/-- `canon_<p>_map`. -/
def csrOf [CommRing R] [DecidableEq R] (m : Option (RawMap R)) (upper : Bool) : Csr R :=
  match m with
  | some m => (m.final upper).toCsr
  | none => ⟨[], [], []⟩

/-- The five maps and `p_id_to_changes`. -/
def GProb.qmaps [CommRing R] [DecidableEq R] (G : GProb R) : QpMaps R where
  qc := mapChanges (G.prob.maps .q) false
  lc := mapChanges (G.prob.maps .l) false
  uc := mapChanges (G.prob.maps .u) false
  Pc := mapChanges (G.prob.maps .P) true
  Ac := mapChanges (G.prob.maps .A) true
  q := csrOf (G.prob.maps .q) false
  l := csrOf (G.prob.maps .l) false
  u := csrOf (G.prob.maps .u) false
  P := csrOf (G.prob.maps .P) true
  A := csrOf (G.prob.maps .A) true

/-- `len(parameter_info.flat_usp)` (writer.py:162): all parameters and the constant. -/
def GProb.NP (G : GProb R) : Nat := totalSize G.prob.ps + 1

/-- `N = n + nu` (writer.py:161). -/
def GProb.N (G : GProb R) : Nat := G.dims.n + G.dims.nu

/-- Libraries and constants of the differentiation code: QDLDL, square root, `1e-6`, `1e-12`. -/
structure Lib (R : Type) where
  qdldl : CscL R → Fac R
  sqrt : R → R
  eps : R
  tol : R

/-- State of the process: the solver part, attributes `gradient` of variables and parameters, flags `Canon_Outdated_Grad`,
`sol_x` and `sol_y`, workspace of the differentiation code, `dx`, `cpg_dp`. -/
structure St (R S : Type) (G : GProb R) where
  pipe : Pipeline.St R S G.prob
  vgrad : String → Option (Backward.Arr R)
  pgrad : String → Option (List Nat → Option R)
  og : CId → Bool
  sol : (Nat → R) × (Nat → R)
  ws : GradWs R
  dx : List R
  dp : List R

/-- `cpg_solve` with gradients (template:122-129): as without, but updates also set the flags of the matrices they concern
(utils.py:927-930), and the solution stays in `sol_x`, `sol_y`. -/
def solve [Field R] [DecidableEq R] (G : GProb R) (θ0 : G.prob.Vec) (sg : Stgs S) (big : R) (solver : SolverFn R S)
    (F : Files) (st : St R S G) (u : Option (List String)) (kw : List (String × S)) :
    Option (St R S G × Except PyErr (Ret R)) :=
  let P := G.prob
  match Pipeline.solve P θ0 sg big solver F st.pipe u kw with
  | none => none
  | some (pipe, r) =>
    match pySolve P.k P.quad P.lp P.ps P.maps θ0 sg F.toks { st.pipe.py with vals := P.flat st.pipe.tvals } u kw with
    | some (_, .ok obs) =>
      let out := solver st.pipe.n obs.obs.data obs.settings
      let acts := updateActs P.ps (u.getD (P.ps.map UParam.name)) (P.flat st.pipe.tvals)
      let g := canonGen P.ps (P.k.canonIds P.quad) P.quad P.maps θ0
      some ({ st with
        pipe := pipe
        og := fun c => st.og c || (c.isUpper && acts.any fun a => (g.outdated a).contains c)
        sol := (fn out.sol, fn (out.duals 0)) }, r)
    | _ => some ({ st with pipe := pipe }, r)

/-- The fields of `vdelta` (template:157-165), by name of the variable. -/
def vdelta (vs : List UVar) (gr : String → Option (Backward.Arr R)) : Except Backward.Err (List (String × List R)) :=
  vs.mapM fun v => (Backward.field ⟨0, v.name, v.shape⟩ (gr v.name)).map fun l => (v.name, l)

/-- Assignment of the gradients of the parameters (utils.py:1317-1324, template:171-173): the entries of `cpg_dp` from the
first column of the parameter on, reshaped to the shape of the parameter. A wrong number of entries raises `ValueError`; what
was assigned before stays. `none`: a read outside of `cpg_dp`. -/
def assignGrads (ps : List UParam) (dp : List R) :
    (String → Option (List Nat → Option R)) → List TParam → Option ((String → Option (List Nat → Option R)) × Except PyErr Unit)
  | pg, [] => some (pg, .ok ())
  | pg, p :: l =>
    match baseCol ps p.name with
    | none => none
    | some b =>
      match (List.range (sizeUsp p.shape p.attr)).mapM fun i => dp[b + i]? with
      | none => none
      | some vals =>
        match reshapeF p.shape vals with
        | none => some (pg, .error .valueError)
        | some f => assignGrads ps dp (fun m => if m = p.name then some f else pg m) l

/-- Errors of `vdelta` as Python errors; the third one does not occur here. -/
def toPyErr : Backward.Err → PyErr
  | .typeError => .typeError
  | .attributeError => .attributeError
  | .stopIteration => .keyError

section
variable [Field R] [DecidableEq R] [LT R] [DecidableRel (fun x y : R => x < y)]

/-- The matrices refreshed by a call of the C function (writer.py:240-246). -/
def refresh (G : GProb R) (st : St R S G) : Refresh R where
  P := if G.qmaps.Pc && st.og .P then some (withVals G.patP (st.pipe.py.mem.canon .P)) else none
  A := if G.qmaps.Ac && st.og .A then some (withVals G.patA (st.pipe.py.mem.canon .A)) else none

/-- `cpg_gradient(prob)`, template:133-173. `none`: an access outside of an array. -/
def gradient (lib : Lib R) (G : GProb R) (θ0 : G.prob.Vec) (F : Files) (st : St R S G) :
    Option (St R S G × Except PyErr Unit) :=
  let P := G.prob
  match vdelta P.vs st.vgrad with
  | .error e => some (st, .error (toPyErr e))
  | .ok fields =>
    match (Deltas.pyCalls P.vs fun n k => fn ((fields.lookup n).getD []) k).foldlM (Deltas.step F.pi G.dims.n) ⟨st.dx, []⟩ with
    | none => none
    | some d =>
      let P0 := withVals G.patP (canonVal (P.maps .P) true θ0.1)
      let A0 := withVals G.patA (canonVal (P.maps .A) true θ0.1)
      let ws := gradCall lib.qdldl lib.sqrt lib.eps lib.tol G.dims.n G.N P0 A0 (refresh G st) st.sol.1 st.sol.2
        (fn (d.log.getLast?.getD [])) st.ws
      match uncanonicalize G.NP G.dims G.qmaps ws.g st.dp with
      | none => none
      | some dp =>
        match assignGrads P.ps dp st.pgrad P.tps with
        | none => none
        | some (pg, r) =>
          some ({ st with
            pgrad := pg
            og := fun c => if mapChanges (P.maps c) c.isUpper then false else st.og c
            ws := ws
            dx := d.dx
            dp := dp }, r)

/-- What a user does. -/
inductive Op (R S : Type) where
  | setVal (name : String) (t : List Nat → R)
  | setGrad (name : String) (a : Option (Backward.Arr R))
  | solve (updated : Option (List String)) (kwargs : List (String × S))
  | gradient

/-- One operation; errors are raised to the user, who goes on. -/
def step (lib : Lib R) (G : GProb R) (θ0 : G.prob.Vec) (sg : Stgs S) (big : R) (solver : SolverFn R S) (F : Files)
    (st : St R S G) : Op R S → Option (St R S G)
  | .setVal n t => some { st with pipe := { st.pipe with tvals := fun m => if m = n then some t else st.pipe.tvals m } }
  | .setGrad n a => some { st with vgrad := fun m => if m = n then a else st.vgrad m }
  | .solve u kw => (solve G θ0 sg big solver F st u kw).map Prod.fst
  | .gradient => (gradient lib G θ0 F st).map Prod.fst

def run (lib : Lib R) (G : GProb R) (θ0 : G.prob.Vec) (sg : Stgs S) (big : R) (solver : SolverFn R S) (F : Files)
    (st : St R S G) (ops : List (Op R S)) : Option (St R S G) := ops.foldlM (step lib G θ0 sg big solver F) st

/-- The process after import: the generated workspaces (utils.py:485, 505-569, 677, writer.py:354-416); `sol`, `W`, `delta`, `g`
are arbitrary. -/
def init (lib : Lib R) (G : GProb R) (θ0 : G.prob.Vec) (pipe : Pipeline.St R S G.prob) (sol : (Nat → R) × (Nat → R))
    (W : Ws R) (delta : Nat → R) (g : DCanon R) : St R S G where
  pipe := pipe
  vgrad := fun _ => none
  pgrad := fun _ => none
  og := fun _ => false
  sol := sol
  ws := genState lib.eps G.dims.n G.N (withVals G.patP (canonVal (G.prob.maps .P) true θ0.1))
    (withVals G.patA (canonVal (G.prob.maps .A) true θ0.1)) W delta g
  dx := List.replicate G.dims.n 0
  dp := List.replicate G.NP 0

end
end Verif.Model.GradPipe
