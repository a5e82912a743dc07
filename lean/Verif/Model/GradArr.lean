import Verif.Model.GradPipe
import Verif.Model.GradMem
/-!
The generated Python module with differentiation in one stage (OSQP), down to the arrays of the C code: as `GradPipe`, but the
gradient is computed by the array code (`GradMem`), every access of which is checked.

Sources: /repo/cvxpygen/templates/cpg_solver.py.jinja2:121-173 (`cpg_solve`, `cpg_gradient`), /repo/cvxpygen/utils.py:904-935 (flags),
1272-1328 (`gradient_cpp`), /repo/cvxpygen/writer.py:145-312 (C code), 354-416 (workspace). The arithmetic of the C code is a parameter
(`Flops`), QDLDL and the solver are inputs. The optional arguments `gradient_sol_primal`, `gradient_sol_dual` are left out (see
`GradFlow`).
-/
namespace Verif.Model.GradArr
open Verif.Model Verif.Model.Pipeline Verif.Model.Saved Verif.Model.Flatten Verif.Model.GradPipe
open Verif.Spec (fn)

variable {R S : Type}

/-- A problem with its dimensions (writer.py:158-161) and the index arrays of `P` and `A` (`parameter_canon.p['P']`,
`parameter_canon.p['A']`). -/
structure AProb (R : Type) where
  prob : Prob R
  dims : QpDims
  (pP iP pA iA : List Nat)

/-- The problem with index functions in place of arrays. -/
abbrev AProb.toG [Zero R] (A : AProb R) : GProb R where
  prob := A.prob
  dims := A.dims
  patP := { p := fun k => A.pP.getD k 0, i := fun k => A.iP.getD k 0, x := fun _ => 0, nnz := A.iP.length }
  patA := { p := fun k => A.pA.getD k 0, i := fun k => A.iA.getD k 0, x := fun _ => 0, nnz := A.iA.length }

/-- A matrix (`Canon_Params.P`, `Canon_Params.A`): index arrays and the values of a canonical parameter. -/
def mat (p i : List Nat) (v : Option (List R)) : GradMem.Csc R := ⟨p, i, v.getD [], i.length⟩

/-- A map stored by rows (`canon_<p>_map`). -/
def rowsOf (m : Csr R) : GradMem.Csc R := ⟨m.indptr, m.indices, m.data, m.data.length⟩

/-- The five maps with the number of rows that the loops visit (writer.py:274-303). -/
def AProb.maps [CommRing R] [DecidableEq R] (A : AProb R) : GradMem.Maps R where
  q := ⟨A.toG.qmaps.qc, A.dims.n, rowsOf A.toG.qmaps.q⟩
  l := ⟨A.toG.qmaps.lc, A.dims.nl, rowsOf A.toG.qmaps.l⟩
  u := ⟨A.toG.qmaps.uc, A.dims.nu, rowsOf A.toG.qmaps.u⟩
  P := ⟨A.toG.qmaps.Pc, A.dims.nnzP, rowsOf A.toG.qmaps.P⟩
  A := ⟨A.toG.qmaps.Ac, A.dims.nnzA, rowsOf A.toG.qmaps.A⟩

/-- State of the process: the solver part, attributes `gradient` of variables and parameters, flags `Canon_Outdated_Grad`,
`sol_x`, `sol_y`, and the arrays of the differentiation code. -/
structure St (R S : Type) (G : GProb R) where
  pipe : Pipeline.St R S G.prob
  vgrad : String → Option (Backward.Arr R)
  pgrad : String → Option (List Nat → Option R)
  og : CId → Bool
  x : List R
  y : List R
  mem : GradMem.St R

/-- The position of `dx` that `cpg_update_d<name>` writes for index `k` (writer.py:222-230); the function of a variable of size one
has no index, which is `k = 0`. -/
def deltaPos (pi : PrimInfo) (name : String) (k : Nat) : Option Nat := do
  let size ← pi.size.lookup name
  let off ← pi.offset.lookup name
  if size = 1 then if k = 0 then some off else none
  else some (off + k)

/-- The calls of `cpg_update_d<name>` made by `gradient_cpp` (utils.py:1297-1310), variable by variable. -/
def deltas (pi : PrimInfo) (vs : List UVar) (g : String → Nat → R) : Option (List (GradMem.Op R)) :=
  (vs.flatMap fun v => (List.range v.size).map fun k => (v.name, k)).mapM fun e =>
    (deltaPos pi e.1 e.2).map fun p => GradMem.Op.delta p (g e.1 e.2)

section
variable [Field R] [DecidableEq R] [LT R] [DecidableRel (fun x y : R => x < y)]

/-- `cpg_solve` with gradients (template:122-129): as without, but updates also set the flags of the matrices they concern
(utils.py:927-930), and the solution stays in `sol_x`, `sol_y`. -/
def solve (G : GProb R) (θ0 : G.prob.Vec) (sg : Stgs S) (big : R) (solver : SolverFn R S) (F : Files) (st : St R S G)
    (u : Option (List String)) (kw : List (String × S)) : Option (St R S G × Except PyErr (Ret R)) :=
  let P := G.prob
  match Pipeline.solve P θ0 sg big solver F st.pipe u kw with
  | none => none
  | some (pipe, r) =>
    match pySolve P.k P.quad P.lp P.ps P.maps θ0 sg F.toks { st.pipe.py with vals := P.flat st.pipe.tvals } u kw with
    | some (_, .ok obs) =>
      let out := solver st.pipe.n obs.obs.data obs.settings
      let acts := updateActs P.ps (u.getD (P.ps.map UParam.name)) (P.flat st.pipe.tvals)
      let g := canonGen P.ps (P.k.canonIds P.quad) P.quad P.maps θ0
      some ({ st with
        pipe := pipe
        og := fun c => st.og c || (c.isUpper && acts.any fun a => (g.outdated a).contains c)
        x := out.sol
        y := out.duals 0 }, r)
    | _ => some ({ st with pipe := pipe }, r)

/-- What the C function `cpg_gradient` reads: canonical matrices with the flags of those that can change (writer.py:240-246), and the
solution. -/
def call (A : AProb R) (st : St R S A.toG) : GradMem.Call R where
  P := mat A.pP A.iP (st.pipe.py.mem.canon .P)
  A := mat A.pA A.iA (st.pipe.py.mem.canon .A)
  outP := A.toG.qmaps.Pc && st.og .P
  outA := A.toG.qmaps.Ac && st.og .A
  x := st.x
  y := st.y

/-- `cpg_gradient(prob)`, template:133-173. `none`: an access outside of an array. -/
def gradient (F : GradMem.Flops R) (Q : GradMem.Qdldl R) (A : AProb R) (files : Files) (st : St R S A.toG) :
    Option (St R S A.toG × Except PyErr Unit) :=
  match vdelta A.prob.vs st.vgrad with
  | .error e => some (st, .error (toPyErr e))
  | .ok fields =>
    match deltas files.pi A.prob.vs fun n k => fn ((fields.lookup n).getD []) k with
    | none => none
    | some ds =>
      match GradMem.run F Q A.dims.n A.toG.N A.toG.NP A.maps st.mem (ds ++ [.grad (call A st)]) with
      | .error _ => none
      | .ok mem =>
        match assignGrads A.prob.ps mem.dp st.pgrad A.prob.tps with
        | none => none
        | some (pg, r) =>
          some ({ st with
            pgrad := pg
            og := fun c => if mapChanges (A.prob.maps c) c.isUpper then false else st.og c
            mem := mem }, r)

/-- One operation; errors are raised to the user, who goes on. -/
def step (F : GradMem.Flops R) (Q : GradMem.Qdldl R) (A : AProb R) (θ0 : A.prob.Vec) (sg : Stgs S) (big : R) (solver : SolverFn R S)
    (files : Files) (st : St R S A.toG) : GradPipe.Op R S → Option (St R S A.toG)
  | .setVal n t => some { st with pipe := { st.pipe with tvals := fun m => if m = n then some t else st.pipe.tvals m } }
  | .setGrad n a => some { st with vgrad := fun m => if m = n then a else st.vgrad m }
  | .solve u kw => (solve A.toG θ0 sg big solver files st u kw).map Prod.fst
  | .gradient => (gradient F Q A files st).map Prod.fst

def run (F : GradMem.Flops R) (Q : GradMem.Qdldl R) (A : AProb R) (θ0 : A.prob.Vec) (sg : Stgs S) (big : R) (solver : SolverFn R S)
    (files : Files) (st : St R S A.toG) (ops : List (GradPipe.Op R S)) : Option (St R S A.toG) :=
  ops.foldlM (step F Q A θ0 sg big solver files) st

/-- The canonical matrices at generation. -/
def P0 (A : AProb R) (θ0 : A.prob.Vec) : GradMem.Csc R := mat A.pP A.iP (canonVal (A.prob.maps .P) true θ0.1)
def A0 (A : AProb R) (θ0 : A.prob.Vec) : GradMem.Csc R := mat A.pA A.iA (canonVal (A.prob.maps .A) true θ0.1)

/-- The process after import: the generated workspace (writer.py:354-416); `sol_x`, `sol_y` are arbitrary. -/
def init (F : GradMem.Flops R) (A : AProb R) (θ0 : A.prob.Vec) (pipe : Pipeline.St R S A.prob) (x y : List R) : St R S A.toG where
  pipe := pipe
  vgrad := fun _ => none
  pgrad := fun _ => none
  og := fun _ => false
  x := x
  y := y
  mem := GradMem.generated F A.dims.n A.toG.N A.toG.NP (GradMem.kInit F A.dims.n A.toG.N (P0 A θ0) (A0 A θ0))
    (GradMem.ktInit F A.dims.n A.toG.N (P0 A θ0) (A0 A θ0)) (P0 A θ0) (A0 A θ0)

end
end Verif.Model.GradArr
