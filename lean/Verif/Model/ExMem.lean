import Verif.Model.Explicit
import Verif.Model.Deltas
/-!
Model of the arrays of explicit mode and of the places where they are accessed.

Sources: /repo/cvxpygen/solvers/pdaqp.py:163-199 (stored entries, `name_to_size_reduced`, `reduced`), 202 (`out_inds`);
/repo/cvxpygen/utils.py:518-523 (length of `sol_x`), 955-957 (scalars), 598 and 1222-1225 (other variables), 1054-1066 (`cpg_obj`);
/repo/cvxpygen/writer.py:426, 455, 458-467 (`cpg_dx`), 475-483 (`cpg_gradient`), 509-511 (reset);
/repo/cvxpygen/templates/cpg_example.c.jinja2:36-44. PDAQP is modelled by the size of its output and of its table.
-/
namespace Verif.Model.Explicit
open Verif.Model.Deltas

/-- Number of entries stored for a request (pdaqp.py:171-172). -/
def reqLen (size : String → Nat) (r : String × List Nat) : Nat :=
  (if r.2 = [] then List.range (size r.1) else r.2).length

/-- `name_to_size_reduced` (pdaqp.py:166, 175): a copy of the sizes, overwritten for requested variables. Variables that are
not stored are removed from the other dictionaries (pdaqp.py:189-199), but not from this one. -/
def reducedSize (size : String → Nat) (offs : List (String × Nat)) (reqs : List (String × List Nat)) : String → Nat :=
  reqs.foldl (fun f r => if (offs.lookup r.1).isSome then fun n => if n = r.1 then reqLen size r else f n else f) size

/-- `added_names` (pdaqp.py:185). -/
def addedNames (offs : List (String × Nat)) (reqs : List (String × List Nat)) : List String :=
  (reqs.filter fun r => (offs.lookup r.1).isSome).map Prod.fst

/-- `prim_variable_info.reduced` (pdaqp.py:173-174, 190, 199); `all` are the variables of the problem. -/
def reducedFlag (size : String → Nat) (offs : List (String × Nat)) (all : List String) (reqs : List (String × List Nat)) :
    Bool :=
  (reqs.any fun r => (offs.lookup r.1).isSome && decide (reqLen size r < size r.1)) ||
    all.any fun n => !(addedNames offs reqs).contains n

/-- What is fixed at generation: sizes and canonical offsets of the variables, requests, number of canonical variables,
number of parameters of the explicit solution (`PDAQP_N_PARAMETER`) and of its affine laws. -/
structure ExGen where
  size : String → Nat
  offs : List (String × Nat)
  all : List String
  reqs : List (String × List Nat)
  nVar : Nat
  K : Nat
  nLaws : Nat

def ExGen.store (g : ExGen) : StoreSt := (storeVars g.size g.offs g.reqs).2

/-- `PDAQP_N_SOLUTION`: one entry per element of `out_inds` (pdaqp.py:202). -/
def ExGen.nSol (g : ExGen) : Nat := g.store.outInds.length

/-- Sum of `name_to_size_reduced` (utils.py:521, writer.py:426). -/
def ExGen.nRed (g : ExGen) : Nat := (g.all.map (reducedSize g.size g.offs g.reqs)).sum

/-- The arrays. -/
inductive ExArr where
  | solx
  | dx
  | feedbacks
  deriving DecidableEq

/-- Their lengths: utils.py:520-523, writer.py:455, PDAQP's table of affine laws. -/
def ExGen.len (g : ExGen) : ExArr → Nat
  | .solx => if reducedFlag g.size g.offs g.all g.reqs then g.nRed else g.nVar
  | .dx => g.nRed
  | .feedbacks => g.nLaws * (g.nSol * (g.K + 1))

/-- `pdaqp_evaluate` writes the solution. -/
def ExGen.evaluate (g : ExGen) : List (ExArr × Nat) := (List.range g.nSol).map fun i => (.solx, i)

/-- Reading of variables by `cpg_retrieve_prim` (utils.py:955-957) and by the Python module (utils.py:1222-1225) through
pointers into `sol_x` (utils.py:598). -/
def ExGen.reads (g : ExGen) : List (ExArr × Nat) :=
  g.store.info.flatMap fun e =>
    (match e.2.indices with
      | [i] => [(ExArr.solx, i.toNat)]
      | _ => []) ++
    (if g.size e.1 = 1 then [] else
      e.2.indices.filterMap fun i => if 0 ≤ i then some (.solx, e.2.offset + i.toNat) else none)

/-- The array `sol_x` after a solve: PDAQP writes the entries of the canonical solution `x` that are listed in `out_inds`
(pdaqp.py:202), the rest keeps its initial value (utils.py:521, 523). -/
def ExGen.solX {R : Type} [Zero R] (g : ExGen) (x : Nat → R) (k : Nat) : R :=
  match g.store.outInds[k]? with
  | some i => x i
  | none => 0

/-- `cpg_obj` (utils.py:1055-1065). -/
def ExGen.objective (g : ExGen) : List (ExArr × Nat) :=
  if reducedFlag g.size g.offs g.all g.reqs then [] else (List.range g.nVar).map fun i => (.solx, i)

/-- The assignments by `gradient_cpp` (utils.py:1299-1306, writer.py:459-467). -/
def ExGen.deltas (g : ExGen) : List (ExArr × Nat) :=
  g.store.info.flatMap fun e => (exCalls (g.size e.1) e.2 fun _ => ()).map fun c => (.dx, c.1)

/-- `cpg_gradient` for the law number `h` (writer.py:476-482) and the reset of `cpg_dx` (writer.py:511). -/
def ExGen.gradient (g : ExGen) (h : Nat) : List (ExArr × Nat) :=
  ((List.range g.K).flatMap fun j => (List.range g.nRed).flatMap fun i =>
    [(.feedbacks, h * (g.K + 1) * g.nSol + i * (g.K + 1) + j), (.dx, i)]) ++
  (List.range g.nRed).map fun i => (.dx, i)

/-- The example program prints `size` entries of variables that are not numbers (cpg_example.c.jinja2:40-42). -/
def ExGen.print (g : ExGen) : List (ExArr × Nat) :=
  g.store.info.flatMap fun e => if g.size e.1 = 1 then [] else (List.range (g.size e.1)).map fun i => (.solx, e.2.offset + i)

end Verif.Model.Explicit
