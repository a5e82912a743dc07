import Verif.Model.Retrieve
/-!
Retrieval in two stages (`gradient=True` with a solver other than OSQP): the user's problem is canonicalized for
OSQP, the resulting quadratic program is stated again as a CVXPY problem with the variable `osqp_x` and the constraints
`d0` (lower bounds on the equality rows) and `d1` (upper bounds on all rows), and that problem is canonicalized for the
solver (`canonicalizer.py:54-66, 334-361`).

Sources: `_merge` (`canonicalizer.py:363-405`, variables only), `_write_workspace` (`writer.py:94-121`), the
intermediate retrieval and the loops of `_write_gradient_def` (`writer.py:145-211, 272-307`), the calls in
`_write_gradient` (`writer.py:543-575`), `write_workspace_def` (`utils.py:575-629`), `write_solve_def`
(`utils.py:946-975, 1040-1043`). Not modelled here: names and prefixes (module `Symbols` shows that the names do not
resolve at this commit), the values of the derivatives.
-/
namespace Verif.Model.TwoRet
open Verif.Model

/-- `dual_var_names`: `_interface.py:30` (OSQP), `scs.py:113`, `ecos.py:72`, `clarabel.py:123`, `qoco.py:77, 251`. -/
def dualNames : Kind → List String
  | .osqp | .scs => ["y"]
  | .clarabel => ["z"]
  | .ecos | .qocogen | .qoco => ["y", "z"]

/-- The second stage, as far as retrieval refers to it: the solver, `n_var` and `n_eq + n_ineq` of its interface, the
size and the offset of `osqp_x`, and the entries of the table of dual variables. -/
structure Second where
  kind : Kind
  nVar : Nat
  rows : Nat
  nx : Nat
  offset : Nat
  d0 : DualEntry
  d1 : DualEntry
  deriving DecidableEq, Repr

/-- `ret_prim_func_exists(canon_second.prim_variable_info)`, `canonicalizer.py:367-369`, `writer.py:103, 177`: the only
variable is `osqp_x`, with the shape of `q` (`canonicalizer.py:347`). -/
def Second.needed (s : Second) : Bool :=
  match primInfo [⟨"osqp_x", [s.nx], false, s.offset⟩] with
  | .ok pi => s.kind.traits.retPrim pi
  | .error _ => false

/-- `pvi`, `canonicalizer.py:399-404`. -/
def mergePrim (s : Second) (pi : PrimInfo) : PrimInfo :=
  if s.needed then pi
  else { pi with
    offset := pi.offset.map fun kv => (kv.1, kv.2 + s.offset)
    indices := pi.indices.map fun kv => (kv.1, kv.2.map (· + s.offset)) }

variable {R : Type}

/-- `cpg_retrieve_intermediate_primal`, `writer.py:187-195`: `n` is `n_var` of the interface of the second stage
(`writer.py:158, 567-575`). `none`: a read outside of the solver's vector. -/
def solX (s : Second) (x : List R) : Option (List R) :=
  (List.range s.nVar).mapM fun i => readAt x (s.offset + i)

/-- `cpg_retrieve_intermediate_dual`, `writer.py:197-211`, on `sol_y` with `nu` entries (`writer.py:160, 185`).
`none`: an access outside of an array. -/
def solY [Zero R] [Sub R] (s : Second) (duals : Nat → List R) : Option (List R) := do
  let a ← (List.range s.d0.size).mapM fun i => do
    let u ← readAt (duals s.d1.vec) (s.d1.offset + i)
    let l ← readAt (duals s.d0.vec) (s.d0.offset + i)
    pure (u - l)
  let b ← (List.range' s.d0.size (s.d1.size - s.d0.size)).mapM fun i =>
    readAt (duals s.d1.vec) (s.d1.offset + i)
  if (a ++ b).length ≤ s.rows then pure ((a ++ b) ++ List.replicate (s.rows - (a ++ b).length) 0) else none

/-- The arrays `gradient_sol_x` and `gradient_sol_y`. -/
structure Mem (R : Type) where
  x : List R
  y : List R
  deriving DecidableEq, Repr

/-- `gradient_sol_x` after `cpg_solve`: an own array filled by `cpg_retrieve_prim` (`utils.py:950-954, 1040-1041`; zeros
if there is no such function), or a pointer into the solver's vector (`writer.py:181-184`). -/
def memX [Zero R] (s : Second) (pi : PrimInfo) (x : List R) : Option (List R) :=
  if s.needed then
    if s.kind.traits.retPrim (mergePrim s pi) then solX s x else some (List.replicate s.nVar 0)
  else some (x.drop s.offset)

/-- What `cpg_solve` retrieves after the solver left `x` and `duals`, `utils.py:1040-1043`; the function for dual
variables always exists in two stages (`utils.py:963, 1042`). -/
def retrieve [Zero R] [Sub R] (s : Second) (pi : PrimInfo) (x : List R) (duals : Nat → List R) :
    Option (Mem R) := do
  let a ← memX s pi x
  let b ← solY s duals
  pure ⟨a, b⟩

/-- `CPG_Prim.<name>[k]`: scalars, symmetric variables and, for solvers that allocate their solution, all variables are
copied by `cpg_retrieve_prim`, which refers to the solver's vector (`utils.py:947, 955-960`; `_write_solve` does not
redirect the pointers, `writer.py:123-143`); the other fields are pointers, which `_write_workspace` redirects to
`gradient_sol_x` if the intermediate solution is copied (`writer.py:100-104`, `utils.py:600`). -/
def primRead2 [Zero R] (s : Second) (pi : PrimInfo) (x : List R) (m : Mem R) (name : String) (k : Nat) :
    Option R := do
  let t := s.kind.traits
  let pi' := mergePrim s pi
  let size ← pi'.size.lookup name
  let sym ← pi'.nameSym.lookup name
  let off ← pi'.offset.lookup name
  let ind ← pi'.indices.lookup name
  if size = 1 then
    if t.retPrim pi' && ind.length == 1 then readAt x (← readAt ind k) else if k = 0 then some 0 else none
  else if sym || !t.static then
    if t.retPrim pi' && ind.length != 1 then readAt x (← readAt ind k)
    else if k < size then some 0 else none
  else if s.needed then readAt m.x (off + k)
  else readAt x (off + k)

/-- All entries, `utils.py:1214-1228`. -/
def primReadAll2 [Zero R] (s : Second) (pi : PrimInfo) (x : List R) (m : Mem R) (name : String) :
    Option (List R) := do
  let size ← pi.size.lookup name
  (List.range size).mapM (primRead2 s pi x m name)

/-- The solver's vector to which `dual_str.format(dual_var_name=…)` refers (`utils.py:948, 971, 974`): the name is that
of the first stage. `none`: the solver has no such vector. -/
def vecOf (s : Second) (d : DualEntry) : Option Nat := do
  let name ← (dualNames .osqp)[d.vec]?
  (dualNames s.kind).findIdx? (· == name)

/-- `CPG_Dual.<name>[k]`: scalars and, for solvers that allocate their solution, all dual variables are copied by
`cpg_retrieve_dual` from the solver's vector (`utils.py:969-974`); the other fields point into `gradient_sol_y`
(`writer.py:105`, `utils.py:628`). -/
def dualRead2 (s : Second) (duals : Nat → List R) (m : Mem R) (d : DualEntry) (k : Nat) : Option R :=
  if d.size = 1 then
    if k ≠ 0 then none else do readAt (duals (← vecOf s d)) d.offset
  else if !s.kind.traits.static then
    if k < d.size then do readAt (duals (← vecOf s d)) (d.offset + k) else none
  else readAt m.y (d.offset + k)

/-- The accesses of `for(j=0; j<n; j++){ for(k=map.p[j]; k<map.p[j+1]; k++)` to the row pointers of a map,
`writer.py:275-302`. `none`: outside of the array. -/
def rowReads (n : Nat) (p : List Nat) : Option (List (Nat × Nat)) :=
  (List.range n).mapM fun j => do pure (← readAt p j, ← readAt p (j + 1))

end Verif.Model.TwoRet
