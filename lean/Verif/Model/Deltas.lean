import Verif.Model.Retrieve
import Verif.Model.Explicit
/-!
Model of the incoming gradients: `cpg_update_d<name>`, the reset of `dx` in `cpg_gradient`, and the calls
made by `gradient_cpp`.

Sources: /repo/cvxpygen/writer.py:222-230, 304-307 (one stage), 396 (length of `dx`), 458-467, 509-511 (explicit
mode); /repo/cvxpygen/utils.py:1297-1310 (`gradient_cpp`).
-/
namespace Verif.Model.Deltas
open Verif.Model
variable {R : Type}

/-- A call of `cpg_update_d<name>`; the function of a variable of size one has no index, which is `idx = 0`. -/
structure Upd (R : Type) where
  name : String
  idx : Nat
  val : R

inductive Op (R : Type) where
  | upd (u : Upd R)
  | gradient

/-- `dx` and what the calls of `cpg_gradient` found there. -/
structure St (R : Type) where
  dx : List R
  log : List (List R)

/-- writer.py:223-230. `none`: no such function, or an assignment outside of the array. -/
def updStep (pi : PrimInfo) (dx : List R) (u : Upd R) : Option (List R) := do
  let size ← pi.size.lookup u.name
  let off ← pi.offset.lookup u.name
  if size = 1 then
    if u.idx = 0 then store dx off u.val else none
  else store dx (off + u.idx) u.val

/-- `cpg_gradient` uses `dx` and sets its `n` entries to zero (writer.py:304-307). -/
def step [Zero R] (pi : PrimInfo) (n : Nat) (s : St R) : Op R → Option (St R)
  | .upd u => (updStep pi s.dx u).map fun dx => { s with dx := dx }
  | .gradient => do
    let dx ← (List.range n).foldlM (init := s.dx) fun dx i => store dx i 0
    pure { dx := dx, log := s.log ++ [s.dx] }

/-- writer.py:396: `np.zeros(n)`. -/
def init [Zero R] (n : Nat) : St R := ⟨List.replicate n 0, []⟩

def run [Zero R] (pi : PrimInfo) (n : Nat) (ops : List (Op R)) : Option (St R) := ops.foldlM (step pi n) (init n)

/-- The calls made by `gradient_cpp` for given entries of all variables (utils.py:1297-1310, not explicit). -/
def pyCalls (vs : List UVar) (g : String → Nat → R) : List (Op R) :=
  (vs.flatMap fun v => (List.range v.size).map fun k => Op.upd ⟨v.name, k, g v.name k⟩) ++ [.gradient]

/-! ### explicit mode -/

open Verif.Model.Explicit

/-- The assignments to `cpg_dx` (position, value) for one variable: `gradient_cpp` (utils.py:1299-1306) calls
`cpg_update_d<name>` (writer.py:459-467). -/
def exCalls (size : Nat) (v : VarInfo) (g : Nat → R) : List (Nat × R) :=
  if size = 1 then [(v.offset, g 0)]
  else v.indices.zipIdx.filterMap fun e => if 0 ≤ e.1 then some (v.offset + e.1.toNat, g e.2) else none

/-- `cpg_dx` after the calls for all variables; it was zero before (writer.py:455, 509-511). -/
def exDx [Zero R] (size : String → Nat) (info : List (String × VarInfo)) (g : String → Nat → R) (p : Nat) : R :=
  ((info.flatMap fun e => exCalls (size e.1) e.2 (g e.1)).foldl
    (fun dx c => fun i => if i = c.1 then c.2 else dx i) fun _ => 0) p

end Verif.Model.Deltas
