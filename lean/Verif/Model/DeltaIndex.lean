import Verif.Model.Index
import Verif.Model.Deltas
/-!
The functions `cpg_update_d<name>(cpg_int idx, cpg_float val)` with arbitrary (signed) indices, which they do not look at, and
`cpg_gradient`, which sets all entries of `dx` to zero at its end.

Sources: /repo/cvxpygen/writer.py:222-230, 304-307 (one and two stages), 458-467, 509-511 (explicit mode).
-/
namespace Verif.Model.DeltaIndex
open Verif.Model Verif.Model.Index
variable {R : Type}

/-- `name_to_size` and `name_to_offset` of a variable (in explicit mode: offset in the explicit solution). -/
structure Var where
  name : String
  size : Nat
  offset : Nat

/-- A call; the function of a variable of size one has no index, which is `idx = 0`. -/
structure Upd (R : Type) where
  name : String
  idx : Int
  val : R

inductive Op (R : Type) where
  | upd (u : Upd R)
  | gradient

/-- `dx` and what the calls of `cpg_gradient` found there. -/
structure St (R : Type) where
  dx : List R
  log : List (List R)

/-- writer.py:223-230, 459-467. `none`: no such function, or an assignment outside of the array. -/
def updStep (vs : List Var) (dx : List R) (u : Upd R) : Option (List R) := do
  let v ← vs.find? fun v => v.name == u.name
  if v.size = 1 then
    if u.idx = 0 then storeZ dx v.offset u.val else none
  else storeZ dx (v.offset + u.idx) u.val

/-- `cpg_gradient` uses `dx` and sets its `n` entries to zero (writer.py:304-307, 509-511). -/
def step [Zero R] (vs : List Var) (n : Nat) (s : St R) : Op R → Option (St R)
  | .upd u => (updStep vs s.dx u).map fun dx => { s with dx := dx }
  | .gradient => do
    let dx ← (List.range n).foldlM (init := s.dx) fun dx i => store dx i 0
    pure { dx := dx, log := s.log ++ [s.dx] }

/-- writer.py:396, 455: `n` zeros. -/
def init [Zero R] (n : Nat) : St R := ⟨List.replicate n 0, []⟩

def run [Zero R] (vs : List Var) (n : Nat) (ops : List (Op R)) : Option (St R) := ops.foldlM (step vs n) (init n)

end Verif.Model.DeltaIndex
