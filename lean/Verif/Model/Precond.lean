import Verif.Model.UpdateStructure
import Verif.Model.Sparse
/-!
Model of the second copy of the canonical parameters that is handed to solvers which scale their data in
place.

Sources: /repo/cvxpygen/utils.py:505-555 (`write_workspace_def`), 987-1006 (`cpg_copy_<p>`,
`cpg_copy_all`); ecos.py:89-117, clarabel.py:157-203 (pointers handed over), qoco.py:255-345.
-/
namespace Verif.Model.Precond
open Verif.Model

/-- The arrays `canon_<p>` and `canon_<p>_conditioning`. -/
inductive Buf where
  | canon (c : CId)
  | cond (c : CId)
  deriving DecidableEq

variable {V : Type}

/-- Memory: contents of the arrays, the pointers `Canon_Params_conditioning.<p>` (`none`: null) and the
arrays that the solver has been given so far. The pointers `Canon_Params.<p>` never change. -/
structure St (V : Type) where
  heap : Buf → List V
  cond : CId → Option Buf
  seen : List Buf

/-- Initial memory (utils.py:505-550): both arrays hold the values at generation time `v0`; parameters
without entries get a null pointer. -/
def init (v0 : CId → List V) : St V where
  heap
    | .canon c => v0 c
    | .cond c => v0 c
  cond c := if (v0 c).length = 0 then none else some (.cond c)
  seen := []

/-- The loop in `cpg_copy_<p>` (utils.py:994-999). `none`: access outside an array. -/
def copyLoop (n : Nat) (src dst : List V) : Option (List V) :=
  (List.range n).foldlM (fun dst i => (src[i]?).bind fun v => store dst i v) dst

/-- `cpg_copy_<c>` (utils.py:989-1000); there is none for `d`. `size` is `p_id_to_size`. `none`: memory
error. -/
def copy (size : CId → Nat) (c : CId) (s : St V) : Option (St V) :=
  if c = .d then some s
  else if size c = 1 then
    some { s with cond := fun c' => if c' = c then some (.canon c) else s.cond c' }
  else if 1 < size c then
    (s.cond c).bind fun b => (copyLoop (size c) (s.heap (.canon c)) (s.heap b)).map fun l =>
      { s with heap := fun b' => if b' = b then l else s.heap b' }
  else some s

/-- Overwrite all entries of an array. -/
def overwrite (w : Nat → V → V) (l : List V) : List V := l.mapIdx w

/-- What happens to the arrays. -/
inductive Op (V : Type) where
  /-- `cpg_canonicalize_<c>` stores a new value -/
  | canonicalize (c : CId) (v : List V)
  /-- `cpg_copy_<c>` -/
  | copy (c : CId)
  /-- a call of the solver with the pointers of `Canon_Params_conditioning.<c>` for `c` in the list
  (ECOS, Clarabel), or of `Canon_Params.<c>` if `direct` (QOCO). The solver keeps pointers and may
  change, now and in later calls, every array it has been given -/
  | call (direct : Bool) (cs : List CId) (w : Buf → Nat → V → V)

/-- One operation. -/
def step (size : CId → Nat) (s : St V) : Op V → Option (St V)
  | .canonicalize c v => some { s with heap := fun b => if b = .canon c then v else s.heap b }
  | .copy c => copy size c s
  | .call direct cs w =>
      let seen := s.seen ++ (if direct then cs.map .canon else cs.filterMap s.cond)
      some { s with
        seen := seen
        heap := fun b => if b ∈ seen then overwrite (w b) (s.heap b) else s.heap b }

/-- A sequence of operations. -/
def run (size : CId → Nat) (s : St V) (ops : List (Op V)) : Option (St V) :=
  ops.foldlM (step size) s

/-- `cpg_copy_all` (utils.py:1002-1006); `keys` are the keys of `parameter_canon.p`. -/
def copyAll (keys : List CId) : List (Op V) := (keys.filter fun c => c ≠ .d).map .copy

end Verif.Model.Precond
