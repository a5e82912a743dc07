import Verif.Model.Canon
/-!
The update functions with arbitrary (signed) indices. `cpg_update_<name>(cpg_int idx, cpg_float val)` makes one
assignment to `cpg_params_vec[idx+base_col]` without looking at `idx`
(/repo/cvxpygen/utils.py:904-935); the array holds all user parameters and a trailing constant 1
(canonicalizer.py:263, utils.py:485).
-/
namespace Verif.Model.Index
open Verif.Model
variable {R : Type}

/-- A call of an update function. The function of a parameter of size one has no index (utils.py:907-908). -/
structure RawCall (R : Type) where
  name : String
  idx : Int
  val : R

/-- `a[i] = v` with a signed index; `none`: outside the array. -/
def storeZ (a : List R) (i : Int) (v : R) : Option (List R) :=
  if 0 ≤ i then store a i.toNat v else none

/-- `a[i]` with a signed index. -/
def readZ (a : List R) (i : Int) : Option R := if 0 ≤ i then a[i.toNat]? else none

/-- `cpg_params_vec[idx+base_col] = val`, utils.py:916, 926 (not explicit). `vec` includes the trailing constant. -/
def updateZ (ps : List UParam) (a : RawCall R) (vec : List R) : Option (List R) := do
  let base ← baseCol ps a.name
  storeZ vec (base + a.idx) a.val

/-- The same with the two comparisons of explicit mode, utils.py:909-915, 919-925: `lower` and `upper` have the
length of `cpg_params_vec` (pdaqp.py:270-272). -/
def updateEx [LT R] [DecidableRel (fun x y : R => x < y)] (ps : List UParam) (lower upper : List R) (a : RawCall R)
    (vec : List R) : Option (List R) := do
  let base ← baseCol ps a.name
  let lo ← readZ lower (base + a.idx)
  let v := if a.val < lo then lo else a.val
  let up ← readZ upper (base + a.idx)
  let v := if up < v then up else v
  storeZ vec (base + a.idx) v

/-- Memory used by updates and canonicalization: `cpg_params_vec`, `Canon_Outdated`, `Canon_Params`. -/
structure St (R : Type) where
  vec : List R
  flags : CId → Bool
  canon : CId → Option (List R)

/-- `cpg_canonicalize_<p>` on the array `cpg_params_vec` as it is (utils.py:279-294); compare `canonVal`. -/
def canonVec [Zero R] [Add R] [Mul R] (m : Sp R) (vec : List R) : Option (List R) :=
  canonicalizeC m.rows m.toCsr vec (List.replicate m.rows 0)

/-- API calls. -/
inductive Op (R : Type) where
  | update (a : RawCall R)
  | solve

/-- `cpg_update_<name>` (utils.py:904-935, not explicit) and the canonicalization and reset of flags in `cpg_solve`
(utils.py:1012-1016, 1048-1050). `none`: memory error. -/
def step [CommRing R] [DecidableEq R] (ps : List UParam) (ids : List CId) (maps : CId → Option (RawMap R)) (s : St R) :
    Op R → Option (St R)
  | .update a => (updateZ ps a s.vec).map fun v =>
      { s with vec := v
               flags := fun c => (((outdatedOf ps ids maps).lookup a.name).getD []).contains c || s.flags c }
  | .solve => some
      { s with canon := fun c =>
                 if mapChanges (maps c) c.isUpper && s.flags c then
                   (maps c).bind fun m => canonVec (m.final c.isUpper) s.vec
                 else s.canon c
               flags := fun c => if mapChanges (maps c) c.isUpper then false else s.flags c }

def run [CommRing R] [DecidableEq R] (ps : List UParam) (ids : List CId) (maps : CId → Option (RawMap R)) :
    St R → List (Op R) → Option (St R)
  | s, [] => some s
  | s, o :: os => (step ps ids maps s o).bind fun s => run ps ids maps s os

/-- Memory before the first call: the parameter values at generation followed by 1 (utils.py:485), all flags set
(utils.py:560-561), canonical parameters of these values (utils.py:505-550). -/
def init [CommRing R] [DecidableEq R] (maps : CId → Option (RawMap R)) (θ0 : List R) : St R where
  vec := θ0 ++ [1]
  flags := fun _ => true
  canon := fun c => canonVal (maps c) c.isUpper θ0

end Verif.Model.Index
