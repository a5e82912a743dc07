import Verif.Model.Retrieve
/-!
Model of what the generated Python solve method leaves in the problem object and returns.

Sources: /repo/cvxpygen/canonicalizer.py:160-172 (ids of dual variables), 206-209 (their names and order),
/repo/cvxpygen/utils.py:1580-1584 (`dual_save_list`), 1595, /repo/cvxpygen/templates/cpg_solver.py.jinja2:70-117. CVXPY is an
input: the ids of `prob.constraints`, the maps from constraints to canonical constraints in the inverse data of the
reductions, and `_clear_solution`, which resets values of variables, dual values, value and status. Arrays are kept flat
(reshaping: C17, C50).
-/
namespace Verif.Model.Saved
open Verif.Model

variable {R : Type}

/-- Python dictionary from constraint ids to constraint ids, in its order; keys are distinct. -/
abbrev IdMap := List (Nat × Nat)

/-- `d[k] = v`: an existing key keeps its place. -/
def put (d : IdMap) (k v : Nat) : IdMap :=
  if (d.map Prod.fst).contains k then d.map fun e => if e.1 = k then (k, v) else e else d ++ [(k, v)]

/-- The map of the first reduction: one entry per constraint of the problem, in their order, `f` gives the canonical
constraint. -/
def firstMap (f : Nat → Nat) (cons : List Nat) : IdMap := cons.foldl (fun d c => put d c (f c)) []

/-- canonicalizer.py:170-171: the maps of the remaining reductions, one after the other. -/
def follow : List IdMap → Nat → Except PyErr Nat
  | [], i => .ok i
  | m :: ms, i =>
    match m.lookup i with
    | none => .error .keyError
    | some j => follow ms j

/-- canonicalizer.py:168-172. `dual_id_maps[0]` of an empty list raises. -/
def dualIds : List IdMap → Except PyErr (List Nat)
  | [] => .error .indexError
  | m :: ms => (m.map Prod.fst).mapM (follow ms)

/-- The problem object: values of variables by name, dual values by id of the constraint, value, status. -/
inductive Val (R : Type) where
  | fin (r : R)
  | posInf
  | negInf
  deriving DecidableEq

structure PObj (R : Type) where
  prim : String → Option (List R)
  dual : Nat → Option (List R)
  value : Option (Val R)
  status : Option String

/-- What the compiled module returns: `cpg_prim`, `cpg_dual` by number (`d0`, `d1`, ...), `obj_val`, `status` (as text,
template:93-97), `time`. -/
structure Res (R : Type) where
  prim : String → List R
  dual : Nat → List R
  objVal : R
  status : String
  time : R

/-- What the method returns. -/
inductive Ret (R : Type) where
  | value (v : Val R)
  | time (t : R)
  deriving DecidableEq

/-- What is written into the Python file: `explicit`, names of variables that are stored (utils.py:1595), number of dual
variables (utils.py:1582). -/
structure PyFile where
  explicit : Nat
  vars : List String
  nDual : Nat

/-- `prob._clear_solution()` (template:76), a function of CVXPY: the values of the variables `vars` of the problem, the dual
values of its constraints, value and status become `None`. -/
def clear (vars : List String) (cons : List Nat) (o : PObj R) : PObj R where
  prim := fun n => if n ∈ vars then none else o.prim n
  dual := fun c => if c ∈ cons then none else o.dual c
  value := none
  status := none

/-- template:77-79. -/
def saveVars (f : PyFile) (r : Res R) (o : PObj R) : PObj R :=
  f.vars.foldl (fun o n => { o with prim := fun m => if m = n then some (r.prim n) else o.prim m }) o

/-- One line of template:82-84: dual variable `i` goes to `prob.constraints[i]`. -/
def saveDual (cons : List Nat) (r : Res R) (o : PObj R) (i : Nat) : Except PyErr (PObj R) :=
  match cons[i]? with
  | none => .error .indexError
  | some c => .ok { o with dual := fun c' => if c' = c then some (r.dual i) else o.dual c' }

/-- template:81-85, utils.py:1581-1584. -/
def saveDuals (f : PyFile) (cons : List Nat) (r : Res R) (o : PObj R) : Except PyErr (PObj R) :=
  if f.explicit = 1 then .ok o else (List.range f.nDual).foldlM (saveDual cons r) o

/-- template:98-101; `big` is 1e30. -/
def toVal [DecidableEq R] [Neg R] (big x : R) : Val R :=
  if x = big then .posInf else if x = -big then .negInf else .fin x

/-- template:76-117, after the call of the compiled module; `vars` and `cons` are the variables and constraints of the
problem. -/
def save [DecidableEq R] [Neg R] (big : R) (f : PyFile) (vars : List String) (cons : List Nat) (r : Res R)
    (before : PObj R) : Except PyErr (PObj R × Ret R) :=
  match saveDuals f cons r (saveVars f r (clear vars cons before)) with
  | .error e => .error e
  | .ok o =>
    if f.explicit = 0 then
      .ok ({ o with value := some (toVal big r.objVal), status := some r.status }, .value (toVal big r.objVal))
    else .ok (o, .time r.time)

end Verif.Model.Saved
