import Verif.Model.Py
/-!
The solve method that `problem.solve(method='CPG')` calls.

Sources: /repo/cvxpygen/compiler.py:33-40 (`register`: `problem.register_solve(name, cpg_solve)`), template cpg_solver.py.jinja2:18-36
(`get_param_value`), 44-90 (body of `cpg_solve`), README.md:107. In CVXPY `register_solve` is a class method: it stores the function in a
dictionary of the class `Problem`, which `solve(method=…)` of every problem looks up (CVXPY's API, external).

Simplifications: `updated_params` and settings are not given, so that the solution is a function of the values of the parameters (that this
is so: C20); the memory of the generated code, status, value and statistics are left out; `save_value` and `save_dual_value` accept anything
(CVXPY, external). Sizes are those of the flattened arrays.
-/
namespace Verif.Model.Methods

/-- How the value of a parameter is read. -/
inductive Attr where
  | plain
  | diag
  | sparse
  deriving DecidableEq, Repr

/-- A CVXPY parameter: `size` (number of entries of the matrix), and the entries that `get_param_value` takes, if it has a value. -/
structure Param (R : Type) where
  size : Nat
  attr : Attr
  data : Option (List R)

/-- What a CVXPY problem has of interest: `param_dict`, `var_dict` with values, dual values of `constraints`. -/
structure Prob (R : Type) where
  params : List (String × Param R)
  vars : List (String × Option (List R))
  duals : List (Option (List R))

/-- Generated code: names and sizes of parameters, names of variables, number of dual values stored, and the solution for given values of
the parameters. -/
structure Code (R : Type) where
  params : List (String × Nat)
  vars : List String
  nDuals : Nat
  solution : List (List R) → List (List R) × List (List R)

variable {R : Type}

/-- `get_param_value` (template 27-34), then the assignment to the attribute of a bound struct, which is a `double` or an array of `double`
of the given length (cpg_module.hpp.jinja2:10-14). -/
def send (p : Param R) (declared : Nat) : Except PyErr (List R) :=
  match p.data with
  | none => .error (if p.size = 1 then .typeError else match p.attr with
      | .diag => .valueError
      | .sparse | .plain => .attributeError)
  | some l =>
    if p.size = 1 then
      -- a number
      if declared = 1 then .ok l else .error .typeError
    else
      -- a list
      if declared ≠ 1 ∧ l.length = declared then .ok l else .error .typeError

/-- Template 64-68: all parameters of the code are read from `prob.param_dict`. -/
def readAll (q : Prob R) : List (String × Nat) → Except PyErr (List (List R))
  | [] => .ok []
  | (n, k) :: l =>
    match q.params.lookup n with
    | none => .error .keyError
    | some p =>
      match send p k with
      | .error e => .error e
      | .ok v =>
        match readAll q l with
        | .error e => .error e
        | .ok vs => .ok (v :: vs)

/-- `prob._clear_solution()` (template 76). -/
def clear (q : Prob R) : Prob R := { q with vars := q.vars.map fun v => (v.1, none), duals := q.duals.map fun _ => none }

def setVar (vars : List (String × Option (List R))) (n : String) (x : List R) : List (String × Option (List R)) :=
  vars.map fun v => if v.1 = n then (n, some x) else v

/-- Template 77-79. -/
def saveVars : Prob R → List (String × List R) → Prob R × Option PyErr
  | q, [] => (q, none)
  | q, (n, x) :: l =>
    match q.vars.lookup n with
    | none => (q, some .keyError)
    | some _ => saveVars { q with vars := setVar q.vars n x } l

/-- Template 81-85: `prob.constraints[i]` for `i = 0, 1, …`. -/
def saveDuals : Prob R → Nat → List (List R) → Prob R × Option PyErr
  | q, _, [] => (q, none)
  | q, i, y :: l => if i < q.duals.length then saveDuals { q with duals := q.duals.set i (some y) } (i + 1) l else (q, some .indexError)

/-- `cpg_solve(prob)`. -/
def cpgSolve (c : Code R) (q : Prob R) : Prob R × Option PyErr :=
  match readAll q c.params with
  | .error e => (q, some e)
  | .ok vals =>
    match saveVars (clear q) (c.vars.zip (c.solution vals).1) with
    | (q, some e) => (q, some e)
    | (q, none) => saveDuals q 0 ((c.solution vals).2.take c.nDuals)

/-- A Python process: problems, and the methods of the class `Problem`. -/
structure Process (R : Type) where
  probs : List (Prob R)
  methods : String → Option (Code R)

inductive Op (R : Type) where
  /-- `generate_code(problem, …)` with the wrapper (successful, see C57), or `problem.register_solve(name, cpg_solve)` -/
  | register (i : Nat) (name : String) (c : Code R)
  /-- assigning a value to a parameter of a problem -/
  | assign (i : Nat) (n : String) (l : List R)
  /-- `problem.solve(method=name)` -/
  | solve (i : Nat) (name : String)

/-- The outcome of an operation is an error or nothing; a method that is not registered is a `KeyError`. -/
def step (s : Process R) : Op R → Process R × Option PyErr
  | .register _ name c => ({ s with methods := fun m => if m = name then some c else s.methods m }, none)
  | .assign i n l => ({ s with probs := s.probs.modify i fun q =>
      { q with params := q.params.map fun p => if p.1 = n then (n, { p.2 with data := some l }) else p } }, none)
  | .solve i name =>
    match s.methods name, s.probs[i]? with
    | some c, some q => ({ s with probs := s.probs.set i (cpgSolve c q).1 }, (cpgSolve c q).2)
    | _, _ => (s, some .keyError)

def run (s : Process R) (ops : List (Op R)) : Process R := ops.foldl (fun s o => (step s o).1) s

end Verif.Model.Methods
