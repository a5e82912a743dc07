import Verif.Model.Py
/-!
What code generation does to the user's parameters.

Sources: /repo/cvxpygen/canonicalizer.py:47-52, 54-65 (one stage, two stages), 86-122 (`_extract`: order of the steps that can raise),
249-258 (`_get_parameter_info`: parameters without a value get a random one), 334-361 (`_get_osqp_problem`: parameters of the second problem,
none with a value), /repo/cvxpygen/generator.py:80-88 (later steps).

Simplifications: which steps raise is given with the job; values, random draws and CVXPY's projection are parameters of the model; the
conversion of diagonal matrices to arrays (253-254) keeps the value. `params` are the parameters that CVXPY lists for the problem.
-/
namespace Verif.Model.Assign
open Verif.Model
variable {Attr V Raw S : Type}

/-! Outcomes are `none` (no error) or the exception. -/

/-- A parameter of a problem: shape and attributes, and its value, if it has one. -/
structure Par (Attr V : Type) where
  attr : Attr
  value : Option V
  deriving DecidableEq, Repr

/-- What generation can change: the parameters of the problem and the state of numpy's generator of random numbers. -/
structure World (Attr V S : Type) where
  params : List (Par Attr V)
  rng : S
  deriving DecidableEq, Repr

/-- `np.random.randn(*p.shape)` and `p.project`. -/
structure Env (Attr V Raw S : Type) where
  randn : S → Attr → Raw × S
  project : Attr → Raw → V

/-- The loop at canonicalizer.py:249-254. -/
def assign (e : Env Attr V Raw S) : List (Par Attr V) → S → List (Par Attr V) × S
  | [], s => ([], s)
  | p :: ps, s =>
    match p.value with
    | some _ =>
      let r := assign e ps s
      (p :: r.1, r.2)
    | none =>
      let r := assign e ps (e.randn s p.attr).2
      ({ p with value := some (e.project p.attr (e.randn s p.attr).1) } :: r.1, r.2)

/-- `_extract`, canonicalizer.py:86-122: `before` is the first error before the parameters are listed (unknown solver, problem data, no
parameters, cones, interface, information on variables), `after` the first one after. -/
def extract (e : Env Attr V Raw S) (before after : Option PyErr) (w : World Attr V S) : Option PyErr × World Attr V S :=
  match before with
  | some err => (some err, w)
  | none =>
    let r := assign e w.params w.rng
    (after, ⟨r.1, r.2⟩)

/-- A call of `generate`: errors of the first canonicalization; in two stages the attributes of the parameters of the second problem, an error
of building it, and errors of its canonicalization; errors of later steps. -/
structure Job (Attr : Type) where
  before : Option PyErr
  after : Option PyErr
  second : Option (List Attr × Option PyErr × Option PyErr)
  later : Option PyErr
  deriving DecidableEq, Repr

/-- Second canonicalization (canonicalizer.py:60-63): the problem is a new one, its parameters have no values. -/
def secondStage (e : Env Attr V Raw S) (attrs : List Attr) (before after : Option PyErr) (w : World Attr V S) :
    Option PyErr × World Attr V S :=
  let r := extract e before after ⟨attrs.map fun a => ⟨a, none⟩, w.rng⟩
  (r.1, ⟨w.params, r.2.rng⟩)

/-- Steps after canonicalization, generator.py:81-88: none of them assigns to parameters. -/
def laterSteps (later : Option PyErr) (w : World Attr V S) : Option PyErr × World Attr V S :=
  match later with
  | some err => (some err, w)
  | none => (none, w)

/-- `generate`, generator.py:80-88. -/
def generate (e : Env Attr V Raw S) (j : Job Attr) (w : World Attr V S) : Option PyErr × World Attr V S :=
  match extract e j.before j.after w with
  | (some err, w1) => (some err, w1)
  | (none, w1) =>
    match j.second with
    | none => laterSteps j.later w1
    | some (attrs, before, after) =>
      match secondStage e attrs before after w1 with
      | (some err, w2) => (some err, w2)
      | (none, w2) => laterSteps j.later w2

/-- CVXPY's `problem.solve()` raises if a parameter has no value. -/
def missing (w : World Attr V S) : Bool := w.params.any fun p => p.value.isNone

end Verif.Model.Assign
