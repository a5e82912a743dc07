import Verif.Model.Dispatch
import Mathlib.Data.Rat.Defs
/-!
Model of the argument `solver_opts` of `generate_code`: which of its entries reach the generated program.

Sources: /repo/cvxpygen/cpg.py:17-29, generator.py:44-50, 71-86, 103-118, 123-142, 161-173, canonicalizer.py:37-66, 86-112, 282-289, 417-426,
solvers/pdaqp.py:70-75, 77-87, 143-146, 199-210.

Simplifications: Python values are absent (`None`), numbers (Booleans are the numbers 0 and 1), strings and lists of opaque objects. What CVXPY
does with `solver_opts` (canonicalizer.py:89-95) is a parameter `cvx`; what PDAQP does is a parameter. `quad_obj` is only tested for its truth
value.
-/
namespace Verif.Model.Options
open Verif.Model.Text Verif.Model.Dispatch

/-- A Python value. -/
inductive Val where
  | absent
  | num (q : ℚ)
  | str (s : String)
  | list (objects : List Nat)
  deriving DecidableEq

/-- The truth value of a Python value. -/
def Val.truthy : Val → Bool
  | .absent => false
  | .num q => decide (q ≠ 0)
  | .str s => decide (s ≠ "")
  | .list l => decide (l ≠ [])

/-- `False` and `True`. -/
def Val.bool (b : Bool) : Val := .num (if b then 1 else 0)

/-- A dict. -/
abbrev Opts := List (String × Val)

/-- `solver_opts`, or `None`. -/
abbrev Arg := Option Opts

/-- `solver_opts.get(key, default) if solver_opts else default`, pdaqp.py:83, 84, 144, canonicalizer.py:421. -/
def Arg.get (o : Arg) (key : String) (default : Val) : Val :=
  match o with
  | none => default
  | some l => if l = [] then default else (l.lookup key).getD default

/-- `solver_opts and solver_opts.get('dual', False)`, generator.py:168. -/
def dual (o : Arg) : Bool := (o.get "dual" (.bool false)).truthy

/-- The precision in which an explicit solution is stored. -/
inductive Store where
  | single
  | half
  deriving DecidableEq

/-- `c_float_store`, pdaqp.py:87. -/
def store (o : Arg) : Store :=
  if (o.get "fp16" (.bool false)).truthy || (o.get "FP16" (.bool false)).truthy then .half else .single

/-- What is handed to PDAQP (pdaqp.py:83-87, 144, 200-208), and the list of variables to be stored (`absent`: all). -/
structure Explicit where
  regions : Val
  floats : Val
  dual : Bool
  store : Store
  stored : Val
  deriving DecidableEq

/-- `PDAQPInterface.generate_code` as far as options are concerned; `explicit` is the flag of the configuration. -/
def explicitOf (explicit : Nat) (o : Arg) : Explicit where
  regions := o.get "max_regions" (.num 500)
  floats := o.get "max_floats" (.num 1000000)
  dual := decide (explicit = 2)
  store := store o
  stored := o.get "stored_vars" .absent

/-- `solver_type == 'quadratic'`: the default (_interface.py:26), overridden by SCS, ECOS, Clarabel, QOCO and QOCOGEN (scs.py:20, ecos.py:20,
clarabel.py:22, qoco.py:20, 194). -/
def quadratic : Iface → Bool
  | .osqp | .pdaqp => true
  | _ => false

/-- `supports_quad_obj`: false by default (_interface.py:84), true in osqp.py:19, scs.py:21, clarabel.py:23, qoco.py:21, 195. -/
def supportsQuad : Iface → Bool
  | .ecos | .pdaqp => false
  | _ => true

/-- `_get_quad_obj`, canonicalizer.py:417-426; `term` is `has_quadratic_term()`. -/
def quadObj (i : Iface) (term : Bool) (o : Arg) : Bool :=
  if quadratic i then true else (o.get "use_quad_obj" (.bool true)).truthy && supportsQuad i && term

/-- What a call depends on: the data of the canonicalizations (two in two stages: first OSQP's without options, canonicalizer.py:59, then
the solver's, 61-63), `quad_obj`, the explicit flag, and what is handed to PDAQP. -/
structure Job (D : Type) where
  first : Option D
  data : D
  quad : Bool
  explicit : Nat
  pdaqp : Option Explicit
  deriving DecidableEq

/-- PDAQP: the status of the construction of the solution map for a limit of regions, and the status of printing it. -/
structure Pdaqp where
  solved : Val → Bool → Bool
  printed : Val → Bool → Store → Bool

variable {D : Type}

/-- The text of the exception, pdaqp.py:206, 210. -/
inductive Failure where
  | selection (e : Err)
  | notSolved
  /-- "Could not generate explicit solver. Consider increasing max_reals in solver_opts." -/
  | increaseMaxReals
  deriving DecidableEq

/-- `generate` (generator.py:71-86) as far as options are concerned: selection of the solver, canonicalization, code generation of the
solver interface. -/
def generate (cvx : Iface → Arg → D) (pdaqp : Pdaqp) (term : Bool) (solver : Option Txt) (gradient windows : Bool) (o : Arg) :
    Except Failure (Job D) :=
  match select ⟨solver, dual o, gradient, windows⟩ with
  | .error e => .error (.selection e)
  | .ok (i, explicit, two) =>
    if i = .pdaqp then
      let e := explicitOf explicit o
      if pdaqp.solved e.regions e.dual = false then .error .notSolved
      else if pdaqp.printed e.floats e.dual e.store = false then .error .increaseMaxReals
      else .ok ⟨if two then some (cvx .osqp none) else none, cvx i o, quadObj i term o, explicit, some e⟩
    else .ok ⟨if two then some (cvx .osqp none) else none, cvx i o, quadObj i term o, explicit, none⟩

end Verif.Model.Options
