import Verif.Model.Text
/-!
Model of solver selection, prefix and pipeline of code generation.

Sources: /repo/cvxpygen/generator.py:65-182, /repo/cvxpygen/canonicalizer.py:54-122, 334-361, 363-406,
/repo/cvxpygen/solvers/pdaqp.py:89-92, 203-210, 264-292, and `check_unsupported_cones` in scs.py:130-135,
ecos.py:121-124, qoco.py:128-131, 348-351. Names are lists of characters; `lower` and `upper` act on ASCII
letters (Python's also change other letters). What CVXPY and PDAQP do with a problem enters as a record of facts.
-/
namespace Verif.Model.Dispatch
open Verif.Model.Text

/-- ASCII part of `str.lower`. -/
def lowerC (c : Char) : Char := if 65 ≤ c.toNat ∧ c.toNat ≤ 90 then Char.ofNat (c.toNat + 32) else c
/-- ASCII part of `str.upper`. -/
def upperC (c : Char) : Char := if 97 ≤ c.toNat ∧ c.toNat ≤ 122 then Char.ofNat (c.toNat - 32) else c
def lower (s : Txt) : Txt := s.map lowerC
def upper (s : Txt) : Txt := s.map upperC

inductive Iface where
  | osqp | scs | ecos | clarabel | qoco | qocogen | pdaqp
deriving DecidableEq

inductive Err where
  | attributeError | valueError | assertionError | keyError | exception | external
deriving DecidableEq

/-- The arguments of `generate_code` that select solver and mode: `dual` is `solver_opts.get('dual', False)`;
`windows` is `platform.system() == 'Windows'`. -/
structure Args where
  solver : Option Txt
  dual : Bool
  gradient : Bool
  windows : Bool

/-- `_resolve_solver` (generator.py:161-173). -/
def resolve (a : Args) : Option Txt × Nat :=
  match a.solver with
  | none => (none, 0)
  | some s => if lower s = "explicit".toList then (some "PDAQP".toList, if a.dual then 2 else 1) else (some s, 0)

/-- `gradient_two_stage` (generator.py:77); `cp.OSQP` is the string `OSQP`. -/
def twoStage (a : Args) (solver : Option Txt) (explicit : Nat) : Bool :=
  a.gradient && decide (solver ≠ some "OSQP".toList) && decide (explicit = 0)

/-- The mapping from names to interfaces (canonicalizer.py:72-80). -/
def table : List (Txt × Iface) :=
  [("OSQP".toList, .osqp), ("SCS".toList, .scs), ("ECOS".toList, .ecos), ("CLARABEL".toList, .clarabel),
   ("QOCO".toList, .qoco), ("QOCOGEN".toList, .qocogen), ("PDAQP".toList, .pdaqp)]

/-- `_get_interface_class` (canonicalizer.py:69-84); `None` has no attribute `upper`. -/
def interfaceClass (windows : Bool) : Option Txt → Except Err Iface
  | none => .error .attributeError
  | some s =>
    if windows = true ∧ upper s = "CLARABEL".toList then .error .valueError
    else match table.lookup (upper s) with
      | some i => .ok i
      | none => .error .valueError

/-- Solver interface, explicit flag and two-stage flag that a call ends up with. -/
def select (a : Args) : Except Err (Iface × Nat × Bool) :=
  match interfaceClass a.windows (resolve a).1 with
  | .ok i => .ok (i, (resolve a).2, twoStage a (resolve a).1 (resolve a).2)
  | .error e => .error e

/-! ### prefix -/

def isAlpha (c : Char) : Bool := (65 ≤ c.toNat && c.toNat ≤ 90) || (97 ≤ c.toNat && c.toNat ≤ 122)

/-- The prefix of the configuration (generator.py:176-179). -/
def normPrefix (p : Txt) : Txt :=
  let p := match p with
    | [] => []
    | c :: t => if isAlpha c then c :: t else '_' :: c :: t
  match p with
  | [] => []
  | p => p ++ ['_']

/-! ### pipeline -/

/-- Cone dimensions of the canonical problem, as far as they are checked. -/
structure Cones where
  exp : Nat
  psd : Nat
  p3d : Nat

/-- `check_unsupported_cones`; without objection for interfaces that do not override it and for quadratic
programs, which have no cone dimensions. -/
def conesOk : Iface → Cones → Bool
  | .scs, c => !(decide (0 < c.exp) || decide (0 < c.psd) || decide (0 < c.p3d))
  | .ecos, c => !decide (0 < c.exp)
  | .qoco, c => !decide (0 < c.exp)
  | .qocogen, c => !decide (0 < c.exp)
  | _, _ => true

/-- What the pipeline finds out about the problem. -/
structure Facts where
  /-- `get_problem_data` succeeds for this interface. -/
  canonOk : Iface → Bool
  /-- The canonical problem has parameters. -/
  hasParams : Bool
  cones : Iface → Cones
  /-- In the form of OSQP: does `P`, does `A` depend on parameters; is `P` diagonal. -/
  pChanges : Bool
  aChanges : Bool
  pDiagonal : Bool
  /-- The intermediate problem can be canonicalized for this interface. -/
  secondOk : Iface → Bool
  /-- Some parameter changes the constant of the objective (in the form of OSQP). -/
  dChanges : Bool
  /-- Constraints on parameters alone are simple bounds. -/
  simpleBounds : Bool
  /-- PDAQP finds the solution map, and prints it within its limits. -/
  solved : Bool
  printed : Bool

/-- `_extract` (canonicalizer.py:86-104), as far as it can fail. -/
def extract (windows : Bool) (solver : Option Txt) (f : Facts) : Except Err Iface :=
  match interfaceClass windows solver with
  | .error e => .error e
  | .ok i =>
    if f.canonOk i = false then .error .external
    else if f.hasParams = false then .error .valueError
    else if conesOk i (f.cones i) = false then .error .valueError
    else .ok i

/-- The second half of `canonicalize_two_stage` (canonicalizer.py:59-65): intermediate problem
(337-345), its canonicalization, merging (390-393: the name `osqp_d` is unknown). -/
def second (windows : Bool) (solver : Option Txt) (f : Facts) : Except Err Iface :=
  if f.pChanges then .error .valueError
  else if f.pDiagonal = false then .error .assertionError
  else match interfaceClass windows solver with
    | .error e => .error e
    | .ok i =>
      if f.secondOk i = false then .error .external
      else if conesOk i (f.cones i) = false then .error .valueError
      else if f.dChanges then .error .keyError
      else .ok i

/-- `_run_canonicalization` (generator.py:103-121). -/
def canonicalization (a : Args) (f : Facts) : Except Err Iface :=
  let s := resolve a
  if twoStage a s.1 s.2 then
    match extract a.windows (some "OSQP".toList) f with
    | .error e => .error e
    | .ok _ => second a.windows s.1 f
  else extract a.windows s.1 f

/-- Checks within `generate_code` of the solver interface (pdaqp.py:89-92, 289, 203-210). -/
def codeGeneration (i : Iface) (f : Facts) : Except Err Unit :=
  if i = .pdaqp then
    if f.pChanges || f.aChanges then .error .valueError
    else if f.simpleBounds = false then .error .valueError
    else if f.solved = false then .error .exception
    else if f.printed = false then .error .exception
    else .ok ()
  else .ok ()

/-- What is in the folder: as before the call, emptied, or the generated code. -/
inductive Folder where
  | before | emptied | generated
deriving DecidableEq

/-- `generate` (generator.py:65-88): the outcome and the folder afterwards. The folder is emptied after
canonicalization (`_setup_folder`, 92-101) and before code generation. -/
def generate (a : Args) (f : Facts) : Except Err Unit × Folder :=
  match canonicalization a f with
  | .error e => (.error e, .before)
  | .ok i =>
    match codeGeneration i f with
    | .error e => (.error e, .emptied)
    | .ok () => (.ok (), .generated)

end Verif.Model.Dispatch
