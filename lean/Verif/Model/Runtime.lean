import Verif.Model.SolverTables
/-!
The generated program as a state machine: `cpg_update_*` and `cpg_solve`
(`cvxpygen/utils.py` 904-944, 1008-1052) together with the initial memory
(`cvxpygen/utils.py` 483-562).
-/
namespace Verif.Model

/-- Result of code generation relevant for updates and solves. `Θ` is the type of
`cpg_params_vec` contents, `V` of canonical parameter values, `Act` of calls
`cpg_update_<name>(idx, val)`. -/
structure Gen (Θ V Act : Type) where
  /-- `cpg_canonicalize_<p>`: value computed from the parameter vector -/
  canonOf : CId → Θ → V
  /-- assignment to the parameter vector performed by an update call -/
  assign : Act → Θ → Θ
  /-- `user_p_name_to_canon_outdated[name]` for the name in the call -/
  outdated : Act → List CId
  /-- `p_id_to_changes` -/
  changes : Changes
  /-- `quad_obj` -/
  quad : Bool
  /-- parameter vector at generation time, `utils.py:485` -/
  θ0 : Θ
  /-- canonical parameters written at generation time, `utils.py:505-550`. With one canonicalization
  they are those of `θ0`; with two-stage canonicalization they are not, see `Model/Merge.lean` -/
  canon0 : CId → V

/-- Memory of the generated program. -/
structure Mem (Θ V : Type) where
  θ : Θ
  /-- `Canon_Outdated` -/
  flags : CId → Bool
  /-- `Canon_Params` -/
  canon : CId → V
  /-- data the solver works on -/
  solver : CId → V
  /-- the solver has been initialised -/
  inited : Bool
  /-- a solver call has been made on an uninitialised solver -/
  bad : Bool
  /-- all solver data calls made so far, latest first -/
  calls : List CId

variable {Θ V Act : Type}

/-- Initial memory: parameters and canonical parameters as written by `write_workspace_def`
(`utils.py:485, 505-550`), all flags 1 (`utils.py:560-561`). A solver that is not statically set up
has no data yet (arbitrary `junk`). -/
def Gen.initMem (g : Gen Θ V Act) (sv : Solver) (junk : CId → V) : Mem Θ V where
  θ := g.θ0
  flags := fun _ => true
  canon := g.canon0
  solver := if sv.static then g.canon0 else junk
  inited := sv.static
  bad := false
  calls := []

/-- `cpg_update_<name>`, `utils.py:905-935` (non-explicit). -/
def Gen.update (g : Gen Θ V Act) (a : Act) (m : Mem Θ V) : Mem Θ V :=
  { m with θ := g.assign a m.θ, flags := fun p => (g.outdated a).contains p || m.flags p }

/-- Does the id change, `p_id_to_changes[p]`. -/
def Gen.chg (g : Gen Θ V Act) (p : CId) : Bool := g.changes.getD p

/-- The canonicalization part of `cpg_solve`, `utils.py:1012-1016`. -/
def Gen.canonicalize (g : Gen Θ V Act) (m : Mem Θ V) : Mem Θ V :=
  { m with canon := fun p => if g.chg p && m.flags p then g.canonOf p m.θ else m.canon p }

/-- Value of an atomic C condition. -/
def evMem (m : Mem Θ V) : CTok → Bool
  | .flag p => m.flags p
  | .extra .notInit => !m.inited
  | .extra .always => true
  | _ => false

/-- A solver call. -/
def doCall (g : Gen Θ V Act) (sv : Solver) (f : CId) (m : Mem Θ V) : Mem Θ V :=
  match sv.effect f with
  | .push ps => { m with
      solver := fun p => if ps.contains p then m.canon p else m.solver p
      bad := m.bad || !m.inited
      calls := f :: m.calls }
  | .initPush ps => { m with
      solver := fun p => if ps.contains p then m.canon p else m.solver p
      inited := true
      calls := f :: m.calls }
  | .initGen => { m with
      solver := g.canon0
      inited := true
      calls := f :: m.calls }

/-- Reset of flags at the end of `cpg_solve`, `utils.py:1048-1050`. -/
def Gen.resetFlags (g : Gen Θ V Act) (m : Mem Θ V) : Mem Θ V :=
  { m with flags := fun p => if g.chg p then false else m.flags p }

/-- What a solve exposes: the data the solver worked on and the objective offset
`Canon_Params.d` used by `cpg_retrieve_info` (`utils.py:980`). -/
structure Obs (V : Type) where
  data : CId → V
  offset : V

/-- `cpg_solve`, `utils.py:1008-1052`, with the emitted update block `toks`. `none`: the emitted text
is not valid C. -/
def Gen.solve (g : Gen Θ V Act) (sv : Solver) (toks : List Tok) (m : Mem Θ V) :
    Option (Mem Θ V × Obs V) :=
  match execText evMem (doCall g sv) toks (g.canonicalize m) with
  | none => none
  | some m' => some (g.resetFlags m', { data := m'.solver, offset := m'.canon .d })

/-- API calls. -/
inductive Call (Act : Type) where
  | update (a : Act)
  | solve

/-- Run a history of API calls, collecting the observations of all solves. -/
def Gen.runCalls (g : Gen Θ V Act) (sv : Solver) (toks : List Tok) :
    Mem Θ V → List (Call Act) → Option (Mem Θ V × List (Obs V))
  | m, [] => some (m, [])
  | m, .update a :: cs => g.runCalls sv toks (g.update a m) cs
  | m, .solve :: cs =>
      match g.solve sv toks m with
      | none => none
      | some (m', o) =>
          match g.runCalls sv toks m' cs with
          | none => none
          | some (m'', os) => some (m'', o :: os)

/-- Recursion budget for the generator's recursive functions; larger than the depth of any table. -/
def genFuel : Nat := 6

/-- The generator's code path for `cpg_solve`'s update block, `utils.py:1029-1030`: `order` is the
iteration order of the set returned by `analyze_pus`. -/
def genBlock (pus : Pus) (quad : Bool) (ch : Changes) (order : List CId → List CId) :
    Except PyErr (List Tok × Pus) := do
  let (roots, never) ← analyzePus pus genFuel ch
  writeUpdate quad never genFuel pus (some (order roots)) 0

end Verif.Model
