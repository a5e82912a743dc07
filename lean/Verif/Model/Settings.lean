import Verif.Model.Wrapper
/-!
Solver settings in a C program that uses the generated code: `cpg_set_solver_<name>`, `cpg_set_solver_default_settings`, `cpg_solve`.

Sources: /repo/cvxpygen/utils.py:1069-1084 (the functions), 1032-1034 (settings copied at each solve), 663-669 (`Canon_Settings` and its initial
values), 793-798 (its type), solvers/_interface.py:185-195 (enabled settings only), scs.py:25-32, 46, 241-245 (settings of SCS), osqp.py:98-101,
126-131 (OSQP's settings are written by its own code generator), qoco.py:56-61, 94-97, 187 (QOCOGEN's workspace is defined without initial
values), 300-312 (QOCO is set up with default settings of the library before the settings are copied), clarabel.py:179, 201-204.

Simplifications: all settings have values of one type `S`. What the libraries do is a parameter: the values their reset functions store, the
values in the code that OSQP generates, what `load_data` of QOCOGEN stores in the settings, and which settings are read only while an object is
set up. A call of a function that is not generated does not compile: `none`. Strings as values of settings: see DESIGN.md.
-/
namespace Verif.Model.Settings
open Verif.Model

/-- What code generation and the libraries determine. -/
structure Env (S : Type) where
  /-- `stgs_names_enabled` (`_interface.py:185-187`) -/
  enabled : List String
  /-- defaults in the table `stgs` of the interface -/
  table : String → S
  /-- values that the library's reset function stores (`osqp_set_default_settings`, `scs_set_default_settings`, `set_default_settings`) -/
  lib : String → S
  /-- OSQP: values in the workspace that `osqp_obj.codegen` writes (`osqp.py:131`) -/
  compiled : String → S
  /-- value of an object with static storage duration that has no initialiser -/
  zero : S
  /-- QOCOGEN: what `load_data` stores in a setting, if anything -/
  load : String → Option S
  /-- settings that the library reads only while an object is set up -/
  atSetup : List String

/-- Calls of a C program. -/
inductive Op (Act S : Type) where
  | update (a : Act)
  | set (n : String) (v : S)
  | reset
  | solve

/-- Memory of the program: the part of `Model/Runtime.lean`, the settings as the settings functions see them, the settings the solver worked with
at the last solve. -/
structure State (Θ V S : Type) where
  mem : Mem Θ V
  store : String → S
  used : String → S

variable {Θ V Act S : Type}

/-- Settings before `main`: OSQP's in its workspace (`osqp.py:100, 131`), QOCOGEN's in a workspace without initialiser (`qoco.py:187`), otherwise
`Canon_Settings` with the defaults of the enabled settings (`utils.py:664-669`, `scs.py:241-245`). -/
def Env.initStore (e : Env S) : Kind → String → S
  | .osqp, n => e.compiled n
  | .qocogen, _ => e.zero
  | _, n => if e.enabled.contains n then e.table n else e.zero

/-- `cpg_set_solver_<name>`, `utils.py:1078-1084`. -/
def setTo (store : String → S) (n : String) (v : S) : String → S := fun n' => if n' = n then v else store n'

/-- `cpg_set_solver_default_settings`, `utils.py:1071-1077`. -/
def Env.resetTo (e : Env S) (k : Kind) (store : String → S) : String → S :=
  if k.hasReset then e.lib else fun n => if e.enabled.contains n then e.table n else store n

/-- The settings after the update functions `new` were called: only QOCOGEN's `load_data` (`qoco.py:96`) has access to them. -/
def Env.afterCalls (e : Env S) (k : Kind) (new : List CId) (store : String → S) : String → S :=
  if k = .qocogen ∧ new.contains .init = true then fun n => (e.load n).getD (store n) else store

/-- Is the object of the library set up by an update function (`ecos.py:92`, `qoco.py:300-312`), with settings of the library? Clarabel's is set up
in the call that solves, after the settings are copied (`clarabel.py:201-204`). -/
def setUpBefore : Kind → Bool
  | .ecos | .qoco => true
  | _ => false

/-- The settings the solver works with (`utils.py:1032-1037`), given the update functions called in this solve. -/
def Env.handOver (e : Env S) (k : Kind) (new : List CId) (store used : String → S) : String → S :=
  match k.delivery with
  | .direct => store
  | .copied => fun n =>
      if e.enabled.contains n && !(setUpBefore k && e.atSetup.contains n) then store n
      else if new.contains .init then e.lib n else used n
  | .atInit fs live => if new.any fs.contains then store else fun n => if live.contains n then store n else used n

/-- One call. A solve shows the data and the settings the solver worked with. -/
def step (k : Kind) (e : Env S) (g : Gen Θ V Act) (sv : Solver) (toks : List Tok) (st : State Θ V S) :
    Op Act S → Option (State Θ V S × List (Obs V × (String → S)))
  | .update a => some ({ st with mem := g.update a st.mem }, [])
  | .set n v => if e.enabled.contains n then some ({ st with store := setTo st.store n v }, []) else none
  | .reset => some ({ st with store := e.resetTo k st.store }, [])
  | .solve =>
      match g.solve sv toks st.mem with
      | none => none
      | some (m, o) =>
          let new := m.calls.take (m.calls.length - st.mem.calls.length)
          let store := e.afterCalls k new st.store
          let used := e.handOver k new store st.used
          some ({ mem := m, store := store, used := used }, [(o, used)])

/-- A program. -/
def run (k : Kind) (e : Env S) (g : Gen Θ V Act) (sv : Solver) (toks : List Tok) :
    State Θ V S → List (Op Act S) → Option (State Θ V S × List (Obs V × (String → S)))
  | st, [] => some (st, [])
  | st, op :: ops =>
      match step k e g sv toks st op with
      | none => none
      | some (st', o) =>
          match run k e g sv toks st' ops with
          | none => none
          | some (st'', os) => some (st'', o ++ os)

/-- State before `main`. -/
def Env.init (e : Env S) (k : Kind) (g : Gen Θ V Act) (sv : Solver) (junk : CId → V) : State Θ V S where
  mem := g.initMem sv junk
  store := e.initStore k
  used := e.initStore k

end Verif.Model.Settings
