import Verif.Model.Settings
import Verif.Model.Memory
/-!
What solvers remember from one solve to the next.

Sources: /repo/cvxpygen/solvers/scs.py:25-46 (`scs_init` in `init` and `PA`, `scs_solve` with `Scs_Sol` and the flag
`Scs_Work && Canon_Settings.warm_start`), 247-256 (`Scs_Sol`: arrays of zeros), osqp.py:20-62 and qoco.py:94-97 (static workspace), ecos.py:89-99,
qoco.py:267-312 (set-up at the first solve), clarabel.py:201-204 (a new solver at every solve); /repo/cvxpygen/utils.py:1008-1052 (`cpg_solve`).

Simplifications: the libraries are a parameter. The object behind the pointer of the generated program is of any type `W`; update functions that set
one up (`Memory.createdBy`) replace it, all others modify it, and so does the call that solves. The libraries are deterministic and see the data in use
and the enabled settings only. Data are passed as they are when the solver is called; in between `cpg_solve` does not change them.
-/
namespace Verif.Model.Again
open Verif.Model Verif.Model.Memory
variable {Θ V Act S W X : Type}

/-- A solver library. -/
structure Lib (V S W X : Type) where
  /-- the object before `main`: that of the generated workspace (OSQP, QOCOGEN) or a null pointer -/
  start : W
  /-- set-up: `scs_init`, `ECOS_setup`, `qoco_setup`, `clarabel_DefaultSolver_new` -/
  made : (CId → Option V) → (String → Option S) → W
  /-- any other update function -/
  push : CId → (CId → Option V) → W → W
  /-- the call that solves; the point to start from is passed by SCS only -/
  solve : (CId → Option V) → (String → Option S) → Option X → W → X × W

/-- Memory: that of `Model/Settings.lean`, the solver's object, the solution (`Scs_Sol` for SCS). -/
structure State (Θ V S W X : Type) where
  st : Settings.State Θ V S
  obj : W
  sol : X

/-- The data the library sees: those in use (`Solver.uses`). -/
def dataOf (sv : Solver) (o : Obs V) : CId → Option V := fun p => if sv.uses.contains p then some (o.data p) else none

/-- The settings the library sees. -/
def stgsOf (e : Settings.Env S) (used : String → S) : String → Option S := fun n => if e.enabled.contains n then some (used n) else none

/-- The object after the update functions `new` (latest first) and, for Clarabel, the set-up in the call that solves. -/
def objAfter (k : Kind) (lib : Lib V S W X) (data : CId → Option V) (stgs : String → Option S) (new : List CId) (w : W) : W :=
  let w := new.reverse.foldl (fun w f => if createdBy k f = 0 then lib.push f data w else lib.made data stgs) w
  if createdBySolve k = 0 then w else lib.made data stgs

/-- `Scs_Work && Canon_Settings.warm_start` (scs.py:46): after the update functions `Scs_Work` is not null. `on`: truth of a setting in C. -/
def startOf (k : Kind) (on : S → Bool) (used : String → S) (sol : X) : Option X :=
  if k = .scs ∧ on (used "warm_start") = true then some sol else none

/-- One call; a solve delivers the solution and the offset of the objective (utils.py:980). -/
def step (k : Kind) (e : Settings.Env S) (on : S → Bool) (lib : Lib V S W X) (g : Gen Θ V Act) (sv : Solver) (toks : List Tok)
    (s : State Θ V S W X) (op : Settings.Op Act S) : Option (State Θ V S W X × List (X × V)) :=
  match Settings.step k e g sv toks s.st op with
  | none => none
  | some (st, []) => some ({ s with st := st }, [])
  | some (st, (o, used) :: _) =>
      let new := st.mem.calls.take (st.mem.calls.length - s.st.mem.calls.length)
      let w := objAfter k lib (dataOf sv o) (stgsOf e used) new s.obj
      let r := lib.solve (dataOf sv o) (stgsOf e used) (startOf k on used s.sol) w
      some (⟨st, r.2, r.1⟩, [(r.1, o.offset)])

/-- A program. -/
def run (k : Kind) (e : Settings.Env S) (on : S → Bool) (lib : Lib V S W X) (g : Gen Θ V Act) (sv : Solver) (toks : List Tok) :
    State Θ V S W X → List (Settings.Op Act S) → Option (State Θ V S W X × List (X × V))
  | s, [] => some (s, [])
  | s, op :: ops =>
      match step k e on lib g sv toks s op with
      | none => none
      | some (s', r) =>
          match run k e on lib g sv toks s' ops with
          | none => none
          | some (s'', rs) => some (s'', r ++ rs)

/-- Before `main`: `Scs_Sol` holds zeros (scs.py:247-256). -/
def init (k : Kind) (e : Settings.Env S) (lib : Lib V S W X) (zero : X) (g : Gen Θ V Act) (sv : Solver) (junk : CId → V) : State Θ V S W X where
  st := e.init k g sv junk
  obj := lib.start
  sol := zero

end Verif.Model.Again
