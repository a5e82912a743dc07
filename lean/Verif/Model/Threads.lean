import Verif.Model.Wrapper
/-!
Several Python threads that call the generated method `cpg_solve` of one generated module, each on its
own problem object (`cvxpygen/templates/cpg_solver.py.jinja2` 40-117, not explicit).

The bindings are defined without releasing the interpreter lock (`m.def(…)` without a call guard,
`cvxpygen/utils.py` 1392, 1408-1410), so one call into `cpg_module` runs to its end before another thread
continues; between two such calls any other thread may run. One step of a thread is one call into
`cpg_module` (with the Python code around it, which works on objects of the thread only).
-/
namespace Verif.Model.Threads
open Verif.Model

variable {R S V : Type}

/-- One thread: parameter values and stored solution of its problem, operations still to be done,
keyword arguments not yet stored of the call it is in (`none`: it is in no call), outcomes of its calls. -/
structure Thread (R S V : Type) where
  vals : String → Option (List R)
  saved : Option (Obs V)
  todo : List (PyOp R S)
  pending : Option (List (String × S))
  out : List (Except PyErr (PyObs S V))

/-- The process: its threads, and what the module holds for all of them. -/
structure Sys (R S V Θ : Type) where
  threads : Nat → Thread R S V
  mem : Mem Θ V
  store : String → S
  used : String → S

/-- The first operation has been done. -/
def Thread.done (t : Thread R S V) : Thread R S V := { t with todo := t.todo.tail, pending := none }

/-- The call ends with an exception (lines 51, 60) or with a solution (76-117). -/
def Thread.fail (t : Thread R S V) (e : PyErr) : Thread R S V :=
  { t.done with out := t.out ++ [.error e] }

/-- The call ends with a solution (lines 76-117). -/
def Thread.succeed (t : Thread R S V) (r : PyObs S V) : Thread R S V :=
  { t.done with out := t.out ++ [.ok r], saved := some r.obs }

/-- Replace thread `i`. -/
def Sys.set {Θ : Type} (s : Sys R S V Θ) (i : Nat) (t : Thread R S V) : Sys R S V Θ :=
  { s with threads := fun j => if j = i then t else s.threads j }

/-- `updated_params` names something that is no parameter (lines 45-51). -/
def unknown (ps : List UParam) (updated : Option (List String)) : Bool :=
  (updated.getD (ps.map UParam.name)).any fun n => !(ps.map UParam.name).contains n

section
variable [CommRing R] [DecidableEq R]

/-- Lines 64-117: parameter values are read from the thread's problem, `cpg_module.solve(upd, par)`
transfers the flagged ones and solves (`utils.py:1198-1215`) with the settings the module holds now. -/
def solveNow (k : Kind) (quad lp : Bool) (ps : List UParam) (maps : CId → Option (RawMap R))
    (θ0 : { θ : List R // θ.length = totalSize ps }) (sg : Stgs S) (toks : List Tok)
    (s : Sys R S (Option (List R)) { θ : List R // θ.length = totalSize ps }) (i : Nat)
    (updated : Option (List String)) :
    Option (Sys R S (Option (List R)) { θ : List R // θ.length = totalSize ps }) :=
  let t := s.threads i
  match readVals t.vals ps with
  | some e => some (s.set i (t.fail e))
  | none =>
      match (canonGen ps (k.canonIds quad) quad maps θ0).runCalls (k.solver quad lp) toks s.mem
          ((updateActs ps (updated.getD (ps.map UParam.name)) t.vals).map Call.update ++ [Call.solve]) with
      | some (m, [o]) =>
          let used := deliver k sg (m.calls.take (m.calls.length - s.mem.calls.length)) s.store s.used
          some { s.set i (t.succeed ⟨o, used⟩) with mem := m, used := used }
      | _ => none

/-- One step of thread `i`: an assignment to a parameter of its problem; the start of a call up to
`set_solver_default_settings()` (lines 44-55); one keyword argument (56-60); the solve (63-117). `none`:
the generated program is not valid C. -/
def step (k : Kind) (quad lp : Bool) (ps : List UParam) (maps : CId → Option (RawMap R))
    (θ0 : { θ : List R // θ.length = totalSize ps }) (sg : Stgs S) (toks : List Tok)
    (s : Sys R S (Option (List R)) { θ : List R // θ.length = totalSize ps }) (i : Nat) :
    Option (Sys R S (Option (List R)) { θ : List R // θ.length = totalSize ps }) :=
  let t := s.threads i
  match t.todo with
  | [] => some s
  | .setVal n v :: _ => some (s.set i { t.done with vals := fun m => if m = n then some v else t.vals m })
  | .solve u kw :: _ =>
      match t.pending with
      | none =>
          if unknown ps u then some (s.set i (t.fail .attributeError))
          else some { s.set i { t with pending := some kw } with store := resetStore k sg s.store }
      | some [] => solveNow k quad lp ps maps θ0 sg toks s i u
      | some (kv :: rest) =>
          match setKwargs sg s.store [kv] with
          | (store, none) => some { s.set i { t with pending := some rest } with store := store }
          | (store, some e) => some { s.set i (t.fail e) with store := store }

/-- An execution: `sched` says which thread does the next step. -/
def run (k : Kind) (quad lp : Bool) (ps : List UParam) (maps : CId → Option (RawMap R))
    (θ0 : { θ : List R // θ.length = totalSize ps }) (sg : Stgs S) (toks : List Tok) :
    Sys R S (Option (List R)) { θ : List R // θ.length = totalSize ps } → List Nat →
      Option (Sys R S (Option (List R)) { θ : List R // θ.length = totalSize ps })
  | s, [] => some s
  | s, i :: sched =>
      match step k quad lp ps maps θ0 sg toks s i with
      | none => none
      | some s' => run k quad lp ps maps θ0 sg toks s' sched

end

end Verif.Model.Threads
