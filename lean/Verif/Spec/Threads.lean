import Verif.Model.Threads
import Verif.Spec.Wrapper
/-!
What threads expect of a shared module: that their calls happen as if one after the other. An execution of
whole operations, in which a call of `cpg_solve` is not interrupted.
-/
namespace Verif.Spec.Threads
open Verif.Model Verif.Model.Threads

variable {R S V : Type}

section
variable [CommRing R] [DecidableEq R]

/-- Thread `i` does its next operation without interruption (`pySolve` is the method executed by a
process with a single thread). -/
def whole (k : Kind) (quad lp : Bool) (ps : List UParam) (maps : CId → Option (RawMap R))
    (θ0 : { θ : List R // θ.length = totalSize ps }) (sg : Stgs S) (toks : List Tok)
    (s : Sys R S (Option (List R)) { θ : List R // θ.length = totalSize ps }) (i : Nat) :
    Option (Sys R S (Option (List R)) { θ : List R // θ.length = totalSize ps }) :=
  let t := s.threads i
  match t.todo with
  | [] => some s
  | .setVal n v :: ops =>
      some (s.set i { t with todo := ops, vals := fun m => if m = n then some v else t.vals m })
  | .solve u kw :: ops =>
      match pySolve k quad lp ps maps θ0 sg toks ⟨t.vals, s.mem, s.store, s.used, t.saved⟩ u kw with
      | none => none
      | some (st, r) => some { s.set i { t with todo := ops, out := t.out ++ [r], saved := st.saved } with
          mem := st.mem, store := st.store, used := st.used }

/-- Whole operations in the order given. -/
def serial (k : Kind) (quad lp : Bool) (ps : List UParam) (maps : CId → Option (RawMap R))
    (θ0 : { θ : List R // θ.length = totalSize ps }) (sg : Stgs S) (toks : List Tok) :
    Sys R S (Option (List R)) { θ : List R // θ.length = totalSize ps } → List Nat →
      Option (Sys R S (Option (List R)) { θ : List R // θ.length = totalSize ps })
  | s, [] => some s
  | s, i :: order =>
      match whole k quad lp ps maps θ0 sg toks s i with
      | none => none
      | some s' => serial k quad lp ps maps θ0 sg toks s' order

end

/-- An outcome without the settings: the exception, or the data the solver worked on. -/
def dataOf (r : Except PyErr (PyObs S V)) : Except PyErr (Obs V) := r.map PyObs.obs

/-- Two threads agree in all but settings (and in how far a call in progress has come). -/
structure SameThread (t u : Thread R S V) : Prop where
  vals : t.vals = u.vals
  saved : t.saved = u.saved
  todo : t.todo = u.todo
  out : t.out.map dataOf = u.out.map dataOf

/-- No thread is inside a call. -/
def Idle {Θ : Type} (s : Sys R S V Θ) : Prop := ∀ i, (s.threads i).pending = none

/-- A call passes value `v` for setting `n`. -/
def Passes (sg : Stgs S) (op : PyOp R S) (n : String) (v : S) : Prop :=
  ∃ u kw key, op = .solve u kw ∧ (key, v) ∈ kw ∧ (sg.translate.lookup key).getD key = n

end Verif.Spec.Threads
