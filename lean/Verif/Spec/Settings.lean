import Verif.Model.Settings
/-! What settings functions should mean, from the history of calls alone. -/
namespace Verif.Spec.Settings
open Verif.Model.Settings Verif.Model
variable {Act S : Type}

/-- The settings asked for at each solve: of each setting the value of the last call that set it since the last reset; `default` if there was a
reset and no such call, `start` if there was neither. -/
def requested (default : String → S) : (current : String → S) → List (Op Act S) → List (String → S)
  | _, [] => []
  | cur, .update _ :: ops => requested default cur ops
  | cur, .set n v :: ops => requested default (fun n' => if n' = n then v else cur n') ops
  | _, .reset :: ops => requested default default ops
  | cur, .solve :: ops => cur :: requested default cur ops

/-- SCS: the settings asked for when the workspace was last created, at the first solve and at solves that are due; `live` ones are current. -/
def atCreation (live : String → Bool) (always : Bool) (marks : Act → Bool) (default : String → S) :
    (current used : String → S) → (started due : Bool) → List (Op Act S) → List (String → S)
  | _, _, _, _, [] => []
  | cur, used, s, d, .update a :: ops => atCreation live always marks default cur used s (d || marks a) ops
  | cur, used, s, d, .set n v :: ops => atCreation live always marks default (fun n' => if n' = n then v else cur n') used s d ops
  | _, used, s, d, .reset :: ops => atCreation live always marks default default used s d ops
  | cur, used, s, d, .solve :: ops =>
      let u := if !s || d then cur else fun n => if live n then cur n else used n
      u :: atCreation live always marks default cur u true always ops

/-- QOCOGEN: as asked for, but the first solve stores `load` before it works. -/
def overwritten (load : String → Option S) (default : String → S) : (current : String → S) → (started : Bool) → List (Op Act S) → List (String → S)
  | _, _, [] => []
  | cur, s, .update _ :: ops => overwritten load default cur s ops
  | cur, s, .set n v :: ops => overwritten load default (fun n' => if n' = n then v else cur n') s ops
  | _, s, .reset :: ops => overwritten load default default s ops
  | cur, s, .solve :: ops =>
      let c := if s then cur else fun n => (load n).getD (cur n)
      c :: overwritten load default c true ops

/-- All settings set are among `enabled`: the program compiles. -/
def Compiles (enabled : List String) (ops : List (Op Act S)) : Prop := ∀ n v, Op.set n v ∈ ops → n ∈ enabled

/-- Without calls of settings functions. -/
def calls : List (Op Act S) → List (Call Act)
  | [] => []
  | .update a :: ops => .update a :: calls ops
  | .set _ _ :: ops => calls ops
  | .reset :: ops => calls ops
  | .solve :: ops => .solve :: calls ops

/-- Agreement on the settings in a set. -/
def Agree (ns : String → Prop) (s t : String → S) : Prop := ∀ n, ns n → s n = t n

end Verif.Spec.Settings
