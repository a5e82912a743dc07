import Verif.Spec.Wrapper
/-!
The settings that a solver works with if it copies them when its workspace is created, over a history of Python calls.
-/
namespace Verif.Spec
open Verif.Model

variable {S : Type}

/-- Arguments of the calls of a history (`updated_params`, keyword arguments), with whether the call does not raise. -/
abbrev Calls (S : Type) := List ((Option (List String) × List (String × S)) × Bool)

/-- Settings of a call that does not raise: its own at the first one or if it `creates` the workspace; otherwise those of the call before (`last`),
except for the ones that are read at each call (`live`). -/
def copiedNow (live : String → Bool) (creates : Bool) (last : Option (String → S)) (own : String → S) : String → S :=
  match last with
  | none => own
  | some o => if creates then own else fun n => if live n then own n else o n

/-- Settings of each call that does not raise. -/
def copiedSettings (sg : Stgs S) (live : String → Bool) (creates : Option (List String) → Bool) :
    Option (String → S) → Calls S → List (Option (String → S))
  | _, [] => []
  | last, (_, false) :: cs => none :: copiedSettings sg live creates last cs
  | last, ((u, kw), true) :: cs =>
      some (copiedNow live (creates u) last (settingFor sg kw)) ::
        copiedSettings sg live creates (some (copiedNow live (creates u) last (settingFor sg kw))) cs

end Verif.Spec
