import Verif.Model.UpdateStructure
/-!
Specification of the update block, independent of text emission: what a parameter update structure
is supposed to mean.
-/
namespace Verif.Spec
open Verif.Model

/-- The truth value of a list of flags under an operator (`&&` is the default). -/
def flagsHold (op : Option Op) (flags : CId → Bool) (ps : List CId) : Bool :=
  match op with
  | some .or => ps.any flags
  | _ => ps.all flags

/-- The condition under which an update function is meant to fire: its extra condition, or
(`extraOp` other than `and`) its parameter flags. -/
def fires (quad : Bool) (lg : Logic) (flags : CId → Bool) (extra : Extra → Bool) : Bool :=
  let ps := if quad then lg.params else lg.params.erase .P
  match lg.extra, ps with
  | none, ps => flagsHold lg.op flags ps
  | some e, [] => extra e
  | some e, ps =>
      match lg.extraOp with
      | some .and => extra e && flagsHold lg.op flags ps
      | _ => extra e || flagsHold lg.op flags ps

/-- The initialisation function goes first. -/
def initFirst (fs : List CId) : List CId :=
  if fs.contains .init then CId.init :: fs.erase .init else fs

/-- Meaning of a list of update functions: in order (initialisation first), each function that can fire is called if its
condition holds, otherwise its fallback functions are run; functions that can never fire are
replaced by their fallback functions. -/
def run {σ : Type} (fire : Logic → σ → Bool) (doCall : CId → σ → σ) (pus : Pus) (never : List CId) :
    Nat → Option (List CId) → σ → σ
  | _, none, s => s
  | 0, _, s => s
  | fuel + 1, some fs, s =>
      (initFirst fs).foldl (init := s) fun s f =>
        match pus.lookup f with
        | none => s
        | some lg =>
            if never.contains f then run fire doCall pus never fuel lg.fif s
            else if fire lg s then doCall f s
            else run fire doCall pus never fuel lg.fif s

end Verif.Spec
