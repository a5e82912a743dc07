import Verif.Model.Shared
/-!
Which calls of `generate_code` can occur, and which ones must not be able to influence later ones.
-/
namespace Verif.Spec.Shared
open Verif.Model Verif.Model.Dispatch Verif.Model.Shared

/-- The table of an interface (the explicit solver has none). -/
def kindOf : Iface → Option Kind
  | .osqp => some .osqp
  | .scs => some .scs
  | .ecos => some .ecos
  | .clarabel => some .clarabel
  | .qoco => some .qoco
  | .qocogen => some .qocogen
  | .pdaqp => none

/-- What holds for every call: `p_id_to_changes` has the ids of the solver as keys; `quad_obj` is as
`_get_quad_obj` says; a set is iterated in some order. -/
structure Valid (c : Call) : Prop where
  keys : ∀ k, kindOf c.iface = some k →
    k.possible c.quad c.lp = true ∧ ∃ b, c.changes = changesOf (k.canonIds c.quad) b
  perm : ∀ l, (c.order l).Perm l

/-- The call gets as far as writing the update block. -/
def Reaches (c : Call) : Prop := c.fails = none ∨ c.fails = some .afterUpdate

/-- The call fails in `_write_workspace` in two-stage mode. -/
def BreaksPointers (c : Call) : Prop := c.twoStage = true ∧ c.fails = some .inWorkspace

/-- Call `h` is harmless for a later call `c`: another solver, or failed before its interface was created,
or (a) only enables settings that `c` enables as well or that are enabled anyway, (b) does not fail in the
middle of writing the workspace in two-stage mode, (c) is not an SCS problem without quadratic objective
followed by one with. -/
def Harmless (h c : Call) : Prop :=
  h.iface ≠ c.iface ∨ h.fails = some .beforeInterface ∨
  ((∀ n ∈ h.enable, n ∈ c.enable ∨ (n, false) ∉ settings0 c.iface) ∧ ¬ BreaksPointers h ∧
    (c.iface = .scs → c.quad = true → h.quad = true ∨ ¬ Reaches h))

/-- Call `h` is harmless for all later calls. -/
def Clean (h : Call) : Prop :=
  h.fails = some .beforeInterface ∨
  ((∀ n ∈ h.enable, (n, false) ∉ settings0 h.iface) ∧ ¬ BreaksPointers h ∧
    (h.iface = .scs → h.quad = true ∨ ¬ Reaches h))

end Verif.Spec.Shared
