import Verif.Model.UpdateStructure
/-!
The parameter update structures of the supported solvers and the meaning of their
`function_call` texts (which canonical parameters a call hands to the solver).
-/
namespace Verif.Model

/-- Effect of a `function_call` on the data the solver works on. -/
inductive Effect where
  /-- hand the listed canonical parameters to the (initialised) solver -/
  | push (ps : List CId)
  /-- (re-)create the solver from the listed canonical parameters -/
  | initPush (ps : List CId)
  /-- create the solver from the data written at code generation time -/
  | initGen
  deriving DecidableEq, Repr

/-- What the generator knows of a solver: its update structure and the canonical parameters it
works on. -/
structure Solver where
  pus : Pus
  effect : CId → Effect
  /-- canonical parameters that make up the solver's problem data -/
  uses : List CId
  /-- the solver workspace is set up statically (OSQP) -/
  static : Bool

/-- `solvers/osqp.py:20-61`; workspace set up by OSQP's own code generation (`osqp.py:126-131`). -/
def osqp : Solver where
  pus :=
    [(.PA, { params := [.P, .A], op := some .and, fif := some [.P, .A] }),
     (.P, { params := [.P] }),
     (.A, { params := [.A] }),
     (.qlu, { params := [.q, .l, .u], op := some .and, fif := some [.ql, .qu, .lu] }),
     (.ql, { params := [.q, .l], op := some .and, fif := some [.q, .l] }),
     (.qu, { params := [.q, .u], op := some .and, fif := some [.q, .u] }),
     (.lu, { params := [.l, .u], op := some .and, fif := some [.l, .u] }),
     (.q, { params := [.q] }),
     (.l, { params := [.l] }),
     (.u, { params := [.u] })]
  effect
    | .PA => .push [.P, .A]
    | .P => .push [.P]
    | .A => .push [.A]
    | .qlu => .push [.q, .l, .u]
    | .ql => .push [.q, .l]
    | .qu => .push [.q, .u]
    | .lu => .push [.l, .u]
    | .q => .push [.q]
    | .l => .push [.l]
    | .u => .push [.u]
    | _ => .push []
  uses := [.P, .q, .A, .l, .u]
  static := true

/-- `solvers/scs.py:23-45`. `scs_init(&Scs_D, ...)` reads all canonical parameters: `Scs_D` points to
them. With a non-quadratic objective there is no `P`. -/
def scs (quad : Bool) : Solver where
  pus :=
    [(.init, { params := [], extra := some .notInit, fif := some [.PA] }),
     (.PA, { params := [.P, .A], op := some .or, fif := some [.bc] }),
     (.bc, { params := [.b, .c], op := some .and, fif := some [.b, .c] }),
     (.b, { params := [.b] }),
     (.c, { params := [.c] })]
  effect
    | .init => .initPush [.P, .c, .A, .b]
    | .PA => .initPush [.P, .c, .A, .b]
    | .bc => .push [.b, .c]
    | .b => .push [.b]
    | .c => .push [.c]
    | _ => .push []
  uses := if quad then [.P, .c, .A, .b] else [.c, .A, .b]
  static := false

/-- `solvers/ecos.py:89-117`. -/
def ecos : Solver where
  pus :=
    [(.init, { params := [], extra := some .notInit, fif := some [.AbcGh] }),
     (.AbcGh, { params := [.A, .b, .G], op := some .or, fif := some [.c, .h] }),
     (.c, { params := [.c] }),
     (.h, { params := [.h] })]
  effect
    | .init => .initPush [.c, .A, .b, .G, .h]
    | .AbcGh => .push [.c, .A, .b, .G, .h]
    | .c => .push [.c]
    | .h => .push [.h]
    | _ => .push []
  uses := [.c, .A, .b, .G, .h]
  static := false

/-- `solvers/clarabel.py:158-199`; `lp` is `indices_obj is None`. The data the solver is created
from at every solve is the conditioning copy, so `cpg_copy_*` is the push. -/
def clarabel (lp : Bool) : Solver where
  pus :=
    if lp then
      [(.init, { params := [], extra := some .always, fif := some [.A, .q, .b] }),
       (.A, { params := [.A] }), (.q, { params := [.q] }), (.b, { params := [.b] })]
    else
      [(.init, { params := [], extra := some .notInit, fif := some [.P, .A, .q, .b] }),
       (.A, { params := [.A] }), (.q, { params := [.q] }), (.b, { params := [.b] }),
       (.P, { params := [.P] })]
  effect
    | .init => .initPush [.P, .q, .A, .b]
    | .A => .push [.A]
    | .q => .push [.q]
    | .b => .push [.b]
    | .P => .push [.P]
    | _ => .push []
  uses := if lp then [.q, .A, .b] else [.P, .q, .A, .b]
  static := false

/-- `solvers/qoco.py:93-124` (QOCOGEN); `load_data` loads the data written at generation time. -/
def qocogen (lp : Bool) : Solver where
  pus :=
    [(.init, { params := [], extra := some .notInit }),
     (.A, { params := [.A] }), (.G, { params := [.G] }), (.c, { params := [.c] }),
     (.b, { params := [.b] }), (.h, { params := [.h] })] ++
    (if lp then [] else [(.P, { params := [.P] })])
  effect
    | .init => .initGen
    | .A => .push [.A]
    | .G => .push [.G]
    | .c => .push [.c]
    | .b => .push [.b]
    | .h => .push [.h]
    | .P => .push [.P]
    | _ => .push []
  uses := if lp then [.c, .A, .b, .G, .h] else [.P, .c, .A, .b, .G, .h]
  static := false

/-- `solvers/qoco.py:314-344` (QOCO); `qoco_setup` reads all canonical parameters. -/
def qoco (lp : Bool) : Solver where
  pus :=
    [(.init, { params := [], extra := some .notInit }),
     (.A, { params := [.A] }), (.G, { params := [.G] }), (.c, { params := [.c] }),
     (.b, { params := [.b] }), (.h, { params := [.h] })] ++
    (if lp then [] else [(.P, { params := [.P] })])
  effect
    | .init => .initPush [.P, .c, .A, .b, .G, .h]
    | .A => .push [.A]
    | .G => .push [.G]
    | .c => .push [.c]
    | .b => .push [.b]
    | .h => .push [.h]
    | .P => .push [.P]
    | _ => .push []
  uses := if lp then [.c, .A, .b, .G, .h] else [.P, .c, .A, .b, .G, .h]
  static := false

/-- The supported (iterative) solvers. -/
inductive Kind where
  | osqp | scs | ecos | clarabel | qocogen | qoco
  deriving DecidableEq, Repr

/-- The update structure of a solver; `quad` is `quad_obj`, `lp` is `indices_obj is None`. -/
def Kind.solver (k : Kind) (quad lp : Bool) : Solver :=
  match k with
  | .osqp => Model.osqp
  | .scs => Model.scs quad
  | .ecos => Model.ecos
  | .clarabel => Model.clarabel lp
  | .qocogen => Model.qocogen lp
  | .qoco => Model.qoco lp

/-- `canon_p_ids`: `_interface.py:27`, `scs.py:22`, `ecos.py:21`, `clarabel.py:24`, `qoco.py:22,196`;
`'P'` is dropped for non-quadratic objectives, `canonicalizer.py:292-295`. -/
def Kind.canonIds (k : Kind) (quad : Bool) : List CId :=
  let ids : List CId := match k with
  | .osqp => [.P, .q, .d, .A, .l, .u]
  | .scs => [.P, .c, .d, .A, .b]
  | .ecos => [.c, .d, .A, .b, .G, .h]
  | .clarabel => [.P, .q, .d, .A, .b]
  | .qocogen => [.P, .c, .d, .A, .b, .G, .h]
  | .qoco => [.P, .c, .d, .A, .b, .G, .h]
  ids.filter fun p => quad || p != .P

/-- Combinations of `quad_obj` and "CVXPY delivers no quadratic part" for which generation is
intended: `quad_obj` is always true for OSQP and never for ECOS (`canonicalizer.py:418-426`); the
other solvers decide on the presence of `P` by `lp` in the update structure and by `quad` in the list
of ids. -/
def Kind.possible (k : Kind) (quad lp : Bool) : Bool :=
  match k with
  | .osqp => quad
  | .ecos => !quad
  | .scs => true
  | _ => quad || lp

/-- `p_id_to_changes` as a dict with the given keys. -/
def changesOf (ids : List CId) (b : CId → Bool) : Changes :=
  fun p => if ids.contains p then some (b p) else none

end Verif.Model
