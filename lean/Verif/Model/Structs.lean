import Verif.Model.Symbols
/-!
Model of the struct types of the generated C code, their initialisers and the accesses to their fields.

Sources: /repo/cvxpygen/utils.py:706-801 (type definitions, guarded by `CPG_TYPES_H`), 529-568, 587-661, 684-689
(initialisers, with designators: 332-335), 279-294, 905-1006, 1012-1027, 1048-1067 (accesses in `cpg_solve.c`),
1217-1245, 1317-1324 (Python module), /repo/cvxpygen/writer.py:240-246, 257-260, 308-311 (gradient),
/repo/cvxpygen/templates/cpg_example.c.jinja2:30-84. Not modelled: the struct of settings, the fields mentioned by
the calls of the solvers, differentiation in two stages.
-/
namespace Verif.Model.Structs
open Verif.Model.Text Verif.Model.Dispatch Verif.Model.Symbols

/-- The types (without `_t`). -/
inductive STy where
  | canonParams
  | canonOutdated
  | prim
  | dual
  | info
  | result
  | delta
  deriving DecidableEq, Repr

/-- The type of a field; `single` says whether `cpg_float` is `float`. -/
inductive FTy where
  /-- `cpg_csc *` -/
  | csc (single : Bool)
  /-- `cpg_float *` -/
  | arr (single : Bool)
  /-- `cpg_float` -/
  | num (single : Bool)
  /-- `int`, `cpg_int` -/
  | int
  /-- `char *` -/
  | text
  /-- pointer to another struct -/
  | ptr (t : STy)
  deriving DecidableEq, Repr

namespace F
def obj_val : Txt := "obj_val".toList
def iter : Txt := "iter".toList
def status : Txt := "status".toList
def pri_res : Txt := "pri_res".toList
def dua_res : Txt := "dua_res".toList
def prim : Txt := "prim".toList
def dual : Txt := "dual".toList
def info : Txt := "info".toList
end F

/-- `status_is_int`: false in osqp.py:92 and scs.py:82; true in ecos.py:50, clarabel.py:52, qoco.py:51 and 225, pdaqp.py:60. -/
def statusInt : Iface → Bool
  | .osqp | .scs => false
  | .ecos | .clarabel | .qoco | .qocogen | .pdaqp => true

variable (I : In)

/-- `cpg_float` is `float` in explicit mode (utils.py:711-714); it is defined behind the same guard. The type `cpg_int`,
which also depends on the solver (utils.py:715), is not distinguished. -/
def single : Bool := I.explicit != 0

def byOne (s : Bool) (n : Nat) : FTy := if n = 1 then .num s else .arr s

/-- The type definitions (utils.py:726-791); `none`: not written. -/
def typedef : STy → Option (List (Txt × FTy))
  | .canonParams => some ((keys I.canon).map fun c =>
      (c.id, if upperId c.id then .csc (single I) else if c.id = S.d then .num (single I) else .arr (single I)))
  | .canonOutdated => some ((keys I.canon).map fun c => (c.id, .int))
  | .prim => some (I.vars.map fun v => (v.name, byOne (single I) v.size))
  | .dual => if I.duals = [] then none else some (I.duals.map fun v => (v.1, byOne (single I) v.2))
  | .info => if I.explicit = 0 then some [(F.obj_val, .num (single I)), (F.iter, .int),
      (F.status, if statusInt I.iface then .int else .text), (F.pri_res, .num (single I)), (F.dua_res, .num (single I))] else none
  | .result => some ([(F.prim, .ptr .prim)] ++
      (if I.explicit ≠ 1 ∧ I.duals ≠ [] then [(F.dual, .ptr .dual)] else []) ++
      (if I.explicit = 0 then [(F.info, .ptr .info)] else []))
  | .delta => some (I.params.map fun q => (q.1, .arr (single I)))

/-- Designators in the initialisers (utils.py:550-568, 588-599, 602-628, 630-661, 684-689). -/
def inits : List (STy × Txt) :=
  ((pIds I).map fun c => (.canonParams, c.id)) ++
  ((keys I.canon).map fun c => (.canonOutdated, c.id)) ++
  (I.vars.map fun v => (.prim, v.name)) ++
  (if I.explicit = 1 ∨ I.duals = [] then [] else I.duals.map fun v => (.dual, v.1)) ++
  (if I.explicit = 0 then [F.obj_val, F.iter, F.status, F.pri_res, F.dua_res].map fun f => (.info, f) else []) ++
  ((if I.explicit = 1 then [F.prim] else if I.explicit = 2 then (if I.duals ≠ [] then [F.prim, F.dual] else [F.prim])
    else (if I.duals ≠ [] then [F.prim, F.dual, F.info] else [F.prim, F.info])).map fun f => (.result, f)) ++
  (if I.gradient then I.params.map fun q => (.delta, q.1) else [])

/-- Accesses in `cpg_solve.c`. An update function sets the flags of canonical parameters whose map has entries in the
columns of the parameter (canonicalizer.py:313-315), so there is a map and the parameter is a key. -/
def solveUses : List (STy × Txt) :=
  -- update functions (utils.py:927-930)
  ((keys I.canon).map fun c => (.canonOutdated, c.id)) ++
  -- canonicalization (utils.py:279-294), `cpg_solve` (1012-1016, 1048-1050)
  ((I.canon.filter fun c => c.changes).flatMap fun c => [(.canonParams, c.id), (.canonOutdated, c.id)]) ++
  -- retrieval (utils.py:950-975)
  (if retPrim I then I.vars.map fun v => (.prim, v.name) else []) ++
  (if writesDual I then I.duals.map fun v => (.dual, v.1) else []) ++
  -- information (utils.py:977-985); `d` is mentioned if its map has entries
  (if I.explicit = 0 then ([F.obj_val, F.iter, F.status, F.pri_res, F.dua_res].map fun f => (STy.info, f)) ++
    (((keys I.canon).filter fun c => c.id = S.d).map fun c => (.canonParams, c.id)) else []) ++
  -- copies (utils.py:987-1000)
  (if precond I.iface then (I.canon.filter fun c => c.id != S.d && c.len != 0).map fun c => (.canonParams, c.id) else []) ++
  -- theta (utils.py:1018-1027) and `cpg_obj` (1054-1067)
  (if I.explicit = 0 then [] else [(.canonParams, S.q), (.canonParams, S.u)]) ++
  (if I.explicit ≠ 0 ∧ I.reduced = false then [(.canonParams, S.P), (.canonParams, S.q)] else [])

/-- Accesses in `cpg_gradient.c` (writer.py:241-246, 258-260, 309-311). -/
def gradUses : List (STy × Txt) :=
  if I.gradient then
    if I.explicit = 0 then
      ((I.canon.filter fun c => c.changes && upperId c.id).map fun c => (.canonParams, c.id)) ++
      ((I.canon.filter fun c => c.changes).map fun c => (.canonOutdated, c.id))
    else []
  else []

/-- Accesses in `cpg_module.cpp` (utils.py:1217-1245, 1317-1324). -/
def moduleUses : List (STy × Txt) :=
  (I.vars.map fun v => (.prim, v.name)) ++
  (if I.explicit = 1 then [] else I.duals.map fun v => (.dual, v.1)) ++
  (if I.explicit = 0 then [F.obj_val, F.iter, F.status, F.pri_res, F.dua_res].map fun f => (.info, f) else []) ++
  (if I.gradient then I.params.map fun q => (.delta, q.1) else [])

/-- Accesses in `cpg_example.c` (cpg_example.c.jinja2:32, 36-44, 46-59, 61-84). -/
def exampleUses : List (STy × Txt) :=
  (if I.explicit = 0 then [(.result, F.info), (.info, F.obj_val)] else []) ++
  (I.vars.flatMap fun v => [(.result, F.prim), (.prim, v.name)]) ++
  (if I.explicit = 1 then [] else I.duals.flatMap fun v => [(.result, F.dual), (.dual, v.1)]) ++
  (if I.gradient then I.params.map fun q => (.delta, q.1) else [])

/-- All accesses of one library with its programs. -/
def accesses : List (STy × Txt) := inits I ++ solveUses I ++ gradUses I ++ moduleUses I ++ exampleUses I

/-! ### Several libraries in one file -/

/-- The type definitions that a file sees after including the headers `cpg_workspace.h` of the given libraries in this
order: all types are behind the guard `CPG_TYPES_H` (utils.py:706-709, 801), whose name does not depend on the prefix. -/
def visible : List In → STy → Option (List (Txt × FTy))
  | [], _ => none
  | I :: _, t => typedef I t

/-- Place and type of a field. -/
def place (fs : List (Txt × FTy)) (f : Txt) : Option (Nat × FTy) :=
  ((fs.zipIdx).find? fun e => e.1.1 = f).map fun e => (e.2, e.1.2)

end Verif.Model.Structs
