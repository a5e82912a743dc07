import Verif.Model.Retrieve
import Verif.Model.Explicit
/-!
Model of how the generated files treat user objects, as numbers or as arrays: declarations of struct fields, C++ members and
functions, and the places where they are used.

Sources: /repo/cvxpygen/utils.py:577-628 (`write_workspace_def`), 748-765, 787-791 (`write_workspace_prot`), 905-926, 946-975
(`write_solve_def`), 1098-1103 (`write_solve_prot`), 1198-1240, 1297-1324 (`write_module_def`), 1535-1553
(`example_c_context`); /repo/cvxpygen/writer.py:222-230, 343-347, 432-437, 459-467; templates cpg_module.hpp.jinja2,
cpg_example.c.jinja2. One stage.
-/
namespace Verif.Model.Kinds
open Verif.Model Verif.Model.Explicit

/-- A variable as the writer sees it: `name_to_size`, size of `name_to_init`, number of `name_to_indices` (in explicit mode
with the number of those that are not negative), `name_to_sym`. -/
structure PVar where
  name : String
  size : Nat
  init : Nat
  nIdx : Nat
  nStored : Nat
  sym : Bool
  deriving DecidableEq

/-- A dual variable: `name_to_size`, size of `name_to_init`, number of indices. -/
structure DVar where
  name : String
  size : Nat
  init : Nat
  nIdx : Nat

/-- A parameter: `name_to_size_usp`, and the size of its value in `writable` (canonicalizer.py:249-258). -/
structure Param where
  name : String
  usp : Nat
  full : Nat

structure Cfg where
  explicit : Nat
  gradient : Bool
  /-- `sol_statically_allocated` -/
  static : Bool
  /-- `ret_prim_func_exists` and `ret_dual_func_exists` are overridden with `True` -/
  always : Bool

/-- Fields of the C structs `CPG_Prim`, `CPG_Dual`, `CPG_Delta`; arrays of variables; members of the C++ structs; update
functions. -/
inductive Obj where
  | prim (n : String)
  | dual (n : String)
  | delta (n : String)
  | own (n : String)
  | ownDual (n : String)
  | primCpp (n : String)
  | dualCpp (n : String)
  | paramCpp (n : String)
  | vdeltaCpp (n : String)
  | pdeltaCpp (n : String)
  | upd (n : String)
  | updD (n : String)
  deriving DecidableEq

/-- Number, pointer or array, function with a number of arguments. -/
inductive Decl where
  | num
  | arr
  | fn (args : Nat)
  deriving DecidableEq

/-- Used as a number (or initialised by 0), subscripted, its address taken or initialised by an address, called. -/
inductive Use where
  | num
  | sub
  | addr
  | call (args : Nat)
  deriving DecidableEq

/-- utils.py:748-753, 759-764: number if the size is one, else pointer. -/
def byOne (size : Nat) : Decl := if size = 1 then .num else .arr

/-- cpg_module.hpp.jinja2:12, 26, 35, 85, 92: array if the size is greater than one, else `double`. -/
def byGt (size : Nat) : Decl := if 1 < size then .arr else .num

/-- utils.py:907-918, 1098-1103, writer.py:223-229: an index is an argument unless the size is one. -/
def arity (size : Nat) : Nat := if size = 1 then 1 else 2

def useOne (size : Nat) : Use := if size = 1 then .num else .sub

/-- Is the array of a variable written (utils.py:577-583)? -/
def ownWritten (c : Cfg) (v : PVar) : Bool := decide (v.init ≠ 1) && (v.sym || !c.static)
/-- Is it referred to (utils.py:592-597)? -/
def ownUsed (c : Cfg) (v : PVar) : Bool := decide (v.size ≠ 1) && (v.sym || !c.static)

/-- All declarations. -/
def decls (c : Cfg) (vs : List PVar) (ds : List DVar) (ps : List Param) : List (Obj × Decl) :=
  (vs.map fun v => (.prim v.name, byOne v.size)) ++
  (ds.map fun d => (.dual d.name, byOne d.size)) ++
  (ps.map fun p => (.delta p.name, .arr)) ++
  ((vs.filter fun v => ownWritten c v).map fun v => (.own v.name, .arr)) ++
  ((ds.filter fun d => decide (d.init ≠ 1) && !c.static).map fun d => (.ownDual d.name, .arr)) ++
  (vs.map fun v => (.primCpp v.name, byGt v.size)) ++
  (ds.map fun d => (.dualCpp d.name, byGt d.size)) ++
  (ps.map fun p => (.paramCpp p.name, byGt p.usp)) ++
  (vs.map fun v => (.vdeltaCpp v.name, byGt v.size)) ++
  (ps.map fun p => (.pdeltaCpp p.name, byGt p.usp)) ++
  (ps.map fun p => (.upd p.name, .fn (arity p.usp))) ++
  (vs.map fun v => (.updD v.name, .fn (arity v.size)))

/-- cpg_workspace.c (utils.py:588-628). -/
def wsUses (c : Cfg) (vs : List PVar) (ds : List DVar) : List (Obj × Use) :=
  (vs.map fun v => (.prim v.name, if v.size = 1 then .num else .addr)) ++
  ((vs.filter fun v => ownUsed c v).map fun v => (.own v.name, .addr)) ++
  (if c.explicit = 1 then [] else
    (ds.map fun d => (.dual d.name, if d.init = 1 then .num else .addr)) ++
    ((ds.filter fun d => decide (d.init ≠ 1) && !c.static).map fun d => (.ownDual d.name, .addr)))

/-- `ret_prim_func_exists` and `ret_dual_func_exists` (_interface.py:117-123). -/
def retPrim (c : Cfg) (vs : List PVar) : Bool := c.always || (vs.any (fun v => v.sym) || vs.any (fun v => v.size == 1))
def retDual (c : Cfg) (ds : List DVar) : Bool := c.always || ds.any (fun d => d.size == 1)

/-- cpg_solve.c: `cpg_retrieve_prim` (utils.py:955-960) and `cpg_retrieve_dual` (utils.py:969-974). -/
def solveUses (c : Cfg) (vs : List PVar) (ds : List DVar) : List (Obj × Use) :=
  (if retPrim c vs then vs.flatMap fun v =>
    if v.nIdx = 1 then [(.prim v.name, .num)]
    else if v.sym || !c.static then List.replicate v.nIdx (.prim v.name, .sub) else [] else []) ++
  (if c.explicit ≠ 1 ∧ retDual c ds = true then ds.flatMap fun d =>
    if d.nIdx = 1 then [(.dual d.name, .num)]
    else if !c.static then List.replicate d.nIdx (.dual d.name, .sub) else [] else [])

/-- cpg_module.cpp (utils.py:1198-1240, 1297-1324). -/
def moduleUses (c : Cfg) (vs : List PVar) (ds : List DVar) (ps : List Param) : List (Obj × Use) :=
  (ps.flatMap fun p => [(.paramCpp p.name, useOne p.usp), (.upd p.name, .call (arity p.usp))]) ++
  (vs.flatMap fun v =>
    if v.size = 1 then [(.primCpp v.name, .num), (.prim v.name, .num)]
    else if c.explicit = 0 then [(.primCpp v.name, .sub), (.prim v.name, .sub)]
    else (List.replicate v.nStored [(Obj.primCpp v.name, Use.sub), (.prim v.name, .sub)]).flatten) ++
  (if c.explicit = 1 then [] else ds.flatMap fun d => [(.dualCpp d.name, useOne d.size), (.dual d.name, useOne d.size)]) ++
  (if c.gradient then
    (vs.flatMap fun v =>
      if v.size = 1 then [(.updD v.name, .call 1), (.vdeltaCpp v.name, .num)]
      else if c.explicit = 0 then [(.updD v.name, .call 2), (.vdeltaCpp v.name, .sub)]
      else (List.replicate v.nStored [(Obj.updD v.name, Use.call 2), (.vdeltaCpp v.name, .sub)]).flatten) ++
    (ps.flatMap fun p => [(.pdeltaCpp p.name, useOne p.usp), (.delta p.name, .sub)]) else [])

/-- cpg_example.c; whether an index is passed to an update function depends on the size of the value (utils.py:1538-1542). -/
def exampleUses (c : Cfg) (vs : List PVar) (ds : List DVar) (ps : List Param) : List (Obj × Use) :=
  (ps.map fun p => (.upd p.name, .call (arity p.full))) ++
  (vs.map fun v => (.prim v.name, useOne v.size)) ++
  (if c.explicit = 1 then [] else ds.map fun d => (.dual d.name, useOne d.size)) ++
  (if c.gradient then
    (vs.flatMap fun v => [(.updD v.name, .call (arity v.size)), (.prim v.name, .sub)]) ++
    (ps.map fun p => (.delta p.name, .sub)) else [])

/-! ### the objects of a problem -/

/-- Size of `name_to_init` (canonicalizer.py:147-152): a number for shape `()`, else zeros. -/
def initSize : List Nat → Nat
  | [] => 1
  | s => s.prod

/-- The variables for one name each, outside of explicit mode. -/
def pvar (v : UVar) : Except PyErr PVar :=
  match v.indices with
  | .error e => .error e
  | .ok ind => .ok ⟨v.name, v.size, initSize v.shape, ind.length, ind.length, v.sym⟩

/-- The same after the variables to be stored were selected (pdaqp.py:167-201). -/
def pvarStored (info : List (String × VarInfo)) (v : UVar) : Option PVar :=
  (info.lookup v.name).map fun w =>
    ⟨v.name, v.size, initSize v.shape, w.indices.length, (w.indices.filter fun i => decide (0 ≤ i)).length, v.sym⟩

/-- Dual variables (canonicalizer.py:205-219): `0` or `np.zeros(size)`, and `size` indices. -/
def dvar (name : String) (size : Nat) : DVar := ⟨name, size, if size = 1 then 1 else size, size⟩

end Verif.Model.Kinds
