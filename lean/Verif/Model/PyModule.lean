import Verif.Model.Structs
/-!
Model of the Python module: the C++ structs of cpg_module.hpp, what cpg_module.cpp makes available to Python, and what the
generated Python file uses.

Sources: /repo/cvxpygen/templates/cpg_module.hpp.jinja2:9-102, /repo/cvxpygen/utils.py:1193-1328 (accesses), 1331-1412
(bindings), 1556-1613 (contexts), /repo/cvxpygen/templates/cpg_solver.py.jinja2:37-173. Not modelled: lengths of arrays
(C58), settings, and the methods called on CVXPY's objects.
-/
namespace Verif.Model.PyModule
open Verif.Model.Text Verif.Model.Symbols Verif.Model.Structs

/-- The C++ structs, by what stands between `CPG_` and `_cpp_t`. -/
inductive Cls where
  | params
  | updated
  | prim
  | dual
  | gsol
  | info
  | result
  | vdelta
  | pdelta
  deriving DecidableEq, Repr

namespace M
def primal : Txt := "primal".toList
def time : Txt := "time".toList
def region : Txt := "region".toList
def gradient_primal : Txt := "gradient_primal".toList
def gradient_dual : Txt := "gradient_dual".toList
def cpg_prim : Txt := "cpg_prim".toList
def cpg_dual : Txt := "cpg_dual".toList
def cpg_info : Txt := "cpg_info".toList
end M

variable (I : In)

/-- The five fields of solver information. -/
def infoFields : List Txt := [F.obj_val, F.iter, F.status, F.pri_res, F.dua_res]

/-- The structs of cpg_module.hpp.jinja2 and their members; `none`: not written. -/
def members : Cls → Option (List Txt)
  | .params => some (I.params.map Prod.fst)
  | .updated => some (I.params.map Prod.fst)
  | .prim => some (I.vars.map fun v => v.name)
  | .dual => if I.explicit ≠ 1 then (if I.duals = [] then none else some (I.duals.map Prod.fst)) else none
  | .gsol => if I.explicit ≠ 1 then (if I.gradient = true ∧ I.explicit = 0 then some [M.primal, F.dual] else none) else none
  | .info => some ((if I.explicit = 0 then infoFields else []) ++ [M.time] ++
      (if I.gradient then (if I.explicit = 0 then [M.gradient_primal, M.gradient_dual] else [M.region]) else []))
  | .result => some ([F.prim] ++ (if I.explicit ≠ 1 ∧ I.duals ≠ [] then [F.dual] else []) ++ [F.info])
  | .vdelta => if I.gradient then some (I.vars.map fun v => v.name) else none
  | .pdelta => if I.gradient then some (I.params.map Prod.fst) else none

/-- The classes that are made available to Python (utils.py:1333-1405): name of the attribute and of the member. -/
def bound : Cls → Option (List (Txt × Txt))
  | .params => some (I.params.map fun q => (q.1, q.1))
  | .updated => some (I.params.map fun q => (q.1, q.1))
  | .prim => some (I.vars.map fun v => (v.name, v.name))
  | .dual => if I.explicit ≠ 1 then (if I.duals = [] then none else some (I.duals.map fun v => (v.1, v.1))) else none
  | .gsol => if I.gradient = true ∧ I.explicit = 0 then some [(M.primal, M.primal), (F.dual, F.dual)] else none
  | .info => some ((if I.explicit = 0 then infoFields.map fun f => (f, f) else []) ++ [(M.time, M.time)] ++
      (if I.gradient then (if I.explicit = 0 then [(M.gradient_primal, M.gradient_primal), (M.gradient_dual, M.gradient_dual)]
        else [(M.region, M.region)]) else []))
  | .result => some ([(M.cpg_prim, F.prim)] ++ (if I.explicit ≠ 1 then (if I.duals = [] then [] else [(M.cpg_dual, F.dual)]) else []) ++
      [(M.cpg_info, F.info)])
  | .vdelta => if I.gradient then some (I.vars.map fun v => (v.name, v.name)) else none
  | .pdelta => if I.gradient then some (I.params.map fun q => (q.1, q.1)) else none

/-- Members mentioned in cpg_module.cpp (utils.py:1199-1328). -/
def cppUses : List (Cls × Txt) :=
  (I.params.flatMap fun q => [(.updated, q.1), (.params, q.1)]) ++
  (I.vars.map fun v => (.prim, v.name)) ++
  (if I.explicit ≠ 1 then I.duals.map fun v => (.dual, v.1) else []) ++
  (if I.explicit = 0 then infoFields.map fun f => (Cls.info, f) else []) ++ [(.info, M.time)] ++
  (if I.gradient then (if I.explicit = 0 then [(.info, M.gradient_primal), (.info, M.gradient_dual)] else [(.info, M.region)]) else []) ++
  [(.result, F.prim)] ++ (if I.explicit ≠ 1 then (if I.duals = [] then [] else [(.result, F.dual)]) else []) ++ [(.result, F.info)] ++
  (if I.gradient then
    (if I.explicit = 0 then [(.gsol, M.primal), (.gsol, F.dual)] else []) ++
    (I.vars.map fun v => (.vdelta, v.name)) ++ (I.params.map fun q => (.pdelta, q.1)) else [])

/-- Structs named in cpg_module.cpp and in the declarations of the header (utils.py:1194-1195, 1217, 1233, 1242, 1261, 1275-1281,
1317; cpg_module.hpp.jinja2:79, 98, 100). -/
def cppNames : List Cls :=
  [.result, .updated, .params, .prim] ++ (if I.explicit ≠ 1 then (if I.duals = [] then [] else [.dual]) else []) ++ [.info] ++
  (if I.gradient then [.pdelta, .vdelta] ++ (if I.explicit = 0 then [.gsol] else []) else [])

/-- Attributes of the module's objects that the Python file uses (cpg_solver.py.jinja2:44-117, 146-173). The flags set in
lines 45-51 are those of the default, that is of all parameters. -/
def pyUses : List (Cls × Txt) :=
  (I.params.map fun q => (.updated, q.1)) ++ (I.params.map fun q => (.params, q.1)) ++
  (I.vars.flatMap fun v => [(.result, M.cpg_prim), (.prim, v.name)]) ++
  (if I.explicit ≠ 1 then I.duals.flatMap fun v => [(.result, M.cpg_dual), (.dual, v.1)] else []) ++
  [(.result, M.cpg_info)] ++
  (if I.explicit = 0 then (infoFields.map fun f => (Cls.info, f)) ++ [(.info, M.time)] ++
      (if I.gradient then [(.info, M.gradient_primal), (.info, M.gradient_dual)] else [])
    else [(.info, M.time)] ++ (if I.gradient then [(.info, M.region)] else [])) ++
  (if I.gradient then
    (if I.explicit = 0 then [(.gsol, M.primal), (.gsol, F.dual)] else []) ++
    (I.vars.map fun v => (.vdelta, v.name)) ++ (I.params.map fun q => (.pdelta, q.1)) else [])

/-- Classes of the module that the Python file makes objects of (lines 44, 64, 146, 158). -/
def pyNew : List Cls :=
  [.updated, .params] ++ (if I.gradient then (if I.explicit = 0 then [.gsol] else []) ++ [.vdelta] else [])

/-- All words made of names of the problem alone: fields of the C structs, members of the C++ structs, attributes in the
Python file. -/
def words : List Txt :=
  ([STy.canonParams, .canonOutdated, .prim, .dual, .info, .result, .delta].flatMap fun t =>
    ((typedef I t).getD []).map Prod.fst) ++
  ([Cls.params, .updated, .prim, .dual, .gsol, .info, .result, .vdelta, .pdelta].flatMap fun c => (members I c).getD []) ++
  (pyUses I).map Prod.snd

/-- All names at file scope that the generated files declare, define or mention. -/
def names : List Txt :=
  (libFiles I ++ [moduleFile I]).flatMap fun f =>
    f.headers ++ f.statics ++ f.items.flatMap fun it => it.name :: it.uses

/-! ### Several modules in one Python process -/

/-- The name of the struct behind a class, without prefix (utils.py:1333, 1339, 1345, 1353, 1360, 1366, 1383, 1395, 1401). -/
def suffix : Cls → Txt
  | .params => "CPG_Params_cpp_t".toList
  | .updated => "CPG_Updated_cpp_t".toList
  | .prim => "CPG_Prim_cpp_t".toList
  | .dual => "CPG_Dual_cpp_t".toList
  | .gsol => "CPG_GSol_cpp_t".toList
  | .info => "CPG_Info_cpp_t".toList
  | .result => "CPG_Result_cpp_t".toList
  | .vdelta => "CPG_VDelta_cpp_t".toList
  | .pdelta => "CPG_PDelta_cpp_t".toList

/-- The structs that get registered when the module is imported, in the order of utils.py:1331-1405. -/
def registered : List Txt :=
  ([Cls.params, .updated, .prim, .dual, .gsol, .info, .result, .vdelta, .pdelta].filter fun c => (bound I c).isSome).map
    fun c => I.pre ++ suffix c

/-- `py::class_<T>` as documented by pybind11: types are registered for the whole process, by name, and a type that is
registered already is an error (the bindings do not ask for `py::module_local`). -/
def register (reg : List Txt) : List Txt → List Txt × Bool
  | [] => (reg, true)
  | t :: ts => if t ∈ reg then (reg, false) else register (reg ++ [t]) ts

/-- Importing generated modules one after the other, each from its own directory: which imports succeed. -/
def importAll (reg : List Txt) : List In → List Bool
  | [] => []
  | I :: Is => let r := register reg (registered I); r.2 :: importAll r.1 Is

end Verif.Model.PyModule
