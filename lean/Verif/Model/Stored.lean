import Verif.Model.Py
/-!
Model of the removal of variables that are not stored in explicit mode.

Sources: /repo/cvxpygen/solvers/pdaqp.py:141, 188-199. The dictionaries of `prim_variable_info` (offsets, indices, sizes,
shapes, initial values, symmetry) have the same keys and are changed alike, so there is one of them here.
-/
namespace Verif.Model.Stored
open Verif.Model

variable {α : Type}

/-- `name_to_…` and the list `sym` of `prim_variable_info`, and the flag `reduced`. -/
structure Info (α : Type) where
  dict : List (String × α)
  sym : List Bool
  reduced : Bool

/-- `del d[k]` (pdaqp.py:191-197). -/
def dictDel (d : List (String × α)) (k : String) : Except PyErr (List (String × α)) :=
  if (d.map Prod.fst).contains k then .ok (d.filter fun e => e.1 ≠ k) else .error .keyError

/-- `del l[i]` for `i ≥ 0` (pdaqp.py:198). -/
def listDel (l : List Bool) (i : Nat) : Except PyErr (List Bool) :=
  if i < l.length then .ok (l.eraseIdx i) else .error .indexError

/-- Body of the loop pdaqp.py:189-199. -/
def dropStep (added : List String) (s : Info α) (e : String × Nat) : Except PyErr (Info α) :=
  if added.contains e.1 then .ok s
  else
    match dictDel s.dict e.1 with
    | .error x => .error x
    | .ok d =>
      match listDel s.sym e.2 with
      | .error x => .error x
      | .ok l => .ok ⟨d, l, true⟩

/-- pdaqp.py:141, 189: `enumerate(all_names)`, the names before the removal. -/
def dropUnstored (added : List String) (s : Info α) : Except PyErr (Info α) :=
  (s.dict.map Prod.fst).zipIdx.foldlM (dropStep added) s

end Verif.Model.Stored
