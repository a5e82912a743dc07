import Verif.Model.Runtime
import Verif.Model.Canon
/-!
Canonical data without entries: which objects the generated program defines, and which it refers to.

Sources: /repo/cvxpygen/utils.py:496-550 (definitions and the struct `Canon_Params`), 297-308 (`write_param_def`), 231-239
(`param_is_empty`), 987-1006 (`cpg_copy_*`), 279-294 (`write_canonicalize`), 1054-1067 (`cpg_obj`), writer.py:240-246 (refresh of the KKT
matrix), canonicalizer.py:273-281 (`_get_constraint_info`), 296-330 (which canonical parameters exist), and the `function_call` texts of
osqp.py:20-61, scs.py:25-44, ecos.py:89-117, clarabel.py:158-204, qoco.py:93-124 (QOCOGEN) and 267-344 (QOCO).

Simplifications: `Canon_Params` and `Canon_Params_conditioning` have the same null pointers (utils.py:537-548) and are not told apart.
`cpg_copy_<id>` of a parameter with one entry assigns the pointer (utils.py:992-993). What solvers do with the pointers they get is theirs.
-/
namespace Verif.Model.Empty
open Verif.Model

/-- What the generator knows: numbers of variables, equality and inequality rows (`n_var`, `n_eq`, `n_ineq` or `canon_constants`), and
`parameter_canon.p`: the number of entries of each canonical parameter that exists. -/
structure Data where
  (n eq ineq : Nat)
  len : CId → Option Nat

/-- A pointer in a struct. -/
inductive Ptr where
  | null
  | object
  deriving DecidableEq, Repr

/-- `Canon_Params.<id>`, utils.py:529-550: the field exists if the parameter does, and is `0` if it has no entries. (`d` is a number and no
pointer; no text below refers to it.) -/
def Data.field (d : Data) (id : CId) : Option Ptr := (d.len id).map fun n => if n = 0 then .null else .object

/-- The object `canon_<id>` (for matrices also `canon_<id>_x`, `_i`, `_p`) is defined, utils.py:505-512, 301. -/
def Data.defined (d : Data) (id : CId) : Bool :=
  id != .d && (match d.len id with | some n => n != 0 | none => false)

/-- How a text refers to a canonical parameter. -/
inductive Use where
  /-- `Canon_Params.<id>->…` or `Canon_Params.<id>[i]`: the pointer is followed -/
  | follow (id : CId)
  /-- `Canon_Params.<id>`: the pointer is handed on -/
  | pass (id : CId)
  /-- `&canon_<id>` -/
  | name (id : CId)
  deriving DecidableEq, Repr

/-- The C compiler accepts the reference. -/
def Use.compiles (d : Data) : Use → Bool
  | .follow id | .pass id => (d.field id).isSome
  | .name id => d.defined id

/-- Executing the reference follows a null pointer. -/
def Use.faults (d : Data) : Use → Bool
  | .follow id => d.field id == some .null
  | _ => false

/-- `cpg_copy_<id>`, utils.py:988-1001. -/
def copy (d : Data) (id : CId) : List Use :=
  match d.len id with
  | none => []
  | some n => if n = 1 then [.pass id] else if 1 < n then [.follow id] else []

/-- All ids in the order of `canon_p_ids`. -/
def allIds : List CId := [.P, .q, .c, .A, .b, .l, .u, .G, .h]

/-- `cpg_copy_all`, utils.py:1002-1006. -/
def copyAll (d : Data) : List Use := allIds.flatMap (copy d)

/-- The references in the call of `init`: ecos.py:91-99, clarabel.py:161-178, qoco.py:267-312. QOCOGEN's `load_data` has none (qoco.py:96), SCS
uses `Scs_D` (scs.py:27), OSQP has no such function. -/
def initUses (k : Kind) (lp : Bool) (d : Data) : List Use :=
  match k with
  | .ecos => copyAll d ++ [.follow .G] ++ (if d.eq = 0 then [] else [.follow .A]) ++ [.pass .c, .pass .h] ++
      (if d.eq = 0 then [] else [.pass .b])
  | .clarabel => copyAll d ++ (if lp then [] else [.follow .P]) ++ [.follow .A]
  | .qoco => copyAll d ++ (if lp then [] else [.follow .P]) ++ (if 0 < d.eq then [.follow .A] else []) ++
      (if 0 < d.ineq then [.follow .G] else []) ++ [.pass .c] ++ (if d.eq = 0 then [] else [.pass .b]) ++
      (if d.ineq = 0 then [] else [.pass .h])
  | _ => []

/-- The references in the call of an update function: osqp.py:20-61, scs.py:29-44, ecos.py:101-116, clarabel.py:181-199, qoco.py:98-124,
319-344. -/
def callUses (k : Kind) (lp : Bool) (d : Data) : CId → List Use
  | .init => initUses k lp d
  | f =>
    match k, f with
    | .osqp, .PA => [.follow .P, .follow .A]
    | .osqp, .P => [.follow .P]
    | .osqp, .A => [.follow .A]
    | .osqp, .qlu => [.pass .q, .pass .l, .pass .u]
    | .osqp, .ql => [.pass .q, .pass .l]
    | .osqp, .qu => [.pass .q, .pass .u]
    | .osqp, .lu => [.pass .l, .pass .u]
    | .osqp, .q => [.pass .q]
    | .osqp, .l => [.pass .l]
    | .osqp, .u => [.pass .u]
    | .scs, .bc => [.pass .b, .pass .c]
    | .scs, .b => [.pass .b]
    | .scs, .c => [.pass .c]
    | .ecos, .AbcGh => copyAll d ++ [.follow .G] ++ (if d.eq = 0 then [] else [.follow .A]) ++ [.pass .c, .pass .h] ++
        (if d.eq = 0 then [] else [.pass .b])
    | .ecos, .c => copy d .c ++ (if 0 < d.n then [.follow .c] else [])
    | .ecos, .h => copy d .h ++ (if 0 < d.ineq then [.follow .h] else [])
    | .clarabel, .A => copy d .A ++ [.follow .A]
    | .clarabel, .q => copy d .q
    | .clarabel, .b => copy d .b
    | .clarabel, .P => copy d .P ++ [.follow .P]
    | .qocogen, .A | .qoco, .A => [.follow .A]
    | .qocogen, .G | .qoco, .G => [.follow .G]
    | .qocogen, .P | .qoco, .P => [.follow .P]
    | .qocogen, .c | .qoco, .c => [.pass .c]
    | .qocogen, .b | .qoco, .b => [.pass .b]
    | .qocogen, .h | .qoco, .h => [.pass .h]
    | _, _ => []

/-- The references in the call that solves: clarabel.py:202, others have none. -/
def solveUses : Kind → List Use
  | .clarabel => [.pass .q, .pass .b]
  | _ => []

/-- The references in definitions: scs.py:207-224; the other solvers have none. -/
def staticUses (k : Kind) (quad : Bool) : List Use :=
  match k with
  | .scs => (if quad then [.name .P] else []) ++ [.name .A, .name .b, .name .c]
  | _ => []

/-- `cpg_canonicalize_<id>` for the parameters that change, utils.py:279-294, 983-985: the loop over the rows. -/
def canonUses (ids : List CId) (changes : CId → Bool) : List Use :=
  (ids.filter fun id => changes id && id != .d).map .follow

variable {Θ V Act : Type}

/-- Every reference that the program makes in a history with these solver calls: canonicalization, update functions, the call that
solves. -/
def references (k : Kind) (quad lp : Bool) (d : Data) (changes : CId → Bool) (m : Mem Θ V) : List Use :=
  canonUses (k.canonIds quad) changes ++ m.calls.flatMap (callUses k lp d) ++ solveUses k

/-- All references in the text of the program: those of definitions, canonicalization, all update functions that are written (`written`), and
of the call that solves. -/
def text (k : Kind) (quad lp : Bool) (d : Data) (changes : CId → Bool) (written : List CId) : List Use :=
  staticUses k quad ++ canonUses (k.canonIds quad) changes ++ written.flatMap (callUses k lp d) ++ solveUses k

/-- `cpg_obj` of explicit mode, utils.py:1054-1067: `Canon_Params.P->p[i]` and `Canon_Params.q[i]` for every variable. -/
def objUses (d : Data) : List Use := if 0 < d.n then [.follow .P, .follow .q] else []

/-- The refresh of the KKT matrices by `cpg_gradient`, writer.py:240-246: `cpg_P_to_K` and `cpg_A_to_K` are written for the matrices that change
and read the matrix. -/
def refreshUses (changes : CId → Bool) : List Use :=
  ([CId.P, CId.A].filter fun id => changes id).map .follow

/-- The entries of `parameter_canon.p` that `generate_code` looks up: osqp.py:127-129, qoco.py:148, 151-152 (QOCOGEN); `P` of QOCOGEN is optional. -/
def lookups : Kind → List CId
  | .osqp => [.P, .q, .A, .l, .u]
  | .qocogen => [.c, .A, .b, .G, .h]
  | _ => []

/-- `generate_code` as far as it looks up canonical parameters: a missing key raises. -/
def generateCode (k : Kind) (d : Data) : Option PyErr :=
  if (lookups k).all fun id => (d.len id).isSome then none else some .keyError

/-- `_get_constraint_info`, canonicalizer.py:273-281: number of data of the constraints and of its matrix. `none` is the index CVXPY delivers for
a constraint matrix without rows (`get_problem_data_index`, _interface.py:178-183). -/
def constraintInfo (index : Option (List Nat × List Nat)) : Except PyErr (Nat × Nat) :=
  match index with
  | none => .error .typeError
  | some (indices, indptr) =>
    match indptr.reverse with
    | a :: b :: _ => .ok (indices.length, indices.length - (a - b))
    | _ => .error .indexError

/-- The data of a problem given by its affine maps: `parameter_canon.p` has an entry for every map that exists (canonicalizer.py:298-330,
449-486), whose length is that of the canonical parameter; `augment_vector_parameter` appends `n_ineq` entries to `l` (_interface.py:76-79). -/
def dataOf {R : Type} [CommRing R] [DecidableEq R] (ids : List CId) (n eq ineq : Nat) (maps : CId → Option (RawMap R)) : Data where
  n := n
  eq := eq
  ineq := ineq
  len id := if ids.contains id then
      (maps id).map fun m => (m.final id.isUpper).rows + (if id = .l then ineq else 0)
    else none

end Verif.Model.Empty
