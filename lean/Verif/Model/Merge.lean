import Verif.Model.Canon
import Verif.Model.SolverTables
import Mathlib.Data.List.Sort
import Mathlib.Data.List.Dedup
/-!
Two-stage canonicalization: the problem is first brought to OSQP's form (for differentiation), the
resulting QP is canonicalized again for the solver, and the two are merged
(`cvxpygen/canonicalizer.py` 54-65, 334-361, 363-406, 411-415).
-/
namespace Verif.Model.Merge
open Verif.Model

variable {R : Type}

/-- Exceptions of Python. -/
inductive Err where
  | key (k : String)
  | value
  | assertion
  /-- matrices whose dimensions do not fit -/
  | dims
  /-- a map that is `None` where a matrix is needed -/
  | noneMap
  deriving DecidableEq, Repr

/-- The name of a canonical parameter. Only the names of OSQP matter here. -/
def idName : CId → String
  | .P => "P" | .q => "q" | .d => "d" | .A => "A" | .l => "l" | .u => "u"
  | .c => "c" | .b => "b" | .G => "G" | .h => "h"
  | _ => ""

/-- `solver_interface.canon_p_ids` of OSQP, the canonical parameters of the first stage. -/
def ids1 : List CId := [.P, .q, .d, .A, .l, .u]

/-- `sparse.vstack` (canonicalizer.py:389) of blocks with `n` columns. -/
def vstack (n : Nat) : List (Sp R) → Sp R
  | [] => ⟨0, n, []⟩
  | A :: l => ⟨A.rows + (vstack n l).rows, n,
      A.ents ++ (vstack n l).ents.map fun e => (A.rows + e.1, e.2)⟩

/-- `A @ B` for sparse matrices. SciPy sums the products that meet at one position; here they are
listed, which represents the same matrix. -/
def matmul [Mul R] (A B : Sp R) : Except Err (Sp R) :=
  if A.cols = B.rows then
    .ok ⟨A.rows, B.cols, A.ents.flatMap fun e =>
      (B.ents.filter fun f => decide (f.1 = e.2.1)).map fun f => (e.1, f.2.1, e.2.2 * f.2.2)⟩
  else .error .dims

/-- `_create_constant_map(n, m, val)`, canonicalizer.py:411-415. -/
def constantMap (n m : Nat) (val : R) : Sp R :=
  ⟨n, m, (List.range n).map fun i => (i, m - 1, val)⟩

/-- `name[5:]`. -/
def drop5 (s : String) : String := String.ofList (s.toList.drop 5)

variable [CommRing R] [DecidableEq R]

/-- `pc_first.p_id_to_mapping[name]`; a map that is `None` is treated as an error (what
`sparse.vstack` does with it is not modelled). -/
def firstMap (maps1 : CId → Option (RawMap R)) (name : String) : Except Err (Sp R) :=
  match ids1.find? fun c => idName c == name with
  | none => .error (.key name)
  | some c => match maps1 c with
    | none => .error .noneMap
    | some m => .ok (m.final c.isUpper)

/-- `sorted(col_to_name_usp)` with the names, canonicalizer.py:384-385. -/
def sortedNames (ps2 : List UParam) : List String :=
  ((colToName ps2).insertionSort fun a b => a.1 ≤ b.1).map fun e => e.2

/-- `map_first`, canonicalizer.py:383-389; `n` is `flat_usp.size`, the size of the parameter vector
with its trailing 1. -/
def mapFirst (maps1 : CId → Option (RawMap R)) (ps2 : List UParam) (n : Nat) : Except Err (Sp R) := do
  let blocks ← (sortedNames ps2).mapM fun s => firstMap maps1 (drop5 s)
  let blocks := blocks ++ [constantMap 1 n 1]
  if blocks.all fun B => B.cols = n then .ok (vstack n blocks) else .error .dims

/-- One entry of `pc.p_id_to_mapping`, canonicalizer.py:390-391. -/
def mergedMap (maps2 : CId → Option (RawMap R)) (first : Sp R) (c : CId) : Except Err (CId × Sp R) :=
  match maps2 c with
  | none => .error .noneMap
  | some m => (matmul (m.final c.isUpper) first).map fun M => (c, M)

/-- `pc_second.user_p_name_to_canon_outdated[f'osqp_{p_id}']`, canonicalizer.py:397-399. -/
def marksOf (out2 : List (String × List CId)) (c : CId) : Except Err (List CId) :=
  match out2.lookup ("osqp_" ++ idName c) with
  | none => .error (.key ("osqp_" ++ idName c))
  | some l => .ok l

/-- The inner loop, canonicalizer.py:395-400. -/
def mergedMarks (out2 : List (String × List CId)) (cs : List CId) : Except Err (List CId) := do
  let ls ← cs.mapM (marksOf out2)
  -- `list(set(...))`; the order of a set does not matter for the generated code
  .ok ls.flatten.dedup

/-- The part of the merged `ParameterCanon` that is computed. -/
structure Merged (R : Type) where
  maps : List (CId × Sp R)
  outdated : List (String × List CId)

/-- `_merge`, canonicalizer.py:363-400, for user parameters `ps1`, maps `maps1` of the first stage,
canonical ids `ids2`, maps `maps2` and parameters `ps2` of the second. -/
def merge (ps1 : List UParam) (maps1 : CId → Option (RawMap R)) (ids2 : List CId)
    (maps2 : CId → Option (RawMap R)) (ps2 : List UParam) : Except Err (Merged R) := do
  let first ← mapFirst maps1 ps2 (totalSize ps1 + 1)
  let maps ← ids2.mapM (mergedMap maps2 first)
  let outdated ← (outdatedOf ps1 ids1 maps1).mapM fun kv =>
    (mergedMarks (outdatedOf ps2 ids2 maps2) kv.2).map fun l => (kv.1, l)
  .ok ⟨maps, outdated⟩

/-- The parameters of the intermediate problem with their sizes, `_get_osqp_problem`,
canonicalizer.py:334-351, for parameter values `θ` at generation time. `osqp_A` is declared with the
positions at which the current value of `A` is nonzero. `diagonal` says whether all nonzero entries of
`P` are on the diagonal. -/
def osqpParams (maps1 : CId → Option (RawMap R)) (diagonal : Bool) (θ : List R) :
    Except Err (List UParam) := do
  if mapChanges (maps1 .P) true then .error .value
  -- `p['P']` has no entry if the map of `P` is `None`
  if maps1 .P = none then .error (.key "P")
  if !diagonal then .error .assertion
  let size (c : CId) : Except Err Nat := match canonVal (maps1 c) c.isUpper θ with
    | none => .error (.key (idName c))
    | some v => .ok v.length
  let q ← size .q
  let A ← match canonVal (maps1 .A) true θ with
    | none => .error (.key "A")
    | some v => .ok (v.filter fun x => x ≠ 0).length
  let l ← size .l
  let u ← size .u
  .ok [⟨"osqp_q", q⟩, ⟨"osqp_A", A⟩, ⟨"osqp_l", l⟩, ⟨"osqp_u", u⟩]

/-- The value computed by `cpg_canonicalize_<c>` with a merged map. -/
def mergedVal (M : Merged R) (c : CId) (θ : List R) : Option (List R) :=
  (M.maps.lookup c).bind fun A => canonicalizeC A.rows A.toCsr (θ ++ [1]) (List.replicate A.rows 0)

/-- The generated program after merging. `θ2` are the values of the parameters of the intermediate
problem at generation time: they have never been assigned and are chosen at random
(canonicalizer.py:251-252), and the canonical parameters written to the files (`pc_second.p`,
canonicalizer.py:377) belong to them. -/
def mergedGen (ps1 : List UParam) (ids2 : List CId) (quad : Bool) (maps2 : CId → Option (RawMap R))
    (M : Merged R) (θ0 : { θ : List R // θ.length = totalSize ps1 }) (θ2 : List R) :
    Gen { θ : List R // θ.length = totalSize ps1 } (Option (List R)) { a : UpdCall R // a.Valid ps1 } where
  canonOf c θ := mergedVal M c θ.1
  -- the update functions are those without merging
  assign := (canonGen ps1 [] quad (fun _ => none) θ0).assign
  outdated a := (M.outdated.lookup a.1.name).getD []
  changes := changesOf ids2 fun p => mapChanges (maps2 p) p.isUpper
  quad := quad
  θ0 := θ0
  canon0 c := canonVal (maps2 c) c.isUpper θ2

end Verif.Model.Merge
