import Verif.Model.Sparse
import Verif.Model.Runtime
/-!
Canonicalization: user parameters, affine maps, dependency information
(`cvxpygen/canonicalizer.py` 86-122, 226-271, 283-332, 429-486).
-/
namespace Verif.Model

/-- A CVXPY parameter as seen by the generator. CVXPY's tables are: `param_prob.parameters` (this
list), `param_id_to_col` (running sum of sizes in the same order, followed by the constant), and
`param_id_to_size`. -/
structure UParam where
  name : String
  size : Nat
  deriving DecidableEq, Repr

/-- CVXPY's `param_id_to_col` of the `j`-th parameter; `j = ps.length` is the constant column. -/
def colOf (ps : List UParam) (j : Nat) : Nat := ((ps.take j).map UParam.size).sum

/-- Total size without the trailing constant 1. -/
def totalSize (ps : List UParam) : Nat := (ps.map UParam.size).sum

/-- `user_p_name_to_size_usp`, `canonicalizer.py:239-242`. -/
def nameToSize (ps : List UParam) : List (String × Nat) :=
  dictOf (ps.map fun p => (p.name, p.size))

/-- The loop filling `user_p_col_to_name_usp`, `canonicalizer.py:243-247`. -/
def colToNameLoop : List (String × Nat) → Nat → List (Nat × String) → List (Nat × String)
  | [], _, d => d
  | (name, size) :: l, cum, d => colToNameLoop l (cum + size) (dictSet d cum name)

/-- `col_to_name_usp`. -/
def colToName (ps : List UParam) : List (Nat × String) := colToNameLoop (nameToSize ps) 0 []

/-- First column used by the generated `cpg_update_<name>`, `utils.py:905`. -/
def baseCol (ps : List UParam) (name : String) : Option Nat :=
  ((colToName ps).find? fun e => e.2 == name).map fun e => e.1

/-- `cpg_params_vec[idx+base] = val` in `cpg_update_<name>(idx, val)`, `utils.py:905-926`
(not explicit). -/
def updateC {R : Type} (ps : List UParam) (name : String) (idx : Nat) (val : R) (θ : List R) :
    Option (List R) :=
  (baseCol ps name).bind fun base => store θ (base + idx) val

variable {R : Type}

/-- An affine map before post-processing: `affine_map.mapping` and `affine_map.sign` (one factor per
row), `canonicalizer.py:299-318`. -/
structure RawMap (R : Type) where
  mapping : Sp R
  sign : Nat → R

/-- `sparse.csc_matrix(affine_map.mapping.toarray() * affine_map.sign)`,
`canonicalizer.py:316-318`. -/
def RawMap.signed [CommRing R] [DecidableEq R] (m : RawMap R) : Sp R :=
  Sp.ofDense m.mapping.rows m.mapping.cols fun i j => m.mapping.at i j * m.sign i

/-- `np.sort(np.unique(rows_nonzero))`, `canonicalizer.py:450-451`. -/
def nonzeroRows (A : Sp R) [Zero R] [DecidableEq R] : List Nat :=
  (List.range A.rows).filter fun i => A.ents.any fun e => decide (e.1 = i ∧ e.2.2 ≠ 0)

/-- `p_id.isupper()` for canonical parameter ids. -/
def CId.isUpper : CId → Bool
  | .P | .A | .G => true
  | _ => false

/-- `p_id_to_mapping[p_id]`: all-zero rows of matrices are dropped, `canonicalizer.py:449-452`. -/
def RawMap.final [CommRing R] [DecidableEq R] (m : RawMap R) (upper : Bool) : Sp R :=
  if upper then m.signed.selectRows (nonzeroRows m.signed) else m.signed

/-- `p_id_to_changes[p_id]`, `canonicalizer.py:324,328`. -/
def mapChanges [CommRing R] [DecidableEq R] (m : Option (RawMap R)) (upper : Bool) : Bool :=
  match m with
  | none => false
  | some m => decide (0 < (m.final upper).nnzCols 0 ((m.final upper).cols - 1))

/-- `adjacency[i, j]`, `canonicalizer.py:439-446`. -/
def adjacent (ps : List UParam) (m : Option (RawMap R)) (j : Nat) : Bool :=
  match m with
  | none => false
  | some m => decide (0 < m.mapping.nnzCols (colOf ps j) (colOf ps (j + 1)))

/-- `user_p_name_to_canon_outdated`, `canonicalizer.py:117-120`. -/
def outdatedOf (ps : List UParam) (ids : List CId) (maps : CId → Option (RawMap R)) :
    List (String × List CId) :=
  dictOf (ps.zipIdx.map fun pj => (pj.1.name, ids.filter fun c => adjacent ps (maps c) pj.2))

/-- A call `cpg_update_<name>(idx, val)`. -/
structure UpdCall (R : Type) where
  name : String
  idx : Nat
  val : R

/-- The call addresses an existing entry of an existing parameter. -/
def UpdCall.Valid (ps : List UParam) (a : UpdCall R) : Prop :=
  ∃ p ∈ ps, p.name = a.name ∧ a.idx < p.size

/-- `cpg_canonicalize_<p>` on the vector `cpg_params_vec = θ ++ [1]`, into a buffer of the size of
the canonical parameter. `none`: memory error, or no map. -/
def canonVal [CommRing R] [DecidableEq R] (m : Option (RawMap R)) (upper : Bool) (θ : List R) :
    Option (List R) :=
  m.bind fun m => canonicalizeC (m.final upper).rows (m.final upper).toCsr (θ ++ [1])
    (List.replicate (m.final upper).rows 0)

/-- The generated program for user parameters `ps` and affine maps `maps`. -/
def canonGen [CommRing R] [DecidableEq R] (ps : List UParam) (ids : List CId) (quad : Bool)
    (maps : CId → Option (RawMap R)) (θ0 : { θ : List R // θ.length = totalSize ps }) :
    Gen { θ : List R // θ.length = totalSize ps } (Option (List R))
      { a : UpdCall R // a.Valid ps } where
  canonOf p θ := canonVal (maps p) p.isUpper θ.1
  assign a θ :=
    match h : updateC ps a.1.name a.1.idx a.1.val θ.1 with
    | some θ' => ⟨θ', by
        unfold updateC at h
        obtain ⟨base, _, h⟩ := Option.bind_eq_some_iff.mp h
        unfold store at h
        split at h
        · cases h; rw [List.length_set]; exact θ.2
        · cases h⟩
    | none => θ
  outdated a := ((outdatedOf ps ids maps).lookup a.1.name).getD []
  changes := changesOf ids fun p => mapChanges (maps p) p.isUpper
  quad := quad
  θ0 := θ0
  canon0 p := canonVal (maps p) p.isUpper θ0.1

end Verif.Model
