import Verif.Model.Canon
/-!
Compressed-column storage of canonical matrices (`_set_default_values`,
`cvxpygen/canonicalizer.py` 448-486) and the affine maps of the solver interfaces
(`cvxpygen/solvers/_interface.py` 39-79, 132-173; `canonicalizer.py` 273-281, 429-436).
-/
namespace Verif.Model

/-- `indptr[c + 1:] += 1`. -/
def bumpFrom (l : List Nat) (c : Nat) : List Nat :=
  l.mapIdx fun k v => if c + 1 ≤ k then v + 1 else v

/-- Body of the loops at `canonicalizer.py:460-464` and `472-476`: find the first column that
contains `r` and count it. -/
def placeRow (indptr : List Nat) (ncols : Nat) (acc : List Nat) (r : Nat) : List Nat :=
  match (List.range ncols).find? fun c =>
      decide (indptr.getD c 0 ≤ r) && decide (r < indptr.getD (c + 1) 0) with
  | none => acc
  | some c => bumpFrom acc c

/-- The counting loops: start from `0 * indptr`, place all rows. -/
def countPtr (indptr : List Nat) (ncols : Nat) (rows : List Nat) : List Nat :=
  rows.foldl (placeRow indptr ncols) (indptr.map fun _ => 0)

/-- Index part of the stored matrix: `indices_usp`, `indptr_usp`. -/
structure CscIdx where
  indices : List Nat
  indptr : List Nat
  deriving DecidableEq, Repr

/-- `indices_usp`, `indptr_usp` of `_set_default_values` (`canonicalizer.py:470-476`) from
`affine_map.indices`, `affine_map.indptr`, `affine_map.shape[1]` and the retained rows. -/
def uspIdx (indices indptr : List Nat) (ncols : Nat) (nz : List Nat) : CscIdx where
  indices := nz.map fun r => indices.getD r 0
  indptr := countPtr indptr ncols nz

variable {R : Type}

/-- CVXPY's parametrized constraint data: the stacked matrix `[A b]` in compressed-column form with
`nVar + 1` columns, datum `r` being row `r` of `red` times the parameter vector;
the first `nEq` rows are equalities. -/
structure ConstrData (R : Type) where
  nVar : Nat
  nEq : Nat
  nIneq : Nat
  /-- `reduced_A.problem_data_index[0]` -/
  indices : List Nat
  /-- `reduced_A.problem_data_index[1]`, `nVar + 2` entries -/
  indptr : List Nat
  /-- `reduced_A.reduced_mat` -/
  red : Sp R

/-- `n_data_constr_mat`, `canonicalizer.py:274-278`. -/
def ConstrData.nMat (d : ConstrData R) : Nat :=
  d.indices.length - (d.indptr.getD (d.nVar + 1) 0 - d.indptr.getD d.nVar 0)

/-- `mapping_rows_eq`, `canonicalizer.py:279`. -/
def ConstrData.rowsEq (d : ConstrData R) : List Nat :=
  (List.range d.indices.length).filter fun r => decide (d.indices.getD r 0 < d.nEq)

/-- `mapping_rows_ineq`, `canonicalizer.py:280`. -/
def ConstrData.rowsIneq (d : ConstrData R) : List Nat :=
  (List.range d.indices.length).filter fun r => decide (d.nEq ≤ d.indices.getD r 0)

/-- `affine_map.mapping_rows` in `SolverInterface.get_affine_map`, `_interface.py:145-160`. -/
def ConstrData.rowsOf (d : ConstrData R) : CId → List Nat
  | .A => d.rowsEq.filter fun r => decide (r < d.nMat)
  | .G => d.rowsIneq.filter fun r => decide (r < d.nMat)
  | .b => d.rowsEq.filter fun r => decide (d.nMat ≤ r)
  | .h => d.rowsIneq.filter fun r => decide (d.nMat ≤ r)
  | _ => []

/-- `affine_map.indices`, `_interface.py:164-167`. -/
def ConstrData.indicesOf (d : ConstrData R) (p : CId) : List Nat :=
  (d.rowsOf p).map fun r =>
    match p with
    | .G | .h => d.indices.getD r 0 - d.nEq
    | _ => d.indices.getD r 0

/-- `_update_to_dense_mapping`, `canonicalizer.py:429-436`: row `i` of the dense mapping is the row
written last to position `i`, or zero. -/
def denseRows (m : Sp R) (rows : Nat) (indices : List Nat) : Sp R where
  rows := rows
  cols := m.cols
  ents := (List.range rows).flatMap fun i =>
    match ((List.range indices.length).reverse.find? fun k => decide (indices.getD k 0 = i)) with
    | none => []
    | some k => (m.row k).map fun e => (i, e.2.1, e.2.2)

/-- Conic maps of `A`, `G` (`sign = -1`) and `b`, `h` (dense, `sign = 1`),
`_interface.py:145-171`. -/
def ConstrData.conicMap [CommRing R] (d : ConstrData R) (p : CId) : Option (RawMap R) :=
  match p with
  | .A | .G => some ⟨d.red.selectRows (d.rowsOf p), fun _ => -1⟩
  | .b => some ⟨denseRows (d.red.selectRows (d.rowsOf .b)) d.nEq (d.indicesOf .b), fun _ => 1⟩
  | .h => some ⟨denseRows (d.red.selectRows (d.rowsOf .h)) d.nIneq (d.indicesOf .h), fun _ => 1⟩
  | _ => none

/-- `affine_map.indptr` of a split matrix, `canonicalizer.py:454-464`: counted from the selected
rows. -/
def ConstrData.splitPtr (d : ConstrData R) (p : CId) : List Nat :=
  countPtr (d.indptr.take (d.nVar + 1)) d.nVar (d.rowsOf p)

/-- Stored index part of `A`/`G` with equality/inequality split (ECOS, QOCO). -/
def ConstrData.splitIdx [CommRing R] [DecidableEq R] (d : ConstrData R) (p : CId) (m : RawMap R) :
    CscIdx :=
  uspIdx (d.indicesOf p) (d.splitPtr p) d.nVar (nonzeroRows m.signed)

/-- Stored index part of `A` without split (SCS, Clarabel: all rows count as equalities),
`canonicalizer.py:466-469`. -/
def ConstrData.wholeIdx [CommRing R] [DecidableEq R] (d : ConstrData R) (m : RawMap R) : CscIdx :=
  uspIdx (d.indicesOf .A) (d.indptr.take (d.nVar + 1)) d.nVar (nonzeroRows m.signed)

/-! ### QP form -/

/-- `mapping[indices >= n_eq] *= -1` on the first `n_mat` rows, `_interface.py:53-56`. -/
def ConstrData.qpMat [CommRing R] (d : ConstrData R) : RawMap R where
  mapping :=
    { rows := d.nMat
      cols := d.red.cols
      ents := (d.red.ents.filter fun e => decide (e.1 < d.nMat)).map fun e =>
        if d.nEq ≤ d.indices.getD e.1 0 then (e.1, e.2.1, e.2.2 * -1) else e }
  sign := fun _ => 1

/-- `mapping_rows` of `l`, `_interface.py:59-61`. -/
def ConstrData.qpRowsL (d : ConstrData R) : List Nat :=
  d.rowsEq.filter fun r => decide (d.nMat ≤ r)

/-- `mapping_rows` of `u`, `_interface.py:66-67`. -/
def ConstrData.qpRowsU (d : ConstrData R) : List Nat :=
  List.range' d.nMat (d.indices.length - d.nMat)

/-- Map of `l`: dense with `n_eq` rows, `sign = -1`, `_interface.py:58-64`. -/
def ConstrData.qpL [CommRing R] (d : ConstrData R) : RawMap R :=
  ⟨denseRows (d.red.selectRows d.qpRowsL) d.nEq (d.qpRowsL.map fun r => d.indices.getD r 0),
   fun _ => -1⟩

/-- Map of `u`: dense with all rows, `sign` −1 on equalities and 1 on inequalities,
`_interface.py:65-70`. -/
def ConstrData.qpU [CommRing R] (d : ConstrData R) : RawMap R :=
  ⟨denseRows (d.red.selectRows d.qpRowsU) (d.nEq + d.nIneq)
    (d.qpRowsU.map fun r => d.indices.getD r 0),
   fun i => if i < d.nEq then -1 else 1⟩

/-- Stored index part of the QP matrix `A`. -/
def ConstrData.qpIdx [CommRing R] [DecidableEq R] (d : ConstrData R) : CscIdx :=
  uspIdx (d.indices.take d.nMat) (d.indptr.take (d.nVar + 1)) d.nVar (nonzeroRows d.qpMat.signed)

/-- `augment_vector_parameter` for `l`, `_interface.py:76-79`; `none` is minus infinity. -/
def augmentL (nIneq : Nat) (l : List R) : List (Option R) :=
  l.map some ++ List.replicate nIneq none

end Verif.Model
