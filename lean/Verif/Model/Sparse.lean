import Mathlib.Algebra.BigOperators.Group.Finset.Basic
import Mathlib.Algebra.BigOperators.Ring.Finset
/-!
Sparse matrices as SciPy stores them, and the generated canonicalization loop.
-/
namespace Verif.Model

/-- A SciPy sparse matrix: dimensions and stored entries (row, column, value). Stored entries may be
zero ("explicit zeros"). -/
structure Sp (R : Type) where
  rows : Nat
  cols : Nat
  ents : List (Nat × Nat × R)

variable {R : Type}

/-- The represented (dense) matrix, `.toarray()`: entries at the same position are summed. -/
def Sp.at [AddCommMonoid R] (A : Sp R) (i j : Nat) : R :=
  ((A.ents.filter fun e => decide (e.1 = i ∧ e.2.1 = j)).map fun e => e.2.2).sum

/-- All entries are inside the matrix. -/
def Sp.WF (A : Sp R) : Prop := ∀ e ∈ A.ents, e.1 < A.rows ∧ e.2.1 < A.cols

/-- `A[:, lo:hi].nnz`: number of stored entries in a column slice. -/
def Sp.nnzCols (A : Sp R) (lo hi : Nat) : Nat :=
  (A.ents.filter fun e => decide (lo ≤ e.2.1 ∧ e.2.1 < hi)).length

/-- `sparse.csc_matrix(dense)`: the nonzero entries, column by column. -/
def Sp.ofDense [Zero R] [DecidableEq R] (rows cols : Nat) (f : Nat → Nat → R) : Sp R where
  rows := rows
  cols := cols
  ents := (List.range cols).flatMap fun j =>
    (List.range rows).filterMap fun i => if f i j = 0 then none else some (i, j, f i j)

/-- `A[sel, :]` for an index array `sel` (row `k` of the result is row `sel[k]`). -/
def Sp.selectRows (A : Sp R) (sel : List Nat) : Sp R where
  rows := sel.length
  cols := A.cols
  ents := (List.range sel.length).flatMap fun k =>
    (A.ents.filter fun e => decide (sel[k]? = some e.1)).map fun e => (k, e.2.1, e.2.2)

/-- Compressed sparse row storage. -/
structure Csr (R : Type) where
  indptr : List Nat
  indices : List Nat
  data : List R

/-- Entries of row `i`. -/
def Sp.row (A : Sp R) (i : Nat) : List (Nat × Nat × R) := A.ents.filter fun e => decide (e.1 = i)

/-- `.tocsr()`. -/
def Sp.toCsr (A : Sp R) : Csr R where
  indptr := (List.range (A.rows + 1)).map fun i =>
    ((List.range i).map fun k => (A.row k).length).sum
  indices := ((List.range A.rows).flatMap A.row).map fun e => e.2.1
  data := ((List.range A.rows).flatMap A.row).map fun e => e.2.2

/-- Assignment `out[i] = v`; `none` if outside the array. -/
def store (out : List R) (i : Nat) (v : R) : Option (List R) :=
  if i < out.length then some (out.set i v) else none

/-- The loops emitted by `write_canonicalize`, `utils.py:279-294`: `m` is `canon_<p>_map`, `params`
is `cpg_params_vec`, `out` the storage of the canonical parameter (for `d`, a scalar, an array of
length one). `none`: access outside an array. -/
def canonicalizeC [Zero R] [Add R] [Mul R] (rows : Nat) (m : Csr R) (params out : List R) :
    Option (List R) :=
  (List.range rows).foldlM (init := out) fun out i => do
    let out ← store out i 0
    let lo ← m.indptr[i]?
    let hi ← m.indptr[i + 1]?
    (List.range' lo (hi - lo)).foldlM (init := out) fun out j => do
      let x ← m.data[j]?
      let c ← m.indices[j]?
      let v ← params[c]?
      let o ← out[i]?
      store out i (o + x * v)

end Verif.Model
