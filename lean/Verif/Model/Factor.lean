/-!
Model of the sparse factor kept by the generated gradient code: the compressed
column arrays `L->p`, `L->i`, `L->x`, `L->nnz` and the fill-in mask `Lmask`.

Source: /repo/cvxpygen/templates/cpg_osqp_grad_compute.c.jinja2 and
/repo/cvxpygen/utils.py `write_L_def`.
C arrays are modelled as functions on indices; a loop is modelled as a recursion
over its trip count that performs the same writes in the same order.
-/

namespace Verif.Model.Factor

/-- Writing one cell of an array. -/
def upd {α : Type} (a : Nat → α) (k : Nat) (v : α) : Nat → α :=
  fun j => if j = k then v else a j

/-- `cpg_grad_csc` (templates/cpg_osqp_grad_compute.c.jinja2:15, fields `p`, `i`,
`x`, `nnz`); `N` is the constant of line 10. -/
structure CscL (R : Type) where
  p : Nat → Nat
  i : Nat → Nat
  x : Nat → R
  nnz : Nat

/-- The binary search of templates/cpg_osqp_grad_compute.c.jinja2:22-33 (and
62-74): `inl mid` when the row is found at `mid`, `inr pos` with the insertion
position otherwise.  `insert_pos` equals `end` at every loop head, as in the
code (20, 30-31). -/
def bsearch (i : Nat → Nat) (row start stop : Nat) : Nat ⊕ Nat :=
  if start < stop then
    let mid := start + (stop - start) / 2
    if i mid = row then .inl mid
    else if i mid < row then bsearch i row (mid + 1) stop
    else bsearch i row start mid
  else .inr stop
termination_by stop - start
decreasing_by all_goals omega

/-- The loop `for (p = nnz - 1; p > insert_pos; p--) a[p] = a[p - 1]`
(templates/cpg_osqp_grad_compute.c.jinja2:39-42); `k` is the trip count, so the
first write goes to `pos + k`. -/
def shiftUp {α : Type} (pos : Nat) : Nat → (Nat → α) → (Nat → α)
  | 0, a => a
  | k + 1, a => shiftUp pos k (upd a (pos + k + 1) (a (pos + k)))

/-- The loop `for (p = remove_pos; p < nnz - 1; p++) a[p] = a[p + 1]`
(templates/cpg_osqp_grad_compute.c.jinja2:116-119); `k` is the trip count. -/
def shiftDown {α : Type} : Nat → Nat → (Nat → α) → (Nat → α)
  | _, 0, a => a
  | pos, k + 1, a => shiftDown (pos + 1) k (upd a pos (a (pos + 1)))

/-- The loop `for (j = col + 1; j <= N; j++) L->p[j]++` or `--`
(templates/cpg_osqp_grad_compute.c.jinja2:49-51, 125-127), `k` iterations from
`j`. -/
def bump (f : Nat → Nat) : Nat → Nat → (Nat → Nat) → (Nat → Nat)
  | _, 0, p => p
  | j, k + 1, p => bump f (j + 1) k (upd p j (f (p j)))

/-- Lines 36-51: make room at `pos` and store `(row, v)` there, in column `col`. -/
def insertAt {R : Type} (N : Nat) (M : CscL R) (row col pos : Nat) (v : R) : CscL R :=
  let nnz := M.nnz + 1
  let i' := shiftUp pos (nnz - 1 - pos) M.i
  let x' := shiftUp pos (nnz - 1 - pos) M.x
  { nnz := nnz
    i := upd i' pos row
    x := upd x' pos v
    p := bump (· + 1) (col + 1) (N - col) M.p }

/-- `insert_nonzero` (templates/cpg_osqp_grad_compute.c.jinja2:15-52). -/
def insertNonzero {R : Type} [Zero R] (N : Nat) (M : CscL R) (row col : Nat) : CscL R :=
  if row < col then M
  else
    match bsearch M.i row (M.p col) (M.p (col + 1)) with
    | .inl _ => M
    | .inr pos => insertAt N M row col pos 0

/-- `insert_nonzero_and_value` (templates/cpg_osqp_grad_compute.c.jinja2:55-93). -/
def insertNonzeroAndValue {R : Type} (N : Nat) (M : CscL R) (row col : Nat) (v : R) : CscL R :=
  if row < col then M
  else
    match bsearch M.i row (M.p col) (M.p (col + 1)) with
    | .inl mid => { M with x := upd M.x mid v }
    | .inr pos => insertAt N M row col pos v

/-- The linear search of templates/cpg_osqp_grad_compute.c.jinja2:100-113, `k`
iterations from position `q`; `big x` is the test `fabs(x) > 1e-6`. -/
def findRemovable {R : Type} (big : R → Bool) (M : CscL R) (row : Nat) : Nat → Nat → Option Nat
  | _, 0 => none
  | q, k + 1 =>
    if M.i q = row then
      if big (M.x q) then none else some q
    else findRemovable big M row (q + 1) k

/-- `remove_nonzero` (templates/cpg_osqp_grad_compute.c.jinja2:96-128). -/
def removeNonzero {R : Type} (big : R → Bool) (N : Nat) (M : CscL R) (row col : Nat) : CscL R :=
  if row < col then M
  else
    match findRemovable big M row (M.p col) (M.p (col + 1) - M.p col) with
    | none => M
    | some q =>
      { i := shiftDown q (M.nnz - 1 - q) M.i
        x := shiftDown q (M.nnz - 1 - q) M.x
        nnz := M.nnz - 1
        p := bump (· - 1) (col + 1) (N - col) M.p }

/-- The linear index of the fill-in mask, `(2*N-3-col)*col/2+row-1`
(templates/cpg_osqp_grad_compute.c.jinja2:136; writer.py:253), in C integer
arithmetic (division truncates towards zero). -/
def maskIndex (N row col : Int) : Int :=
  ((2 * N - 3 - col) * col).tdiv 2 + row - 1

/-- Size of `Lmask`: `np.zeros((N-1)*N//2, dtype=int)` (writer.py:383). -/
def maskSize (N : Nat) : Nat := (N - 1) * N / 2

/-- State touched by `symbolic_ldl_update`: the factor and the mask. -/
structure MaskedL (R : Type) where
  L : CscL R
  mask : Int → Bool

/-- Body of the inner loop of `symbolic_ldl_update`
(templates/cpg_osqp_grad_compute.c.jinja2:135-140). -/
def symStep {R : Type} [Zero R] (N : Nat) (S : MaskedL R) (row col : Nat) : MaskedL R :=
  let ind := maskIndex N row col
  if S.mask ind then S
  else { L := insertNonzero N S.L row col, mask := fun k => if k = ind then true else S.mask k }

/-- The inner loop of `symbolic_ldl_update` over the remaining indices. -/
def symInner {R : Type} [Zero R] (N offset k : Nat) (S : MaskedL R) (rows : List Nat) : MaskedL R :=
  rows.foldl (fun S r => symStep N S (r + offset) (k + offset)) S

/-- `symbolic_ldl_update` (templates/cpg_osqp_grad_compute.c.jinja2:131-143);
`w` is `w_indices[0..w_size)`. -/
def symbolicUpdate {R : Type} [Zero R] (N offset : Nat) : List Nat → MaskedL R → MaskedL R
  | [], S => S
  | k :: rest, S => symbolicUpdate N offset rest (symInner N offset k S rest)

/-- `write_L_def` (utils.py:134-151): the column pointers of the storage that is
reserved for the factor; `indptr[i+1] = indptr[i] + (N - i - 1)`. -/
def reservedPtr (N : Nat) : Nat → Nat
  | 0 => 0
  | k + 1 => reservedPtr N k + (N - k - 1)

/-- Number of entries reserved for `L->i` and `L->x` (utils.py:134-151). -/
def reserved (N : Nat) : Nat := reservedPtr N N

end Verif.Model.Factor
