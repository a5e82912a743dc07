import Verif.Model.Uncanon
import Mathlib.Algebra.Field.Defs
import Mathlib.Algebra.BigOperators.Group.Finset.Basic
import Mathlib.Order.Lattice
import Mathlib.Order.Defs.LinearOrder
/-!
Model of explicit mode.

Sources: /repo/cvxpygen/solvers/pdaqp.py:76-304, /repo/cvxpygen/utils.py:904-924 (clamping), 950-975
(retrieval), 1018-1027 (theta), 1217-1229, 1285-1310 (C++ module), 1580-1584 (saving of duals),
/repo/cvxpygen/writer.py:418-516 (explicit gradient).

The explicit solver PDAQP itself is not part of the repository; its solution enters as a function.
NumPy vectors are lists; the columns of a NumPy matrix are a list of index functions.
-/
namespace Verif.Model.Explicit
variable {R : Type}

/-! ### bounds of the user parameters -/

/-- One side of a constraint: a parameter (column of its first entry in the parameter vector, size), a
constant with its entries, or another expression (pdaqp.py:279-289). -/
inductive Side (R : Type) where
  | param (col size : Nat)
  | const (v : Nat → R)
  | other

/-- A constraint of the problem, as far as `_get_parameter_delta_bounds` looks at it; `isEq`: it is an
equality constraint (the code does not look at this). -/
structure PCon (R : Type) where
  hasVars : Bool
  hasParams : Bool
  isEq : Bool
  lhs : Side R
  rhs : Side R

structure Bounds (R : Type) where
  lower : Nat → R
  upper : Nat → R

/-- Assignment to the slice `[col : col + size]`. -/
def setSlice (col size : Nat) (v f : Nat → R) (k : Nat) : R :=
  if col ≤ k ∧ k < col + size then v (k - col) else f k

/-- Body of the loop pdaqp.py:274-289; the error stands for the `ValueError` of line 289. -/
def boundStep (b : Bounds R) (c : PCon R) : Except Unit (Bounds R) :=
  if c.hasVars = false ∧ c.hasParams = true then
    match c.lhs, c.rhs with
    | .param col size, .const v => .ok { b with upper := setSlice col size v b.upper }
    | .const v, .param col size => .ok { b with lower := setSlice col size v b.lower }
    | _, _ => .error ()
  else .ok b

/-- pdaqp.py:270-289; `big` is `1e30`, `NP` the length of the parameter vector. -/
def paramBounds [Neg R] [One R] (NP : Nat) (big : R) (cons : List (PCon R)) : Except Unit (Bounds R) :=
  cons.foldlM boundStep
    { lower := fun k => if k + 1 = NP then 1 else -big, upper := fun k => if k + 1 = NP then 1 else big }

/-- pdaqp.py:300-304: bounds of `theta = C p`, row `i` (`C` stacks the maps of `q` and `u`). -/
def thetaBound [AddCommMonoid R] [Mul R] [Min R] [Max R] (NP : Nat) (C : Nat → Nat → R) (b : Bounds R) (i : Nat) :
    R × R :=
  let lo := ∑ c ∈ Finset.range NP, C i c * b.lower c
  let up := ∑ c ∈ Finset.range NP, C i c * b.upper c
  (min lo up, max lo up)

/-- `cpg_update_<name>(idx, val)` in explicit mode, `k = idx + base_col` (utils.py:919-924, 909-915). -/
def clamp [LT R] [DecidableRel (fun x y : R => x < y)] (b : Bounds R) (k : Nat) (val : R) : R :=
  let val := if val < b.lower k then b.lower k else val
  if b.upper k < val then b.upper k else val

def clampUpdate [LT R] [DecidableRel (fun x y : R => x < y)] (b : Bounds R) (p : Nat → R) (k : Nat) (val : R) :
    Nat → R :=
  fun j => if j = k then clamp b k val else p j

def clampRun [LT R] [DecidableRel (fun x y : R => x < y)] (b : Bounds R) (p : Nat → R) (us : List (Nat × R)) :
    Nat → R :=
  us.foldl (fun p u => clampUpdate b p u.1 u.2) p

/-! ### NumPy selection -/

/-- `xs[mask]`. -/
def sel {α : Type} : List Bool → List α → List α
  | true :: ms, x :: xs => x :: sel ms xs
  | false :: ms, _ :: xs => sel ms xs
  | _, _ => []

/-- `res = mask.copy(); res[mask] = vals`. -/
def putMask : List Bool → List Bool → List Bool
  | [], _ => []
  | false :: ms, vs => false :: putMask ms vs
  | true :: ms, v :: vs => v :: putMask ms vs
  | true :: ms, [] => true :: putMask ms []

/-- `(cols @ th)[r]`. -/
def colDot [AddCommMonoid R] [Mul R] (cols : List (Nat → R)) (th : List R) (r : Nat) : R :=
  (List.zipWith (fun c t => c r * t) cols th).sum

/-! ### the multiparametric QP -/

/-- Data of `minimize ½ xᵀHx + (f + F th)ᵀx subject to A x ≤ b + B th`. -/
structure Mpqp (R : Type) where
  f : Nat → R
  F : List (Nat → R)
  b : Nat → R
  B : List (Nat → R)
  rows : List Nat
  thMask : List Bool

/-- pdaqp.py:106: `np.any(A != 0, axis=1)`. -/
def rowMask [Zero R] [DecidableEq R] (m n : Nat) (A : Nat → Nat → R) : List Bool :=
  (List.range m).map fun r => (List.range n).any fun c => decide (A r c ≠ 0)

/-- pdaqp.py:99-129. `rows`: the rows of `A` that are kept; the entry at position `r` of `b` belongs to
row `rows[r]`. -/
def reduceMpqp [Semiring R] [DecidableEq R] (n m : Nat) (A : Nat → Nat → R) (thmin thmax : List R) : Mpqp R :=
  let F0 : List (Nat → R) := (List.range (n + m)).map fun i r => if r < n ∧ r = i then 1 else 0
  let rows := sel (rowMask m n A) (List.range m)
  let B0 : List (Nat → R) := (List.range (n + m)).map fun i r => if n + rows.getD r 0 = i ∧ r < rows.length then 1 else 0
  let mask := List.zipWith (fun a b => decide (a ≠ b)) thmin thmax
  let nmask := mask.map (!·)
  let f := fun r => (0 : R) + colDot (sel nmask F0) (sel nmask thmin) r
  let b := fun r => (0 : R) + colDot (sel nmask B0) (sel nmask thmin) r
  let F1 := sel mask F0
  let B1 := sel mask B0
  let mask2 := List.zipWith (fun c d => (List.range n).any (fun r => decide (c r ≠ 0)) ||
    (List.range rows.length).any (fun r => decide (d r ≠ 0))) F1 B1
  { f := f, F := sel mask2 F1, b := b, B := sel mask2 B1, rows := rows, thMask := putMask mask mask2 }

/-- The update of `cpg_theta` in `cpg_solve` (utils.py:1018-1027): entry `i < n` of the mask refers to
`q[i]`, the others to `u[i - n]`. -/
def thetaUpdate (n m : Nat) (mask : List Bool) (q u : Nat → R) : List R :=
  (sel mask (List.range (n + m))).map fun i => if i < n then q i else u (i - n)

/-- pdaqp.py:132-133. -/
def eqInds (eqM : Nat) (aMask : List Bool) : List Nat := sel (aMask.take eqM) (List.range eqM)

/-! ### stored variables -/

/-- What the rest of the code uses of `prim_variable_info` (pdaqp.py:163-187): offset in the explicit
solution, and the list of indices (−1: not stored). -/
structure VarInfo where
  offset : Nat
  indices : List Int
deriving DecidableEq

structure StoreSt where
  shift : Nat
  outInds : List Nat
  info : List (String × VarInfo)

/-- `dict[name] = v`. -/
def dictPut {α : Type} (d : List (String × α)) (k : String) (v : α) : List (String × α) :=
  (k, v) :: d.filter (fun e => e.1 ≠ k)

/-- `np.full(size, -1)` then `[inds] = np.arange(len(inds))`. -/
def placeInds (size : Nat) (inds : List Nat) : List Int :=
  (List.range size).map fun i =>
    match (inds.zipIdx.filter (fun e => e.1 = i)).getLast? with
    | some e => (e.2 : Int)
    | none => -1

/-- Body of the loop pdaqp.py:167-186; `off0` is `name_to_offset`, of which entries are overwritten by
the loop itself, `size` is `name_to_size`. An empty list of indices means all (line 171). -/
def storeStep (size : String → Nat) (offs : List (String × Nat)) (s : StoreSt) (req : String × List Nat) :
    List (String × Nat) × StoreSt :=
  match offs.lookup req.1 with
  | none => (offs, s)
  | some offset =>
    let inds := if req.2 = [] then List.range (size req.1) else req.2
    (dictPut offs req.1 s.shift,
     { shift := s.shift + inds.length
       outInds := s.outInds ++ inds.map (offset + ·)
       info := dictPut s.info req.1
         { offset := s.shift
           indices := if inds.length = 1 then [(s.shift : Int)] else placeInds (size req.1) inds } })

def storeVars (size : String → Nat) (offs : List (String × Nat)) (reqs : List (String × List Nat)) :
    List (String × Nat) × StoreSt :=
  reqs.foldl (fun s r => storeStep size s.1 s.2 r) (offs, ⟨0, [], []⟩)

/-- What the Python user gets for entry `i` of a stored variable (`none`: not written), given the
explicit solution `z` (`sol_x`): scalars are copied by `cpg_retrieve_prim` (utils.py:955-957, 1219-1220),
other variables point into `sol_x` at their offset (utils.py:598) and are copied entry by entry
(utils.py:1222-1225). -/
def userPrim (size : Nat) (v : VarInfo) (z : Nat → R) (i : Nat) : Option R :=
  if size = 1 then
    if i = 0 then (v.indices[0]?).map (fun k => z k.toNat) else none
  else
    match v.indices[i]? with
    | some idx => if 0 ≤ idx then some (z (v.offset + idx.toNat)) else none
    | none => none

/-! ### duals -/

/-- One user constraint: number of rows and offset of its rows among the rows of `A`
(canonicalizer.py:197-215); `isParam`: it bounds a parameter (no variables). -/
structure DCon where
  isParam : Bool
  offset : Nat
  size : Nat

/-- `dual_variable_info` after the parameter constraints were removed (pdaqp.py:291-297), in order. -/
def dualInfo (cons : List DCon) : List DCon := cons.filter (fun c => !c.isParam)

/-- The value saved for entry `j` of user constraint number `i` (utils.py:1582-1584,
templates/cpg_solver.py.jinja2:81-85): the dual number `i` of the remaining ones, which points into
`sol_y` at its offset (utils.py:627) or is `sol_y[offset]` for size one (utils.py:969-971). -/
def savedDual (cons : List DCon) (soly : Nat → R) (i j : Nat) : Option R :=
  match (dualInfo cons)[i]? with
  | some c => if j < c.size then some (soly (c.offset + j)) else none
  | none => none

/-! ### gradient -/

/-- Entry `(i, j)` of the affine law number `h` in the table `pdaqp_feedbacks`: `nSol` rows of `K + 1`
entries per law (`PDAQP_N_SOLUTION`, `PDAQP_N_PARAMETER + 1`; writer.py:475, 479). -/
def feedback (K nSol : Nat) (fb : Nat → R) (h i j : Nat) : R := fb (h * (K + 1) * nSol + i * (K + 1) + j)

/-- writer.py:476-481: `dtheta[j]`; the loop over the solution has `nLoop` iterations (writer.py:427:
the sum of the sizes of all variables, stored or not). -/
def dtheta [AddCommMonoid R] [Mul R] (K nSol nLoop : Nat) (fb : Nat → R) (h : Nat) (dx : Nat → R) (j : Nat) : R :=
  ∑ i ∈ Finset.range nLoop, feedback K nSol fb h i j * dx i

/-- One of the loops emitted for row `j` of a map (writer.py:494-498, 502-506). -/
def rowBump [Add R] [Mul R] (m : Csr R) (j : Nat) (t : R) (dp : List R) : Option (List R) := do
  let lo ← m.indptr[j]?
  let hi ← m.indptr[j + 1]?
  (List.range' lo (hi - lo)).foldlM (init := dp) fun dp k => do
    let c ← m.indices[k]?
    let x ← m.data[k]?
    bump dp c (x * t)

/-- What the explicit gradient knows about the canonicalization: `p_id_to_changes` and maps of `q`
and `u`, and `th_mask`. -/
structure ExCanon (R : Type) where
  (n m : Nat)
  (qc uc : Bool)
  (q u : Csr R)
  mask : List Bool

/-- The loop emitted for entry `e.1` of the mask, the selected entry number `e.2` (writer.py:489-507). -/
def exRow [Add R] [Mul R] (E : ExCanon R) (dth : Nat → R) (dp : List R) (e : Nat × Nat) : Option (List R) :=
  if e.1 < E.n then
    if E.qc then rowBump E.q e.1 (dth e.2) dp else some dp
  else
    if E.uc then rowBump E.u (e.1 - E.n) (dth e.2) dp else some dp

/-- writer.py:485-508: `cpg_dp` set to zero, then the rows selected by the mask, in order. -/
def uncanonExplicit [Zero R] [Add R] [Mul R] (NP : Nat) (E : ExCanon R) (dth : Nat → R) (dp : List R) :
    Option (List R) := do
  let dp ← (List.range NP).foldlM (init := dp) fun dp j => store dp j 0
  (sel E.mask (List.range (E.n + E.m))).zipIdx.foldlM (exRow E dth) dp

/-- State of the explicit gradient: `pdaqp_active_region` (`none`: −1), `cpg_dx`, `cpg_dp`. -/
structure ExSt (R : Type) where
  region : Option Nat
  dx : Nat → R
  dp : List R

/-- Calls: a solve that ends in a region (pdaqp.py:254-260), `cpg_dx[k] = val` (writer.py:459-468),
`gradient_cpp` (utils.py:1283-1314) with the region of an earlier solve if `use_sol`. -/
inductive ExOp (R : Type) where
  | solve (region : Nat)
  | setD (k : Nat) (val : R)
  | gradient (useSol : Option Nat)

/-- The tables of the generated code. -/
structure ExTab (R : Type) where
  (K nSol nLoop NP : Nat)
  (fb : Nat → R)
  (hp : Nat → Nat)

/-- One call. A gradient without region reads `pdaqp_hp_list[-1]`, outside of the array. -/
def exStep [CommSemiring R] (T : ExTab R) (E : ExCanon R) (s : ExSt R) : ExOp R → Option (ExSt R)
  | .solve r => some { s with region := some r }
  | .setD k v => some { s with dx := fun i => if i = k then v else s.dx i }
  | .gradient u =>
    let region := match u with
      | some r => some r
      | none => s.region
    match region with
    | none => none
    | some r => do
      let dp ← uncanonExplicit T.NP E (dtheta T.K T.nSol T.nLoop T.fb (T.hp r) s.dx) s.dp
      pure { region := some r, dx := fun i => if i < T.nLoop then 0 else s.dx i, dp := dp }

/-- The initial state: static arrays are zero. -/
def exInit [Zero R] (NP : Nat) : ExSt R := ⟨none, fun _ => 0, List.replicate NP 0⟩

def exRun [CommSemiring R] (T : ExTab R) (E : ExCanon R) (ops : List (ExOp R)) : Option (ExSt R) :=
  ops.foldlM (exStep T E) (exInit T.NP)

end Verif.Model.Explicit
