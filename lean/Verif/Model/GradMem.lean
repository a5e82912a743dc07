import Verif.Model.Factor
/-!
The generated function `cpg_gradient` (differentiation of a QP with OSQP) with arrays of the sizes they are generated with: every
read and write is checked, and the run ends with the name of the array and the index if an access is outside.

Sources: /repo/cvxpygen/templates/cpg_osqp_grad_compute.c.jinja2, /repo/cvxpygen/writer.py:232-311 (body of `cpg_gradient`), 354-410
(sizes of the workspace). The arithmetic is a parameter (`Flops`), without any laws: the values may be floating-point numbers
including NaN. Not modelled: the inside of QDLDL (`qdldl`, `qsolve`), `remove_nonzero` and `symbolic_ldl_downdate` (never called, line
322), canonicalization in two-stage differentiation (writer.py:234-238).
-/
namespace Verif.Model.GradMem
open Verif.Model.Factor (maskIndex maskSize reserved reservedPtr)

/-- Compressed matrices that the code accesses. -/
inductive Mat where
  | L | K | Kt | P | A | dP | dA | map
deriving DecidableEq, Repr

/-- Arrays that the code accesses. -/
inductive Arr where
  | p (m : Mat) | i (m : Mat) | x (m : Mat)
  | mask | D | Dinv | a | rhs | delta | c | w | wi | l | li | lx | dx | r | dq | dl | du | solx | soly | dp
deriving DecidableEq, Repr

/-- A computation that may access an array outside its bounds. -/
abbrev Mem := Except (Arr × Int)

/-- Reading `v[k]`. -/
def rd {α : Type} (n : Arr) (v : List α) (k : Nat) : Mem α :=
  match v[k]? with
  | some x => .ok x
  | none => .error (n, k)

/-- Writing `v[k] = x`. -/
def wr {α : Type} (n : Arr) (v : List α) (k : Nat) (x : α) : Mem (List α) :=
  if k < v.length then .ok (v.set k x) else .error (n, k)

/-- Reading at an index computed with signed integers. -/
def rdI {α : Type} (n : Arr) (v : List α) (k : Int) : Mem α :=
  if 0 ≤ k then rd n v k.toNat else .error (n, k)

/-- Writing at an index computed with signed integers. -/
def wrI {α : Type} (n : Arr) (v : List α) (k : Int) (x : α) : Mem (List α) :=
  if 0 ≤ k then wr n v k.toNat x else .error (n, k)

/-- `for (k = a; k < b; k++)`. -/
def each {σ : Type} (a b : Nat) (s : σ) (f : σ → Nat → Mem σ) : Mem σ := (List.range' a (b - a)).foldlM f s

/-- The same loop with `break` (second component `true`). -/
def eachBreak {σ : Type} (f : σ → Nat → Mem (σ × Bool)) : List Nat → σ → Mem σ
  | [], s => .ok s
  | k :: ks, s => do
    let t ← f s k
    if t.2 then .ok t.1 else eachBreak f ks t.1

/-- Compressed matrix (`cpg_grad_csc`); `nnz` is used for `L` only. -/
structure Csc (R : Type) where
  p : List Nat
  i : List Nat
  x : List R
  nnz : Nat
deriving DecidableEq

/-- The arithmetic of the C program: operations, constants and the comparisons `x != 0.0` (negated), `y < -1e-12`, `y > 1e-12`. -/
structure Flops (R : Type) where
  zero : R
  one : R
  eps : R
  half : R
  add : R → R → R
  sub : R → R → R
  mul : R → R → R
  div : R → R → R
  neg : R → R
  sqrt : R → R
  isZero : R → Bool
  low : R → Bool
  high : R → Bool

/-- The workspace `CPG_OSQP_Grad` (writer.py:375-403) without the arrays that only QDLDL uses, and `cpg_dp`. -/
structure St (R : Type) where
  init : Bool
  a : List Int
  L : Csc R
  mask : List Bool
  D : List R
  Dinv : List R
  K : Csc R
  Kt : Csc R
  rhs : List R
  delta : List R
  c : List R
  w : List R
  wi : List Nat
  l : List R
  li : List Nat
  lx : List R
  dx : List R
  r : List R
  dq : List R
  dl : List R
  du : List R
  dP : Csc R
  dA : Csc R
  dp : List R

variable {R : Type}

/-! ### editing the factor -/

/-- Binary search (templates/cpg_osqp_grad_compute.c.jinja2:22-33, 62-74); the first argument bounds the number of rounds by the
length of the interval. -/
def bsearch (i : List Nat) (row : Nat) : Nat → Nat → Nat → Mem (Nat ⊕ Nat)
  | 0, _, stop => .ok (.inr stop)
  | f + 1, start, stop =>
    if start < stop then do
      let mid := start + (stop - start) / 2
      let v ← rd (.i .L) i mid
      if v = row then .ok (.inl mid)
      else if v < row then bsearch i row f (mid + 1) stop
      else bsearch i row f start mid
    else .ok (.inr stop)

/-- Lines 36-51: make room at `pos` and store `(row, v)` there, in column `col`. -/
def insertAt (N : Nat) (L : Csc R) (row col pos : Nat) (v : R) : Mem (Csc R) := do
  let nnz := L.nnz + 1
  let L ← (List.range' (pos + 1) (nnz - 1 - pos)).reverse.foldlM (init := L) fun L q => do
    let a ← rd (.i .L) L.i (q - 1)
    let i ← wr (.i .L) L.i q a
    let b ← rd (.x .L) L.x (q - 1)
    let x ← wr (.x .L) L.x q b
    .ok { L with i := i, x := x }
  let i ← wr (.i .L) L.i pos row
  let x ← wr (.x .L) L.x pos v
  let p ← each (col + 1) (N + 1) L.p fun p j => do
    let b ← rd (.p .L) p j
    wr (.p .L) p j (b + 1)
  .ok { p := p, i := i, x := x, nnz := nnz }

/-- Both insertions (templates/cpg_osqp_grad_compute.c.jinja2:15-52, 55-93): `put` is what happens if the position is there. -/
def insertWith (N : Nat) (L : Csc R) (row col : Nat) (v : R) (put : Nat → Mem (Csc R)) : Mem (Csc R) :=
  if row < col then .ok L
  else do
    let lo ← rd (.p .L) L.p col
    let hi ← rd (.p .L) L.p (col + 1)
    match ← bsearch L.i row (hi - lo) lo hi with
    | .inl mid => put mid
    | .inr pos => insertAt N L row col pos v

/-- `insert_nonzero` (templates/cpg_osqp_grad_compute.c.jinja2:15-52). -/
def insertNonzero (F : Flops R) (N : Nat) (L : Csc R) (row col : Nat) : Mem (Csc R) :=
  insertWith N L row col F.zero fun _ => .ok L

/-- `insert_nonzero_and_value` (templates/cpg_osqp_grad_compute.c.jinja2:55-93). -/
def insertValue (N : Nat) (L : Csc R) (row col : Nat) (v : R) : Mem (Csc R) :=
  insertWith N L row col v fun mid => do
    let x ← wr (.x .L) L.x mid v
    .ok { L with x := x }

/-- `symbolic_ldl_update` (templates/cpg_osqp_grad_compute.c.jinja2:131-143). -/
def symbolicUpdate (F : Flops R) (N wsize offset : Nat) (s : St R) : Mem (St R) :=
  each 0 wsize s fun s k => do
    let ck ← rd .wi s.wi k
    each (k + 1) wsize s fun s j => do
      let cj ← rd .wi s.wi j
      let ind := maskIndex N (cj + offset : Nat) (ck + offset : Nat)
      let m ← rdI .mask s.mask ind
      if m then .ok s
      else do
        let mask ← wrI .mask s.mask ind true
        let L ← insertNonzero F N s.L (cj + offset) (ck + offset)
        .ok { s with mask := mask, L := L }

/-- Body of the inner loop of `cpg_rank_1_update` (templates/cpg_osqp_grad_compute.c.jinja2:170-176); `sg` is
`sigma * cpg_grad_gamma`. -/
def rank1Entry (F : Flops R) (j : Nat) (sg : R) (s : St R) (k : Nat) : Mem (St R) := do
  let i ← rd (.i .L) s.L.i k
  if j < i then do
    let wi ← rd .w s.w i
    let wj ← rd .w s.w j
    let x ← rd (.x .L) s.L.x k
    let v := F.sub wi (F.mul wj x)
    let w ← wr .w s.w i v
    let x' ← wr (.x .L) s.L.x k (F.add x (F.mul sg v))
    .ok { s with w := w, L := { s.L with x := x' } }
  else .ok s

/-- Body of the outer loop of `cpg_rank_1_update` (templates/cpg_osqp_grad_compute.c.jinja2:164-177). -/
def rank1Col (F : Flops R) (sigma : R) (t : R × St R) (j : Nat) : Mem (R × St R) := do
  let s := t.2
  let wj ← rd .w s.w j
  let d ← rd .D s.D j
  let aBar := F.add t.1 (F.div (F.mul (F.mul sigma wj) wj) d)
  let gamma := F.div wj (F.mul d aBar)
  let D ← wr .D s.D j (F.mul d (F.div aBar t.1))
  let d' ← rd .D D j
  let Dinv ← wr .Dinv s.Dinv j (F.div F.one d')
  let lo ← rd (.p .L) s.L.p j
  let hi ← rd (.p .L) s.L.p (j + 1)
  let s ← each lo hi { s with D := D, Dinv := Dinv } (rank1Entry F j (F.mul sigma gamma))
  .ok (aBar, s)

/-- `cpg_rank_1_update(sigma, offset)` (templates/cpg_osqp_grad_compute.c.jinja2:157-179). -/
def rank1 (F : Flops R) (N : Nat) (sigma : R) (offset : Nat) (s : St R) : Mem (St R) := do
  let t ← each offset N (F.one, s) (rank1Col F sigma)
  .ok t.2

/-- `for (i = a; i < b; i++) v[i] = x`. -/
def fillWith {α : Type} (n : Arr) (a b : Nat) (x : α) (v : List α) : Mem (List α) := each a b v fun v k => wr n v k x

/-- Lines 191-194: one entry of `w` and `wi`. (A row that is not below the diagonal is reported as an access outside.) -/
def deleteEntry (F : Flops R) (index lo : Nat) (s : St R) (q : Nat) : Mem (St R) := do
  let i ← rd (.i .L) s.L.i (lo + q)
  if i ≤ index then .error (.wi, (i : Int) - index - 1)
  else do
    let wi ← wr .wi s.wi q (i - index - 1)
    let x ← rd (.x .L) s.L.x (lo + q)
    let d ← rd .D s.D index
    let b ← rd .wi wi q
    let w ← wr .w s.w (index + 1 + b) (F.mul x (F.sqrt (F.neg d)))
    .ok { s with wi := wi, w := w }

/-- Lines 198-206 for one column: the first row `≥ index` ends the scan, row `index` is set to zero. -/
def zeroRow (F : Flops R) (index : Nat) (s : St R) (k : Nat) : Mem (St R × Bool) := do
  let i ← rd (.i .L) s.L.i k
  if index ≤ i then
    if i = index then do
      let x ← wr (.x .L) s.L.x k F.zero
      .ok ({ s with L := { s.L with x := x } }, true)
    else .ok (s, true)
  else .ok (s, false)

/-- `cpg_ldl_delete(index)` (templates/cpg_osqp_grad_compute.c.jinja2:182-222). -/
def ldlDelete (F : Flops R) (N index : Nat) (s : St R) : Mem (St R) := do
  let w ← fillWith .w 0 N F.zero s.w
  let s := { s with w := w }
  let lo ← rd (.p .L) s.L.p index
  let hi ← rd (.p .L) s.L.p (index + 1)
  let s ← each 0 (hi - lo) s (deleteEntry F index lo)
  let s ← each 0 index s fun s j => do
    let a ← rd (.p .L) s.L.p j
    let b ← rd (.p .L) s.L.p (j + 1)
    eachBreak (zeroRow F index) (List.range' a (b - a)) s
  let x ← fillWith (.x .L) lo hi F.zero s.L.x
  let D ← wr .D s.D index (F.neg F.one)
  let Dinv ← wr .Dinv s.Dinv index (F.neg F.one)
  let s ← symbolicUpdate F N (hi - lo) (index + 1) { s with L := { s.L with x := x }, D := D, Dinv := Dinv }
  rank1 F N (F.neg F.one) (index + 1) s

/-- Lines 234-238: one entry of `c`. -/
def addC (s : St R) (k : Nat) : Mem (St R) := do
  let i ← rd (.i .K) s.K.i k
  let x ← rd (.x .K) s.K.x k
  let c ← wr .c s.c i x
  .ok { s with c := c }

/-- Line 245. -/
def fwdEntry (F : Flops R) (j : Nat) (s : St R) (k : Nat) : Mem (St R) := do
  let i ← rd (.i .L) s.L.i k
  let x ← rd (.x .L) s.L.x k
  let lj ← rd .l s.l j
  let li ← rd .l s.l i
  let l ← wr .l s.l i (F.sub li (F.mul x lj))
  .ok { s with l := l }

/-- Lines 243-246. -/
def fwdCol (F : Flops R) (s : St R) (j : Nat) : Mem (St R) := do
  let lj ← rd .l s.l j
  let cj ← rd .c s.c j
  let l ← wr .l s.l j (F.add lj cj)
  let lo ← rd (.p .L) s.L.p j
  let hi ← rd (.p .L) s.L.p (j + 1)
  each lo hi { s with l := l } (fwdEntry F j)

/-- Lines 251-256 (pivot `D[i]`) and 295-300 (pivot `D[index]`): a nonzero entry of `l` goes to `lx`, `li`; the first component
is `l_size`. -/
def sparsify (F : Flops R) (pivot : Nat → Nat) (t : Nat × St R) (i : Nat) : Mem (Nat × St R) := do
  let s := t.2
  let v ← rd .l s.l i
  if F.isZero v then .ok t
  else do
    let d ← rd .D s.D (pivot i)
    let lx ← wr .lx s.lx t.1 (F.div v d)
    let li ← wr .li s.li t.1 i
    .ok (t.1 + 1, { s with lx := lx, li := li })

/-- Line 263. -/
def addPivot (F : Flops R) (index : Nat) (s : St R) (k : Nat) : Mem (St R) := do
  let v ← rd .lx s.lx k
  let i ← rd .li s.li k
  let di ← rd .D s.D i
  let d ← rd .D s.D index
  let D ← wr .D s.D index (F.sub d (F.mul (F.mul v v) di))
  .ok { s with D := D }

/-- Line 268 (`pos i = (index, i)`) and line 305 (`pos i = (i + index + 1, index)`). -/
def addRow (N : Nat) (pos : Nat → Nat × Nat) (s : St R) (k : Nat) : Mem (St R) := do
  let i ← rd .li s.li k
  let v ← rd .lx s.lx k
  let L ← insertValue N s.L (pos i).1 (pos i).2 v
  .ok { s with L := L }

/-- Lines 275-281. -/
def addL32init (index j : Nat) (s : St R) (k : Nat) : Mem (St R × Bool) := do
  let i ← rd (.i .K) s.K.i k
  if index ≤ i then
    if i = index then do
      let x ← rd (.x .K) s.K.x k
      let l ← wr .l s.l (j - index - 1) x
      .ok ({ s with l := l }, true)
    else .ok (s, true)
  else .ok (s, false)

/-- Lines 286-289. -/
def addL32entry (F : Flops R) (index r : Nat) (s : St R) (k : Nat) : Mem (St R) := do
  let i ← rd (.i .L) s.L.i k
  if index < i then do
    let x ← rd (.x .L) s.L.x k
    let v ← rd .lx s.lx r
    let b ← rd .li s.li r
    let d ← rd .D s.D b
    let o ← rd .l s.l (i - index - 1)
    let l ← wr .l s.l (i - index - 1) (F.sub o (F.mul (F.mul x v) d))
    .ok { s with l := l }
  else .ok s

/-- Lines 284-291. -/
def addL32 (F : Flops R) (index : Nat) (s : St R) (r : Nat) : Mem (St R) := do
  let b ← rd .li s.li r
  let lo ← rd (.p .L) s.L.p b
  let hi ← rd (.p .L) s.L.p (b + 1)
  each lo hi s (addL32entry F index r)

/-- Lines 313-316. -/
def addW (F : Flops R) (index : Nat) (s : St R) (k : Nat) : Mem (St R) := do
  let b ← rd .li s.li k
  let wi ← wr .wi s.wi k b
  let v ← rd .lx s.lx k
  let d ← rd .D s.D index
  let q ← rd .wi wi k
  let w ← wr .w s.w (index + 1 + q) (F.mul v (F.sqrt (F.neg d)))
  .ok { s with wi := wi, w := w }

/-- Lines 225-257 of `cpg_ldl_add(index)`: column of `K`, forward substitution, nonzero entries. -/
def addUpper (F : Flops R) (N index : Nat) (s : St R) : Mem (Nat × St R) := do
  let c ← fillWith .c 0 N F.zero s.c
  let lo ← rd (.p .K) s.K.p index
  let hi ← rd (.p .K) s.K.p (index + 1)
  let s ← each lo (hi - 1) { s with c := c } addC
  let l ← fillWith .l 0 index F.zero s.l
  let s ← each 0 index { s with l := l } (fwdCol F)
  each 0 index (0, s) (sparsify F id)

/-- Lines 259-269: `D`, `Dinv` and row `index` of `L`. -/
def addMiddle (F : Flops R) (N index size : Nat) (s : St R) : Mem (St R) := do
  let hi ← rd (.p .K) s.K.p (index + 1)
  let d ← rdI (.x .K) s.K.x ((hi : Int) - 1)
  let D ← wr .D s.D index d
  let s ← each 0 size { s with D := D } (addPivot F index)
  let d ← rd .D s.D index
  let Dinv ← wr .Dinv s.Dinv index (F.div F.one d)
  each 0 size { s with Dinv := Dinv } (addRow N fun i => (index, i))

/-- Lines 271-301: the values of column `index` of `L`. -/
def addLower (F : Flops R) (N index size : Nat) (s : St R) : Mem (Nat × St R) := do
  let l ← fillWith .l 0 N F.zero s.l
  let s ← each (index + 1) N { s with l := l } fun s j => do
    let lo ← rd (.p .K) s.K.p j
    let hi ← rd (.p .K) s.K.p (j + 1)
    eachBreak (addL32init index j) (List.range' lo (hi - lo)) s
  let s ← each 0 size s (addL32 F index)
  each 0 (N - index - 1) (0, s) (sparsify F fun _ => index)

/-- `cpg_ldl_add(index)` (templates/cpg_osqp_grad_compute.c.jinja2:225-324). -/
def ldlAdd (F : Flops R) (N index : Nat) (s : St R) : Mem (St R) := do
  let t ← addUpper F N index s
  let s ← addMiddle F N index t.1 t.2
  let t ← addLower F N index t.1 s
  let s ← each 0 t.1 t.2 (addRow N fun i => (i + index + 1, index))
  let w ← fillWith .w 0 N F.zero s.w
  let s ← each 0 t.1 { s with w := w } (addW F index)
  rank1 F N F.one (index + 1) s

/-! ### refreshing the KKT matrices -/

/-- `for (k_idx = M->p[line]; …) if (M->i[k_idx] == t) { M->x[k_idx] = v; break; }`
(templates/cpg_osqp_grad_compute.c.jinja2:359-375, 403-424). -/
def setEntry (m : Mat) (line t : Nat) (v : R) (M : Csc R) : Mem (Csc R) := do
  let lo ← rd (.p m) M.p line
  let hi ← rd (.p m) M.p (line + 1)
  eachBreak (fun M k => do
    let i ← rd (.i m) M.i k
    if i = t then do
      let x ← wr (.x m) M.x k v
      .ok ({ M with x := x }, true)
    else .ok (M, false)) (List.range' lo (hi - lo)) M

/-- `cpg_P_to_K` (templates/cpg_osqp_grad_compute.c.jinja2:349-381). -/
def pToK (F : Flops R) (n : Nat) (P : Csc R) (s : St R) : Mem (St R) :=
  each 0 n s fun s col => do
    let lo ← rd (.p .P) P.p col
    let hi ← rd (.p .P) P.p (col + 1)
    each lo hi s fun s idx => do
      let row ← rd (.i .P) P.i idx
      let v ← rd (.x .P) P.x idx
      let K ← setEntry .K col row (if row = col then F.add v F.eps else v) s.K
      let Kt ← setEntry .Kt row col v s.Kt
      .ok { s with K := K, Kt := Kt }

/-- `cpg_A_to_K` (templates/cpg_osqp_grad_compute.c.jinja2:383-429). -/
def aToK (n : Nat) (A : Csc R) (s : St R) : Mem (St R) :=
  each 0 n s fun s col => do
    let lo ← rd (.p .A) A.p col
    let hi ← rd (.p .A) A.p (col + 1)
    each lo hi s fun s idx => do
      let row ← rd (.i .A) A.i idx
      let v ← rd (.x .A) A.x idx
      let K ← setEntry .K (n + row) col v s.K
      let Kt ← setEntry .Kt col (n + row) v s.Kt
      let Kt ← setEntry .Kt (n + row) col v Kt
      .ok { s with K := K, Kt := Kt }

/-! ### QDLDL -/

/-- What `QDLDL_factor` writes: column pointers, row indices and values of the factor, `D` and `Dinv`. -/
structure Fac (R : Type) where
  p : List Nat
  i : List Nat
  x : List R
  D : List R
  Dinv : List R

/-- `cpg_ldl_numeric` (templates/cpg_osqp_grad_compute.c.jinja2:337-347): QDLDL writes the leading entries of `L->i`, `L->x`;
`L->nnz` is not written. -/
def numeric (qdldl : Csc R → Fac R) (s : St R) : Mem (St R) :=
  let f := qdldl s.K
  if s.L.i.length < f.i.length then .error (.i .L, s.L.i.length)
  else if s.L.x.length < f.x.length then .error (.x .L, s.L.x.length)
  else .ok { s with
    L := { s.L with p := f.p, i := f.i ++ s.L.i.drop f.i.length, x := f.x ++ s.L.x.drop f.x.length }
    D := f.D
    Dinv := f.Dinv }

/-- `cpg_ldl_symbolic` (templates/cpg_osqp_grad_compute.c.jinja2:326-335): the number of entries of the factor. -/
def symbolic (qdldl : Csc R → Fac R) (s : St R) : St R :=
  { s with L := { s.L with nnz := (qdldl s.K).i.length } }

/-- The loop writing `Lmask` (writer.py:250-255). -/
def writeMask (N : Nat) (s : St R) : Mem (St R) :=
  each 0 (N - 1) s fun s j => do
    let lo ← rd (.p .L) s.L.p j
    let hi ← rd (.p .L) s.L.p (j + 1)
    each lo hi s fun s k => do
      let i ← rd (.i .L) s.L.i k
      let mask ← wrI .mask s.mask (maskIndex N i j) true
      .ok { s with mask := mask }

/-! ### `cpg_osqp_gradient` -/

/-- One iteration of the loop over constraints (templates/cpg_osqp_grad_compute.c.jinja2:436-454). -/
def activeStep (F : Flops R) (n N : Nat) (y : List R) (s : St R) (i : Nat) : Mem (St R) := do
  let yi ← rd .soly y i
  let ai ← rd .a s.a i
  if F.low yi then
    if ai = 0 then do
      let s ← ldlAdd F N (n + i) s
      let a ← wr .a s.a i (-1)
      .ok { s with a := a }
    else .ok s
  else if F.high yi then
    if ai = 0 then do
      let s ← ldlAdd F N (n + i) s
      let a ← wr .a s.a i 1
      .ok { s with a := a }
    else .ok s
  else
    if ai ≠ 0 then do
      let s ← ldlDelete F N (n + i) s
      let a ← wr .a s.a i 0
      .ok { s with a := a }
    else .ok s

/-- Is index `i` of the KKT system an inactive constraint (lines 474, 480)? -/
def inactive (n : Nat) (a : List Int) (i : Nat) : Mem Bool :=
  if n ≤ i then do
    let v ← rd .a a (i - n)
    .ok (decide (v = 0))
  else .ok false

/-- Lines 478-482. -/
def residEntry (F : Flops R) (n i : Nat) (s : St R) (k : Nat) : Mem (St R) := do
  let j ← rd (.i .Kt) s.Kt.i k
  if ← inactive n s.a j then .ok s
  else do
    let x ← rd (.x .Kt) s.Kt.x k
    let rj ← rd .r s.r j
    let d ← rd .delta s.delta i
    let delta ← wr .delta s.delta i (F.sub d (F.mul x rj))
    .ok { s with delta := delta }

/-- Lines 473-483. -/
def residRow (F : Flops R) (n : Nat) (s : St R) (i : Nat) : Mem (St R) := do
  if ← inactive n s.a i then do
    let delta ← wr .delta s.delta i F.zero
    .ok { s with delta := delta }
  else do
    let lo ← rd (.p .Kt) s.Kt.p i
    let hi ← rd (.p .Kt) s.Kt.p (i + 1)
    each lo hi s (residEntry F n i)

/-- One iteration of refinement (lines 468-489); `qsolve` is `QDLDL_solve` with the factor. -/
def refine (F : Flops R) (qsolve : Csc R → List R → List R → List R) (n N : Nat) (s : St R) : Mem (St R) := do
  let s ← each 0 N s fun s i => do
    let v ← rd .rhs s.rhs i
    let delta ← wr .delta s.delta i v
    .ok { s with delta := delta }
  let s ← each 0 N s (residRow F n)
  let s := { s with delta := qsolve s.L s.Dinv s.delta }
  each 0 N s fun s i => do
    let a ← rd .r s.r i
    let b ← rd .delta s.delta i
    let r ← wr .r s.r i (F.add a b)
    .ok { s with r := r }

/-- Lines 456-489. -/
def linsolve (F : Flops R) (qsolve : Csc R → List R → List R → List R) (n N : Nat) (s : St R) : Mem (St R) := do
  let s ← each 0 n s fun s i => do
    let v ← rd .dx s.dx i
    let r ← wr .r s.r i v
    let rhs ← wr .rhs s.rhs i v
    .ok { s with r := r, rhs := rhs }
  let s ← each n N s fun s i => do
    let r ← wr .r s.r i F.zero
    let rhs ← wr .rhs s.rhs i F.zero
    .ok { s with r := r, rhs := rhs }
  let s := { s with r := qsolve s.L s.Dinv s.r }
  each 0 3 s fun s _ => refine F qsolve n N s

/-- Lines 497-507. -/
def fillBounds (F : Flops R) (n : Nat) (s : St R) (i : Nat) : Mem (St R) := do
  let ai ← rd .a s.a i
  if ai = -1 then do
    let v ← rd .r s.r (n + i)
    let dl ← wr .dl s.dl i v
    let du ← wr .du s.du i F.zero
    .ok { s with dl := dl, du := du }
  else if ai = 1 then do
    let dl ← wr .dl s.dl i F.zero
    let v ← rd .r s.r (n + i)
    let du ← wr .du s.du i v
    .ok { s with dl := dl, du := du }
  else do
    let dl ← wr .dl s.dl i F.zero
    let du ← wr .du s.du i F.zero
    .ok { s with dl := dl, du := du }

/-- Lines 511-515. -/
def fillP (F : Flops R) (x : List R) (s : St R) (j : Nat) : Mem (St R) := do
  let lo ← rd (.p .dP) s.dP.p j
  let hi ← rd (.p .dP) s.dP.p (j + 1)
  each lo hi s fun s k => do
    let i ← rd (.i .dP) s.dP.i k
    let ri ← rd .r s.r i
    let xj ← rd .solx x j
    let xi ← rd .solx x i
    let rj ← rd .r s.r j
    let v ← wr (.x .dP) s.dP.x k (F.mul (F.neg F.half) (F.add (F.mul ri xj) (F.mul xi rj)))
    .ok { s with dP := { s.dP with x := v } }

/-- Lines 519-528. -/
def fillA (F : Flops R) (n : Nat) (x y : List R) (s : St R) (j : Nat) : Mem (St R) := do
  let lo ← rd (.p .dA) s.dA.p j
  let hi ← rd (.p .dA) s.dA.p (j + 1)
  each lo hi s fun s k => do
    let i ← rd (.i .dA) s.dA.i k
    let ai ← rd .a s.a i
    if ai = 0 then do
      let v ← wr (.x .dA) s.dA.x k F.zero
      .ok { s with dA := { s.dA with x := v } }
    else do
      let ri ← rd .r s.r (n + i)
      let xj ← rd .solx x j
      let yi ← rd .soly y i
      let rj ← rd .r s.r j
      let v ← wr (.x .dA) s.dA.x k (F.neg (F.add (F.mul ri xj) (F.mul yi rj)))
      .ok { s with dA := { s.dA with x := v } }

/-- Lines 491-529. -/
def fill (F : Flops R) (n N : Nat) (x y : List R) (s : St R) : Mem (St R) := do
  let s ← each 0 n s fun s i => do
    let v ← rd .r s.r i
    let dq ← wr .dq s.dq i (F.neg v)
    .ok { s with dq := dq }
  let s ← each 0 (N - n) s (fillBounds F n)
  let s ← each 0 n s (fillP F x)
  each 0 n s (fillA F n x y)

/-! ### `cpg_gradient` -/

/-- What the loops from canonical to user parameters need to know: `p_id_to_changes` and the map of each canonical parameter, and
the number of rows (writer.py:274-303). -/
structure Block (R : Type) where
  changes : Bool
  rows : Nat
  map : Csc R

/-- One of the loops (writer.py:274-303): `cpg_dp[map.i[k]] += map.x[k] * d[j]`. -/
def uncanonOne (F : Flops R) (b : Block R) (n : Arr) (d : List R) (dp : List R) : Mem (List R) :=
  if b.changes then
    each 0 b.rows dp fun dp j => do
      let lo ← rd (.p .map) b.map.p j
      let hi ← rd (.p .map) b.map.p (j + 1)
      each lo hi dp fun dp k => do
        let c ← rd (.i .map) b.map.i k
        let o ← rd .dp dp c
        let x ← rd (.x .map) b.map.x k
        let v ← rd n d j
        wr .dp dp c (F.add o (F.mul x v))
  else .ok dp

/-- The maps of the five canonical parameters. -/
structure Maps (R : Type) where
  (q l u P A : Block R)

/-- Writer.py:270-307: `cpg_dp` from the canonical gradients, then `dx` is reset. -/
def uncanon (F : Flops R) (n NP : Nat) (M : Maps R) (s : St R) : Mem (St R) := do
  let dp ← fillWith .dp 0 NP F.zero s.dp
  let dp ← uncanonOne F M.q .dq s.dq dp
  let dp ← uncanonOne F M.l .dl s.dl dp
  let dp ← uncanonOne F M.u .du s.du dp
  let dp ← uncanonOne F M.P (.x .dP) s.dP.x dp
  let dp ← uncanonOne F M.A (.x .dA) s.dA.x dp
  let dx ← fillWith .dx 0 n F.zero s.dx
  .ok { s with dp := dp, dx := dx }

/-- The inputs of one call of `cpg_gradient`: `Canon_Params.P`, `Canon_Params.A`, whether they can change and are flagged in
`Canon_Outdated_Grad`, and the primal and dual solution. -/
structure Call (R : Type) where
  P : Csc R
  A : Csc R
  outP : Bool
  outA : Bool
  x : List R
  y : List R

/-- Refresh of the part of `K` and `K_true` that holds `P` (writer.py:240-246). -/
def refreshP (F : Flops R) (n : Nat) (c : Call R) (s : St R) : Mem (St R) := if c.outP then pToK F n c.P s else .ok s

/-- Refresh of the part of `K` and `K_true` that holds `A` (writer.py:240-246). -/
def refreshA (n : Nat) (c : Call R) (s : St R) : Mem (St R) := if c.outA then aToK n c.A s else .ok s

/-- From the refresh to the factorization (writer.py:240-267). -/
def prologue (F : Flops R) (qdldl : Csc R → Fac R) (n N : Nat) (c : Call R) (s : St R) : Mem (St R) := do
  let s ← refreshP F n c s
  let s ← refreshA n c s
  if s.init then do
    let s ← numeric qdldl (symbolic qdldl s)
    let s ← writeMask N s
    .ok { s with init := false }
  else if c.outP || c.outA then do
    let s ← numeric qdldl s
    let a ← fillWith .a 0 (N - n) 1 s.a
    .ok { s with a := a }
  else .ok s

/-- External library: factorization and solution with a factor. -/
structure Qdldl (R : Type) where
  factor : Csc R → Fac R
  solve : Csc R → List R → List R → List R

/-- One call of `cpg_gradient` (writer.py:232-311). -/
def gradient (F : Flops R) (Q : Qdldl R) (n N NP : Nat) (M : Maps R) (c : Call R) (s : St R) : Mem (St R) := do
  let s ← prologue F Q.factor n N c s
  let s ← each 0 (N - n) s (activeStep F n N c.y)
  let s ← linsolve F Q.solve n N s
  let s ← fill F n N c.x c.y s
  uncanon F n NP M s

/-- Calls that the gradient interface offers: `cpg_update_d<variable>` (writer.py:222-230; `k` is offset plus index) and
`cpg_gradient`. -/
inductive Op (R : Type) where
  | delta (k : Nat) (v : R)
  | grad (c : Call R)

/-- One call. -/
def step (F : Flops R) (Q : Qdldl R) (n N NP : Nat) (M : Maps R) (s : St R) : Op R → Mem (St R)
  | .delta k v => do
    let dx ← wr .dx s.dx k v
    .ok { s with dx := dx }
  | .grad c => gradient F Q n N NP M c s

/-- A sequence of calls. -/
def run (F : Flops R) (Q : Qdldl R) (n N NP : Nat) (M : Maps R) (s : St R) (ops : List (Op R)) : Mem (St R) :=
  ops.foldlM (step F Q n N NP M) s

/-! ### the initial KKT matrices (generator) -/

/-- A compressed matrix from its lines, each a list of (index, value). -/
def compress (N : Nat) (lines : Nat → List (Nat × R)) : Csc R :=
  let es := (List.range N).flatMap lines
  { p := (List.range (N + 1)).map fun c => ((List.range c).flatMap lines).length
    i := es.map Prod.fst
    x := es.map Prod.snd
    nnz := es.length }

/-- Line `c` of a compressed matrix. -/
def lineOf (F : Flops R) (M : Csc R) (c : Nat) : List (Nat × R) :=
  (List.range' (M.p.getD c 0) (M.p.getD (c + 1) 0 - M.p.getD c 0)).map fun k => (M.i.getD k 0, M.x.getD k F.zero)

/-- Row `r` of a compressed column matrix with `n` columns, in the order of the columns. -/
def rowOf (F : Flops R) (n : Nat) (M : Csc R) (r : Nat) : List (Nat × R) :=
  (List.range n).flatMap fun c => ((lineOf F M c).filter fun e => decide (e.1 = r)).map fun e => (c, e.2)

/-- The value at row `r` of column `c`. -/
def cellOf (F : Flops R) (M : Csc R) (r c : Nat) : R :=
  (((lineOf F M c).filter fun e => decide (e.1 = r)).map Prod.snd).foldl F.add F.zero

/-- Column `c` of `P + 1e-6 * sp.eye(n)` (writer.py:363): SciPy's sparse addition keeps the nonzero results only. -/
def plusDiag (F : Flops R) (n : Nat) (P : Csc R) (c : Nat) : List (Nat × R) :=
  (List.range n).filterMap fun r =>
    let v := if r = c then F.add (cellOf F P r c) F.eps else cellOf F P r c
    if F.isZero v then none else some (r, v)

/-- `sp.bmat([[P + 1e-6 I, A.T], [None, -1e-6 I]], format='csc')` (writer.py:362-365). -/
def kInit (F : Flops R) (n N : Nat) (P A : Csc R) : Csc R :=
  compress N fun c => if c < n then plusDiag F n P c else rowOf F n A (c - n) ++ [(c, F.neg F.eps)]

/-- `sp.bmat([[P, A.T], [A, None]], format='csr')` (writer.py:367-370). -/
def ktInit (F : Flops R) (n N : Nat) (P A : Csc R) : Csc R :=
  compress N fun r => if r < n then rowOf F n P r ++ (lineOf F A r).map fun e => (n + e.1, e.2) else rowOf F n A (r - n)

/-- The generated workspace (writer.py:372-410; utils.py:134-151 for `L`, 677 for `cpg_dp`): sizes as generated; `K` and `K_true`
are given by their arrays. -/
def generated (F : Flops R) (n N NP : Nat) (K Kt P A : Csc R) : St R :=
  { init := true
    a := List.replicate (N - n) 1
    L := { p := (List.range (N + 1)).map (reservedPtr N)
           i := (List.range N).flatMap fun c => List.range' (c + 1) (N - c - 1)
           x := List.replicate (reserved N) F.one
           nnz := reserved N }
    mask := List.replicate (maskSize N) false
    D := List.replicate N F.one
    Dinv := List.replicate N F.one
    K := K
    Kt := Kt
    rhs := List.replicate N F.zero
    delta := List.replicate N F.zero
    c := List.replicate N F.zero
    w := List.replicate N F.zero
    wi := List.range N
    l := List.replicate N F.zero
    li := List.range N
    lx := List.replicate N F.zero
    dx := List.replicate n F.zero
    r := List.replicate N F.zero
    dq := List.replicate n F.zero
    dl := List.replicate (N - n) F.zero
    du := List.replicate (N - n) F.zero
    dP := { P with x := List.replicate P.x.length F.zero }
    dA := { A with x := List.replicate A.x.length F.zero }
    dp := List.replicate NP F.zero }

end Verif.Model.GradMem
