import Verif.Model.Factor
import Mathlib.Algebra.Field.Defs
/-!
Model of the factor updates of the generated gradient code and of `utils.ldl`.

Source: /repo/cvxpygen/templates/cpg_osqp_grad_compute.c.jinja2 and /repo/cvxpygen/utils.py.
Floating point numbers are modelled by a field `R` (exact arithmetic), `sqrt` is a parameter.
A C loop `for (k = a; k < b; k++)` is a fold over `List.range' a (b - a)`.
-/
namespace Verif.Model.Factor

variable {R : Type} [Field R] [DecidableEq R]

/-- `for (k = a; k < b; k++)`. -/
def loop (a b : Nat) : List Nat := List.range' a (b - a)

/-! ### `utils.ldl` -/

/-- `np.dot(L[i, :j], L[j', :j] * D[:j])` (utils.py:269, 272). -/
def ldlDot (L : Nat → Nat → R) (D : Nat → R) (i i' : Nat) : Nat → R
  | 0 => 0
  | j + 1 => ldlDot L D i i' j + L i j * (L i' j * D j)

/-- Writing one entry of a two-dimensional array. -/
def upd2 (L : Nat → Nat → R) (r c : Nat) (v : R) : Nat → Nat → R :=
  fun i j => if i = r ∧ j = c then v else L i j

/-- The inner loop `for j in range(i)` of `ldl` (utils.py:268-270). -/
def ldlRow (A : Nat → Nat → R) (D : Nat → R) (i : Nat) (L : Nat → Nat → R) : Nat → Nat → R :=
  (loop 0 i).foldl (fun L j => upd2 L i j ((A i j - ldlDot L D i j j) / D j)) L

/-- One iteration of the outer loop of `ldl` (utils.py:267-274). -/
def ldlStep (A : Nat → Nat → R) (s : (Nat → Nat → R) × (Nat → R)) (i : Nat) :
    (Nat → Nat → R) × (Nat → R) :=
  let L := ldlRow A s.2 i s.1
  let D := upd s.2 i (A i i - ldlDot L s.2 i i i)
  (upd2 L i i 1, D)

/-- `ldl` (utils.py:261-276); arrays start as zeros. -/
def ldl (n : Nat) (A : Nat → Nat → R) : (Nat → Nat → R) × (Nat → R) :=
  (loop 0 n).foldl (ldlStep A) (fun _ _ => 0, fun _ => 0)

/-! ### rank-1 update -/

/-- Body of the inner loop of `cpg_rank_1_update`
(templates/cpg_osqp_grad_compute.c.jinja2:171-175); `s` is `sigma * cpg_grad_gamma`. -/
def rank1Entry (i : Nat → Nat) (j : Nat) (s : R) (wx : (Nat → R) × (Nat → R)) (k : Nat) :
    (Nat → R) × (Nat → R) :=
  if j < i k then
    let w := upd wx.1 (i k) (wx.1 (i k) - wx.1 j * wx.2 k)
    (w, upd wx.2 k (wx.2 k + s * w (i k)))
  else wx

/-- What `cpg_rank_1_update` reads and writes. -/
structure R1 (R : Type) where
  a : R
  w : Nat → R
  x : Nat → R
  D : Nat → R
  Dinv : Nat → R

/-- One iteration of the outer loop of `cpg_rank_1_update`
(templates/cpg_osqp_grad_compute.c.jinja2:164-177). -/
def rank1Step (L : CscL R) (sigma : R) (s : R1 R) (j : Nat) : R1 R :=
  let aBar := s.a + sigma * s.w j * s.w j / s.D j
  let gamma := s.w j / (s.D j * aBar)
  let D := upd s.D j (s.D j * (aBar / s.a))
  let wx := (loop (L.p j) (L.p (j + 1))).foldl (rank1Entry L.i j (sigma * gamma)) (s.w, s.x)
  { a := aBar, w := wx.1, x := wx.2, D := D, Dinv := upd s.Dinv j (1 / D j) }

/-- The gradient workspace as far as the factor is concerned (writer.py:375-403). -/
structure Ws (R : Type) where
  S : MaskedL R
  D : Nat → R
  Dinv : Nat → R
  w : Nat → R
  l : Nat → R

/-- `cpg_rank_1_update(sigma, offset)` (templates/cpg_osqp_grad_compute.c.jinja2:157-179). -/
def rank1 (N : Nat) (sigma : R) (offset : Nat) (W : Ws R) : Ws R :=
  let s := (loop offset N).foldl (rank1Step W.S.L sigma)
    { a := 1, w := W.w, x := W.S.L.x, D := W.D, Dinv := W.Dinv }
  { W with S := { W.S with L := { W.S.L with x := s.x } }, D := s.D, Dinv := s.Dinv, w := s.w }

/-! ### deletion -/

/-- The loop of lines 198-206 for one column: scan, stop at the first row `≥ index`, zero it if it is
`index`. -/
def zeroRowCol (i : Nat → Nat) (index : Nat) : List Nat → (Nat → R) → (Nat → R)
  | [], x => x
  | k :: ks, x =>
    if index ≤ i k then (if i k = index then upd x k 0 else x) else zeroRowCol i index ks x

/-- Lines 187-194: `w` receives the scaled column `index` of `L`. -/
def deleteW (sqrt : R → R) (W : Ws R) (index : Nat) : Nat → R :=
  (loop (W.S.L.p index) (W.S.L.p (index + 1))).foldl
    (fun w k => upd w (index + 1 + (W.S.L.i k - index - 1)) (W.S.L.x k * sqrt (- W.D index)))
    (fun _ => 0)

/-- Lines 190-194: the local indices `wi`. -/
def deleteWi (W : Ws R) (index : Nat) : List Nat :=
  (loop (W.S.L.p index) (W.S.L.p (index + 1))).map (fun k => W.S.L.i k - index - 1)

/-- Lines 197-210: zero the `index`-th row and column of `L`. -/
def deleteX (L : CscL R) (index : Nat) : Nat → R :=
  let x := (loop 0 index).foldl
    (fun x j => zeroRowCol L.i index (loop (L.p j) (L.p (j + 1))) x) L.x
  (loop (L.p index) (L.p (index + 1))).foldl (fun x k => upd x k 0) x

/-- `cpg_ldl_delete(index)` (templates/cpg_osqp_grad_compute.c.jinja2:182-222). -/
def ldlDelete (sqrt : R → R) (N index : Nat) (W : Ws R) : Ws R :=
  let w := deleteW sqrt W index
  let wi := deleteWi W index
  let x := deleteX W.S.L index
  let D := upd W.D index (-1)
  let Dinv := upd W.Dinv index (-1)
  let S := symbolicUpdate N (index + 1) wi { W.S with L := { W.S.L with x := x } }
  rank1 N (-1) (index + 1) { W with S := S, D := D, Dinv := Dinv, w := w }

/-! ### addition -/

/-- Lines 232-238: the part of column `index` of `K` above the diagonal. -/
def addC (K : CscL R) (index : Nat) : Nat → R :=
  (loop (K.p index) (K.p (index + 1) - 1)).foldl (fun c k => upd c (K.i k) (K.x k)) (fun _ => 0)

/-- Lines 243-246: one column of the forward substitution. -/
def fwdStep (L : CscL R) (c : Nat → R) (l : Nat → R) (j : Nat) : Nat → R :=
  let l := upd l j (l j + c j)
  (loop (L.p j) (L.p (j + 1))).foldl (fun l k => upd l (L.i k) (l (L.i k) - L.x k * l j)) l

/-- Lines 241-247: `solve L (Dl) = c`; only the first `index` cells of `l` are reset. -/
def addFwd (L : CscL R) (c : Nat → R) (index : Nat) (l : Nat → R) : Nat → R :=
  (loop 0 index).foldl (fwdStep L c) (fun i => if i < index then 0 else l i)

/-- Lines 250-257 and 294-301: the nonzero entries of `l`, divided by a pivot, as pairs
`(li, lx)`. -/
def sparsify (m : Nat) (l : Nat → R) (D : Nat → R) : List (Nat × R) :=
  ((loop 0 m).filter (fun i => decide (l i ≠ 0))).map (fun i => (i, l i / D i))

/-- Lines 274-282: entry `index` of column `j` of `K`; the scan stops at the first row `≥ index`. -/
def scanRow (i : Nat → Nat) (x : Nat → R) (index : Nat) : List Nat → Option R
  | [] => none
  | k :: ks => if index ≤ i k then (if i k = index then some (x k) else none)
               else scanRow i x index ks

/-- Lines 272-283. -/
def addL32init (K : CscL R) (N index : Nat) : Nat → R :=
  (loop (index + 1) N).foldl (fun l j =>
    match scanRow K.i K.x index (loop (K.p j) (K.p (j + 1))) with
    | some v => upd l (j - index - 1) v
    | none => l) (fun _ => 0)

/-- Lines 284-291. -/
def addL32 (L : CscL R) (D : Nat → R) (index : Nat) (ls : List (Nat × R)) (l : Nat → R) : Nat → R :=
  ls.foldl (fun l e => (loop (L.p e.1) (L.p (e.1 + 1))).foldl (fun l k =>
    if index < L.i k then
      upd l (L.i k - index - 1) (l (L.i k - index - 1) - L.x k * e.2 * D e.1)
    else l) l) l

/-- `cpg_ldl_add(index)` (templates/cpg_osqp_grad_compute.c.jinja2:225-324). -/
def ldlAdd (sqrt : R → R) (N : Nat) (K : CscL R) (index : Nat) (W : Ws R) : Ws R :=
  let c := addC K index
  let l := addFwd W.S.L c index W.l
  let ls := sparsify index l W.D
  let Dm := ls.foldl (fun d e => d - e.2 * e.2 * W.D e.1) (K.x (K.p (index + 1) - 1))
  let D := upd W.D index Dm
  let Dinv := upd W.Dinv index (1 / Dm)
  let L := ls.foldl (fun L e => insertNonzeroAndValue N L index e.1 e.2) W.S.L
  let l2 := addL32 L D index ls (addL32init K N index)
  let ls2 := sparsify (N - index - 1) l2 (fun _ => D index)
  let L2 := ls2.foldl (fun L e => insertNonzeroAndValue N L (e.1 + index + 1) index e.2) L
  let w := ls2.foldl (fun w e => upd w (index + 1 + e.1) (e.2 * sqrt (- D index))) (fun _ => 0)
  rank1 N 1 (index + 1) { S := { W.S with L := L2 }, D := D, Dinv := Dinv, w := w, l := l2 }

/-! ### the active set -/

/-- The factor together with the activity flags `a`. -/
structure GradSt (R : Type) where
  W : Ws R
  a : Nat → Int

variable [LT R] [DecidableRel (fun x y : R => x < y)]

/-- One iteration of the loop over constraints in `cpg_osqp_gradient`
(templates/cpg_osqp_grad_compute.c.jinja2:437-454); `tol` is `1e-12`. -/
def activeStep (sqrt : R → R) (tol : R) (n N : Nat) (K : CscL R) (y : Nat → R) (s : GradSt R)
    (i : Nat) : GradSt R :=
  if y i < -tol then
    if s.a i = 0 then { W := ldlAdd sqrt N K (n + i) s.W, a := upd s.a i (-1) } else s
  else if tol < y i then
    if s.a i = 0 then { W := ldlAdd sqrt N K (n + i) s.W, a := upd s.a i 1 } else s
  else
    if s.a i ≠ 0 then { W := ldlDelete sqrt N (n + i) s.W, a := upd s.a i 0 } else s

/-- The loop over constraints in `cpg_osqp_gradient`
(templates/cpg_osqp_grad_compute.c.jinja2:436-454). -/
def activeUpdate (sqrt : R → R) (tol : R) (n N : Nat) (K : CscL R) (y : Nat → R) (s : GradSt R) :
    GradSt R :=
  (loop 0 (N - n)).foldl (activeStep sqrt tol n N K y) s

end Verif.Model.Factor
