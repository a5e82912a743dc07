import Verif.Model.GradFactor
/-!
Model of the generated function `cpg_gradient` (differentiation of the QP with OSQP as solver) up to
the gradients with respect to the canonical parameters.

Source: /repo/cvxpygen/templates/cpg_osqp_grad_compute.c.jinja2:326-531 and
/repo/cvxpygen/writer.py:232-269, 354-416 (the emitted body of `cpg_gradient` and its workspace).
Exact arithmetic over a field; `eps` is the constant `1e-6`, `tol` the constant `1e-12`.
-/
namespace Verif.Model.Grad
open Verif.Model.Factor

variable {R : Type} [Field R] [DecidableEq R]

/-! ### refreshing the KKT matrices -/

/-- `for (k_idx = …) if (i[k_idx] == t) { x[k_idx] = v; break; }`
(templates/cpg_osqp_grad_compute.c.jinja2:359-367, 370-375). -/
def setFirst (i : Nat → Nat) (t : Nat) (v : R) : List Nat → (Nat → R) → (Nat → R)
  | [], x => x
  | k :: ks, x => if i k = t then upd x k v else setFirst i t v ks x

/-- The loop above over the compressed line `line` of `M`. -/
def setEntry (M : CscL R) (line t : Nat) (v : R) : CscL R :=
  { M with x := setFirst M.i t v (loop (M.p line) (M.p (line + 1))) M.x }

/-- `K` is stored by columns, `K_true` by rows (writer.py:362-370). -/
structure Kkt (R : Type) where
  K : CscL R
  Kt : CscL R

/-- Body of the double loop of `cpg_P_to_K`
(templates/cpg_osqp_grad_compute.c.jinja2:354-377). -/
def pEntry (eps : R) (P : CscL R) (col : Nat) (s : Kkt R) (idx : Nat) : Kkt R :=
  { K := setEntry s.K col (P.i idx) (if P.i idx = col then P.x idx + eps else P.x idx)
    Kt := setEntry s.Kt (P.i idx) col (P.x idx) }

/-- `cpg_P_to_K` (templates/cpg_osqp_grad_compute.c.jinja2:349-381). -/
def pToK (eps : R) (n : Nat) (P : CscL R) (s : Kkt R) : Kkt R :=
  (loop 0 n).foldl (fun s col => (loop (P.p col) (P.p (col + 1))).foldl (pEntry eps P col) s) s

/-- Body of the double loop of `cpg_A_to_K`
(templates/cpg_osqp_grad_compute.c.jinja2:389-425). -/
def aEntry (n : Nat) (A : CscL R) (col : Nat) (s : Kkt R) (idx : Nat) : Kkt R :=
  { K := setEntry s.K (n + A.i idx) col (A.x idx)
    Kt := setEntry (setEntry s.Kt col (n + A.i idx) (A.x idx)) (n + A.i idx) col (A.x idx) }

/-- `cpg_A_to_K` (templates/cpg_osqp_grad_compute.c.jinja2:383-429). -/
def aToK (n : Nat) (A : CscL R) (s : Kkt R) : Kkt R :=
  (loop 0 n).foldl (fun s col => (loop (A.p col) (A.p (col + 1))).foldl (aEntry n A col) s) s

/-! ### the initial KKT matrices -/

/-- A compressed matrix from its lines (columns for `csc`, rows for `csr`): `N` lines, each a list of
(index, value); there are `N + 1` pointers. -/
def compress (N : Nat) (lines : Nat → List (Nat × R)) : CscL R :=
  { p := fun c => if c ≤ N then ((loop 0 c).flatMap lines).length else 0
    i := fun k => (((loop 0 N).flatMap lines).getD k (0, 0)).1
    x := fun k => (((loop 0 N).flatMap lines).getD k (0, 0)).2
    nnz := ((loop 0 N).flatMap lines).length }

/-- Column `c` of a compressed matrix. -/
def colList (M : CscL R) (c : Nat) : List (Nat × R) :=
  (loop (M.p c) (M.p (c + 1))).map (fun k => (M.i k, M.x k))

/-- Row `r` of a compressed column matrix with `n` columns, in the order of the columns. -/
def rowList (n : Nat) (M : CscL R) (r : Nat) : List (Nat × R) :=
  (loop 0 n).flatMap (fun c => ((colList M c).filter (fun e => decide (e.1 = r))).map (fun e => (c, e.2)))

/-- The value at row `r` of column `c`. -/
def cell (M : CscL R) (r c : Nat) : R :=
  (((colList M c).filter (fun e => decide (e.1 = r))).map (fun e => e.2)).sum

/-- Column `c` of `P + 1e-6 * sp.eye(n)` (writer.py:363). SciPy's sparse addition keeps the nonzero
results only, ordered by row. -/
def plusDiag (eps : R) (n : Nat) (P : CscL R) (c : Nat) : List (Nat × R) :=
  (loop 0 n).filterMap (fun r =>
    let v := cell P r c + (if r = c then eps else 0)
    if v = 0 then none else some (r, v))

/-- `sp.bmat([[P + 1e-6 I, A.T], [None, -1e-6 I]], format='csc')` (writer.py:362-365). -/
def kInit (eps : R) (n N : Nat) (P A : CscL R) : CscL R :=
  compress N (fun c => if c < n then plusDiag eps n P c else rowList n A (c - n) ++ [(c, -eps)])

/-- `sp.bmat([[P, A.T], [A, None]], format='csr')` (writer.py:367-370). -/
def ktInit (n N : Nat) (P A : CscL R) : CscL R :=
  compress N (fun r => if r < n then
      rowList n P r ++ (colList A r).map (fun e => (n + e.1, e.2))
    else rowList n A (r - n))

/-! ### solving with the factor (QDLDL, not part of the repository) -/

/-- `QDLDL_Lsolve`. -/
def lsolve (N : Nat) (L : CscL R) (x : Nat → R) : Nat → R :=
  (loop 0 N).foldl (fun x j => (loop (L.p j) (L.p (j + 1))).foldl
    (fun x k => upd x (L.i k) (x (L.i k) - L.x k * x j)) x) x

/-- `QDLDL_Ltsolve`. -/
def ltsolve (N : Nat) (L : CscL R) (x : Nat → R) : Nat → R :=
  (loop 0 N).reverse.foldl (fun x j => (loop (L.p j) (L.p (j + 1))).foldl
    (fun x k => upd x j (x j - L.x k * x (L.i k))) x) x

/-- `QDLDL_solve`. -/
def qsolve (N : Nat) (L : CscL R) (Dinv : Nat → R) (x : Nat → R) : Nat → R :=
  ltsolve N L ((loop 0 N).foldl (fun x i => upd x i (x i * Dinv i)) (lsolve N L x))

/-! ### the linear system of the gradient -/

/-- Is index `i` of the KKT system an inactive constraint? (`i >= n && a[i - n] == 0`,
templates/cpg_osqp_grad_compute.c.jinja2:474, 480). -/
def inactive (n : Nat) (a : Nat → Int) (i : Nat) : Bool := decide (n ≤ i ∧ a (i - n) = 0)

/-- Lines 470-483: `delta = rhs - K_true @ r`, inactive rows zero and inactive columns skipped. -/
def residual (n N : Nat) (a : Nat → Int) (Kt : CscL R) (rhs r delta : Nat → R) : Nat → R :=
  (loop 0 N).foldl (fun d i =>
    if inactive n a i then upd d i 0
    else (loop (Kt.p i) (Kt.p (i + 1))).foldl (fun d k =>
      if inactive n a (Kt.i k) then d else upd d i (d i - Kt.x k * r (Kt.i k))) d)
    ((loop 0 N).foldl (fun d i => upd d i (rhs i)) delta)

/-- What the refinement loop writes: the iterate `r` and the latest correction `delta`. -/
structure Lin (R : Type) where
  r : Nat → R
  delta : Nat → R

/-- One iteration of refinement (lines 468-489). -/
def refine (n N : Nat) (a : Nat → Int) (W : Ws R) (Kt : CscL R) (rhs : Nat → R) (s : Lin R) : Lin R :=
  let delta := qsolve N W.S.L W.Dinv (residual n N a Kt rhs s.r s.delta)
  { r := (loop 0 N).foldl (fun r i => upd r i (r i + delta i)) s.r, delta := delta }

/-- Lines 457-464: the right-hand side. -/
def rhsOf (n : Nat) (dx : Nat → R) (i : Nat) : R := if i < n then dx i else 0

/-- Lines 456-489: right-hand side, first solve, three iterations of refinement. -/
def linsolve (n N : Nat) (a : Nat → Int) (W : Ws R) (Kt : CscL R) (dx delta : Nat → R) : Lin R :=
  (loop 0 3).foldl (fun s _ => refine n N a W Kt (rhsOf n dx) s)
    { r := qsolve N W.S.L W.Dinv (rhsOf n dx), delta := delta }

/-- Gradients with respect to the canonical parameters; `dP` and `dA` are the value arrays of matrices
with the patterns of `P` and `A` (writer.py:401-402). -/
structure DCanon (R : Type) where
  dq : Nat → R
  dl : Nat → R
  du : Nat → R
  dP : Nat → R
  dA : Nat → R

/-- Lines 491-529; arrays are freshly written at every index that is in use. -/
def fill (n N : Nat) (a : Nat → Int) (P A : CscL R) (x y r : Nat → R) (g : DCanon R) : DCanon R :=
  { dq := (loop 0 n).foldl (fun d i => upd d i (- r i)) g.dq
    dl := (loop 0 (N - n)).foldl (fun d i => upd d i (if a i = -1 then r (n + i) else 0)) g.dl
    du := (loop 0 (N - n)).foldl (fun d i =>
      upd d i (if a i = -1 then 0 else if a i = 1 then r (n + i) else 0)) g.du
    dP := (loop 0 n).foldl (fun d j => (loop (P.p j) (P.p (j + 1))).foldl
      (fun d k => upd d k (-(1 / 2) * (r (P.i k) * x j + x (P.i k) * r j))) d) g.dP
    dA := (loop 0 n).foldl (fun d j => (loop (A.p j) (A.p (j + 1))).foldl
      (fun d k => upd d k (if a (A.i k) = 0 then 0
        else - (r (n + A.i k) * x j + y (A.i k) * r j))) d) g.dA }

/-! ### `cpg_gradient` up to the canonical gradients -/

/-- The gradient workspace (writer.py:375-403); `delta`, `g`: previous contents of result arrays. -/
structure GradWs (R : Type) where
  init : Bool
  kkt : Kkt R
  W : Ws R
  a : Nat → Int
  delta : Nat → R
  g : DCanon R

/-- What `QDLDL_factor` returns (external): the factor in compressed columns, `D` and its inverse. -/
structure Fac (R : Type) where
  L : CscL R
  D : Nat → R
  Dinv : Nat → R

/-- `cpg_ldl_numeric` (templates/cpg_osqp_grad_compute.c.jinja2:337-347). In the code `L->nnz` is set by `cpg_ldl_symbolic` only; `GradMem`
models this and shows that it makes no difference with finite values. -/
def numeric (qdldl : CscL R → Fac R) (K : CscL R) (W : Ws R) : Ws R :=
  { W with S := { W.S with L := (qdldl K).L }, D := (qdldl K).D, Dinv := (qdldl K).Dinv }

/-- The loop writing `Lmask` (writer.py:250-255). -/
def writeMask (N : Nat) (S : MaskedL R) : MaskedL R :=
  { S with mask := (loop 0 (N - 1)).foldl (fun m j => (loop (S.L.p j) (S.L.p (j + 1))).foldl
      (fun m k q => if q = maskIndex N (S.L.i k) j then true else m q) m) S.mask }

/-- Which matrices are refreshed in this call: `some M` if the flag `Canon_Outdated_Grad` of a matrix
that can change is set, with `M` the content of `Canon_Params` (writer.py:240-246). -/
structure Refresh (R : Type) where
  P : Option (CscL R)
  A : Option (CscL R)

/-- Lines 240-246 of writer.py. -/
def refreshKkt (eps : R) (n : Nat) (f : Refresh R) (s : Kkt R) : Kkt R :=
  let s := match f.P with
    | some P => pToK eps n P s
    | none => s
  match f.A with
  | some A => aToK n A s
  | none => s

/-- The emitted code from the refresh to the refactorization (writer.py:240-267). -/
def prologue (qdldl : CscL R → Fac R) (eps : R) (n N : Nat) (f : Refresh R) (s : GradWs R) :
    GradWs R :=
  let s := { s with kkt := refreshKkt eps n f s.kkt }
  if s.init then
    let W := numeric qdldl s.kkt.K s.W
    { s with init := false, W := { W with S := writeMask N W.S } }
  else if f.P.isSome || f.A.isSome then
    { s with
      W := numeric qdldl s.kkt.K s.W
      a := (loop 0 (N - n)).foldl (fun a i => upd a i 1) s.a }
  else s

/-- The generated workspace (writer.py:354-416): `a` is all ones, `init` is set; `W`, `delta`, `g` are
scratch and result arrays whose initial content is arbitrary here. -/
def genState (eps : R) (n N : Nat) (P A : CscL R) (W : Ws R) (delta : Nat → R) (g : DCanon R) : GradWs R :=
  { init := true, kkt := ⟨kInit eps n N P A, ktInit n N P A⟩, W := W, a := fun _ => 1, delta := delta
    g := g }

/-- The inputs of one call: refreshed data, primal and dual solution, incoming gradient. -/
structure Call (R : Type) where
  f : Refresh R
  x : Nat → R
  y : Nat → R
  dx : Nat → R

variable [LT R] [DecidableRel (fun x y : R => x < y)]

/-- One call of `cpg_gradient` up to the canonical gradients, with primal and dual solution `x`, `y`,
incoming gradient `dx` and the current matrices `P`, `A` (patterns of `dP`, `dA`). -/
def gradCall (qdldl : CscL R → Fac R) (sqrt : R → R) (eps tol : R) (n N : Nat) (P A : CscL R)
    (f : Refresh R) (x y dx : Nat → R) (s : GradWs R) : GradWs R :=
  let s := prologue qdldl eps n N f s
  let t := activeUpdate sqrt tol n N s.kkt.K y { W := s.W, a := s.a }
  let l := linsolve n N t.a t.W s.kkt.Kt dx s.delta
  { s with W := t.W, a := t.a, delta := l.delta, g := fill n N t.a P A x y l.r s.g }

/-- A sequence of calls. -/
def runGrad (qdldl : CscL R → Fac R) (sqrt : R → R) (eps tol : R) (n N : Nat) (P A : CscL R)
    (s : GradWs R) (cs : List (Call R)) : GradWs R :=
  cs.foldl (fun s c => gradCall qdldl sqrt eps tol n N P A c.f c.x c.y c.dx s) s

end Verif.Model.Grad
