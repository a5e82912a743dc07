import Verif.Spec.GradMem
import Verif.Spec.Gradient
import Mathlib.Algebra.BigOperators.Intervals
/-!
What the arrays of the differentiation code (lists with checked accesses) represent: index functions, as in the model of exact
differentiation.
-/
namespace Verif.Spec.GradRef
open Verif.Model.GradMem

variable {R : Type}

/-- Exact arithmetic: the operations of a field; `eps` is `1e-6`, `tol` is `1e-12`. -/
def exact [Field R] [DecidableEq R] [LT R] [DecidableRel (fun x y : R => x < y)] (sqrt : R → R) (eps tol : R) : Flops R where
  zero := 0
  one := 1
  eps := eps
  half := 1 / 2
  add := (· + ·)
  sub := (· - ·)
  mul := (· * ·)
  div := (· / ·)
  neg := (- ·)
  sqrt := sqrt
  isZero := fun a => decide (a = 0)
  low := fun y => decide (y < -tol)
  high := fun y => decide (tol < y)

/-- The content of an array. -/
def arr {α : Type} [Zero α] (v : List α) : Nat → α := fun k => v.getD k 0

/-- The content of the activity flags. -/
def flags (v : List Int) : Nat → Int := fun k => v.getD k 1

/-- The content of the mask. -/
def marks (v : List Bool) : Int → Bool := fun q => if 0 ≤ q then v.getD q.toNat false else false

/-- A compressed matrix all of whose arrays are in use. -/
def csc [Zero R] (M : Csc R) : Verif.Model.Factor.CscL R := { p := arr M.p, i := arr M.i, x := arr M.x, nnz := M.nnz }

/-- The factor: of the arrays with reserved length, the first `nnz` entries are in use. -/
def factor [Zero R] (L : Csc R) : Verif.Model.Factor.CscL R :=
  { p := arr L.p, i := arr (L.i.take L.nnz), x := arr (L.x.take L.nnz), nnz := L.nnz }

/-- The workspace of the factor. -/
def ws [Zero R] (s : St R) : Verif.Model.Factor.Ws R :=
  { S := { L := factor s.L, mask := marks s.mask }, D := arr s.D, Dinv := arr s.Dinv, w := arr s.w, l := arr s.l }

/-- The workspace. -/
def workspace [Zero R] (s : St R) : Verif.Model.Grad.GradWs R :=
  { init := s.init, kkt := ⟨csc s.K, csc s.Kt⟩, W := ws s, a := flags s.a, delta := arr s.delta
    g := { dq := arr s.dq, dl := arr s.dl, du := arr s.du, dP := arr s.dP.x, dA := arr s.dA.x } }

/-- The arrays that a matrix is stored in. -/
def stored (N : Nat) (K : Verif.Model.Factor.CscL R) : Csc R :=
  { p := (List.range (N + 1)).map K.p, i := (List.range (K.p N)).map K.i, x := (List.range (K.p N)).map K.x, nnz := K.nnz }

/-- `QDLDL_factor` as a function of what the arrays represent. -/
def factorOf [Zero R] (N : Nat) (f : Csc R → Fac R) (K : Verif.Model.Factor.CscL R) : Verif.Model.Grad.Fac R :=
  let r := f (stored N K)
  { L := { p := arr r.p, i := arr r.i, x := arr r.x, nnz := r.i.length }, D := arr r.D, Dinv := arr r.Dinv }

/-- `QDLDL_solve` substitutes forwards and backwards with the factor. -/
def SolveOK [Field R] [DecidableEq R] (N : Nat) (solve : Csc R → List R → List R → List R) : Prop :=
  ∀ L D x, x.length = N → (solve L D x).length = N ∧
    ∀ k < N, arr (solve L D x) k = Verif.Model.Grad.qsolve N (factor L) (arr D) (arr x) k

/-- The data of a call. -/
def callOf [Zero R] (c : Call R) (dx : List R) : Verif.Model.Grad.Call R :=
  { f := { P := if c.outP then some (csc c.P) else none, A := if c.outA then some (csc c.A) else none }
    x := arr c.x, y := arr c.y, dx := arr dx }

/-- The calls of `cpg_gradient` in a sequence of calls, each with the incoming gradient that the calls before it have set; `dx` is what
is set at the start. -/
def calls [Zero R] (n : Nat) : List R → List (Op R) → List (Verif.Model.Grad.Call R)
  | _, [] => []
  | dx, .delta k v :: ops => calls n (dx.set k v) ops
  | dx, .grad c :: ops => callOf c dx :: calls n (List.replicate n 0) ops

/-- Entry `c` of the transpose of a map (stored by rows) times a vector; zero if the canonical parameter does not change. -/
def transposed [Field R] (b : Block R) (g : Nat → R) (c : Nat) : R :=
  if b.changes then ∑ j ∈ Finset.range b.rows, ∑ k ∈ Finset.Ico (arr b.map.p j) (arr b.map.p (j + 1)),
    if arr b.map.i k = c then arr b.map.x k * g j else 0
  else 0

/-- The gradient with respect to the user parameters. -/
def userGrad [Field R] (M : Maps R) (g : Verif.Model.Grad.DCanon R) (c : Nat) : R :=
  transposed M.q g.dq c + transposed M.l g.dl c + transposed M.u g.du c + transposed M.P g.dP c + transposed M.A g.dA c

/-- The incoming gradient after a sequence of calls: what has been set since the last call of `cpg_gradient`. -/
def incoming [Zero R] (n : Nat) : List R → List (Op R) → List R
  | dx, [] => dx
  | dx, .delta k v :: ops => incoming n (dx.set k v) ops
  | _, .grad _ :: ops => incoming n (List.replicate n 0) ops

/-- The matrices after a sequence of calls: those of the last call that announced a change. -/
def latest (P A : Csc R) : List (Op R) → Csc R × Csc R
  | [] => (P, A)
  | .delta _ _ :: ops => latest P A ops
  | .grad c :: ops => latest (if c.outP then c.P else P) (if c.outA then c.A else A) ops

/-- The calls keep the problem convex. -/
def Convex [Field R] [LinearOrder R] (n : Nat) (ops : List (Op R)) : Prop :=
  ∀ c, Op.grad c ∈ ops → c.outP = true → Verif.Spec.Grad.Psd n (Verif.Spec.Grad.symUp (Verif.Spec.Factor.ent (csc c.P)))

/-- How entry `j` of a canonical parameter moves when the user parameters move by `th`: row `j` of its map times `th`. -/
def move [Field R] (b : Block R) (th : Nat → R) (j : Nat) : R :=
  if b.changes = true ∧ j < b.rows then ∑ k ∈ Finset.Ico (arr b.map.p j) (arr b.map.p (j + 1)), arr b.map.x k * th (arr b.map.i k) else 0

/-- How the stored values of a matrix move. -/
def moveM [Field R] (M : Csc R) (b : Block R) (th : Nat → R) : Verif.Model.Factor.CscL R :=
  { p := arr M.p, i := arr M.i, x := move b th, nnz := M.nnz }

/-- All entries of a matrix with `n` columns are in use. -/
def Whole (n : Nat) (M : Csc R) : Prop := Verif.Spec.GradMem.ix M.p 0 = 0 ∧ Verif.Spec.GradMem.ix M.p n = M.i.length

/-- A generated solver with gradients: canonical data `P` and `A` that are compressed matrices, the pattern of the factor, a
factorization library that meets its contract, maps of the right sizes. -/
structure Generated [Field R] [DecidableEq R] (F : Flops R) (n N NP : Nat) (P A : Csc R) (pL iL : List Nat) (Q : Qdldl R) (M : Maps R) : Prop where
  nN : n ≤ N
  patP : Verif.Spec.GradMem.Lines n n P.p P.i
  lenP : P.x.length = P.i.length
  patA : Verif.Spec.GradMem.Lines n (N - n) A.p A.i
  lenA : A.x.length = A.i.length
  sym : Verif.Spec.GradMem.Symbolic N (kInit F n N P A).p (kInit F n N P A).i pL iL
  lib : Verif.Spec.GradMem.QdldlOK N (Verif.Spec.GradMem.patternsOf F n N P A pL iL) Q
  solve : SolveOK N Q.solve
  maps : Verif.Spec.GradMem.MapsOK n N NP (Verif.Spec.GradMem.patternsOf F n N P A pL iL) M

/-- The generated workspace. -/
def start (F : Flops R) (n N NP : Nat) (P A : Csc R) : St R := generated F n N NP (kInit F n N P A) (ktInit F n N P A) P A

end Verif.Spec.GradRef
