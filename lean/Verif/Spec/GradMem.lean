import Verif.Model.GradMem
/-!
Sizes of arrays and stored patterns, independently of the code that accesses them.
-/
namespace Verif.Spec.GradMem
open Verif.Model.GradMem
open Verif.Model.Factor (reserved maskSize)

variable {R : Type}

/-- An entry of an index array. -/
def ix (v : List Nat) (k : Nat) : Nat := v.getD k 0

/-- Index `r` is stored in line `c` of a compressed matrix. -/
def Has (p i : List Nat) (r c : Nat) : Prop := ∃ k, ix p c ≤ k ∧ k < ix p (c + 1) ∧ ix i k = r

/-- A compressed matrix with `lines` lines and indices below `bound`. -/
structure Lines (lines bound : Nat) (p i : List Nat) : Prop where
  len : p.length = lines + 1
  mono : ∀ c < lines, ix p c ≤ ix p (c + 1)
  last : ix p lines ≤ i.length
  below : ∀ k < i.length, ix i k < bound

/-- What a symbolic factorization of a matrix (upper triangle stored by columns) returns: a strictly lower triangular pattern with
sorted columns that contains the pattern of the matrix and is closed under elimination. -/
structure Symbolic (N : Nat) (pK iK pL iL : List Nat) : Prop where
  lines : Lines N N pL iL
  zero : ix pL 0 = 0
  last : ix pL N = iL.length
  lower : ∀ c < N, ∀ k, ix pL c ≤ k → k < ix pL (c + 1) → c < ix iL k
  sorted : ∀ c < N, ∀ k, ix pL c ≤ k → k + 1 < ix pL (c + 1) → ix iL k < ix iL (k + 1)
  covers : ∀ r c, r < c → c < N → Has pK iK r c → Has pL iL c r
  closed : ∀ j r s, j < N → r < s → Has pL iL r j → Has pL iL s j → Has pL iL s r

/-- The patterns of the matrices of a problem: `K`, `K_true`, `P`, `A` and the factor. -/
structure Patterns where
  (pK iK pKt iKt pP iP pA iA pL iL : List Nat)

/-- The patterns fit a problem with `n` variables and `N - n` constraints; the columns of `K` that belong to constraints are not
empty. -/
structure Problem (n N : Nat) (d : Patterns) : Prop where
  nN : n ≤ N
  K : Lines N N d.pK d.iK
  diag : ∀ c, n ≤ c → c < N → ix d.pK c < ix d.pK (c + 1)
  Kt : Lines N N d.pKt d.iKt
  P : Lines n n d.pP d.iP
  A : Lines n (N - n) d.pA d.iA
  sym : Symbolic N d.pK d.iK d.pL d.iL

/-- A matrix with a given pattern. -/
structure HasPat (ps is : List Nat) (M : Csc R) : Prop where
  p : M.p = ps
  i : M.i = is
  x : M.x.length = is.length

/-- The contract of QDLDL: the pattern of the factor depends on the pattern of the matrix only, and solving keeps the length. -/
structure QdldlOK (N : Nat) (d : Patterns) (Q : Qdldl R) : Prop where
  p : ∀ K : Csc R, HasPat d.pK d.iK K → (Q.factor K).p = d.pL
  i : ∀ K : Csc R, HasPat d.pK d.iK K → (Q.factor K).i = d.iL
  x : ∀ K : Csc R, HasPat d.pK d.iK K → (Q.factor K).x.length = d.iL.length
  D : ∀ K : Csc R, HasPat d.pK d.iK K → (Q.factor K).D.length = N
  Dinv : ∀ K : Csc R, HasPat d.pK d.iK K → (Q.factor K).Dinv.length = N
  solve : ∀ L D x, (Q.solve L D x).length = x.length

/-- A map has the rows it is used with, and its columns are entries of `cpg_dp`. -/
structure BlockOK (rows NP : Nat) (b : Block R) : Prop where
  rows : b.rows ≤ rows
  lines : Lines b.rows NP b.map.p b.map.i
  x : b.map.x.length = b.map.i.length

/-- The maps of the canonical parameters that change. -/
structure MapsOK (n N NP : Nat) (d : Patterns) (M : Maps R) : Prop where
  q : M.q.changes = true → BlockOK n NP M.q
  l : M.l.changes = true → BlockOK (N - n) NP M.l
  u : M.u.changes = true → BlockOK (N - n) NP M.u
  P : M.P.changes = true → BlockOK d.iP.length NP M.P
  A : M.A.changes = true → BlockOK d.iA.length NP M.A

/-- A call with data of the sizes and patterns of the problem, and values that are arbitrary. -/
def OpOK (n N : Nat) (d : Patterns) : Op R → Prop
  | .delta k _ => k < n
  | .grad c => HasPat d.pP d.iP c.P ∧ HasPat d.pA d.iA c.A ∧ c.x.length = n ∧ c.y.length = N - n

/-- A call that does not refresh the KKT matrices: `P` and `A` are constant or have not been updated. -/
def Unrefreshed : Op R → Prop
  | .delta _ _ => True
  | .grad c => c.outP = false ∧ c.outA = false

/-- The patterns of a generated problem: those of the canonical `P` and `A`, of the KKT matrices that the generator assembles from
them, and of a factor. -/
def patternsOf (F : Flops R) (n N : Nat) (P A : Csc R) (pL iL : List Nat) : Patterns :=
  { pK := (kInit F n N P A).p, iK := (kInit F n N P A).i, pKt := (ktInit F n N P A).p, iKt := (ktInit F n N P A).i
    pP := P.p, iP := P.i, pA := A.p, iA := A.i, pL := pL, iL := iL }

/-- Arithmetic in which sums, differences and multiples of zeros are zero: floating-point arithmetic as long as no operation yields
infinity or NaN. -/
structure Finite (F : Flops R) : Prop where
  zero : F.isZero F.zero = true
  mul : ∀ a b, F.isZero b = true → F.isZero (F.mul a b) = true
  add : ∀ a b, F.isZero a = true → F.isZero b = true → F.isZero (F.add a b) = true
  sub : ∀ a b, F.isZero a = true → F.isZero b = true → F.isZero (F.sub a b) = true

/-- The run makes no access outside an array. -/
def InBounds {σ : Type} (m : Mem σ) : Prop := ∃ s, m = .ok s

/-- The sizes of the workspace (apart from the factor's pattern). -/
structure Sizes (n N NP : Nat) (d : Patterns) (s : St R) : Prop where
  a : s.a.length = N - n
  Lp : s.L.p.length = N + 1
  Li : s.L.i.length = reserved N
  Lx : s.L.x.length = reserved N
  mask : s.mask.length = maskSize N
  D : s.D.length = N
  Dinv : s.Dinv.length = N
  K : HasPat d.pK d.iK s.K
  Kt : HasPat d.pKt d.iKt s.Kt
  rhs : s.rhs.length = N
  delta : s.delta.length = N
  c : s.c.length = N
  w : s.w.length = N
  wi : s.wi.length = N
  l : s.l.length = N
  li : s.li.length = N
  lx : s.lx.length = N
  dx : s.dx.length = n
  r : s.r.length = N
  dq : s.dq.length = n
  dl : s.dl.length = N - n
  du : s.du.length = N - n
  dP : HasPat d.pP d.iP s.dP
  dA : HasPat d.pA d.iA s.dA
  dp : s.dp.length = NP

end Verif.Spec.GradMem
