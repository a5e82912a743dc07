import Verif.Model.Sparse
import Verif.Model.Gradient
/-!
Model of the second half of the generated function `cpg_gradient`: from gradients with respect to the
canonical parameters to gradients with respect to the user parameters.

Source: /repo/cvxpygen/writer.py:270-311. The arrays `dq`, `dl`, `du`, `dP->x`, `dA->x` are index
functions (their lengths are those of the canonical parameters, writer.py:398-402); accesses to the maps
and to `cpg_dp` are bounds-checked (`none`: outside the array).
-/
namespace Verif.Model
variable {R : Type}

/-- `dp[c] += v`. -/
def bump [Add R] (dp : List R) (c : Nat) (v : R) : Option (List R) := do
  let o ← dp[c]?
  store dp c (o + v)

/-- One of the five loops (writer.py:274-303):
`for j<rows: for k in map.p[j]..map.p[j+1]: cpg_dp[map.i[k]] += map.x[k]*d[j]`. -/
def uncanonOne [Add R] [Mul R] (rows : Nat) (m : Csr R) (d : Nat → R) (dp : List R) : Option (List R) :=
  (List.range rows).foldlM (init := dp) fun dp j => do
    let lo ← m.indptr[j]?
    let hi ← m.indptr[j + 1]?
    (List.range' lo (hi - lo)).foldlM (init := dp) fun dp k => do
      let c ← m.indices[k]?
      let x ← m.data[k]?
      bump dp c (x * d j)

/-- What a loop needs to know: whether it is emitted (`p_id_to_changes`), how many rows it visits, the
map and the gradient. -/
structure Block (R : Type) where
  changes : Bool
  rows : Nat
  map : Csr R
  d : Nat → R

/-- `cpg_dp` set to zero (writer.py:271-273), then the loops of `q` (n rows), `l` (n_eq rows), `u` (all
rows), `P` and `A` (stored entries) in this order (writer.py:274-303). -/
def uncanon [Zero R] [Add R] [Mul R] (NP : Nat) (blocks : List (Block R)) (dp : List R) :
    Option (List R) := do
  let dp ← (List.range NP).foldlM (init := dp) fun dp j => store dp j 0
  blocks.foldlM (init := dp) fun dp b => if b.changes then uncanonOne b.rows b.map b.d dp else some dp

/-- The canonical parameters that `cpg_gradient` differentiates with respect to: `p_id_to_changes` and
`canon_<p>_map` of each. -/
structure QpMaps (R : Type) where
  (qc lc uc Pc Ac : Bool)
  (q l u P A : Csr R)

/-- The numbers `n`, `nl`, `nu`, and the numbers of stored entries of `P` and `A` (writer.py:158-160,
292, 298). -/
structure QpDims where
  (n nl nu nnzP nnzA : Nat)

/-- The five loops with their bounds (writer.py:274-303). -/
def gradBlocks (s : QpDims) (M : QpMaps R) (g : Grad.DCanon R) : List (Block R) :=
  [⟨M.qc, s.n, M.q, g.dq⟩, ⟨M.lc, s.nl, M.l, g.dl⟩, ⟨M.uc, s.nu, M.u, g.du⟩,
   ⟨M.Pc, s.nnzP, M.P, g.dP⟩, ⟨M.Ac, s.nnzA, M.A, g.dA⟩]

/-- From canonical gradients to `cpg_dp`. -/
def uncanonicalize [Zero R] [Add R] [Mul R] (NP : Nat) (s : QpDims) (M : QpMaps R) (g : Grad.DCanon R)
    (dp : List R) : Option (List R) :=
  uncanon NP (gradBlocks s M g) dp

/-- Canonicalization of one canonical parameter: the generated code has a function `cpg_canonicalize_<p>`
only if the parameter changes (utils.py:937-944), otherwise the stored value stays as it is. -/
def canonStep [Zero R] [Add R] [Mul R] (changes : Bool) (rows : Nat) (m : Csr R) (params out : List R) :
    Option (List R) :=
  if changes then canonicalizeC rows m params out else some out

end Verif.Model
