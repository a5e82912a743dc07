import Verif.Model.Rounded
import Verif.Model.GradPipe
import Verif.Model.Explicit
/-!
The generated function `cpg_gradient` in floating point: its second half (from gradients of the canonical parameters to gradients of
the user parameters, as `uncanonicalize`), and in explicit mode the whole function, with rounding.

Sources: /repo/cvxpygen/writer.py:270-303 (the loops), 457-512 (explicit mode), /repo/cvxpygen/utils.py:87-131 (literals of the
maps), 677 (`cpg_dp`). The canonical gradients `dq`, `dl`, `du`, `dP->x`, `dA->x` are inputs: numbers that the first half has
computed.
-/
namespace Verif.Model.Rounded
open Verif.Model Verif.Model.GradPipe Verif.Model.Explicit

/-- `dp[c] += x * d`. -/
def bumpF (A : Arith) (dp : List ℚ) (c : Nat) (x d : ℚ) : Option (List ℚ) := do
  let o ← dp[c]?
  store dp c (A.mac o x d)

/-- One of the five loops (writer.py:274-303), as `uncanonOne`. -/
def uncanonOneF (A : Arith) (rows : Nat) (m : Csr ℚ) (d : Nat → ℚ) (dp : List ℚ) : Option (List ℚ) :=
  (List.range rows).foldlM (init := dp) fun dp j => do
    let lo ← m.indptr[j]?
    let hi ← m.indptr[j + 1]?
    (List.range' lo (hi - lo)).foldlM (init := dp) fun dp k => do
      let c ← m.indices[k]?
      let x ← m.data[k]?
      bumpF A dp c x (d j)

/-- `cpg_dp` set to zero (writer.py:271-273), then the loops, as `uncanon`. -/
def uncanonF (A : Arith) (NP : Nat) (blocks : List (Block ℚ)) (dp : List ℚ) : Option (List ℚ) := do
  let dp ← (List.range NP).foldlM (init := dp) fun dp j => store dp j 0
  blocks.foldlM (init := dp) fun dp b => if b.changes then uncanonOneF A b.rows b.map b.d dp else some dp

/-- `canon_<p>_map` of `q`, `l`, `u`, `P`, `A` as compiled, and `p_id_to_changes`. -/
def qmapsF (A : Arith) (maps : CId → Option (RawMap ℚ)) : QpMaps ℚ where
  qc := mapChanges (maps .q) false
  lc := mapChanges (maps .l) false
  uc := mapChanges (maps .u) false
  Pc := mapChanges (maps .P) true
  Ac := mapChanges (maps .A) true
  q := mapF A (csrOf (maps .q) false)
  l := mapF A (csrOf (maps .l) false)
  u := mapF A (csrOf (maps .u) false)
  P := mapF A (csrOf (maps .P) true)
  A := mapF A (csrOf (maps .A) true)

/-- From canonical gradients to `cpg_dp`, as `uncanonicalize`. -/
def uncanonicalizeF (A : Arith) (NP : Nat) (s : QpDims) (maps : CId → Option (RawMap ℚ)) (g : Grad.DCanon ℚ) (dp : List ℚ) :
    Option (List ℚ) :=
  uncanonF A NP (gradBlocks s (qmapsF A maps) g) dp

/-! ### explicit mode -/

/-- `cpg_dtheta[j]` (writer.py:476-481), as `dtheta`; entries of `pdaqp_feedbacks` are cast to `cpg_float`. -/
def dthetaF (A : Arith) (K nSol nLoop : Nat) (fb : Nat → ℚ) (h : Nat) (dx : Nat → ℚ) (j : Nat) : ℚ :=
  (List.range nLoop).foldl (fun s i => A.mac s (A.conv (feedback K nSol fb h i j)) (dx i)) 0

/-- The loop emitted for row `j` of a map (writer.py:494-498, 502-506), as `rowBump`. -/
def rowBumpF (A : Arith) (m : Csr ℚ) (j : Nat) (t : ℚ) (dp : List ℚ) : Option (List ℚ) := do
  let lo ← m.indptr[j]?
  let hi ← m.indptr[j + 1]?
  (List.range' lo (hi - lo)).foldlM (init := dp) fun dp k => do
    let c ← m.indices[k]?
    let x ← m.data[k]?
    bumpF A dp c x t

/-- The loop emitted for an entry of the mask (writer.py:489-507), as `exRow`, with the maps as compiled. -/
def exRowF (A : Arith) (E : ExCanon ℚ) (dth : Nat → ℚ) (dp : List ℚ) (e : Nat × Nat) : Option (List ℚ) :=
  if e.1 < E.n then
    if E.qc then rowBumpF A (mapF A E.q) e.1 (dth e.2) dp else some dp
  else
    if E.uc then rowBumpF A (mapF A E.u) (e.1 - E.n) (dth e.2) dp else some dp

/-- writer.py:485-508, as `uncanonExplicit`. -/
def uncanonExplicitF (A : Arith) (NP : Nat) (E : ExCanon ℚ) (dth : Nat → ℚ) (dp : List ℚ) : Option (List ℚ) := do
  let dp ← (List.range NP).foldlM (init := dp) fun dp j => store dp j 0
  (sel E.mask (List.range (E.n + E.m))).zipIdx.foldlM (exRowF A E dth) dp

/-- One call, as `exStep`; arguments of `cpg_update_d<name>` (writer.py:459-468) are converted to `cpg_float`. -/
def exStepF (A : Arith) (T : ExTab ℚ) (E : ExCanon ℚ) (s : ExSt ℚ) : ExOp ℚ → Option (ExSt ℚ)
  | .solve r => some { s with region := some r }
  | .setD k v => some { s with dx := fun i => if i = k then A.conv v else s.dx i }
  | .gradient u =>
    match u.or s.region with
    | none => none
    | some r => do
      let dp ← uncanonExplicitF A T.NP E (dthetaF A T.K T.nSol T.nLoop T.fb (T.hp r) s.dx) s.dp
      pure { region := some r, dx := fun i => if i < T.nLoop then 0 else s.dx i, dp := dp }

/-- Maps and mask used by the gradient (writer.py:486-507), as `ExGrad.exCanon`. -/
def usedMaps (maps : CId → Option (RawMap ℚ)) (n m : Nat) (mask : List Bool) : ExCanon ℚ :=
  ⟨n, m, mapChanges (maps .q) false, mapChanges (maps .u) false, csrOf (maps .q) false, csrOf (maps .u) false, mask⟩

/-- A sequence of calls. -/
def exRunF (A : Arith) (T : ExTab ℚ) (E : ExCanon ℚ) (ops : List (ExOp ℚ)) : Option (ExSt ℚ) :=
  ops.foldlM (exStepF A T E) (exInit T.NP)

end Verif.Model.Rounded
