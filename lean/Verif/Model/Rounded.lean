import Verif.Model.Printed
/-!
The generated program in floating point: numbers are rounded when they are compiled, when they are passed to the update
functions, and in the arithmetic of the canonicalization.

Sources: /repo/cvxpygen/utils.py:87-107, 117-131 (literals with a cast to `cpg_float`), 279-294 (canonicalization), 483-510
(`cpg_params_vec`, maps), 905-921 (update functions, with limits in explicit mode); `cpg_float` is `float` in explicit mode
(pdaqp.py:61) and `double` or a type of the solver, by default `double`, otherwise (osqp.py:95, scs.py:85, ecos.py:53,
clarabel.py:55, qoco.py:54, 228). Operations on `cpg_float` are taken to be done in this type (no excess precision), numbers
too large for the type are not considered.
-/
namespace Verif.Model.Rounded
open Verif.Model Verif.Model.Text Verif.Model.Printed

/-- The arithmetic: the compiler's reading of a literal (as `double`), conversion from `double` to `cpg_float`, and
`s += a * b`. -/
structure Arith where
  cc : ℚ → ℚ
  conv : ℚ → ℚ
  mac : ℚ → ℚ → ℚ → ℚ

/-- A number of the generator in the compiled program: `(cpg_float)%.20f` (utils.py:103). -/
def Arith.num (A : Arith) (x : ℚ) : ℚ := A.conv (compiled A.cc x)

/-- The loops emitted by `write_canonicalize` (utils.py:279-294), as `canonicalizeC`, with rounding. -/
def canonicalizeF (A : Arith) (rows : Nat) (m : Csr ℚ) (params out : List ℚ) : Option (List ℚ) :=
  (List.range rows).foldlM (init := out) fun out i => do
    let out ← store out i 0
    let lo ← m.indptr[i]?
    let hi ← m.indptr[i + 1]?
    (List.range' lo (hi - lo)).foldlM (init := out) fun out j => do
      let x ← m.data[j]?
      let c ← m.indices[j]?
      let v ← params[c]?
      let o ← out[i]?
      store out i (A.mac o x v)

/-- `canon_<p>_map` as compiled. -/
def mapF (A : Arith) (m : Csr ℚ) : Csr ℚ := { m with data := m.data.map A.num }

/-- `cpg_canonicalize_<p>` of the compiled program; `cpg_params_vec` ends with the compiled literal of 1. -/
def canonValF (A : Arith) (m : Option (RawMap ℚ)) (upper : Bool) (θ : List ℚ) : Option (List ℚ) :=
  m.bind fun m => canonicalizeF A (m.final upper).rows (mapF A (m.final upper).toCsr) (θ ++ [A.num 1])
    (List.replicate (m.final upper).rows 0)

/-- Canonical parameters as compiled (utils.py:505-510, 541). -/
def canonInitF (A : Arith) (m : Option (RawMap ℚ)) (upper : Bool) (θ : List ℚ) : Option (List ℚ) :=
  (canonVal m upper θ).map fun v => v.map A.num

/-- `cpg_update_<name>(idx, val)`: the argument is converted to `cpg_float`. -/
def pass {ps : List UParam} (A : Arith) (a : { a : UpdCall ℚ // a.Valid ps }) : { a : UpdCall ℚ // a.Valid ps } :=
  ⟨{ a.1 with val := A.conv a.1.val }, a.2⟩

/-- The compiled program, as `printedGen`, with rounding. -/
def roundedGen (A : Arith) (ps : List UParam) (ids : List CId) (quad : Bool)
    (maps : CId → Option (RawMap ℚ)) (θ0 : { θ : List ℚ // θ.length = totalSize ps }) :
    Gen { θ : List ℚ // θ.length = totalSize ps } (Option (List ℚ)) { a : UpdCall ℚ // a.Valid ps } :=
  let g := canonGen ps ids quad maps θ0
  { g with
    canonOf := fun p θ => if g.changes.getD p then canonValF A (maps p) p.isUpper θ.1
      else canonInitF A (maps p) p.isUpper θ0.1
    assign := fun a θ => g.assign (pass A a) θ
    θ0 := ⟨θ0.1.map A.num, by rw [List.length_map]; exact θ0.2⟩
    canon0 := fun p => canonInitF A (maps p) p.isUpper θ0.1 }

/-- `cpg_update_<name>` in explicit mode (utils.py:905-921): entry `k` of `cpg_params_vec`; `lo`, `up` are
`cpg_params_vec_lower` and `cpg_params_vec_upper` (utils.py:487-488), compiled like all vectors. -/
def limited (A : Arith) (lo up val : ℚ) : ℚ :=
  let v := A.conv val
  let v := if v < A.num lo then A.num lo else v
  if v > A.num up then A.num up else v

/-- A sequence of such calls. -/
def exUpdates (A : Arith) (lo up : Nat → ℚ) (θ : List ℚ) (calls : List (Nat × ℚ)) : List ℚ :=
  calls.foldl (fun θ c => θ.set c.1 (limited A (lo c.1) (up c.1) c.2)) θ

end Verif.Model.Rounded
