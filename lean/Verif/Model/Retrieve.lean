import Verif.Model.Canon
import Mathlib.Algebra.Field.Defs
/-!
Retrieval of results: primal variables (`canonicalizer.py:124-158`, `utils.py:577-605, 946-961,
1214-1229`), dual variables (`canonicalizer.py:160-224`, `utils.py:607-637, 963-975, 1231-1240`) and the
objective value (`utils.py:977-980`), and the evaluator `cpg_obj` of explicit mode
(`utils.py:1054-1067`).
-/
namespace Verif.Model

/-! ### Primal variables -/

/-- A CVXPY variable as seen by the generator. `offset` is `inverse_data[-2].var_offsets[var.id]`,
`sym` is `symmetric or PSD or NSD` (`canonicalizer.py:132-135`). -/
structure UVar where
  name : String
  shape : List Nat
  sym : Bool
  offset : Nat
  deriving DecidableEq, Repr

/-- `var.size`, `np.prod(shape)`. -/
def UVar.size (v : UVar) : Nat := v.shape.prod

/-- The index pairs CVXPY's `upper_tri_to_full(n)` runs over: `for i in range(n): for j in range(i, n)`
(CVXPY `atoms/affine/upper_tri.py`; external to the repository). -/
def triPairs (n : Nat) : List (Nat × Nat) :=
  (List.range n).flatMap fun i => (List.range' i (n - i)).map fun j => (i, j)

/-- The (row, column) positions `upper_tri_to_full(n)` sets, with a counter as column. -/
def triEntries (n : Nat) : List (Nat × Nat) :=
  (triPairs n).zipIdx.flatMap fun p =>
    if p.1.1 = p.1.2 then [(p.1.2 * n + p.1.1, p.2)]
    else [(p.1.2 * n + p.1.1, p.2), (p.1.1 * n + p.1.2, p.2)]

/-- `(_, col) = fill_coefficient.nonzero()`, `canonicalizer.py:140-141`. SciPy returns the entries of
a CSC matrix sorted by row (stable). -/
def triCols (n : Nat) : List Nat :=
  ((triEntries n).mergeSort fun a b => a.1 ≤ b.1).map Prod.snd

/-- `var_name_to_indices[name]`, `canonicalizer.py:138-144`. `shape[0]` of a 0-dimensional symmetric
variable raises. -/
def UVar.indices (v : UVar) : Except PyErr (List Nat) :=
  if v.sym then
    match v.shape with
    | [] => .error .indexError
    | n :: _ => .ok ((triCols n).map (v.offset + ·))
  else .ok (List.range' v.offset v.size)

/-- What an interface says about where its solution lives: `sol_statically_allocated` and whether
`ret_prim_func_exists`/`ret_dual_func_exists` always return `True`. -/
structure SolTraits where
  static : Bool
  always : Bool
  deriving DecidableEq, Repr

/-- `osqp.py:89`, `scs.py:79`, `ecos.py:47,126-132`, `clarabel.py:49,207-213`, `qoco.py:48,134-140`
(QOCOGEN), `qoco.py:222,353-360` (QOCO). -/
def Kind.traits : Kind → SolTraits
  | .osqp => ⟨true, false⟩
  | .scs => ⟨true, false⟩
  | .ecos => ⟨false, true⟩
  | .clarabel => ⟨false, true⟩
  | .qocogen => ⟨true, true⟩
  | .qoco => ⟨false, true⟩

/-- `variable_info`: dictionaries from names, `canonicalizer.py:129-158`. -/
structure PrimInfo where
  offset : List (String × Nat)
  indices : List (String × List Nat)
  size : List (String × Nat)
  nameSym : List (String × Bool)
  sym : List Bool

/-- `{name: f(var) for var in variables}` where `f` may raise. -/
def dictOfExcept {α : Type} (l : List (String × Except PyErr α)) : Except PyErr (List (String × α)) := do
  let l' ← l.mapM fun kv => do
    let v ← kv.2
    pure (kv.1, v)
  pure (dictOf l')

/-- `_get_primal_variable_info`, `canonicalizer.py:124-158`. -/
def primInfo (vs : List UVar) : Except PyErr PrimInfo := do
  let ind ← dictOfExcept (vs.map fun v => (v.name, v.indices))
  pure { offset := dictOf (vs.map fun v => (v.name, v.offset))
         indices := ind
         size := dictOf (vs.map fun v => (v.name, v.size))
         nameSym := dictOf (vs.map fun v => (v.name, v.sym))
         sym := vs.map UVar.sym }

/-- `ret_prim_func_exists`, `_interface.py:117-119` and the overrides. -/
def SolTraits.retPrim (t : SolTraits) (pi : PrimInfo) : Bool :=
  t.always || (pi.sym.any id || (pi.size.map Prod.snd).any (· == 1))

variable {R : Type}

/-- Reading a C array of known content. `none`: outside the array. -/
def readAt (a : List R) (i : Nat) : Option R := a[i]?

/-- `CPG_Prim.<name>[k]` after `cpg_solve` left `sol` in the solver's solution array:
the struct field is a scalar (`utils.py:594-595`), a pointer to an own array
(`utils.py:597-598`) or a pointer into the solution array (`utils.py:600`); the retrieval function
fills scalars and own arrays (`utils.py:955-960`) if it exists (`utils.py:950, 1041-1042`).
The initial content of scalars and own arrays is 0. -/
def primRead [Zero R] (t : SolTraits) (pi : PrimInfo) (sol : List R) (name : String) (k : Nat) :
    Option R := do
  let size ← pi.size.lookup name
  let sym ← pi.nameSym.lookup name
  let off ← pi.offset.lookup name
  let ind ← pi.indices.lookup name
  if size = 1 then
    if t.retPrim pi && ind.length == 1 then readAt sol (← readAt ind k) else if k = 0 then some 0 else none
  else if sym || !t.static then
    if t.retPrim pi && ind.length != 1 then readAt sol (← readAt ind k)
    else if k < size then some 0 else none
  else readAt sol (off + k)

/-- `solve_cpp` copies all `size` entries, `utils.py:1214-1228` (not explicit). -/
def primReadAll [Zero R] (t : SolTraits) (pi : PrimInfo) (sol : List R) (name : String) :
    Option (List R) := do
  let size ← pi.size.lookup name
  (List.range size).mapM (primRead t pi sol name)

/-! ### Dual variables -/

/-- A canonical constraint: CVXPY's id and size. -/
structure CCon where
  id : Nat
  size : Nat
  deriving DecidableEq, Repr

/-- `np.cumsum`. -/
def cumsum : List Nat → Nat → List Nat
  | [], _ => []
  | x :: l, acc => (acc + x) :: cumsum l (acc + x)

/-- `d_canon_offsets` before splitting, `canonicalizer.py:182`. -/
def canonOffsets (con : List CCon) : List Nat := cumsum (0 :: con.dropLast.map CCon.size) 0

/-- `d_canon_offsets[n_split:] -= d_canon_offsets[n_split]`, `canonicalizer.py:190`: NumPy raises
`IndexError` if `n_split` is not a valid index. -/
def splitOffsets (offs : List Nat) (nSplit : Nat) : Except PyErr (List Nat) :=
  match offs[nSplit]? with
  | none => .error .indexError
  | some o => .ok (offs.take nSplit ++ (offs.drop nSplit).map (· - o))

/-- `d_canon_offsets`, `canonicalizer.py:182, 184-190`. -/
def dualOffsets (split : Bool) (nSplit : Nat) (con : List CCon) : Except PyErr (List Nat) :=
  if split then splitOffsets (canonOffsets con) nSplit else .ok (canonOffsets con)

/-- Entry of the dual info: name, vector (0 is `dual_var_names[0]`, 1 is `dual_var_names[1]`), offset,
size. -/
structure DualEntry where
  name : String
  vec : Nat
  offset : Nat
  size : Nat
  deriving DecidableEq, Repr

/-- Dictionary lookup that raises `KeyError`. -/
def lookupKey {κ ν : Type} [BEq κ] (d : List (κ × ν)) (k : κ) : Except PyErr ν :=
  match d.lookup k with
  | some v => .ok v
  | none => .error .keyError

/-- `_get_dual_variable_info`, `canonicalizer.py:174-224`: `con` is `con_canon` (equality constraints
first), `nSplit` the number of equality constraints, `dualIds` the canonical ids of the user
constraints in order. -/
def dualInfo (split : Bool) (nSplit : Nat) (con : List CCon) (dualIds : List Nat) :
    Except PyErr (List DualEntry) := do
  let offs := canonOffsets con
  let vecs := if split then List.replicate nSplit 0 ++ List.replicate (offs.length - nSplit) 1
    else List.replicate offs.length 0
  let offs' ← dualOffsets split nSplit con
  let sizeD := dictOf (con.map fun c => (c.id, c.size))
  let offD := dictOf ((con.map CCon.id).zip offs')
  let vecD := dictOf ((con.map CCon.id).zip vecs)
  dualIds.zipIdx.mapM fun ik => do
    let o ← lookupKey offD ik.1
    let v ← lookupKey vecD ik.1
    let s ← lookupKey sizeD ik.1
    pure { name := s!"d{ik.2}", vec := v, offset := o, size := s }

/-- `dual_var_split`: `_interface.py:29`, `scs.py:112`, `clarabel.py:122`: `False`; `ecos.py:71`, `qoco.py:76,250`:
`True`. -/
def Kind.dualSplit : Kind → Bool
  | .osqp | .scs | .clarabel => false
  | .ecos | .qocogen | .qoco => true

/-- `ret_dual_func_exists`, `_interface.py:121-123` and the overrides. -/
def SolTraits.retDual (t : SolTraits) (ds : List DualEntry) : Bool :=
  t.always || ds.any (·.size == 1)

/-- `CPG_Dual.<name>[k]` after a solve that left the dual vectors `duals` (`utils.py:607-637,
963-975`). -/
def dualRead [Zero R] (t : SolTraits) (ds : List DualEntry) (duals : Nat → List R) (d : DualEntry)
    (k : Nat) : Option R :=
  if d.size = 1 then
    if k ≠ 0 then none
    else if t.retDual ds then readAt (duals d.vec) d.offset else some 0
  else if !t.static then
    if k < d.size then
      if t.retDual ds then readAt (duals d.vec) (d.offset + k) else some 0
    else none
  else readAt (duals d.vec) (d.offset + k)

/-! ### Objective value -/

/-- `CPG_Info.obj_val = [-](obj[ + Canon_Params.d])`, `utils.py:980`. -/
def objVal [Add R] [Neg R] (isMax nonzeroD : Bool) (solverObj d : R) : R :=
  let v := if nonzeroD then solverObj + d else solverObj
  if isMax then -v else v

/-- `nonzero_d`, `canonicalizer.py:310-311`; the default `True` (`mappings.py:41`) stays if there is no
map. -/
def nonzeroD (m : Option (RawMap R)) : Bool :=
  match m with
  | none => true
  | some m => decide (0 < m.mapping.nnzCols 0 m.mapping.cols)

/-- The loops of `cpg_obj` (explicit mode), `utils.py:1054-1067`, for `P` in compressed columns. -/
def cpgObj [Field R] (n : Nat) (Pp Pi : Nat → Nat) (Px q x : Nat → R) : R :=
  let quad := (List.range n).foldl (init := (0 : R)) fun acc i =>
    (List.range' (Pp i) (Pp (i + 1) - Pp i)).foldl (init := acc) fun acc j =>
      acc + (1 / 2) * Px j * x (Pi j) * x i
  (List.range n).foldl (init := quad) fun acc i => acc + q i * x i

end Verif.Model
