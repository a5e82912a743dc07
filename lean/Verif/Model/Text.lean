import Mathlib.Data.Rat.Defs
import Mathlib.Algebra.Order.Floor.Defs
import Mathlib.Data.Rat.Floor
/-!
Model of the text helpers and of the printing of numbers and struct initialisers.

Sources: /repo/cvxpygen/utils.py:57-71 (text), 87-107, 117-131, 161-172 (vectors and matrices), 213-228
(`replace_inf`), 324-337 (structs). Texts are lists of characters.
-/
namespace Verif.Model.Text

abbrev Txt := List Char

/-! ### text helpers -/

/-- `text.find(expr)`. -/
def find (e : Txt) : Txt → Option Nat
  | [] => if e = [] then some 0 else none
  | c :: t => if e.isPrefixOf (c :: t) then some 0 else (find e t).map (· + 1)

/-- `cut_from_expr` (utils.py:64-71). -/
def cutFromExpr (text e : Txt) : Txt :=
  match find e text with
  | some i => text.take i
  | none => text

/-- `text.replace(old, new)` for non-empty `old`: from left to right, without overlaps; `skip` characters
still belong to the occurrence found last. -/
def replaceGo (old new : Txt) : Nat → Txt → Txt
  | _, [] => []
  | skip + 1, _ :: t => replaceGo old new skip t
  | 0, c :: t => if old.isPrefixOf (c :: t) then new ++ replaceGo old new (old.length - 1) t
      else c :: replaceGo old new 0 t

/-- `text.replace(old, new)`; for the empty string `new` goes before every character and to the end. -/
def replaceAll (old new text : Txt) : Txt :=
  if old = [] then new ++ text.flatMap (fun c => c :: new) else replaceGo old new 0 text

/-- `multiple_replace` (utils.py:57-61). -/
def multipleReplace (text : Txt) (reps : List (Txt × Txt)) : Txt :=
  reps.foldl (fun t r => replaceAll r.1 r.2 t) text

/-! ### numbers -/

/-- A floating-point value: sign and magnitude, infinity, or NaN. -/
inductive FVal where
  | fin (neg : Bool) (mag : ℚ)
  | inf (neg : Bool)
  | nan
deriving DecidableEq

/-- The double nearest to `1e30`. -/
def big30 : ℚ := 1000000000000000019884624838656

/-- One entry in `replace_inf` (utils.py:219-226): `v[isinf] = 1e30 * sign`. -/
def replaceInf : FVal → FVal
  | .inf neg => .fin neg big30
  | x => x

/-- Digit as character. -/
def digit (n : Nat) : Char :=
  match n with
  | 0 => '0' | 1 => '1' | 2 => '2' | 3 => '3' | 4 => '4'
  | 5 => '5' | 6 => '6' | 7 => '7' | 8 => '8' | _ => '9'

/-- Decimal representation without leading zeros. -/
def natStr (n : Nat) : Txt :=
  if h : n < 10 then [digit n] else natStr (n / 10) ++ [digit (n % 10)]
termination_by n
decreasing_by omega

/-- The last `k` decimal digits. -/
def padStr : Nat → Nat → Txt
  | 0, _ => []
  | k + 1, n => padStr k (n / 10) ++ [digit (n % 10)]

/-- Rounding to the nearest integer, ties to even, for a non-negative number. -/
def roundEven (q : ℚ) : Nat :=
  let f := ⌊q⌋.toNat
  let r := q - f
  if r < 1 / 2 then f
  else if 1 / 2 < r then f + 1
  else if f % 2 = 0 then f else f + 1

/-- `'%.20f' % x` (utils.py:103, 170). Python prints the exactly rounded decimal. -/
def fmt20 : FVal → Txt
  | .fin neg mag =>
    let n := roundEven (mag * 10 ^ 20)
    (if neg then ['-'] else []) ++ natStr (n / 10 ^ 20) ++ ['.'] ++ padStr 20 n
  | .inf neg => (if neg then ['-'] else []) ++ ['i', 'n', 'f']
  | .nan => ['n', 'a', 'n']

/-- The initialisers written by `write_vec_def` for a vector of floats (utils.py:99-103), without type
casts and separators. -/
def vecInit (v : List FVal) : List Txt := v.map fmt20

/-- The initialisers of an array of integers (utils.py:105); the arrays printed are indices, hence
non-negative. -/
def intInit (v : List Nat) : List Txt := v.map natStr

/-- The initialisers of a canonical parameter: `write_param_def(f, replace_inf(p), …)` (utils.py:510). -/
def canonInit (v : List FVal) : List Txt := vecInit (v.map replaceInf)

/-- The initialisers of the array of user parameters (utils.py:485): no `replace_inf`. -/
def paramsInit (v : List FVal) : List Txt := vecInit v

/-- The value of `d` in the struct of canonical parameters (utils.py:541): no `replace_inf`. -/
def dInit (x : FVal) : Txt := fmt20 x

/-- The arrays of a sparse matrix: `_i`, `_p`, `_x` and the number of entries (utils.py:117-131), for the
canonical parameters with `replace_inf` applied to the data (utils.py:219-222). -/
def matInit (indices indptr : List Nat) (data : List FVal) : List Txt × List Txt × List Txt × Txt :=
  (intInit indices, intInit indptr, canonInit data, natStr data.length)

/-! ### structs -/

/-- The lines of `write_struct_def` (utils.py:331-335): field, cast, value. -/
def structDef (fields casts values : List String) : List (String × String × String) :=
  (List.zipWith (fun (fc : String × String) v => (fc.1, if v = "0" ∨ v = "SCS_NULL" then "" else fc.2, v))
    (fields.zip casts) values)

/-- What `write_workspace_def` knows about a variable (utils.py:577-601): its name, the size of its initial
value (decides about the cast), its size (decides about the value), symmetry and offset. -/
structure VarDesc where
  name : String
  initSize : Nat
  size : Nat
  sym : Bool
  offset : Nat

/-- The value of a variable in the struct of primal variables (utils.py:592-598). -/
def primValue (prefix_ solx : String) (isStatic : Bool) (v : VarDesc) : String :=
  if v.size = 1 then "0" else
    if v.sym = true ∨ isStatic = false then "&" ++ prefix_ ++ v.name else "&" ++ solx ++ " + " ++ toString v.offset

/-- The struct of primal variables (utils.py:577-600); `solx` is the pointer to the solver's solution. -/
def primStruct (prefix_ solx : String) (isStatic : Bool) (vars : List VarDesc) : List (String × String × String) :=
  structDef (vars.map (·.name))
    (vars.map fun v => if v.initSize = 1 then "" else "(cpg_float *) ")
    (vars.map (primValue prefix_ solx isStatic))

/-- A dual variable: name, size of the initial value, pointer to the vector of the solver that holds it,
offset (utils.py:603-629). -/
structure DualDesc where
  name : String
  initSize : Nat
  vec : String
  offset : Nat

/-- The value of a dual variable in its struct (utils.py:618-627). -/
def dualValue (prefix_ : String) (isStatic : Bool) (v : DualDesc) : String :=
  if v.initSize = 1 then "0" else
    if isStatic = false then "&" ++ prefix_ ++ v.name else "&" ++ v.vec ++ " + " ++ toString v.offset

/-- The struct of dual variables (utils.py:603-629). -/
def dualStruct (prefix_ : String) (isStatic : Bool) (vars : List DualDesc) : List (String × String × String) :=
  structDef (vars.map (·.name))
    (vars.map fun v => if v.initSize = 1 then "" else "(cpg_float *) ")
    (vars.map (dualValue prefix_ isStatic))

/-- A canonical parameter: name, whether it is empty, whether its name is in upper case, printed value of `d`. -/
structure CanonDesc where
  id : String
  empty : Bool
  isMat : Bool
  printed : String

/-- The value of a canonical parameter in its struct (utils.py:530-547). -/
def canonValue (prefix_ suffix : String) (p : CanonDesc) : String :=
  if p.empty then "0" else if p.id = "d" then p.printed else "&" ++ prefix_ ++ "canon_" ++ p.id ++ suffix

/-- The struct of canonical parameters (utils.py:503-555); `suffix` is empty or `_conditioning`. -/
def canonStruct (prefix_ suffix : String) (ps : List CanonDesc) : List (String × String × String) :=
  structDef (ps.map (·.id))
    (ps.map fun p => if p.id = "d" then "" else if p.isMat then "" else "(cpg_float *) ")
    (ps.map (canonValue prefix_ suffix))

/-- The struct of parameter deltas (utils.py:679-689): for each column and name of a user parameter. -/
def deltaStruct (prefix_ : String) (cols : List (Nat × String)) : List (String × String × String) :=
  structDef (cols.map (·.2)) (cols.map fun _ => "(cpg_float *) ")
    (cols.map fun c => "&" ++ prefix_ ++ "cpg_dp + " ++ toString c.1)

/-- The struct of results (utils.py:640-664). -/
def resultStruct (prefix_ : String) (explicit : Nat) (hasDual : Bool) : List (String × String × String) :=
  if explicit = 1 then structDef ["prim"] [""] ["&" ++ prefix_ ++ "CPG_Prim"]
  else if explicit = 2 then
    if hasDual then structDef ["prim", "dual"] ["", ""] ["&" ++ prefix_ ++ "CPG_Prim", "&" ++ prefix_ ++ "CPG_Dual"]
    else structDef ["prim"] [""] ["&" ++ prefix_ ++ "CPG_Prim"]
  else
    if hasDual then structDef ["prim", "dual", "info"] ["", "", ""]
      ["&" ++ prefix_ ++ "CPG_Prim", "&" ++ prefix_ ++ "CPG_Dual", "&" ++ prefix_ ++ "CPG_Info"]
    else structDef ["prim", "info"] ["", ""] ["&" ++ prefix_ ++ "CPG_Prim", "&" ++ prefix_ ++ "CPG_Info"]

end Verif.Model.Text
