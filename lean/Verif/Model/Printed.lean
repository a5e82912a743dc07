import Verif.Model.Text
import Verif.Model.Canon
import Verif.Spec.Text
/-!
Numbers that are compiled into the generated program: the maps from user to canonical parameters, the
canonical parameters and the user parameters are written as decimal literals (`cvxpygen/utils.py` 85-131,
483-510, 541) and read back by the C compiler.
-/
namespace Verif.Model.Printed
open Verif.Model Verif.Model.Text Verif.Spec.Text

/-- A finite number as `%.20f` sees it (negative zero is not distinguished from zero). -/
def ofRat (x : ℚ) : FVal := .fin (decide (x < 0)) |x|

/-- What the compiled program holds for a number `x` of the generator: the value of the literal
`'%.20f' % x` (utils.py:103), rounded by the compiler with `cc` to a number that the type `cpg_float` can
represent. A text that is no literal would not compile; this does not happen (`compiled_eq`). -/
def compiled (cc : ℚ → ℚ) (x : ℚ) : ℚ := ((litVal (fmt20 (ofRat x))).map cc).getD 0

/-- `canon_<p>_map` as compiled (utils.py:493-497, 114-131): indices are integers and printed exactly, data
are literals. -/
def mapC (cc : ℚ → ℚ) (m : Csr ℚ) : Csr ℚ := { m with data := m.data.map (compiled cc) }

/-- `cpg_canonicalize_<p>` (utils.py:279-294) of the compiled program. `cpg_params_vec` ends with the
compiled literal of 1 (utils.py:485). -/
def canonValC (cc : ℚ → ℚ) (m : Option (RawMap ℚ)) (upper : Bool) (θ : List ℚ) : Option (List ℚ) :=
  m.bind fun m => canonicalizeC (m.final upper).rows (mapC cc (m.final upper).toCsr) (θ ++ [compiled cc 1])
    (List.replicate (m.final upper).rows 0)

/-- Canonical parameters as compiled (utils.py:505-510, 541): literals of the values at generation.
Entries are finite here; for infinite ones see `Text.replaceInf`. The data that OSQP itself writes to its
files are taken to be the same. -/
def canonInitC (cc : ℚ → ℚ) (m : Option (RawMap ℚ)) (upper : Bool) (θ : List ℚ) : Option (List ℚ) :=
  (canonVal m upper θ).map fun v => v.map (compiled cc)

/-- The compiled program. As `canonGen`, but all numbers went through the text. Canonical parameters that
do not change have no function `cpg_canonicalize_<p>` (utils.py:494, 1013): their value is the compiled
one for all user parameters. -/
def printedGen (cc : ℚ → ℚ) (ps : List UParam) (ids : List CId) (quad : Bool)
    (maps : CId → Option (RawMap ℚ)) (θ0 : { θ : List ℚ // θ.length = totalSize ps }) :
    Gen { θ : List ℚ // θ.length = totalSize ps } (Option (List ℚ))
      { a : UpdCall ℚ // a.Valid ps } :=
  let g := canonGen ps ids quad maps θ0
  { g with
    canonOf := fun p θ => if g.changes.getD p then canonValC cc (maps p) p.isUpper θ.1
      else canonInitC cc (maps p) p.isUpper θ0.1
    θ0 := ⟨θ0.1.map (compiled cc), by rw [List.length_map]; exact θ0.2⟩
    canon0 := fun p => canonInitC cc (maps p) p.isUpper θ0.1 }

end Verif.Model.Printed
