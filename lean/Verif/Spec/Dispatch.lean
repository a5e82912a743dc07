import Verif.Model.Dispatch
/-!
Specification of solver selection (README.md:82-90, 204-207), prefixes and rejections.
-/
namespace Verif.Spec.Dispatch
open Verif.Model.Text Verif.Model.Dispatch

/-- The documented meaning of a solver name, whatever its case; none means rejection. Explicit mode is
differentiated directly, as is OSQP; all others via the form of OSQP. -/
def documented (name : Txt) (dual gradient windows : Bool) : Option (Iface × Nat × Bool) :=
  let n := lower name
  if n = "explicit".toList then some (.pdaqp, if dual then 2 else 1, false)
  else if n = "osqp".toList then some (.osqp, 0, false)
  else if n = "scs".toList then some (.scs, 0, gradient)
  else if n = "ecos".toList then some (.ecos, 0, gradient)
  else if n = "clarabel".toList then if windows then none else some (.clarabel, 0, gradient)
  else if n = "qoco".toList then some (.qoco, 0, gradient)
  else if n = "qocogen".toList then some (.qocogen, 0, gradient)
  else if n = "pdaqp".toList then some (.pdaqp, 0, gradient)
  else none

/-- A character that may occur in a C identifier. -/
def isIdChar (c : Char) : Bool := isAlpha c || (48 ≤ c.toNat && c.toNat ≤ 57) || c = '_'

/-- A C identifier. -/
def isIdentifier : Txt → Bool
  | [] => false
  | c :: t => (isAlpha c || c = '_') && t.all isIdChar

/-- Reasons for rejecting a problem or solver in a mode. -/
def Rejected (a : Args) (f : Facts) : Prop := ∃ e, (generate a f).1 = .error e

end Verif.Spec.Dispatch
