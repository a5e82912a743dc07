import Verif.Spec.Files
/-! Which generated files a compiler sees, and where generated headers belong. -/
namespace Verif.Spec.Includes
open Verif.Model.Files

inductive Lang where
  | c
  | cpp
  deriving DecidableEq

/-- The C compiler sees `c/src` and the headers it includes, the C++ compiler the module and these headers. -/
def Seen : Lang → Path → Prop
  | .c, f => ∃ n, f = ["c", "src", n] ∨ f = ["c", "include", n]
  | .cpp, f => f = ["cpp", "src", "cpg_module.cpp"] ∨ ∃ n, f = ["c", "include", n]

/-- Headers with names `cpg_…` are CVXPYgen's own. -/
def Own (p : Path) : Prop := ∃ h, p.getLast? = some h ∧ ['c', 'p', 'g', '_'] <+: h.toList

/-- The place of an own header. -/
def home (h : String) : Path := if h = "cpg_module.hpp" then ["cpp", "include", h] else ["c", "include", h]

end Verif.Spec.Includes
