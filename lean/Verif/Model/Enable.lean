import Verif.Model.Shared
/-!
What else becomes of `enable_settings`: warnings, and the compile definition without which OSQP's code cannot print.

Sources: /repo/cvxpygen/solvers/_interface.py:125-130 (`configure_settings`), osqp.py:148-158 (`cmake_context_extra`),
_interface.py:216, /repo/cvxpygen/templates/CMakeLists.txt.jinja2:8-10. `setup.py` builds the same library with CMake
(setup.py.jinja2:92-93), so the definition applies to the Python module too.
-/
namespace Verif.Model.Enable
open Verif.Model.Text Verif.Model.Dispatch Verif.Model.Shared

/-- `cmake_definitions` (osqp.py:153-156, _interface.py:216): the list given in this call, not the flags of the class. -/
def definitions (c : Shared.Call) : List Txt :=
  if c.iface = .osqp ∧ c.enable.contains "verbose".toList = true then ["add_definitions(-DOSQP_ENABLE_PRINTING)".toList] else []

/-- Names for which a warning is given (_interface.py:129-130; a set, here with repetitions). -/
def warned (s : Classes) (c : Shared.Call) : List Txt := c.enable.filter fun n => !((s.stgs c.iface).map Prod.fst).contains n

end Verif.Model.Enable
