import Verif.Model.Build
/-! What a built module should be. -/
namespace Verif.Spec.Build
open Verif.Model.Build

/-- The module is made of the sources in the directory. -/
def Fresh (s : Dir) : Prop := ∃ m, s.module = some m ∧ m.c = s.c ∧ m.cpp = s.cpp

/-- There is no module, so that importing it is an error. -/
def Missing (s : Dir) : Prop := s.module = none

/-- A build in which everything succeeds. -/
def Good (o : Outcome) : Prop := o.configure = true ∧ o.make = true ∧ o.compile = true ∧ o.link = true

end Verif.Spec.Build
