import Verif.Props.Build
/-!
# C80: exactly when a build leaves a module made of the sources in the directory
-/
namespace Verif.Props
open Verif.Model.Build Verif.Spec.Build

/-- The extension is not built again: there is a module newer than the C++ sources, and the build is not forced. -/
def Skips (s : Dir) (o : Model.Build.Outcome) : Prop := ∃ m, s.module = some m ∧ o.force = false ∧ s.cppTime ≤ m.time

/-- The static library is brought up to date. -/
def Makes (s : Dir) (o : Model.Build.Outcome) : Prop := (s.configured = true ∨ o.configure = true) ∧ o.make = true

/-- A new module is linked. -/
def LinksNew (s : Dir) (o : Model.Build.Outcome) : Prop :=
  ¬ Skips s o ∧ (Makes s o ∨ s.lib.isSome = true) ∧ o.compile = true ∧ o.link = true

/-- **C80, exactly.** After a build, whatever of it succeeds and whatever happened before, the module is made of the sources in the directory
exactly if: a new module is linked with a library that is made in this build or was up to date; or none is linked and the old one was made of
them. -/
theorem C80_iff (s : Dir) (o : Model.Build.Outcome) :
    Fresh (Model.Build.step s (.build o)) ↔
      (LinksNew s o ∧ (Makes s o ∨ s.lib = some s.c)) ∨ (¬ LinksNew s o ∧ Fresh s) := by
  obtain ⟨c, cpp, ct, conf, lib, mod, now⟩ := s
  obtain ⟨o1, o2, o3, o4, o5⟩ := o
  show Fresh (build _ _).1 ↔ _
  unfold build extension skip make configure LinksNew Skips Makes Fresh
  cases o1 <;> cases o2 <;> cases o3 <;> cases o4 <;> cases o5 <;> cases conf <;> cases lib <;> cases mod <;> simp <;>
    (try split) <;> simp_all <;> (try omega)

/-- **C80, builds that succeed.** If everything succeeds, exactly if the extension is built or the module was right before. -/
theorem C80_good_iff (s : Dir) (o : Model.Build.Outcome) (hg : Good o) :
    Fresh (Model.Build.step s (.build o)) ↔ Skips s o → Fresh s := by
  rw [C80_iff]
  obtain ⟨h1, h2, h3, h4⟩ := hg
  have hm : Makes s o := ⟨.inr h1, h2⟩
  by_cases hs : Skips s o
  · simp [LinksNew, hs]
  · simp [LinksNew, hs, hm, h3, h4]

/-- A directory in which the C sources were changed after a build: a successful build leaves the old module, a forced one does not, and one in which
compiling C fails does not change the library. -/
def exDir : Dir := ⟨2, 1, 1, true, some 1, some ⟨1, 1, 2⟩, 3⟩

example : ¬ Fresh (Model.Build.step exDir (.build ⟨true, true, true, true, false⟩)) ∧
    Fresh (Model.Build.step exDir (.build ⟨true, true, true, true, true⟩)) ∧
    ¬ Fresh (Model.Build.step exDir (.build ⟨true, false, true, true, true⟩)) := by
  refine ⟨?_, ?_, ?_⟩
  · rw [C80_good_iff _ _ ⟨rfl, rfl, rfl, rfl⟩]
    intro h
    obtain ⟨m, h1, h2, _⟩ := h ⟨_, rfl, rfl, by decide⟩
    cases h1
    exact absurd h2 (by decide)
  · rw [C80_good_iff _ _ ⟨rfl, rfl, rfl, rfl⟩]
    rintro ⟨m, _, h, _⟩
    cases h
  · rw [C80_iff]
    rintro (⟨_, ⟨_, h⟩ | h⟩ | ⟨h, _⟩)
    · cases h
    · cases h
    · exact h ⟨(fun ⟨_, _, h, _⟩ => Bool.noConfusion h), .inr rfl, rfl, rfl⟩

end Verif.Props
