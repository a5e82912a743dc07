import Verif.Spec.Build
/-! C80: the Python module that is built runs the C code in the directory. -/
namespace Verif.Props
open Verif.Model Verif.Model.Build Verif.Spec.Build

/-- What builds do to a directory without changing its sources. -/
structure Pure (s : Dir) : Prop where
  lib : s.lib = none ∨ s.lib = some s.c
  mod : s.module = none ∨ ∃ m, s.module = some m ∧ m.c = s.c ∧ m.cpp = s.cpp

theorem configure_eq (s : Dir) (o : Outcome) : ∃ b, configure s o = { s with configured := b } := by
  unfold configure
  split
  · exact ⟨_, rfl⟩
  · exact ⟨s.configured, rfl⟩

theorem make_eq (s : Dir) (o : Outcome) : ∃ l, make s o = { s with lib := l } ∧ (l = s.lib ∨ l = some s.c) := by
  unfold make
  split
  · exact ⟨_, rfl, Or.inr rfl⟩
  · exact ⟨s.lib, rfl, Or.inl rfl⟩

theorem extension_cases (s : Dir) (o : Outcome) :
    (extension s o).1 = s ∨ ∃ c, s.lib = some c ∧ (extension s o).1 = { s with module := some ⟨c, s.cpp, s.now⟩ } := by
  unfold extension
  generalize skip s o = b
  cases b with
  | true => exact Or.inl rfl
  | false =>
    cases h : s.lib with
    | none => exact Or.inl rfl
    | some c =>
      by_cases hc : (o.compile && o.link) = true
      · rw [hc]; exact Or.inr ⟨c, rfl, rfl⟩
      · rw [Bool.not_eq_true] at hc
        rw [hc]; exact Or.inl rfl

/-- Everything a build can do. -/
theorem build_cases (s : Dir) (o : Outcome) : ∃ b l, (l = s.lib ∨ l = some s.c) ∧
    ((build s o).1 = { s with configured := b, lib := l } ∨
      ∃ c, l = some c ∧ (build s o).1 = { s with configured := b, lib := l, module := some ⟨c, s.cpp, s.now⟩ }) := by
  unfold build
  obtain ⟨b, hb⟩ := configure_eq s o
  rw [hb]
  obtain ⟨l, hl, hlc⟩ := make_eq { s with configured := b } o
  rw [hl]
  refine ⟨b, l, hlc, ?_⟩
  exact extension_cases _ o

theorem step_pure (s : Dir) (o : Outcome) (h : Pure s) : Pure (Build.step s (.build o)) ∧ (Build.step s (.build o)).c = s.c ∧
    (Build.step s (.build o)).cpp = s.cpp := by
  have e : Build.step s (.build o) = (build { s with now := s.now + 1 } o).1 := rfl
  rw [e]
  obtain ⟨b, l, hl, hc⟩ := build_cases { s with now := s.now + 1 } o
  have hl' : l = none ∨ l = some s.c := by
    rcases hl with hl | hl
    · rw [hl]; exact h.lib
    · exact Or.inr hl
  rcases hc with hc | ⟨c, hlc, hc⟩
  · rw [hc]; exact ⟨⟨hl', h.mod⟩, rfl, rfl⟩
  · rw [hc]
    refine ⟨⟨hl', Or.inr ⟨_, rfl, ?_, rfl⟩⟩, rfl, rfl⟩
    rcases hl' with h' | h'
    · rw [hlc] at h'; cases h'
    · rw [hlc] at h'; cases h'; rfl

/-- **C80, code as generated.** After any history that ends with generating code and any number of builds, whatever of these succeeds: there is
no module, so that importing it is an error, or it is made of the generated sources. That no result is looked at does no harm here. -/
theorem C80_generated (s : Dir) (ops : List Op) (c cpp : Nat) (os : List Outcome) :
    let t := Build.run s (ops ++ .generate c cpp :: os.map .build)
    (Missing t ∨ Fresh t) ∧ t.c = c ∧ t.cpp = cpp := by
  have hstart : ∀ s : Dir, Pure (Build.step s (.generate c cpp)) := fun s => ⟨Or.inl rfl, Or.inl rfl⟩
  have key : ∀ (os : List Outcome) (s : Dir), Pure s → Pure (Build.run s (os.map .build)) ∧ (Build.run s (os.map .build)).c = s.c ∧
      (Build.run s (os.map .build)).cpp = s.cpp := by
    intro os
    induction os with
    | nil => intro s h; exact ⟨h, rfl, rfl⟩
    | cons o os ih =>
      intro s h
      obtain ⟨h1, h2, h3⟩ := step_pure s o h
      obtain ⟨h4, h5, h6⟩ := ih _ h1
      exact ⟨h4, h5.trans h2, h6.trans h3⟩
  have e : Build.run s (ops ++ .generate c cpp :: os.map .build) =
      Build.run (Build.step (Build.run s ops) (.generate c cpp)) (os.map .build) := by
    unfold Build.run
    rw [List.foldl_append]
    rfl
  intro t
  obtain ⟨h1, h2, h3⟩ := key os _ (hstart (Build.run s ops))
  rw [← e] at h1 h2 h3
  refine ⟨?_, h2, h3⟩
  rcases h1.mod with h | h
  · exact Or.inl h
  · exact Or.inr h

theorem build_good (s : Dir) (o : Outcome) (hg : Good o) (hm : s.module = none ∨ o.force = true) :
    (build s o).1.module = some ⟨s.c, s.cpp, s.now⟩ ∧ (build s o).1.c = s.c ∧ (build s o).1.cpp = s.cpp ∧ (build s o).2 = none := by
  obtain ⟨h1, h2, h3, h4⟩ := hg
  have e : make (configure s o) o = { s with configured := true, lib := some s.c } := by
    unfold make configure
    simp [h1, h2]
  unfold build
  rw [e]
  unfold extension skip
  dsimp only
  rcases hm with hm | hm
  · rw [hm]; simp [h3, h4]
  · cases s.module <;> simp [h3, h4, hm]

/-- **C80, first builds.** A build in which everything succeeds leaves a module made of the sources in the directory, if there is no module yet
or the build is forced, whatever happened before. -/
theorem C80_partial (s : Dir) (o : Outcome) (hg : Good o) (hm : s.module = none ∨ o.force = true) :
    Fresh (Build.step s (.build o)) ∧ (Build.step s (.build o)).c = s.c := by
  obtain ⟨h1, h2, h3, _⟩ := build_good { s with now := s.now + 1 } o hg hm
  exact ⟨⟨_, h1, h2.symm, h3.symm⟩, h2⟩

/-- **C80, changed bindings.** A build in which everything succeeds also leaves a module made of the sources in the directory if the C++ sources
are newer than the module. -/
theorem C80_bindings (s : Dir) (o : Outcome) (hg : Good o) (m : Module) (hm : s.module = some m) (ht : m.time < s.cppTime) :
    Fresh (Build.step s (.build o)) ∧ (Build.step s (.build o)).c = s.c := by
  have e : Build.step s (.build o) = (build { s with now := s.now + 1 } o).1 := rfl
  have em : make (configure { s with now := s.now + 1 } o) o = { s with now := s.now + 1, configured := true, lib := some s.c } := by
    unfold make configure
    simp [hg.1, hg.2.1]
  rw [e]
  unfold build
  rw [em]
  unfold extension skip
  dsimp only
  have : ¬ s.cppTime ≤ m.time := by omega
  simp [hm, this, hg.2.2.1, hg.2.2.2, Fresh]

/-- No module is from the future. -/
theorem run_past (ops : List Op) (s : Dir) (h : ∀ m, s.module = some m → m.time ≤ s.now) :
    ∀ m, (Build.run s ops).module = some m → m.time ≤ (Build.run s ops).now := by
  induction ops generalizing s with
  | nil => exact h
  | cons op ops ih =>
    refine ih (Build.step s op) ?_
    intro m hm
    have hold : ∀ m, s.module = some m → m.time ≤ s.now + 1 := fun m hm => Nat.le_succ_of_le (h m hm)
    cases op with
    | generate c cpp => cases hm
    | changeC c => exact hold m hm
    | changeCpp cpp => exact hold m hm
    | clean => cases hm
    | build o =>
      have e : Build.step s (.build o) = (build { s with now := s.now + 1 } o).1 := rfl
      rw [e] at hm ⊢
      obtain ⟨b, l, _, hc | ⟨c, _, hc⟩⟩ := build_cases { s with now := s.now + 1 } o
      · rw [hc] at hm ⊢; exact hold m hm
      · rw [hc] at hm ⊢
        cases hm
        exact Nat.le_refl _

/-- **C80, changed bindings.** After any history from an empty directory: when the C++ sources are changed, the next build in which everything succeeds
leaves a module made of the sources in the directory. -/
theorem C80_changed (s : Dir) (h0 : s.module = none) (ops : List Op) (cpp : Nat) (o : Outcome) (hg : Good o) :
    Fresh (Build.run s (ops ++ [.changeCpp cpp, .build o])) := by
  have hp := run_past ops s (by rw [h0]; intro m hm; cases hm)
  have e : Build.run s (ops ++ [.changeCpp cpp, .build o]) =
      Build.step (Build.step (Build.run s ops) (.changeCpp cpp)) (.build o) := by simp [Build.run]
  rw [e]
  cases hm : (Build.run s ops).module with
  | none => exact (C80_partial (Build.step (Build.run s ops) (.changeCpp cpp)) o hg (Or.inl hm)).1
  | some m => exact (C80_bindings (Build.step (Build.run s ops) (.changeCpp cpp)) o hg m hm (Nat.lt_succ_of_le (hp m hm))).1

/-- **C80, nothing is made without CMake.** If no configuration since the code was generated succeeds, there is no module. -/
theorem C80_unconfigured (s : Dir) (ops : List Op) (c cpp : Nat) (os : List Outcome) (hos : ∀ o ∈ os, o.configure = false) :
    Missing (Build.run s (ops ++ .generate c cpp :: os.map .build)) := by
  have key : ∀ (os : List Outcome) (s : Dir), (∀ o ∈ os, o.configure = false) → s.configured = false → s.lib = none → s.module = none →
      (Build.run s (os.map .build)).module = none := by
    intro os
    induction os with
    | nil => intro s _ _ _ h; exact h
    | cons o os ih =>
      intro s ho h1 h2 h3
      have e : Build.step s (.build o) = { s with now := s.now + 1 } := by
        show (build { s with now := s.now + 1 } o).1 = _
        unfold build configure make extension skip
        simp [ho o (by simp), h1, h2, h3]
      have : Build.run s ((o :: os).map .build) = Build.run (Build.step s (.build o)) (os.map .build) := rfl
      rw [this, e]
      exact ih _ (fun o h => ho o (List.mem_cons_of_mem _ h)) h1 h2 h3
  have e : Build.run s (ops ++ .generate c cpp :: os.map .build) = Build.run (Build.step (Build.run s ops) (.generate c cpp)) (os.map .build) := by
    simp [Build.run]
  rw [e]
  exact key os _ hos rfl rfl rfl

/-- **C80 fails.** If a module is newer than the C++ sources, no build that is not forced changes it: after changing the C sources any number
of builds, all of them successful and without an error, leave the module made of the old sources. -/
theorem C80_fails (s : Dir) (m : Module) (hm : s.module = some m) (ht : s.cppTime ≤ m.time) (c : Nat) (hc : m.c ≠ c) (os : List Outcome)
    (hos : ∀ o ∈ os, o.force = false) :
    let t := Build.run s (.changeC c :: os.map .build)
    t.module = some m ∧ t.c = c ∧ ¬ Fresh t ∧ ¬ Missing t ∧ ∀ o : Outcome, o.force = false → (build t o).2 = none := by
  have one : ∀ (s : Dir) (o : Outcome), s.module = some m → s.cppTime ≤ m.time → o.force = false →
      (build s o).2 = none ∧ (build s o).1.module = some m ∧ (build s o).1.c = s.c ∧ (build s o).1.cppTime = s.cppTime := by
    intro s o h1 h2 h3
    unfold build
    obtain ⟨b, hb⟩ := configure_eq s o
    rw [hb]
    obtain ⟨l, hl, _⟩ := make_eq { s with configured := b } o
    rw [hl]
    unfold extension skip
    simp [h1, h2, h3]
  have key : ∀ (os : List Outcome) (s : Dir), s.module = some m → s.cppTime ≤ m.time → (∀ o ∈ os, o.force = false) →
      (Build.run s (os.map .build)).module = some m ∧ (Build.run s (os.map .build)).c = s.c ∧
      (Build.run s (os.map .build)).cppTime ≤ m.time := by
    intro os
    induction os with
    | nil => intro s h1 h2 _; exact ⟨h1, rfl, h2⟩
    | cons o os ih =>
      intro s h1 h2 h3
      obtain ⟨_, g2, g3, g4⟩ := one { s with now := s.now + 1 } o h1 h2 (h3 o List.mem_cons_self)
      obtain ⟨k1, k2, k3⟩ := ih (Build.step s (.build o)) g2 (by
        have : (Build.step s (.build o)).cppTime = s.cppTime := g4
        omega) fun o ho => h3 o (List.mem_cons_of_mem _ ho)
      exact ⟨k1, k2.trans g3, k3⟩
  intro t
  obtain ⟨k1, k2, k3⟩ := key os (Build.step s (.changeC c)) hm ht hos
  refine ⟨k1, k2, ?_, ?_, fun o ho => (one t o k1 k3 ho).1⟩
  · rintro ⟨m', h1, h2, _⟩
    have h1' : t.module = some m := k1
    rw [h1'] at h1
    cases h1
    exact hc (h2.trans k2)
  · intro h
    have h1' : t.module = some m := k1
    have h2' : t.module = none := h
    rw [h1'] at h2'
    cases h2'

/-- **C80 fails: libraries.** A build in which compiling the C sources fails and everything else succeeds links the old library: with no module
in the directory or forced it ends without an error and leaves a module made of the old C sources. -/
theorem C80_fails_make (s : Dir) (old : Nat) (hl : s.lib = some old) (hc : old ≠ s.c) (o : Outcome) (hm : o.make = false) (h1 : o.compile = true)
    (h2 : o.link = true) (hf : s.module = none ∨ o.force = true) :
    (build s o).2 = none ∧ ∃ m, (build s o).1.module = some m ∧ m.c = old ∧ ¬ Fresh (build s o).1 := by
  have e : ∃ b, make (configure s o) o = { s with configured := b } := by
    obtain ⟨b, hb⟩ := configure_eq s o
    refine ⟨b, ?_⟩
    rw [hb]
    unfold make
    simp [hm]
  obtain ⟨b, e⟩ := e
  unfold build
  rw [e]
  unfold extension skip
  dsimp only
  rcases hf with hf | hf
  · rw [hf, hl]; simp [h1, h2, Fresh, hc]
  · rw [hl]; cases s.module <;> simp [h1, h2, hf, Fresh, hc]

/-! Code 1 is generated and built, then the C sources are replaced by those of code 2. -/

def bGood : Outcome := ⟨true, true, true, true, false⟩
def bEmpty : Dir := ⟨0, 0, 0, false, none, none, 0⟩
def bBuilt : Dir := Build.run bEmpty [.generate 1 1, .build bGood]

example : Fresh bBuilt ∧ bBuilt.module = some ⟨1, 1, 2⟩ ∧ bBuilt.cppTime ≤ 2 := ⟨⟨_, rfl, rfl, rfl⟩, by decide, by decide⟩

/-- Both cases of `C80_generated` occur. -/
example : Missing (Build.run bEmpty ([.generate 1 1] ++ .generate 2 2 :: [{ bGood with make := false }].map .build)) ∧
    Fresh (Build.run bEmpty ([.generate 1 1] ++ .generate 2 2 :: [{ bGood with make := false }, bGood].map .build)) :=
  ⟨rfl, ⟨_, rfl, rfl, rfl⟩⟩

/-- The hypotheses of `C80_fails` hold, and builds are stale until the module is removed. -/
example : (Build.run bBuilt [.changeC 2, .build bGood, .build bGood]).module = some ⟨1, 1, 2⟩ ∧
    Fresh (Build.run bBuilt [.changeC 2, .build bGood, .clean, .build bGood]) ∧
    Fresh (Build.run bBuilt [.changeC 2, .changeCpp 2, .build bGood]) :=
  ⟨by decide, ⟨_, rfl, rfl, rfl⟩, ⟨_, rfl, rfl, rfl⟩⟩

/-- A build without CMake. -/
example : bEmpty.module = none ∧ Good bGood ∧ Missing (Build.run bEmpty [.generate 1 1, .build { bGood with configure := false }]) :=
  ⟨rfl, ⟨rfl, rfl, rfl, rfl⟩, rfl⟩

/-- The hypotheses of `C80_fails_make` hold. -/
example : let s := Build.run bBuilt [.changeC 2, .clean]
    s.lib = some 1 ∧ s.c = 2 ∧ s.module = none ∧ (build s { bGood with make := false }).2 = none ∧
    (build s { bGood with make := false }).1.module = some ⟨1, 1, 4⟩ := by decide

end Verif.Props
