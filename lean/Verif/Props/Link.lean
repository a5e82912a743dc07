import Verif.Model.Link
/-!
# C104: the Python extension is linked with the libraries that the generated code needs
-/
namespace Verif.Props
open Verif.Model Verif.Model.Dispatch Verif.Model.Link

/-- The extension can be linked and imported: `setup.py` knows the machine, every library that the target `cpg` needs is one of the files that
are handed to the linker, and all these files exist after the build of the C code. -/
def LinksAll (i : Iface) (psd : List Nat) (g b : Machine) : Prop :=
  ∃ objs, objects i g b = some objs ∧ (∀ l ∈ required i psd, ∃ p, built b l = some p ∧ p ∈ objs) ∧
    (∀ p ∈ objs, ∃ l ∈ required i psd, built b l = some p)

theorem required_linear (i : Iface) (psd : List Nat) : required i psd = if psd = [] then required i [] else required i [0] := by
  cases psd with
  | nil => rfl
  | cons a l => cases i <;> simp [required, linkLibs]

instance (i : Iface) (psd : List Nat) (g b : Machine) : Decidable (LinksAll i psd g b) :=
  match h : objects i g b with
  | none => .isFalse fun ⟨o, ho, _⟩ => by rw [h] at ho; cases ho
  | some objs =>
    decidable_of_iff ((∀ l ∈ required i psd, built b l ∈ objs.map some) ∧ (∀ p ∈ objs, some p ∈ (required i psd).map (built b))) (by
      simp only [LinksAll, h, Option.some_inj, List.mem_map]
      constructor
      · rintro ⟨h1, h2⟩
        refine ⟨objs, rfl, fun l hl => ?_, fun p hp => ?_⟩
        · obtain ⟨p, hp, he⟩ := h1 l hl
          exact ⟨p, he.symm, hp⟩
        · obtain ⟨l, hl, he⟩ := h2 p hp
          exact ⟨l, hl, he⟩
      · rintro ⟨o, rfl, h1, h2⟩
        refine ⟨fun l hl => ?_, fun p hp => ?_⟩
        · obtain ⟨p, he, hp⟩ := h1 l hl
          exact ⟨p, hp, he.symm⟩
        · obtain ⟨l, hl, he⟩ := h2 p hp
          exact ⟨l, hl, he⟩)

/-- **C104, exactly.** For every solver that is accepted where the code is generated: the extension is complete on the machine where it is built
exactly if this runs Windows, Linux or macOS and the solver is not Clarabel, or it is Clarabel, there are no semidefinite cones, the machine does not run Windows, and both machines are
Macs with Apple processors or none of them is. -/
theorem C104_iff (i : Iface) (psd : List Nat) (g b : Machine) (_hg : accepted i g = true) :
    LinksAll i psd g b ↔ b ≠ .other ∧ (i = .clarabel → psd = [] ∧ b ≠ .windows ∧ (g = .mac true ↔ b = .mac true)) := by
  have key : ∀ psd' : List Nat, (psd' = [] ∨ psd' = [0]) →
      (LinksAll i psd' g b ↔ b ≠ .other ∧ (i = .clarabel → psd' = [] ∧ b ≠ .windows ∧ (g = .mac true ↔ b = .mac true))) := by
    rintro psd' (rfl | rfl)
    all_goals
      cases i <;> rcases g with _ | _ | _ | _ <;> rcases b with _ | _ | _ | _ <;> first | decide | (rename_i x; cases x <;> first | decide | (rename_i y; cases y <;> decide))
  have hr := required_linear i psd
  by_cases hp : psd = []
  · exact key psd (.inl hp)
  · rw [if_neg hp] at hr
    have h1 := key [0] (.inr rfl)
    unfold LinksAll at h1 ⊢
    rw [hr, h1]
    simp [hp]

/-- **C104, built where it was generated** (missing: semidefinite cones with Clarabel) On Windows, Linux and macOS the extension is complete for every solver
accepted there, if Clarabel is not used for semidefinite cones. -/
theorem C104_partial (i : Iface) (psd : List Nat) (m : Machine) (hm : m ≠ .other) (ha : accepted i m = true) (hp : i = .clarabel → psd = []) :
    LinksAll i psd m m := by
  rw [C104_iff i psd m m ha]
  refine ⟨hm, fun hi => ⟨hp hi, ?_, Iff.rfl⟩⟩
  rintro rfl
  subst hi
  cases ha

/-- **C104 fails for semidefinite cones.** Clarabel then needs BLAS and LAPACK: `c/CMakeLists.txt` links them with the example program, `setup.py` does not
name them, on any machine. -/
theorem C104_fails_semidefinite (psd : List Nat) (hp : psd ≠ []) (g b : Machine) :
    Lib.blas ∈ required .clarabel psd ∧ Lib.lapack ∈ required .clarabel psd ∧ built b .blas = none ∧ built b .lapack = none ∧ ¬ LinksAll .clarabel psd g b := by
  have h0 : 0 < psd.length := List.length_pos_iff.2 hp
  refine ⟨by simp [required, linkLibs, h0], by simp [required, linkLibs, h0], rfl, rfl, ?_⟩
  rintro ⟨o, -, h, -⟩
  obtain ⟨p, hp, -⟩ := h .blas (by simp [required, linkLibs, h0])
  cases hp

/-- **C104 fails for code built elsewhere.** The place of Clarabel's library is decided where the code is generated. -/
theorem C104_fails_elsewhere : ¬ LinksAll .clarabel [] (.mac true) .linux ∧ ¬ LinksAll .clarabel [] .linux (.mac true) ∧
    ¬ LinksAll .clarabel [] .linux .windows ∧ (∀ i, i ≠ .clarabel → ∀ psd g b, b ≠ .other → LinksAll i psd g b) := by
  refine ⟨by decide, by decide, by decide, fun i hi psd g b hb => ?_⟩
  rw [C104_iff i psd g b (by simp [accepted, hi])]
  exact ⟨hb, fun h => absurd h hi⟩

/-- Hypotheses are met: all solvers, on their machines. -/
example : accepted .clarabel .linux = true ∧ LinksAll .clarabel [] (.mac true) (.mac true) ∧ LinksAll .qoco [3] .windows .linux ∧
    accepted .clarabel .windows = false ∧ objects .qoco .linux .windows
      = some [["build", "out", "Release", "cpg.lib"], ["build", "out", "Release", "qocostatic.lib"]] := by decide

end Verif.Props
