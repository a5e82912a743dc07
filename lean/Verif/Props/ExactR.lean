import Verif.Props.Kinds
import Verif.Props.Again
/-!
# C58, C100: exactly when all generated files treat numbers and arrays alike, and which solvers need nothing from their library
-/
namespace Verif.Props
open Verif.Model Verif.Model.Kinds Verif.Spec Verif.Lemmas Verif.Lemmas.Explicit Verif.Model.Explicit

/-- **C58, exactly.** All files together are consistent exactly if no parameter is a number in the library but not in the problem or the other way
round, and no derivatives are generated for a problem with a variable of size one. -/
theorem C58_iff (c : Cfg) (p : Problem) (h : p.WF) (vs : List PVar) (hv : p.vars.mapM pvar = .ok vs) :
    Consistent (decls c vs p.duals p.params)
      (wsUses c vs p.duals ++ solveUses c vs p.duals ++ moduleUses c vs p.duals p.params ++ exampleUses c vs p.duals p.params) ↔
    (∀ q ∈ p.params, q.full = 1 ↔ q.usp = 1) ∧ (c.gradient = true → ∀ v ∈ p.vars, v.size ≠ 1) := by
  rw [consistent_append, C58_example_partial c p h vs hv]
  exact and_iff_right (C58_partial c p h vs hv)

/-- A problem with a number and a vector as variables, without and with derivatives. -/
example (c : Cfg) : Consistent (decls c [⟨"t", 1, 1, 1, 1, false⟩, ⟨"x", 3, 3, 3, 3, false⟩] exProblem.duals exProblem.params)
      (wsUses c [⟨"t", 1, 1, 1, 1, false⟩, ⟨"x", 3, 3, 3, 3, false⟩] exProblem.duals ++
        solveUses c [⟨"t", 1, 1, 1, 1, false⟩, ⟨"x", 3, 3, 3, 3, false⟩] exProblem.duals ++
        moduleUses c [⟨"t", 1, 1, 1, 1, false⟩, ⟨"x", 3, 3, 3, 3, false⟩] exProblem.duals exProblem.params ++
        exampleUses c [⟨"t", 1, 1, 1, 1, false⟩, ⟨"x", 3, 3, 3, 3, false⟩] exProblem.duals exProblem.params) ↔ c.gradient = false := by
  rw [C58_iff c exProblem exProblem_wf _ exProblem_vars]
  constructor
  · rintro ⟨_, h⟩
    cases hg : c.gradient with
    | false => rfl
    | true => exact absurd (h hg ⟨"t", [], false, 0⟩ (by simp [exProblem])) (by decide)
  · intro hg
    exact ⟨by decide, fun h => absurd (hg.symm.trans h) (by decide)⟩

section
open Verif.Model.Memory Verif.Model.Settings Verif.Spec.Settings Verif.Model.Again Verif.Spec.Again
variable {Θ V Act S : Type}

/-- **C100, exactly.** Results are repeatable whatever the library does exactly with Clarabel (for SCS, if its workspace is kept between some
solves). -/
theorem C100_iff {k : Model.Kind} {quad lp : Bool} {b : CId → Bool} (hkept : Kept k quad b) {g : Gen Θ V Act}
    (hg : Generated k quad lp b g) (e : Env S) (on : S → Bool) (order : List CId → List CId) (horder : ∀ l, (order l).Perm l) (junk : CId → V) :
    (∀ lib : Lib V S Nat Nat, Repeatable k quad lp g e on lib 0 order junk) ↔ k = .clarabel := by
  constructor
  · intro h
    by_contra hk
    exact C100_fails hk hkept hg e on order horder junk (h counting)
  · rintro rfl lib
    exact C100_clarabel hg e on lib 0 order horder junk

/-- Problems with constant data for QOCO and Clarabel. -/
example : (¬ ∀ lib : Lib Int Int Nat Nat, Repeatable .qoco true false (exConst .qoco) exSet (· != 0) lib 0 id (fun _ => 0)) ∧
    ∀ lib : Lib Int Int Nat Nat, Repeatable .clarabel true false (exConst .clarabel) exSet (· != 0) lib 0 id (fun _ => 0) := by
  have hp : ∀ l : List CId, (id l).Perm l := fun l => List.Perm.refl l
  rw [C100_iff (fun h => by cases h) (exConst_generated .qoco (by simp)) _ _ id hp _,
    C100_iff (fun h => by cases h) (exConst_generated .clarabel (by simp)) _ _ id hp _]
  exact ⟨by decide, rfl⟩

end

end Verif.Props
