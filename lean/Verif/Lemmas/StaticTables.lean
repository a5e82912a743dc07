import Verif.Lemmas.Refine
/-!
Static checks of the solver tables, evaluated for every pattern of changing parameters.
-/
namespace Verif.Lemmas
open Verif.Model Verif.Spec

/-- A change pattern with the Booleans spelled out. -/
def pat (P q c d A b l u G h : Bool) : CId → Bool
  | .P => P | .q => q | .c => c | .d => d | .A => A | .b => b | .l => l | .u => u | .G => G | .h => h
  | _ => false

/-- All patterns that a solver can distinguish. -/
abbrev AllPats (k : Kind) (chk : (CId → Bool) → Prop) : Prop :=
  match k with
  | .osqp => ∀ P q d A l u, chk (pat P q false d A false l u false false)
  | .scs => ∀ P c d A b, chk (pat P false c d A b false false false false)
  | .ecos => ∀ c d A b G h, chk (pat false false c d A b false false G h)
  | .clarabel => ∀ P q d A b, chk (pat P q false d A b false false false false)
  | .qocogen | .qoco => ∀ P c d A b G h, chk (pat P false c d A b false false G h)

/-- A static check that holds for all explicit patterns holds for all patterns. -/
theorem forall_changes (k : Kind) (quad : Bool) (chk : Changes → Prop)
    (h : AllPats k fun p => chk (changesOf (k.canonIds quad) p))
    (b : CId → Bool) : chk (changesOf (k.canonIds quad) b) := by
  have key : ∀ b' : CId → Bool, chk (changesOf (k.canonIds quad) b') →
      (∀ p ∈ k.canonIds quad, b' p = b p) → chk (changesOf (k.canonIds quad) b) := by
    intro b' h' hb
    suffices hs : changesOf (k.canonIds quad) b' = changesOf (k.canonIds quad) b by rwa [← hs]
    funext p
    unfold changesOf
    split
    · rename_i hp; rw [hb p (by simpa using hp)]
    · rfl
  cases k
  · exact key _ (h (b .P) (b .q) (b .d) (b .A) (b .l) (b .u))
      (by cases quad <;> simp [Kind.canonIds, pat])
  · exact key _ (h (b .P) (b .c) (b .d) (b .A) (b .b))
      (by cases quad <;> simp [Kind.canonIds, pat])
  · exact key _ (h (b .c) (b .d) (b .A) (b .b) (b .G) (b .h))
      (by cases quad <;> simp [Kind.canonIds, pat])
  · exact key _ (h (b .P) (b .q) (b .d) (b .A) (b .b))
      (by cases quad <;> simp [Kind.canonIds, pat])
  · exact key _ (h (b .P) (b .c) (b .d) (b .A) (b .b) (b .G) (b .h))
      (by cases quad <;> simp [Kind.canonIds, pat])
  · exact key _ (h (b .P) (b .c) (b .d) (b .A) (b .b) (b .G) (b .h))
      (by cases quad <;> simp [Kind.canonIds, pat])

/-- All table conditions hold for every solver, mode and pattern. -/
theorem static_all (k : Kind) (quad lp : Bool) (hk : k.possible quad lp = true) (b : CId → Bool) :
    staticOK (k.solver quad lp) quad (changesOf (k.canonIds quad) b) = true := by
  refine forall_changes k quad (fun ch => staticOK (k.solver quad lp) quad ch = true) ?_ b
  revert k quad lp
  intro k
  cases k <;> decide +kernel

end Verif.Lemmas
