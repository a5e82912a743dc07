import Verif.Props.Merge
/-! C25: exactly when the constant of the objective survives two-stage canonicalization. -/
namespace Verif.Props
open Verif.Model Verif.Model.Merge Verif.Spec Verif.Spec.Merge Verif.Lemmas Verif.Lemmas.Merge

variable {R : Type} [CommRing R] [DecidableEq R]

/-- **C25, constant of the objective (iff).** The objective of the intermediate problem has no constant. Whatever else the two stages are, for all values
of the parameters the merged code then has the constant zero, so that it agrees with direct canonicalization exactly for values for
which the user's objective has no constant either. -/
theorem C25_constant_iff {ps1 : List UParam} {maps1 : CId → Option (RawMap R)}
    (h1 : WFInput ps1 ids1 maps1) {ids2 : List CId} {maps2 : CId → Option (RawMap R)}
    {ps2 : List UParam} (h2 : WFInput ps2 ids2 maps2) (hf : Fits maps1 ids2 maps2 ps2)
    (hr : Reached ps1 maps1 ps2) (hz : ∀ θ2 : List R, θ2.length = totalSize ps2 → canonVal (maps2 .d) false θ2 = some [0]) :
    ∃ M, merge ps1 maps1 ids2 maps2 ps2 = .ok M ∧ ∀ θ : List R, θ.length = totalSize ps1 →
      mergedVal M .d θ = some [0] ∧
      (mergedVal M .d θ = canonVal (maps1 .d) false θ ↔ canonVal (maps1 .d) false θ = some [0]) := by
  obtain ⟨M, hM, hv⟩ := C25_composition h1 h2 hf hr
  refine ⟨M, hM, fun θ hθ => ?_⟩
  obtain ⟨θ2, hq, hc⟩ := hv θ hθ
  have h0 : mergedVal M .d θ = some [0] := (hc .d).trans (hz θ2 hq.length)
  exact ⟨h0, by rw [h0]; exact eq_comm⟩

/-- The hypothesis on the intermediate problem for the problem of `C25_fails_constant`. -/
example : ∀ θ2 : List Int, θ2.length = totalSize mgPs2 → canonVal (mgMaps2 .d) false θ2 = some [0] := by
  intro θ2 hl
  have h0 : canonVal (mgMaps2 .d) false θ2 = canonVal (mgMaps2 .d) false [0, 0, 0, 0, 0, 0] :=
    C07_constant_parameters_are_constant mgWF2 .d (by decide) _ _ hl (by decide)
  rw [h0]
  decide

end Verif.Props
