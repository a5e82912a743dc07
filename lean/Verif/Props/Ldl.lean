import Verif.Lemmas.Ldl
import Mathlib.Algebra.Order.Ring.Rat
/-!
C36: `utils.ldl` factorizes.
-/
namespace Verif.Props
open Verif.Model.Factor Verif.Spec.Factor Verif.Lemmas.Factor Finset

/-- `utils.ldl` returns a unit lower triangular `L` and `D` with `L diag(D) Lᵀ = A`, for every
symmetric matrix over any field whose computed pivots (all but the last) are nonzero. -/
theorem C36_ldl {R : Type} [Field R] [DecidableEq R] (n : Nat) (A : Nat → Nat → R)
    (hsym : ∀ r < n, ∀ c < n, A r c = A c r) (hpiv : ∀ t, t + 1 < n → (ldl n A).2 t ≠ 0) :
    UnitLower n (ldl n A).1 ∧ IsLDL n (ldl n A).1 (ldl n A).2 A := by
  obtain ⟨h1, h2, h3, h4, h5⟩ := ldl_inv n A
  refine ⟨⟨h2, fun r _ c _ h => h3 r c h⟩, ?_⟩
  -- it is enough to consider the lower triangle
  have low : ∀ r < n, ∀ c ≤ r, ∑ t ∈ range n, (ldl n A).1 r t * (ldl n A).2 t * (ldl n A).1 c t =
      A r c := by
    intro r hr c hc
    have hsplit : ∑ t ∈ range n, (ldl n A).1 r t * (ldl n A).2 t * (ldl n A).1 c t =
        ∑ t ∈ range (c + 1), (ldl n A).1 r t * (ldl n A).2 t * (ldl n A).1 c t := by
      symm
      apply sum_subset (range_mono (by omega))
      intro t ht ht'
      have a1 := mem_range.1 ht
      have a2 : ¬ t < c + 1 := fun h => ht' (mem_range.2 h)
      rw [h3 c t (by omega), mul_zero]
    rw [hsplit, sum_range_succ, h2 c (by omega), mul_one]
    rcases Nat.lt_or_ge c r with h | h
    · rw [h4 r hr c h, div_mul_cancel₀ _ (hpiv c (by omega))]
      rw [← sub_eq_zero]
      have : ∑ x ∈ range c, (ldl n A).1 r x * (ldl n A).2 x * (ldl n A).1 c x =
          ∑ k ∈ range c, (ldl n A).1 r k * ((ldl n A).1 c k * (ldl n A).2 k) :=
        sum_congr rfl (fun k _ => by ring)
      rw [this]; ring
    · obtain rfl : c = r := by omega
      rw [h2 c hr, one_mul, h5 c hr]
      have : ∑ x ∈ range c, (ldl n A).1 c x * (ldl n A).2 x * (ldl n A).1 c x =
          ∑ k ∈ range c, (ldl n A).1 c k * ((ldl n A).1 c k * (ldl n A).2 k) :=
        sum_congr rfl (fun k _ => by ring)
      rw [this]; ring
  intro r hr c hc
  rcases Nat.le_total c r with h | h
  · exact low r hr c h
  · rw [hsym r hr c hc, ← low c hc r h]
    exact sum_congr rfl (fun k _ => by ring)

/-- The hypotheses are met by an indefinite matrix. -/
example : (∀ r < 2, ∀ c < 2, (fun r c => if r = c then (if r = 0 then (2 : ℚ) else -3) else 1) r c =
      (fun r c => if r = c then (if r = 0 then (2 : ℚ) else -3) else 1) c r) ∧
    ∀ t, t + 1 < 2 → (ldl 2 (fun r c => if r = c then (if r = 0 then (2 : ℚ) else -3) else 1)).2 t ≠ 0
    := by
  constructor
  · decide
  · intro t ht
    obtain rfl : t = 0 := by omega
    simp [ldl, loop, ldlStep, ldlRow, ldlDot, upd, List.range']

end Verif.Props
