import Verif.Spec.GradFactor
import Mathlib.Algebra.BigOperators.Intervals
import Mathlib.Tactic.Ring
import Mathlib.Tactic.FieldSimp
import Mathlib.Tactic.Linarith
namespace Verif.Lemmas.Factor
open Verif.Model.Factor Verif.Spec.Factor Finset

variable {R : Type} [Field R] [DecidableEq R]

theorem loop_nil {a b : Nat} (h : b ≤ a) : loop a b = [] := by
  unfold loop; rw [show b - a = 0 by omega]; rfl

theorem loop_succ {a b : Nat} (h : a ≤ b) : loop a (b + 1) = loop a b ++ [b] := by
  unfold loop
  rw [show b + 1 - a = (b - a) + 1 by omega, List.range'_concat]
  congr 2; omega

theorem loop_cons {a b : Nat} (h : a < b) : loop a b = a :: loop (a + 1) b := by
  unfold loop
  rw [show b - a = (b - (a + 1)) + 1 by omega, List.range'_succ]

theorem mem_loop {a b k : Nat} : k ∈ loop a b ↔ a ≤ k ∧ k < b := by
  unfold loop
  rw [List.mem_range'_1]
  omega

/-- Induction over a loop: an invariant that holds initially and is kept by each iteration holds at
the end. -/
theorem loop_inv {S : Type} (f : S → Nat → S) (I : Nat → S → Prop) {a b : Nat} (hab : a ≤ b)
    (s : S) (h0 : I a s) (hstep : ∀ k s, a ≤ k → k < b → I k s → I (k + 1) (f s k)) :
    I b ((loop a b).foldl f s) := by
  obtain ⟨d, rfl⟩ : ∃ d, b = a + d := ⟨b - a, by omega⟩
  clear hab
  induction d with
  | zero => rw [loop_nil (by omega)]; exact h0
  | succ d ih =>
    rw [← Nat.add_assoc, loop_succ (by omega), List.foldl_append]
    exact hstep _ _ (by omega) (by omega) (ih (fun k s h1 h2 => hstep k s h1 (by omega)))

/-! ### `ldl` -/

theorem ldlDot_sum (L : Nat → Nat → R) (D : Nat → R) (i i' j : Nat) :
    ldlDot L D i i' j = ∑ k ∈ range j, L i k * (L i' k * D k) := by
  induction j with
  | zero => rfl
  | succ j ih => rw [ldlDot, sum_range_succ, ih]

/-- The inner loop: rows other than `i` stay, and the entries of row `i` satisfy their equation. -/
theorem ldlRow_spec (A : Nat → Nat → R) (D : Nat → R) (i : Nat) (L : Nat → Nat → R) :
    (∀ r c, r ≠ i ∨ i ≤ c → ldlRow A D i L r c = L r c) ∧
    ∀ j < i, ldlRow A D i L i j =
      (A i j - ∑ k ∈ range j, ldlRow A D i L i k * (L j k * D k)) / D j := by
  have := loop_inv (fun L j => upd2 L i j ((A i j - ldlDot L D i j j) / D j))
    (fun m L' => (∀ r c, r ≠ i ∨ m ≤ c → L' r c = L r c) ∧
      ∀ j < m, L' i j = (A i j - ∑ k ∈ range j, L' i k * (L j k * D k)) / D j)
    (a := 0) (b := i) (Nat.zero_le _) L ⟨fun _ _ _ => rfl, fun j hj => by omega⟩ ?_
  · exact this
  · rintro m L' - hm ⟨h1, h2⟩
    constructor
    · intro r c h
      unfold upd2
      rw [if_neg (by omega)]
      exact h1 r c (by omega)
    · intro j hj
      have hsum : ∀ j ≤ m, ∑ k ∈ range j, (upd2 L' i m ((A i m - ldlDot L' D i m m) / D m)) i k *
          (L j k * D k) = ∑ k ∈ range j, L' i k * (L j k * D k) := by
        intro j hj
        apply sum_congr rfl
        intro k hk
        have := mem_range.1 hk
        unfold upd2
        rw [if_neg (by omega)]
      rw [hsum j (by omega)]
      rcases Nat.lt_or_ge j m with h | h
      · unfold upd2
        rw [if_neg (by omega)]
        exact h2 j h
      · obtain rfl : j = m := by omega
        unfold upd2
        rw [if_pos ⟨rfl, rfl⟩, ldlDot_sum]
        congr 2
        apply sum_congr rfl
        intro k hk
        rw [h1 j k (by omega)]

/-- What holds after the rows `0..m-1` have been processed. -/
def LdlInv (A : Nat → Nat → R) (m : Nat) (s : (Nat → Nat → R) × (Nat → R)) : Prop :=
  (∀ r c, m ≤ r → s.1 r c = 0) ∧
  (∀ r < m, s.1 r r = 1) ∧ (∀ r c, r < c → s.1 r c = 0) ∧
  (∀ r < m, ∀ c < r, s.1 r c = (A r c - ∑ k ∈ range c, s.1 r k * (s.1 c k * s.2 k)) / s.2 c) ∧
  ∀ r < m, s.2 r = A r r - ∑ k ∈ range r, s.1 r k * (s.1 r k * s.2 k)

theorem ldl_inv (n : Nat) (A : Nat → Nat → R) : LdlInv A n (ldl n A) := by
  refine loop_inv (ldlStep A) (LdlInv A) (Nat.zero_le n) _ ?_ ?_
  · exact ⟨fun _ _ _ => rfl, fun r h => by omega, fun _ _ _ => rfl, fun r h => by omega,
      fun r h => by omega⟩
  · rintro m ⟨L, D⟩ - hm ⟨h1, h2, h3, h4, h5⟩
    simp only at h1 h2 h3 h4 h5
    obtain ⟨r1, r2⟩ := ldlRow_spec A D m L
    have hL : ∀ r c, (r ≠ m ∨ m < c) → (ldlStep A (L, D) m).1 r c = L r c := by
      intro r c h
      simp only [ldlStep, upd2]
      rw [if_neg (by omega)]
      exact r1 r c (by omega)
    have hLm : ∀ c < m, (ldlStep A (L, D) m).1 m c = ldlRow A D m L m c := by
      intro c h
      simp only [ldlStep, upd2]
      rw [if_neg (by omega)]
    have hD : ∀ r, r ≠ m → (ldlStep A (L, D) m).2 r = D r := by
      intro r h
      simp only [ldlStep, upd]
      rw [if_neg h]
    refine ⟨?_, ?_, ?_, ?_, ?_⟩
    · intro r c h
      rw [hL r c (by omega)]
      exact h1 r c (by omega)
    · intro r h
      rcases Nat.lt_or_ge r m with h' | h'
      · rw [hL r r (by omega)]; exact h2 r h'
      · obtain rfl : r = m := by omega
        simp [ldlStep, upd2]
    · intro r c h
      rcases Nat.lt_or_ge m c with h' | h'
      · rw [hL r c (by omega)]; exact h3 r c h
      · rw [hL r c (by omega)]; exact h3 r c h
    · intro r hr c hc
      have hsum : ∑ k ∈ range c, (ldlStep A (L, D) m).1 r k * ((ldlStep A (L, D) m).1 c k *
          (ldlStep A (L, D) m).2 k) = ∑ k ∈ range c, (ldlStep A (L, D) m).1 r k * (L c k * D k) := by
        apply sum_congr rfl
        intro k hk
        have := mem_range.1 hk
        rw [hL c k (by omega), hD k (by omega)]
      rw [hsum, hD c (by omega)]
      rcases Nat.lt_or_ge r m with h' | h'
      · rw [hL r c (by omega), h4 r h' c hc]
        congr 2
        apply sum_congr rfl
        intro k hk
        rw [hL r k (by omega)]
      · obtain rfl : r = m := by omega
        rw [hLm c hc, r2 c hc]
        congr 2
        apply sum_congr rfl
        intro k hk
        have := mem_range.1 hk
        rw [hLm k (by omega)]
    · intro r hr
      rcases Nat.lt_or_ge r m with h' | h'
      · rw [hD r (by omega), h5 r h']
        congr 1
        apply sum_congr rfl
        intro k hk
        have := mem_range.1 hk
        rw [hL r k (by omega), hD k (by omega)]
      · obtain rfl : r = m := by omega
        have : (ldlStep A (L, D) r).2 r = A r r - ldlDot (ldlRow A D r L) D r r r := by
          simp [ldlStep, upd]
        rw [this, ldlDot_sum]
        congr 1
        apply sum_congr rfl
        intro k hk
        have := mem_range.1 hk
        rw [hLm k (by omega), hD k (by omega)]

end Verif.Lemmas.Factor
