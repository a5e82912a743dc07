import Verif.Spec.GradFactor
import Mathlib.Algebra.BigOperators.Intervals
import Mathlib.Algebra.BigOperators.Ring.Finset
import Mathlib.Algebra.Order.BigOperators.Group.Finset
import Mathlib.Algebra.Order.BigOperators.Ring.Finset
import Mathlib.Tactic.Ring
import Mathlib.Tactic.FieldSimp
import Mathlib.Tactic.Linarith
import Mathlib.Tactic.LinearCombination
namespace Verif.Lemmas.Factor
open Verif.Model.Factor Verif.Spec.Factor Finset

variable {R : Type} [Field R]

/-! ### back substitution -/

/-- A unit lower triangular system can be solved from below: there is a vector with last entry one
that is orthogonal to the first columns. -/
theorem backsub (L : Nat → Nat → R) (j : Nat) (h1 : ∀ r ≤ j, L r r = 1)
    (h2 : ∀ r c, r < c → c ≤ j → L r c = 0) :
    ∃ v : Nat → R, v j = 1 ∧ ∀ t < j, ∑ r ∈ range (j + 1), L r t * v r = 0 := by
  have key : ∀ d ≤ j, ∃ v : Nat → R, v j = 1 ∧
      ∀ t, j - d ≤ t → t < j → ∑ r ∈ range (j + 1), L r t * v r = 0 := by
    intro d
    induction d with
    | zero => intro _; exact ⟨fun _ => 1, rfl, fun t h h' => by omega⟩
    | succ d ih =>
      intro hd
      obtain ⟨v, hv, hs⟩ := ih (by omega)
      -- the row whose entry is chosen now
      obtain ⟨s, hs'⟩ : ∃ s, s = j - (d + 1) := ⟨_, rfl⟩
      refine ⟨fun r => if r = s then v s - ∑ r ∈ range (j + 1), L r s * v r else v r, ?_, ?_⟩
      · simp only
        rw [if_neg (by omega)]; exact hv
      · intro t ht htj
        have hexp : ∀ r ∈ range (j + 1), L r t * (if r = s then
            v s - ∑ r ∈ range (j + 1), L r s * v r else v r) = L r t * v r +
            (if r = s then - (L s t * ∑ r ∈ range (j + 1), L r s * v r) else 0) := by
          intro r _
          by_cases h : r = s
          · rw [if_pos h, if_pos h, h]; ring
          · rw [if_neg h, if_neg h, add_zero]
        simp only
        rw [sum_congr rfl hexp, sum_add_distrib, sum_ite_eq' (range (j + 1)) s,
          if_pos (mem_range.2 (by omega))]
        rcases Nat.lt_or_ge s t with h | h
        · rw [h2 s t h (by omega), zero_mul, neg_zero, add_zero]
          exact hs t (by omega) htj
        · obtain rfl : t = s := by omega
          rw [h1 t (by omega)]; ring
  obtain ⟨v, hv, h⟩ := key j (Nat.le_refl _)
  exact ⟨v, hv, fun t ht => h t (by omega) ht⟩

/-- Partial factorization `M = Σ_{t<j} L_t D_t L_tᵀ + Rest`: there is a vector with last entry one
which `M` maps to a multiple of the last unit vector, namely the pivot. -/
theorem pivot_vector (L : Nat → Nat → R) (D : Nat → R) (M Rest : Nat → Nat → R) (j : Nat)
    (h1 : ∀ r ≤ j, L r r = 1) (h2 : ∀ r c, r < c → c ≤ j → L r c = 0)
    (hM : ∀ r ≤ j, ∀ c ≤ j, M r c = ∑ t ∈ range j, L r t * D t * L c t + Rest r c)
    (hR : ∀ r c, r < j ∨ c < j → Rest r c = 0) :
    ∃ v : Nat → R, v j = 1 ∧ (∀ i < j, ∑ c ∈ range (j + 1), M i c * v c = 0) ∧
      ∑ c ∈ range (j + 1), M j c * v c = Rest j j := by
  obtain ⟨v, hv, hs⟩ := backsub L j h1 h2
  have key : ∀ i ≤ j, ∑ c ∈ range (j + 1), M i c * v c = Rest i j := by
    intro i hi
    have e1 : ∀ c ∈ range (j + 1), M i c * v c =
        ∑ t ∈ range j, L i t * D t * (L c t * v c) + Rest i c * v c := by
      intro c hc
      rw [hM i hi c (by have := mem_range.1 hc; omega), add_mul, sum_mul]
      congr 1
      exact sum_congr rfl (fun t _ => by ring)
    rw [sum_congr rfl e1, sum_add_distrib, sum_comm]
    have e2 : ∑ t ∈ range j, ∑ c ∈ range (j + 1), L i t * D t * (L c t * v c) = 0 := by
      apply sum_eq_zero
      intro t ht
      rw [← mul_sum, hs t (mem_range.1 ht), mul_zero]
    rw [e2, zero_add, sum_range_succ, hv, mul_one]
    rw [sum_eq_zero (fun c hc => by rw [hR i c (Or.inr (mem_range.1 hc)), zero_mul]), zero_add]
  exact ⟨v, hv, fun i hi => by rw [key i (by omega), hR i j (Or.inl hi)], key j (Nat.le_refl _)⟩

/-! ### sign of the pivots -/

variable [LinearOrder R] [IsStrictOrderedRing R]

/-- The structure of a quasi-definite matrix with diagonal lower block. -/
structure QD (n N : Nat) (M : Nat → Nat → R) : Prop where
  nN : n ≤ N
  sym : ∀ r < N, ∀ c < N, M r c = M c r
  psd : ∀ x : Nat → R, 0 ≤ ∑ r ∈ range n, ∑ c ∈ range n, x r * M r c * x c
  offdiag : ∀ r c, n ≤ r → r < c → c < N → M r c = 0
  neg : ∀ r, n ≤ r → r < N → M r r < 0

/-- The pivots belonging to the lower block are negative. -/
theorem pivot_neg {n N : Nat} {M : Nat → Nat → R} (hQ : QD n N M) (L : Nat → Nat → R) (D : Nat → R)
    (Rest : Nat → Nat → R) (j : Nat) (hnj : n ≤ j) (hjN : j < N)
    (h1 : ∀ r ≤ j, L r r = 1) (h2 : ∀ r c, r < c → c ≤ j → L r c = 0)
    (hM : ∀ r ≤ j, ∀ c ≤ j, M r c = ∑ t ∈ range j, L r t * D t * L c t + Rest r c)
    (hR : ∀ r c, r < j ∨ c < j → Rest r c = 0) : Rest j j < 0 := by
  obtain ⟨v, hv, hz, hj⟩ := pivot_vector L D M Rest j h1 h2 hM hR
  -- the top part of the quadratic form
  have split : ∀ f : Nat → R, ∑ c ∈ range (j + 1), f c = ∑ c ∈ range n, f c + ∑ c ∈ Ico n (j + 1), f c
    := fun f => by rw [range_eq_Ico, range_eq_Ico, sum_Ico_consecutive f (by omega) (by omega)]
  have htop : ∑ i ∈ range n, v i * ∑ c ∈ range (j + 1), M i c * v c = 0 :=
    sum_eq_zero (fun i hi => by rw [hz i (by have := mem_range.1 hi; omega), mul_zero])
  have hbot : ∑ i ∈ Ico n (j + 1), v i * ∑ c ∈ range (j + 1), M i c * v c = Rest j j := by
    rw [sum_Ico_succ_top hnj, hj, hv, one_mul]
    rw [sum_eq_zero (fun i hi => by rw [hz i (by have := mem_Ico.1 hi; omega), mul_zero]), zero_add]
  have htop2 : ∑ i ∈ range n, ∑ c ∈ range n, v i * M i c * v c +
      ∑ i ∈ range n, ∑ c ∈ Ico n (j + 1), v i * M i c * v c = 0 := by
    rw [← htop, ← sum_add_distrib]
    apply sum_congr rfl
    intro i _
    rw [split, mul_add, mul_sum, mul_sum]
    congr 1 <;> exact sum_congr rfl (fun c _ => by ring)
  have hbot2 : Rest j j = ∑ i ∈ range n, ∑ c ∈ Ico n (j + 1), v i * M i c * v c +
      ∑ i ∈ Ico n (j + 1), M i i * (v i * v i) := by
    rw [← hbot, sum_comm (s := range n), ← sum_add_distrib]
    apply sum_congr rfl
    intro i hi
    have hi' := mem_Ico.1 hi
    rw [split, mul_add, mul_sum, mul_sum]
    congr 1
    · apply sum_congr rfl
      intro c hc
      have := mem_range.1 hc
      rw [hQ.sym i (by omega) c (by omega)]; ring
    · rw [sum_eq_single i]
      · ring
      · intro c hc hne
        have hc' := mem_Ico.1 hc
        rcases Nat.lt_or_gt_of_ne hne with h | h
        · rw [hQ.sym i (by omega) c (by omega), hQ.offdiag c i (by omega) h (by omega)]; ring
        · rw [hQ.offdiag i c (by omega) h (by omega)]; ring
      · intro h; exact absurd hi h
  have hdiag : ∑ i ∈ Ico n (j + 1), M i i * (v i * v i) < 0 := by
    rw [sum_Ico_succ_top hnj, hv]
    have hn := hQ.neg j hnj hjN
    have : ∑ i ∈ Ico n j, M i i * (v i * v i) ≤ 0 := by
      apply sum_nonpos
      intro i hi
      have hi' := mem_Ico.1 hi
      exact mul_nonpos_of_nonpos_of_nonneg (le_of_lt (hQ.neg i hi'.1 (by omega))) (mul_self_nonneg _)
    linarith
  have hpsd := hQ.psd v
  linarith

/-- Decoupling constraints keeps the structure. -/
theorem decoupled_qd {n N : Nat} {K : CscL R} (hK : QuasiDef n N K) (act : Nat → Prop)
    [DecidablePred act] (hact : ∀ r < n, act r) : QD n N (decoupled (symOf K) act) := by
  refine ⟨hK.nN, ?_, ?_, ?_, ?_⟩
  · intro r _ c _
    unfold decoupled symOf
    by_cases h : act r ∧ act c
    · rw [if_pos h, if_pos h.symm]
      by_cases h1 : r ≤ c
      · by_cases h2 : c ≤ r
        · obtain rfl : r = c := by omega
          rfl
        · rw [if_pos h1, if_neg h2]
      · rw [if_neg h1, if_pos (by omega)]
    · rw [if_neg h, if_neg (show ¬ (act c ∧ act r) from fun h' => h h'.symm)]
      by_cases h1 : r = c
      · rw [if_pos h1, if_pos h1.symm]
      · rw [if_neg h1, if_neg (fun h' => h1 h'.symm)]
  · intro x
    refine le_of_le_of_eq (hK.psd x) ?_
    apply sum_congr rfl
    intro r hr
    apply sum_congr rfl
    intro c hc
    unfold decoupled
    rw [if_pos ⟨hact r (mem_range.1 hr), hact c (mem_range.1 hc)⟩]
  · intro r c h1 h2 h3
    unfold decoupled
    by_cases h : act r ∧ act c
    · rw [if_pos h]
      unfold symOf
      rw [if_pos (by omega)]
      exact hK.offdiag r c h1 h2 h3
    · rw [if_neg h, if_neg (by omega)]
  · intro r h1 h2
    unfold decoupled
    by_cases h : act r ∧ act r
    · rw [if_pos h]
      unfold symOf
      rw [if_pos (by omega)]
      exact hK.neg r h1 h2
    · rw [if_neg h, if_pos rfl]
      exact neg_one_lt_zero

/-! ### a complete factorization -/

/-- The pivots of a complete factorization that belong to the lower block are negative. -/
theorem factor_neg {n N : Nat} {M : Nat → Nat → R} (hQ : QD n N M) {L : Nat → Nat → R} {D : Nat → R}
    (hL : UnitLower N L) (hF : IsLDL N L D M) {j : Nat} (hnj : n ≤ j) (hjN : j < N) : D j < 0 := by
  have := pivot_neg hQ L D (fun r c => ∑ t ∈ Ico j N, (if r < t ∨ c < t then 0 else
      if r < j ∨ c < j then 0 else L r t * D t * L c t)) j hnj hjN
    (fun r hr => hL.1 r (by omega)) (fun r c h1 h2 => hL.2 r (by omega) c (by omega) h1) ?_ ?_
  · rw [sum_eq_single j] at this
    · rw [if_neg (by omega), if_neg (by omega), hL.1 j hjN] at this
      linarith
    · intro t ht hne
      have := mem_Ico.1 ht
      rw [if_pos (by omega)]
    · intro h
      exact absurd (mem_Ico.2 ⟨Nat.le_refl _, hjN⟩) h
  · intro r hr c hc
    rw [← hF r (by omega) c (by omega), range_eq_Ico, range_eq_Ico,
      ← sum_Ico_consecutive _ (Nat.zero_le j) (show j ≤ N by omega)]
    congr 1
    apply sum_congr rfl
    intro t ht
    have ht' := mem_Ico.1 ht
    by_cases h : r < t ∨ c < t
    · rw [if_pos h]
      rcases h with h | h
      · rw [hL.2 r (by omega) t (by omega) h]; ring
      · rw [hL.2 c (by omega) t (by omega) h]; ring
    · rw [if_neg h, if_neg (by omega)]
  · intro r c h
    apply sum_eq_zero
    intro t ht
    rw [if_pos h]
    split <;> rfl

omit [LinearOrder R] [IsStrictOrderedRing R] in
/-- Truncation of the sum at the smaller index. -/
theorem ldl_trunc {N : Nat} {L : Nat → Nat → R} {D : Nat → R} (hL : UnitLower N L) {r c m : Nat}
    (hr : r < N) (hc : c < N) (hm : m ≤ N) (h : r < m ∨ c < m) :
    ∑ t ∈ range N, L r t * D t * L c t = ∑ t ∈ range m, L r t * D t * L c t := by
  symm
  apply sum_subset (range_mono hm)
  intro t ht ht'
  have a1 := mem_range.1 ht
  have a2 : ¬ t < m := fun h => ht' (mem_range.2 h)
  rcases h with h | h
  · rw [hL.2 r hr t a1 (by omega)]; ring
  · rw [hL.2 c hc t a1 (by omega)]; ring

omit [LinearOrder R] [IsStrictOrderedRing R] in
/-- In a factorization of a matrix with a decoupled row, the factor has that row decoupled too. -/
theorem decoupled_row {N : Nat} {M L : Nat → Nat → R} {D : Nat → R} (hL : UnitLower N L)
    (hF : IsLDL N L D M) (hD : ∀ t < N, D t ≠ 0) {m : Nat} (hm : m < N)
    (hrow : ∀ c < N, M m c = if m = c then -1 else 0) :
    (∀ t < m, L m t = 0) ∧ D m = -1 ∧ ∀ r, m < r → r < N → L r m = 0 := by
  have h1 : ∀ t < m, L m t = 0 := by
    intro t
    induction t using Nat.strong_induction_on with
    | _ t ih =>
      intro ht
      have h := hF m hm t (by omega)
      rw [hrow t (by omega), if_neg (by omega), ldl_trunc hL hm (by omega) (m := t + 1) (by omega)
        (Or.inr (by omega)), sum_range_succ, hL.1 t (by omega), mul_one] at h
      rw [sum_eq_zero (fun s hs => by
        have := mem_range.1 hs
        rw [ih s (by omega) (by omega)]; ring), zero_add] at h
      exact (mul_eq_zero.1 h).resolve_right (hD t (by omega))
  have h2 : D m = -1 := by
    have h := hF m hm m hm
    rw [hrow m hm, if_pos rfl, ldl_trunc hL hm hm (m := m + 1) (by omega) (Or.inr (by omega)),
      sum_range_succ, hL.1 m hm, mul_one, one_mul] at h
    rw [sum_eq_zero (fun s hs => by rw [h1 s (mem_range.1 hs)]; ring), zero_add] at h
    exact h
  refine ⟨h1, h2, ?_⟩
  intro r hr hrN
  have h := hF m hm r hrN
  rw [hrow r hrN, if_neg (by omega), ldl_trunc hL hm hrN (m := m + 1) (by omega)
    (Or.inl (by omega)), sum_range_succ, hL.1 m hm, one_mul] at h
  rw [sum_eq_zero (fun s hs => by rw [h1 s (mem_range.1 hs)]; ring), zero_add] at h
  exact (mul_eq_zero.1 h).resolve_left (hD m hm)

/-! ### algebra of the rank-1 step -/

omit [LinearOrder R] [IsStrictOrderedRing R] in
theorem rank1_algebra (a aBar d w s lr lc wr wc : R) (ha : a ≠ 0) (hb : aBar ≠ 0) (hd : d ≠ 0)
    (hab : aBar = a + s * w * w / d) :
    lr * d * lc + s / a * (wr * wc) =
      (lr + s * (w / (d * aBar)) * (wr - w * lr)) * (d * (aBar / a)) *
        (lc + s * (w / (d * aBar)) * (wc - w * lc)) +
      s / aBar * ((wr - w * lr) * (wc - w * lc)) := by
  have hw : s * w * w = d * (aBar - a) := by
    rw [hab]; field_simp; ring
  field_simp
  generalize hX : wr - w * lr = X
  generalize hY : wc - w * lc = Y
  obtain rfl : wr = X + w * lr := by rw [← hX]; ring
  obtain rfl : wc = Y + w * lc := by rw [← hY]; ring
  linear_combination (lr * lc * d * aBar - s * X * Y) * hw

end Verif.Lemmas.Factor
