import Verif.Lemmas.GradCall
/-!
C28, C29, C35: the derivative of the QP solution, for every history of calls.
-/
namespace Verif.Props
open Verif.Model.Factor Verif.Model.Grad Verif.Spec.Factor Verif.Spec.Grad Verif.Lemmas.Factor
  Verif.Lemmas.Grad Finset

variable {R : Type} [Field R] [DecidableEq R] [LinearOrder R] [IsStrictOrderedRing R]

/-- C29. After any sequence of calls — any sequence of active sets, with or without changes of the
matrices in between — the stored factor is the exact factorization of the regularized KKT matrix of the
current data with the currently inactive constraints decoupled. -/
theorem C29_factor_exact {eps tol : R} {n N : Nat} {P A : CscL R} {qdldl : CscL R → Fac R} {sqrt : R → R}
    (hq : QdldlOK n N qdldl) (hsqrt : ∀ x, 0 < x → sqrt x * sqrt x = x) (h : GradSetup eps n N P A)
    (W : Ws R) (delta : Nat → R) (g : DCanon R) (cs : List (Call R)) (c : Call R)
    (hcs : CallsOK n P A (cs ++ [c])) :
    let s := runGrad qdldl sqrt eps tol n N P A (genState eps n N P A W delta g) (cs ++ [c])
    let d := current P A ((cs ++ [c]).map Call.f)
    UnitLower N (unitOf s.W.S.L) ∧
    IsLDL N (unitOf s.W.S.L) s.W.D
      (decoupled (kkt eps n (symUp (ent d.1)) (ent d.2)) (Kept tol n c.y)) ∧
    ∀ t < N, s.W.D t ≠ 0 ∧ s.W.Dinv t = 1 / s.W.D t := by
  obtain ⟨s, d0, g0, e1, e2, e3, _, e4, _⟩ := run_call (tol := tol) hq hsqrt h W delta g cs c hcs
  simp only
  rw [← e1]
  have gd := e2.good e3
  refine ⟨unitOf_lower gd.pat.valid, fun r hr t ht => ?_, fun t ht => ⟨gd.D t ht, gd.Dinv t ht⟩⟩
  rw [gd.fac r hr t ht]
  unfold decoupled
  simp only [e4 r hr, e4 t ht, symOf_kkt e2.isKkt hr ht]

/-- C29, consequence: gradients do not depend on the history. Two histories (possibly of different
length, with different active sets and data on the way) that end with the same data and the same call
give the same gradients with respect to `q`, `P` and `A`, and the same total gradient with respect to the
bounds of each constraint. -/
theorem C29_history_independent {eps tol : R} {n N : Nat} {P A : CscL R} {qdldl : CscL R → Fac R}
    {sqrt : R → R} (hq : QdldlOK n N qdldl) (hsqrt : ∀ x, 0 < x → sqrt x * sqrt x = x)
    (h : GradSetup eps n N P A) (W W' : Ws R) (delta delta' : Nat → R) (g g' : DCanon R)
    (cs cs' : List (Call R)) (c c' : Call R)
    (hcs : CallsOK n P A (cs ++ [c])) (hcs' : CallsOK n P A (cs' ++ [c']))
    (hx : c.x = c'.x) (hy : c.y = c'.y) (hdx : c.dx = c'.dx)
    (hP : ∀ r < n, ∀ t < n, ent (current P A ((cs ++ [c]).map Call.f)).1 r t =
      ent (current P A ((cs' ++ [c']).map Call.f)).1 r t)
    (hA : ∀ r < N - n, ∀ t < n, ent (current P A ((cs ++ [c]).map Call.f)).2 r t =
      ent (current P A ((cs' ++ [c']).map Call.f)).2 r t) :
    let s := runGrad qdldl sqrt eps tol n N P A (genState eps n N P A W delta g) (cs ++ [c])
    let s' := runGrad qdldl sqrt eps tol n N P A (genState eps n N P A W' delta' g') (cs' ++ [c'])
    (∀ i < n, s.g.dq i = s'.g.dq i) ∧
    (∀ j < n, ∀ k, P.p j ≤ k → k < P.p (j + 1) → s.g.dP k = s'.g.dP k) ∧
    (∀ j < n, ∀ k, A.p j ≤ k → k < A.p (j + 1) → s.g.dA k = s'.g.dA k) ∧
    ∀ i < N - n, s.g.dl i + s.g.du i = s'.g.dl i + s'.g.du i := by
  have fl := fun j (hj : j < N - n) => (run_flags (tol := tol) hq hsqrt h W delta g (cs ++ [c]) hcs hj).1
  have fl' := fun j (hj : j < N - n) =>
    (run_flags (tol := tol) hq hsqrt h W' delta' g' (cs' ++ [c']) hcs' hj).1
  obtain ⟨s, d0, g0, e1, e2, e3, _, e4, e5, _⟩ := run_call (tol := tol) hq hsqrt h W delta g cs c hcs
  obtain ⟨s', d0', g0', e1', e2', e3', _, e4', e5', _⟩ :=
    run_call (tol := tol) hq hsqrt h W' delta' g' cs' c' hcs'
  simp only
  rw [← e1] at fl ⊢
  rw [← e1'] at fl' ⊢
  have hact : ∀ r < N, (actOf n s.a r ↔ actOf n s'.a r) := by
    intro r hr
    rw [e4 r hr, e4' r hr, hy]
  have hr := linsolve_unique e2 e2' e3 e3' hact hP hA c.dx d0 d0'
  rw [e5, e5', ← hx, ← hy, ← hdx]
  obtain ⟨f1, f2, f3, f4, f5⟩ := fill_spec h.data s.a c.x c.y (linsolve n N s.a s.W s.kkt.Kt c.dx d0).r g0
  obtain ⟨f1', f2', f3', f4', f5'⟩ :=
    fill_spec h.data s'.a c.x c.y (linsolve n N s'.a s'.W s'.kkt.Kt c.dx d0').r g0'
  have hnN := h.data.nN
  have ha0 : ∀ i < N - n, (s.a i = 0 ↔ s'.a i = 0) := by
    intro i hi
    have := hact (n + i) (by omega)
    unfold actOf at this
    rw [Nat.add_sub_cancel_left] at this
    constructor
    · intro h0
      by_contra h1
      rcases this.2 (Or.inr h1) with h | h
      · omega
      · exact h h0
    · intro h0
      by_contra h1
      rcases this.1 (Or.inr h1) with h | h
      · omega
      · exact h h0
  refine ⟨?_, ?_, ?_, ?_⟩
  · intro i hi
    rw [f1 i hi, f1' i hi, hr i (by omega)]
  · intro j hj k h1 h2
    have hb : P.i k < n := h.data.Prow _ j hj ((occupied_iff _ _ _).2 ⟨k, h1, h2, rfl⟩)
    rw [f4 j hj k h1 h2, f4' j hj k h1 h2, hr j (by omega), hr (P.i k) (by omega)]
  · intro j hj k h1 h2
    have hb : n + A.i k < N := h.data.Arow _ j hj ((occupied_iff _ _ _).2 ⟨k, h1, h2, rfl⟩)
    rw [f5 j hj k h1 h2, f5' j hj k h1 h2, hr j (by omega), hr (n + A.i k) (by omega)]
    by_cases h0 : s.a (A.i k) = 0
    · rw [if_pos h0, if_pos ((ha0 _ (by omega)).1 h0)]
    · rw [if_neg h0, if_neg (fun hc => h0 ((ha0 _ (by omega)).2 hc))]
  · intro i hi
    rw [f2 i hi, f2' i hi, f3 i hi, f3' i hi, hr (n + i) (by omega)]
    have p1 : ∀ b : Int, b = -1 ∨ b = 0 ∨ b = 1 → ∀ v : R,
        (if b = -1 then v else 0) + (if b = 1 then v else 0) = if b = 0 then 0 else v := by
      rintro b (rfl | rfl | rfl) v <;> simp
    rw [p1 _ (fl i hi), p1 _ (fl' i hi)]
    by_cases h0 : s.a i = 0
    · rw [if_pos h0, if_pos ((ha0 i hi).1 h0)]
    · rw [if_neg h0, if_neg (fun hc => h0 ((ha0 i hi).2 hc))]

/-- C28. The computed gradients are the adjoint of the derivative of the solution map of the QP with the
active constraints held as equalities, up to the constant `eps` times the last correction of the
iterative refinement.  `eqRow` are the equality rows (both bounds move together); on the other rows the
lower bound is infinite, so that no multiplier is ever negative. -/
theorem C28_adjoint {eps tol : R} {n N : Nat} {P A : CscL R} {qdldl : CscL R → Fac R} {sqrt : R → R}
    (hq : QdldlOK n N qdldl) (hsqrt : ∀ x, 0 < x → sqrt x * sqrt x = x) (h : GradSetup eps n N P A)
    (W : Ws R) (delta : Nat → R) (g : DCanon R) (cs : List (Call R)) (c : Call R)
    (hcs : CallsOK n P A (cs ++ [c]))
    (hsym : ∀ r < n, ∀ t < n, ent (current P A ((cs ++ [c]).map Call.f)).1 r t =
      ent (current P A ((cs ++ [c]).map Call.f)).1 t r)
    (dP dA : CscL R) (hdP : SamePattern P dP) (hdA : SamePattern A dA)
    (hdPs : ∀ r < n, ∀ t < n, ent dP r t = ent dP t r)
    (dq dl du x' y' : Nat → R) (eqRow : Nat → Prop)
    (heq : ∀ k < N - n, eqRow k → dl k = du k)
    (hineq : ∀ k < N - n, ¬ eqRow k → ∀ c' ∈ cs ++ [c], -tol ≤ c'.y k)
    (hlin : Linearised n (N - n) (ent (current P A ((cs ++ [c]).map Call.f)).1)
      (ent (current P A ((cs ++ [c]).map Call.f)).2) (ent dP) (ent dA) (Active tol c.y) dq du c.x c.y x' y') :
    let s := runGrad qdldl sqrt eps tol n N P A (genState eps n N P A W delta g) (cs ++ [c])
    ∑ i ∈ range n, c.dx i * x' i =
      ∑ i ∈ range n, s.g.dq i * dq i + storedDot n s.g.dP dP + storedDot n s.g.dA dA +
      ∑ k ∈ range (N - n), s.g.dl k * dl k + ∑ k ∈ range (N - n), s.g.du k * du k +
      eps * (∑ i ∈ range n, s.delta i * x' i -
        ∑ k ∈ range (N - n), if Active tol c.y k then s.delta (n + k) * y' k else 0) := by
  have fl := fun j (hj : j < N - n) => run_flags (tol := tol) hq hsqrt h W delta g (cs ++ [c]) hcs hj
  obtain ⟨s, d0, g0, e1, e2, e3, _, e4, e5, e6⟩ := run_call (tol := tol) hq hsqrt h W delta g cs c hcs
  simp only
  rw [← e1] at fl ⊢
  have hnN := h.data.nN
  generalize hcur : current P A ((cs ++ [c]).map Call.f) = d at *
  obtain ⟨l1, l2⟩ := linsolve_spec e2 e3 hsym c.dx d0
  rw [← e6] at l2
  generalize hl : (linsolve n N s.a s.W s.kkt.Kt c.dx d0).r = r at *
  have hact : ∀ k < N - n, (actOf n s.a (n + k) ↔ Active tol c.y k) := by
    intro k hk
    rw [e4 (n + k) (by omega)]
    unfold Kept Active
    rw [Nat.add_sub_cancel_left]
    constructor
    · rintro (h | h)
      · omega
      · exact h
    · exact Or.inr
  have htop : ∀ i < n, actOf n s.a i := fun i hi => Or.inl hi
  have ha0 : ∀ k < N - n, (s.a k ≠ 0 ↔ Active tol c.y k) := by
    intro k hk
    rw [← hact k hk]
    unfold actOf
    rw [Nat.add_sub_cancel_left]
    constructor
    · exact Or.inr
    · rintro (h | h)
      · omega
      · exact h
  have split : ∀ f : Nat → R, ∑ i ∈ range N, f i = ∑ i ∈ range n, f i + ∑ k ∈ range (N - n), f (n + k) := by
    intro f
    rw [← sum_range_add, Nat.add_sub_cancel' hnN]
  have key := adjoint_algebra n (N - n) (ent d.1) (ent d.2) (ent dP) (ent dA) (Active tol c.y) eps
    r (fun k => r (n + k)) s.delta (fun k => s.delta (n + k)) c.dx c.x c.y dq du x' y' hsym hdPs
    (by
      intro i hi
      have := l2 i (by omega) (htop i hi)
      rw [split, if_pos hi, if_pos hi] at this
      rw [← this]
      congr 1
      congr 1
      · apply sum_congr rfl
        intro j hj
        rw [if_pos (htop j (mem_range.1 hj))]
        unfold kkt
        rw [if_pos hi, if_pos (mem_range.1 hj), ite_self, add_zero]
      · apply sum_congr rfl
        intro k hk
        have hk' := mem_range.1 hk
        by_cases hka : Active tol c.y k
        · rw [if_pos hka, if_pos ((hact k hk').2 hka)]
          unfold kkt
          rw [if_pos hi, if_neg (by omega), Nat.add_sub_cancel_left]
        · rw [if_neg hka, if_neg (fun hc => hka ((hact k hk').1 hc))])
    (by
      intro k hk hka
      have := l2 (n + k) (by omega) ((hact k hk).2 hka)
      rw [split, if_neg (show ¬ n + k < n by omega), if_neg (show ¬ n + k < n by omega)] at this
      have z : ∑ j ∈ range (N - n), (if actOf n s.a (n + j) then
          kkt 0 n (ent d.1) (ent d.2) (n + k) (n + j) * r (n + j) else 0) = 0 := by
        apply sum_eq_zero
        intro j _
        unfold kkt
        rw [if_neg (show ¬ n + k < n by omega), if_neg (show ¬ n + j < n by omega), neg_zero, ite_self,
          zero_mul, ite_self]
      rw [z, add_zero] at this
      have w : ∑ j ∈ range n, (if actOf n s.a j then kkt 0 n (ent d.1) (ent d.2) (n + k) j * r j else 0) =
          ∑ j ∈ range n, ent d.2 k j * r j := by
        apply sum_congr rfl
        intro j hj
        rw [if_pos (htop j (mem_range.1 hj))]
        unfold kkt
        rw [if_neg (show ¬ n + k < n by omega), if_pos (mem_range.1 hj), Nat.add_sub_cancel_left]
      rw [w] at this
      linear_combination this)
    hlin.stationarity hlin.feasibility two_ne_zero
  obtain ⟨f1, f2, f3, f4, f5⟩ := fill_spec h.data s.a c.x c.y r g0
  rw [← e5] at f1 f2 f3 f4 f5
  have q1 : ∑ i ∈ range n, s.g.dq i * dq i = ∑ i ∈ range n, (- r i) * dq i :=
    sum_congr rfl (fun i hi => by rw [f1 i (mem_range.1 hi)])
  have q2 : storedDot n s.g.dP dP =
      ∑ j ∈ range n, ∑ i ∈ range n, (-(1 / 2) * (r i * c.x j + c.x i * r j)) * ent dP i j := by
    unfold storedDot
    apply sum_congr rfl
    intro j hj
    have hj' := mem_range.1 hj
    rw [← slots_sum (M := dP) (B := n) (fun k h1 h2 => ?_) (fun i => -(1 / 2) * (r i * c.x j + c.x i * r j))]
    · apply sum_congr rfl
      intro k hk
      have hk' := mem_Ico.1 hk
      rw [hdP.1] at hk'
      rw [f4 j hj' k hk'.1 hk'.2, hdP.2]
    · rw [hdP.1] at h1 h2
      rw [hdP.2]
      exact h.data.Prow _ j hj' ((occupied_iff _ _ _).2 ⟨k, h1, h2, rfl⟩)
  have q3 : storedDot n s.g.dA dA = ∑ j ∈ range n, ∑ k ∈ range (N - n),
      (if Active tol c.y k then - (r (n + k) * c.x j + c.y k * r j) else 0) * ent dA k j := by
    unfold storedDot
    apply sum_congr rfl
    intro j hj
    have hj' := mem_range.1 hj
    have hB : ∀ k, A.p j ≤ k → k < A.p (j + 1) → A.i k < N - n := by
      intro k h1 h2
      have := h.data.Arow _ j hj' ((occupied_iff _ _ _).2 ⟨k, h1, h2, rfl⟩)
      omega
    rw [← slots_sum (M := dA) (B := N - n) (fun k h1 h2 => ?_)
      (fun k => if Active tol c.y k then - (r (n + k) * c.x j + c.y k * r j) else 0)]
    · apply sum_congr rfl
      intro k hk
      have hk' := mem_Ico.1 hk
      rw [hdA.1] at hk'
      rw [f5 j hj' k hk'.1 hk'.2, hdA.2]
      by_cases hka : Active tol c.y (A.i k)
      · rw [if_pos hka, if_neg ((ha0 _ (hB k hk'.1 hk'.2)).2 hka)]
      · have : s.a (A.i k) = 0 := by
          by_contra hne
          exact hka ((ha0 _ (hB k hk'.1 hk'.2)).1 hne)
        rw [if_neg hka, if_pos this]
    · rw [hdA.1] at h1 h2
      rw [hdA.2]
      exact hB k h1 h2
  have q4 : ∑ k ∈ range (N - n), s.g.dl k * dl k + ∑ k ∈ range (N - n), s.g.du k * du k =
      ∑ k ∈ range (N - n), if Active tol c.y k then r (n + k) * du k else 0 := by
    rw [← sum_add_distrib]
    apply sum_congr rfl
    intro k hk
    have hk' := mem_range.1 hk
    rw [f2 k hk', f3 k hk']
    obtain ⟨v1, v2⟩ := fl k hk'
    rcases v1 with h1 | h1 | h1
    · have he : eqRow k := by
        by_contra hne
        exact v2 (hineq k hk' hne) h1
      rw [if_pos h1, if_neg (by omega), if_pos ((ha0 k hk').1 (by omega)), heq k hk' he]; ring
    · rw [if_neg (by omega), if_neg (by omega), if_neg (fun hc => (ha0 k hk').2 hc h1)]; ring
    · rw [if_neg (by omega), if_pos h1, if_pos ((ha0 k hk').1 (by omega))]; ring
  rw [key, q1, q2, q3, ← q4]
  ring

end Verif.Props
