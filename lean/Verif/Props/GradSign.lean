import Verif.Props.GradHist
import Mathlib.Analysis.Real.Sqrt
/-!
C35: attribution of gradients to bounds; instances for C28 and C29.
-/
namespace Verif.Props
open Verif.Model.Factor Verif.Model.Grad Verif.Spec.Factor Verif.Spec.Grad Verif.Lemmas.Factor
  Verif.Lemmas.Grad Finset

section
variable {R : Type} [Field R] [DecidableEq R] [LinearOrder R] [IsStrictOrderedRing R]

/-- C35, the part that holds: for the problems the tool generates (equality rows, of which both bounds
move together, and one-sided rows, of which the multiplier never is negative) the contribution of the
bounds to a directional derivative does not depend on which bounds were active earlier, and for
one-sided rows the gradient is attributed to the upper bound.  Missing: rows with two different finite
bounds, see `C35_fails`. -/
theorem C35_partial {eps tol : R} {n N : Nat} {P A : CscL R} {qdldl : CscL R → Fac R}
    {sqrt : R → R} (hq : QdldlOK n N qdldl) (hsqrt : ∀ x, 0 < x → sqrt x * sqrt x = x)
    (h : GradSetup eps n N P A) (W W' : Ws R) (delta delta' : Nat → R) (g g' : DCanon R)
    (cs cs' : List (Call R)) (c c' : Call R)
    (hcs : CallsOK n P A (cs ++ [c])) (hcs' : CallsOK n P A (cs' ++ [c']))
    (hx : c.x = c'.x) (hy : c.y = c'.y) (hdx : c.dx = c'.dx)
    (hP : ∀ r < n, ∀ t < n, ent (current P A ((cs ++ [c]).map Call.f)).1 r t =
      ent (current P A ((cs' ++ [c']).map Call.f)).1 r t)
    (hA : ∀ r < N - n, ∀ t < n, ent (current P A ((cs ++ [c]).map Call.f)).2 r t =
      ent (current P A ((cs' ++ [c']).map Call.f)).2 r t)
    (eqRow : Nat → Prop)
    (hineq : ∀ k < N - n, ¬ eqRow k → ∀ d ∈ cs ++ [c], -tol ≤ d.y k)
    (hineq' : ∀ k < N - n, ¬ eqRow k → ∀ d ∈ cs' ++ [c'], -tol ≤ d.y k) :
    let s := runGrad qdldl sqrt eps tol n N P A (genState eps n N P A W delta g) (cs ++ [c])
    let s' := runGrad qdldl sqrt eps tol n N P A (genState eps n N P A W' delta' g') (cs' ++ [c'])
    (∀ k < N - n, ¬ eqRow k → s.g.dl k = 0 ∧ s'.g.dl k = 0 ∧ s.g.du k = s'.g.du k) ∧
    ∀ k < N - n, ∀ dl du : R, (eqRow k → dl = du) →
      s.g.dl k * dl + s.g.du k * du = s'.g.dl k * dl + s'.g.du k * du := by
  have hsum := (C29_history_independent (tol := tol) hq hsqrt h W W' delta delta' g g' cs cs' c c' hcs hcs' hx hy
    hdx hP hA).2.2.2
  have one : ∀ (W : Ws R) (delta : Nat → R) (g : DCanon R) (cs : List (Call R)) (c : Call R),
      CallsOK n P A (cs ++ [c]) → ∀ k < N - n, (∀ d ∈ cs ++ [c], -tol ≤ d.y k) →
      (runGrad qdldl sqrt eps tol n N P A (genState eps n N P A W delta g) (cs ++ [c])).g.dl k = 0 := by
    intro W delta g cs c hcs k hk hyk
    have fl := (run_flags (tol := tol) hq hsqrt h W delta g (cs ++ [c]) hcs hk).2 hyk
    obtain ⟨s, d0, g0, e1, _, _, _, _, e5, _⟩ := run_call (tol := tol) hq hsqrt h W delta g cs c hcs
    rw [← e1] at fl ⊢
    rw [e5, (fill_spec h.data s.a c.x c.y _ g0).2.1 k hk, if_neg fl]
  simp only at hsum ⊢
  have first : ∀ k < N - n, ¬ eqRow k → _ ∧ _ ∧ _ := fun k hk hne => by
    have h1 := one W delta g cs c hcs k hk (hineq k hk hne)
    have h2 := one W' delta' g' cs' c' hcs' k hk (hineq' k hk hne)
    have h3 := hsum k hk
    rw [h1, h2, zero_add, zero_add] at h3
    exact ⟨h1, h2, h3⟩
  refine ⟨first, ?_⟩
  intro k hk dl du heq
  by_cases he : eqRow k
  · rw [heq he, ← add_mul, ← add_mul, hsum k hk]
  · obtain ⟨a1, a2, a3⟩ := first k hk he
    rw [a1, a2, a3]

/-- A factorization routine for one variable and one constraint that meets the contract of QDLDL. -/
def fac2 (K : CscL R) : Fac R :=
  { L := { p := fun c => if c = 0 then 0 else 1, i := fun _ => 1, x := fun _ => ent K 0 1 / ent K 0 0, nnz := 1 }
    D := fun t => if t = 0 then ent K 0 0 else ent K 1 1 - ent K 0 1 * ent K 0 1 / ent K 0 0
    Dinv := fun t => 1 / (if t = 0 then ent K 0 0 else ent K 1 1 - ent K 0 1 * ent K 0 1 / ent K 0 0) }

theorem fac2_ok : QdldlOK 1 2 (fac2 : CscL R → Fac R) := by
  intro K hU hQ hpos
  have h0 : 0 < ent K 0 0 := by
    have := hpos (fun _ => 1) ⟨0, by decide, one_ne_zero⟩
    simpa [symOf] using this
  have h1 := hQ.neg 1 (le_refl _) (by decide)
  have hD1 : ent K 1 1 - ent K 0 1 * ent K 0 1 / ent K 0 0 < 0 := by
    have := div_nonneg (mul_self_nonneg (ent K 0 1)) (le_of_lt h0)
    linarith
  have e10 : ent (fac2 K).L 1 0 = ent K 0 1 / ent K 0 0 := by simp [ent, fac2]
  have e01 : ent (fac2 K).L 0 1 = 0 := by simp [ent, fac2]
  refine ⟨⟨⟨rfl, ?_, rfl, ?_, ?_⟩, ?_, ?_⟩, ?_, ?_, fun t _ => rfl⟩
  · intro c _; by_cases hc : c = 0 <;> simp [fac2, hc]
  · intro c _ k h1 h2
    by_cases hc : c = 0
    · subst hc
      simp [fac2] at h2
    · simp only [fac2, if_neg hc, if_neg (Nat.succ_ne_zero c)] at h1 h2
      omega
  · intro c hc2 k h1 h2
    by_cases hc : c = 0
    · subst hc; simp [fac2]
    · simp [fac2, hc] at h1 h2
      omega
  · intro r c hrc hc _
    obtain rfl : r = 0 := by omega
    obtain rfl : c = 1 := by omega
    exact ⟨_, 0, Nat.le_refl _, by simp [fac2], rfl, rfl⟩
  · rintro j r s hj hrs ⟨_, k, _, _, k1, _⟩ ⟨_, k', _, _, k2, _⟩
    simp only [fac2] at k1 k2
    omega
  · intro r hr c hc
    rw [sum_range_succ, sum_range_succ, sum_range_zero, zero_add]
    have c1 : r = 0 ∨ r = 1 := by omega
    have c2 : c = 0 ∨ c = 1 := by omega
    have hne := ne_of_gt h0
    rcases c1 with rfl | rfl <;> rcases c2 with rfl | rfl <;>
      simp [unitOf, symOf, e10, e01] <;> simp [fac2] <;> field_simp
    ring
  · intro t _
    by_cases ht : t = 0
    · simp only [fac2, if_pos ht]; exact ne_of_gt h0
    · simp only [fac2, if_neg ht]; exact ne_of_lt hD1

/-- `minimize ½ x²` with one constraint on `x`. -/
def oneM : CscL R := { p := fun c => c, i := fun _ => 0, x := fun _ => 1, nnz := 1 }

theorem oneM_ent : ent (oneM : CscL R) 0 0 = 1 := by simp [ent, oneM]

theorem one_setup {eps : R} (he : 0 < eps) : GradSetup eps 1 2 (oneM : CscL R) oneM := by
  have hv : ColValid 1 (oneM : CscL R) := by
    refine ⟨fun c _ => Nat.le_succ c, ?_⟩
    intro c _ k k' h1 h2 h3
    have h3 : k' < c + 1 := h3
    have h1 : c ≤ k := h1
    omega
  have hr : ∀ r, ∀ c < 1, Occupied (oneM : CscL R) r c → r = 0 := by
    rintro r c _ ⟨_, k, _, _, h3, _⟩
    exact h3.symm
  refine ⟨⟨by decide, hv, hv, ?_, ?_⟩, ?_, ?_, ?_, he⟩
  · intro r c hc ho; have := hr r c hc ho; omega
  · intro r c hc ho; have := hr r c hc ho; omega
  · intro r c hc ho; have := hr r c hc ho; omega
  · intro r c hc ho; have := hr r c hc ho; omega
  · intro x
    rw [sum_range_one, sum_range_one]
    have : symUp (ent (oneM : CscL R)) 0 0 = 1 := oneM_ent
    rw [this, mul_one]
    exact mul_self_nonneg _

/-- A call without refresh at dual solution `y`. -/
def plain (y : R) : Call R := { f := ⟨none, none⟩, x := fun _ => 0, y := fun _ => y, dx := fun _ => 1 }

theorem plain_ok (ys : List R) : CallsOK 1 (oneM : CscL R) oneM (ys.map plain) := by
  intro c hc
  obtain ⟨y, _, rfl⟩ := List.mem_map.1 hc
  refine ⟨⟨fun P' h => ?_, fun A' h => ?_⟩, fun P' h => ?_⟩ <;> cases h

theorem current_plain (ys : List R) : current (oneM : CscL R) oneM ((ys.map plain).map Call.f) = (oneM, oneM) := by
  unfold current
  induction ys with
  | nil => rfl
  | cons y ys ih => exact ih

/-- In the example, with the constraint active, the multiplier part of the solution is positive. -/
theorem one_active {eps : R} (he : eps = 1 / 1000000) {s : GradWs R} (h : Inv eps 1 2 oneM oneM s)
    (hi : s.init = false) (ha : s.a 0 ≠ 0) (d0 : Nat → R) :
    0 < (linsolve 1 2 s.a s.W s.kkt.Kt (fun _ => 1) d0).r 1 := by
  have a0 : actOf 1 s.a 0 := Or.inl (by decide)
  have a1 : actOf 1 s.a 1 := Or.inr ha
  have n0 : ¬ inactive 1 s.a 0 = true := fun hc => inactive_iff.1 hc a0
  have n1 : ¬ inactive 1 s.a 1 = true := fun hc => inactive_iff.1 hc a1
  have k00 : ∀ e : R, kkt e 1 (symUp (ent (oneM : CscL R))) (ent oneM) 0 0 = 1 + e := by
    intro e; simp [kkt, symUp, oneM_ent]
  have k01 : ∀ e : R, kkt e 1 (symUp (ent (oneM : CscL R))) (ent oneM) 0 1 = 1 := by
    intro e; simp [kkt, oneM_ent]
  have k10 : ∀ e : R, kkt e 1 (symUp (ent (oneM : CscL R))) (ent oneM) 1 0 = 1 := by
    intro e; simp [kkt, oneM_ent]
  have k11 : ∀ e : R, kkt e 1 (symUp (ent (oneM : CscL R))) (ent oneM) 1 1 = -e := by
    intro e; simp [kkt]
  have solve : ∀ b : Nat → R, (1 + eps) * qsolve 2 s.W.S.L s.W.Dinv b 0 + qsolve 2 s.W.S.L s.W.Dinv b 1 = b 0 ∧
      qsolve 2 s.W.S.L s.W.Dinv b 0 - eps * qsolve 2 s.W.S.L s.W.Dinv b 1 = b 1 := by
    intro b
    have := (solve_rows h hi b).2
    have e0 := this 0 (by decide) a0
    have e1 := this 1 (by decide) a1
    rw [sum_range_succ, sum_range_one, if_pos a0, if_pos a1, k00, k01] at e0
    rw [sum_range_succ, sum_range_one, if_pos a0, if_pos a1, k10, k11] at e1
    exact ⟨by linear_combination e0, by linear_combination e1⟩
  have kt : ∀ r < 2, ∀ c < 2, ent s.kkt.Kt c r = kkt 0 1 (symUp (ent (oneM : CscL R))) (ent oneM) r c := by
    intro r hr c hc
    rw [h.isKkt.true r hr c hc]
    unfold kkt symUp
    by_cases h1 : r < 1
    · by_cases h2 : c < 1
      · obtain rfl : r = 0 := by omega
        obtain rfl : c = 0 := by omega
        simp
      · simp [h1, h2]
    · by_cases h2 : c < 1 <;> simp [h1, h2]
  have res : ∀ l : Lin R, residual 1 2 s.a s.kkt.Kt (rhsOf 1 (fun _ => 1)) l.r l.delta 0 = 1 - (l.r 0 + l.r 1) ∧
      residual 1 2 s.a s.kkt.Kt (rhsOf 1 (fun _ => 1)) l.r l.delta 1 = - l.r 0 := by
    intro l
    rw [residual_spec 1 2 s.a s.kkt.Kt h.slots.vKt.mono h.slots.KtN _ _ _ (by decide : 0 < 2),
      residual_spec 1 2 s.a s.kkt.Kt h.slots.vKt.mono h.slots.KtN _ _ _ (by decide : 1 < 2),
      if_neg n0, if_neg n1, sum_range_succ, sum_range_one, if_neg n0, if_neg n1, sum_range_succ, sum_range_one,
      if_neg n0, if_neg n1, kt 0 (by decide) 0 (by decide), kt 0 (by decide) 1 (by decide),
      kt 1 (by decide) 0 (by decide), kt 1 (by decide) 1 (by decide), k00, k01, k10, k11]
    constructor
    · simp [rhsOf]
    · simp [rhsOf]
  have step : ∀ l : Lin R, ∃ p q, (1 + eps) * p + q = 1 - (l.r 0 + l.r 1) ∧ p - eps * q = - l.r 0 ∧
      (refine 1 2 s.a s.W s.kkt.Kt (rhsOf 1 (fun _ => 1)) l).r 0 = l.r 0 + p ∧
      (refine 1 2 s.a s.W s.kkt.Kt (rhsOf 1 (fun _ => 1)) l).r 1 = l.r 1 + q := by
    intro l
    obtain ⟨s1, s2⟩ := solve (residual 1 2 s.a s.kkt.Kt (rhsOf 1 (fun _ => 1)) l.r l.delta)
    rw [(res l).1] at s1
    rw [(res l).2] at s2
    refine ⟨_, _, s1, s2, ?_, ?_⟩
    · unfold refine
      simp only
      rw [loop_write 2 (fun i v => v + _), if_pos (by decide)]
    · unfold refine
      simp only
      rw [loop_write 2 (fun i v => v + _), if_pos (by decide)]
  obtain ⟨b0, b1⟩ := solve (rhsOf 1 (fun _ => 1))
  change (1 + eps) * _ + _ = (1 : R) at b0
  change _ - eps * _ = (0 : R) at b1
  obtain ⟨l0, hl0⟩ : ∃ l0 : Lin R, l0 = { r := qsolve 2 s.W.S.L s.W.Dinv (rhsOf 1 (fun _ => 1)), delta := d0 } :=
    ⟨_, rfl⟩
  obtain ⟨l1, hl1⟩ : ∃ l1, l1 = refine 1 2 s.a s.W s.kkt.Kt (rhsOf 1 (fun _ => 1)) l0 := ⟨_, rfl⟩
  obtain ⟨l2, hl2⟩ : ∃ l2, l2 = refine 1 2 s.a s.W s.kkt.Kt (rhsOf 1 (fun _ => 1)) l1 := ⟨_, rfl⟩
  obtain ⟨l3, hl3⟩ : ∃ l3, l3 = refine 1 2 s.a s.W s.kkt.Kt (rhsOf 1 (fun _ => 1)) l2 := ⟨_, rfl⟩
  have hfin : linsolve 1 2 s.a s.W s.kkt.Kt (fun _ => 1) d0 = l3 := by
    rw [hl3, hl2, hl1, hl0]; rfl
  rw [hfin]
  have c0 : (1 + eps) * l0.r 0 + l0.r 1 = 1 := by rw [hl0]; exact b0
  have c1 : l0.r 0 - eps * l0.r 1 = 0 := by rw [hl0]; exact b1
  obtain ⟨p1, q1, x1, x2, x3, x4⟩ := step l0
  obtain ⟨p2, q2, y1, y2, y3, y4⟩ := step l1
  obtain ⟨p3, q3, z1, z2, z3, z4⟩ := step l2
  rw [← hl1] at x3 x4
  rw [← hl2] at y3 y4
  rw [← hl3] at z3 z4
  subst he
  linarith

end

/-- C35 fails for rows with two different bounds: the lower bound is active (the multiplier is negative)
in the last call of both histories, data and last call are the same, but without an intermediate call in
which the row was inactive the gradient is attributed to the upper bound. -/
theorem C35_fails : ∀ (W : Ws ℝ) (delta : Nat → ℝ) (g : DCanon ℝ),
    let run := fun ys : List ℝ => (runGrad fac2 Real.sqrt (1 / 1000000) (1 / 1000000000000) 1 2 oneM oneM
      (genState (1 / 1000000) 1 2 oneM oneM W delta g) (ys.map plain)).g
    ((run [-1]).dl 0 = 0 ∧ 0 < (run [-1]).du 0) ∧ (0 < (run [0, -1]).dl 0 ∧ (run [0, -1]).du 0 = 0) := by
  intro W delta g
  have hs : ∀ x : ℝ, 0 < x → Real.sqrt x * Real.sqrt x = x := fun x hx => Real.mul_self_sqrt (le_of_lt hx)
  have hset : GradSetup (1 / 1000000 : ℝ) 1 2 oneM oneM := one_setup (by norm_num)
  have t1 : ¬ ((0 : ℝ) < -(1 / 1000000000000)) := by norm_num
  have t2 : ¬ ((1 / 1000000000000 : ℝ) < 0) := by norm_num
  have t3 : ((-1 : ℝ) < -(1 / 1000000000000)) := by norm_num
  simp only
  constructor
  · obtain ⟨s, d0, g0, e1, e2, e3, e4, _, e5, _⟩ := run_call (tol := (1 / 1000000000000 : ℝ)) fac2_ok hs hset W
      delta g [] (plain (-1)) (plain_ok [-1])
    have ha : s.a 0 = 1 := by
      rw [e4 0 (by decide)]
      show flagStep _ (-1 : ℝ) 1 = 1
      unfold flagStep
      rw [if_pos t3]; rfl
    have hpos := one_active rfl e2 e3 (by rw [ha]; decide) d0
    obtain ⟨_, f2, f3, _⟩ := fill_spec hset.data s.a (plain (-1 : ℝ)).x (plain (-1)).y
      (linsolve 1 2 s.a s.W s.kkt.Kt (plain (-1)).dx d0).r g0
    rw [← e5] at f2 f3
    rw [show ([-1] : List ℝ).map plain = [] ++ [plain (-1)] from rfl, ← e1, f2 0 (by decide), f3 0 (by decide), ha]
    exact ⟨if_neg (by decide), hpos⟩
  · obtain ⟨s', _, _, e1', _, _, e4', _⟩ := run_call (tol := (1 / 1000000000000 : ℝ)) fac2_ok hs hset W
      delta g [] (plain 0) (plain_ok [0])
    obtain ⟨s, d0, g0, e1, e2, e3, e4, _, e5, _⟩ := run_call (tol := (1 / 1000000000000 : ℝ)) fac2_ok hs hset W
      delta g [plain 0] (plain (-1)) (plain_ok [0, -1])
    have ha' : s'.a 0 = 0 := by
      rw [e4' 0 (by decide)]
      show flagStep _ (0 : ℝ) 1 = 0
      unfold flagStep
      rw [if_neg t1, if_neg t2]
    rw [List.nil_append] at e1'
    rw [← e1'] at e4
    have ha : s.a 0 = -1 := by
      rw [e4 0 (by decide), ha']
      show flagStep _ (-1 : ℝ) 0 = -1
      unfold flagStep
      rw [if_pos t3]; rfl
    have hpos := one_active rfl e2 e3 (by rw [ha]; decide) d0
    obtain ⟨_, f2, f3, _⟩ := fill_spec hset.data s.a (plain (-1 : ℝ)).x (plain (-1)).y
      (linsolve 1 2 s.a s.W s.kkt.Kt (plain (-1)).dx d0).r g0
    rw [← e5] at f2 f3
    rw [show ([0, -1] : List ℝ).map plain = [plain 0] ++ [plain (-1)] from rfl, ← e1, f2 0 (by decide),
      f3 0 (by decide), ha]
    exact ⟨hpos, if_neg (by decide)⟩

/-- The hypotheses of C28, C29 and C35 are met: real numbers, the exact square root, a routine that meets
the contract of QDLDL, a convex problem and histories of calls with changing active set. -/
example : QdldlOK 1 2 (fac2 : CscL ℝ → Fac ℝ) ∧ (∀ x : ℝ, 0 < x → Real.sqrt x * Real.sqrt x = x) ∧
    GradSetup (1 / 1000000 : ℝ) 1 2 oneM oneM ∧ CallsOK 1 (oneM : CscL ℝ) oneM ([1, 0].map plain ++ [plain 1]) ∧
    ∃ x' y' dq du : Nat → ℝ, Linearised 1 1 (ent (oneM : CscL ℝ)) (ent oneM) (ent oneM) (ent oneM)
      (Active (1 / 1000000000000) (plain (1 : ℝ)).y) dq du (plain 1).x (plain 1).y x' y' ∧ x' 0 ≠ 0 ∧ dq 0 ≠ 0 := by
  refine ⟨fac2_ok, fun x hx => Real.mul_self_sqrt (le_of_lt hx), one_setup (by norm_num),
    plain_ok [1, 0, 1], fun _ => 1, fun _ => 3, fun _ => -5, fun _ => 1, ⟨?_, ?_⟩, one_ne_zero, by norm_num⟩
  · intro i hi
    obtain rfl : i = 0 := by omega
    rw [sum_range_one, sum_range_one, oneM_ent, if_pos]
    · show 1 * (1 : ℝ) + 1 * 0 + -5 + (1 * 3 + 1 * 1) = 0
      norm_num
    · right
      show (1 / 1000000000000 : ℝ) < 1
      norm_num
  · intro k hk _
    obtain rfl : k = 0 := by omega
    rw [sum_range_one, oneM_ent]
    show 1 * (1 : ℝ) + 1 * 0 = 1
    norm_num

end Verif.Props
