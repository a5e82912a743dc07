import Verif.Lemmas.GradHist
namespace Verif.Lemmas.Grad
open Verif.Model.Factor Verif.Model.Grad Verif.Spec.Factor Verif.Spec.Grad Verif.Lemmas.Factor Finset

variable {R : Type} [Field R]

/-! ### what the last loops write -/

theorem range_write {α : Type} {a b : Nat} (v : Nat → α) (d : Nat → α) (k : Nat) :
    (loop a b).foldl (fun d k => upd d k (v k)) d k = if a ≤ k ∧ k < b then v k else d k := by
  rcases Nat.lt_or_ge b a with h | h
  · rw [loop_nil (by omega), if_neg (by omega)]; rfl
  · exact loop_inv (fun (d : Nat → α) k => upd d k (v k))
      (fun m (d' : Nat → α) => ∀ k, d' k = if a ≤ k ∧ k < m then v k else d k) h d
      (fun k => by rw [if_neg (by omega)]) (by
        intro m d' h1 _ ih q
        unfold upd
        by_cases hq : q = m
        · rw [if_pos hq, if_pos (by omega), hq]
        · rw [if_neg hq, ih q]
          by_cases hc : a ≤ q ∧ q < m
          · rw [if_pos hc, if_pos (by omega)]
          · rw [if_neg hc, if_neg (by omega)]) k

theorem nested_write {α : Type} {n : Nat} {p : Nat → Nat} (hp : ∀ c < n, p c ≤ p (c + 1))
    (v : Nat → Nat → α) (d : Nat → α) {j k : Nat} (hj : j < n) (h1 : p j ≤ k) (h2 : k < p (j + 1)) :
    (loop 0 n).foldl (fun d j => (loop (p j) (p (j + 1))).foldl (fun d k => upd d k (v j k)) d) d k =
      v j k := by
  have mono : ∀ a b, a ≤ b → b ≤ n → p a ≤ p b := by
    intro a b hab
    induction hab with
    | refl => intro _; exact Nat.le_refl _
    | step h ih => intro hb; exact Nat.le_trans (ih (by omega)) (hp _ (by omega))
  have key := loop_inv (fun (d : Nat → α) j =>
      (loop (p j) (p (j + 1))).foldl (fun d k => upd d k (v j k)) d)
    (fun m (d' : Nat → α) => ∀ j k, j < m → p j ≤ k → k < p (j + 1) → d' k = v j k)
    (Nat.zero_le n) d (fun j k h => by omega) (by
      intro m d' _ hm ih j k hj h1 h2
      rw [range_write]
      by_cases hjm : j = m
      · subst hjm
        rw [if_pos ⟨h1, h2⟩]
      · have := mono (j + 1) m (by omega) (by omega)
        rw [if_neg (by omega)]
        exact ih j k (by omega) h1 h2)
  exact key j k hj h1 h2

/-- A sum over the stored entries of a column. -/
theorem slots_sum {M : CscL R} {j B : Nat} (hB : ∀ k, M.p j ≤ k → k < M.p (j + 1) → M.i k < B)
    (g : Nat → R) :
    ∑ k ∈ Ico (M.p j) (M.p (j + 1)), g (M.i k) * M.x k = ∑ r ∈ range B, g r * ent M r j := by
  unfold ent
  have h1 : ∀ k ∈ Ico (M.p j) (M.p (j + 1)), g (M.i k) * M.x k =
      ∑ r ∈ range B, g r * (if M.i k = r then M.x k else 0) := by
    intro k hk
    have hk' := mem_Ico.1 hk
    rw [sum_eq_single (M.i k), if_pos rfl]
    · intro t _ hne
      rw [if_neg (fun h => hne h.symm), mul_zero]
    · intro hn
      exact absurd (mem_range.2 (hB k hk'.1 hk'.2)) hn
  rw [sum_congr rfl h1, sum_comm]
  apply sum_congr rfl
  intro t _
  rw [mul_sum]

/-! ### the linear system -/

variable [DecidableEq R] [LinearOrder R] [IsStrictOrderedRing R]

omit [DecidableEq R] [LinearOrder R] [IsStrictOrderedRing R] [Field R] in
theorem inactive_iff {n : Nat} {a : Nat → Int} {i : Nat} : inactive n a i = true ↔ ¬ actOf n a i := by
  unfold inactive actOf
  rw [decide_eq_true_iff]
  constructor
  · rintro ⟨h1, h2⟩ (h | h)
    · omega
    · exact h h2
  · intro h
    constructor
    · by_contra hc; exact h (Or.inl (by omega))
    · by_contra hc; exact h (Or.inr hc)

/-- One solve with the factor, by rows. -/
theorem solve_rows {eps : R} {n N : Nat} {P A : CscL R} {s : GradWs R} (h : Inv eps n N P A s)
    (hi : s.init = false) (b : Nat → R) :
    (∀ i < N, ¬ actOf n s.a i → qsolve N s.W.S.L s.W.Dinv b i = - b i) ∧
    ∀ i < N, actOf n s.a i → ∑ c ∈ range N, (if actOf n s.a c then
      kkt eps n (symUp (ent P)) (ent A) i c * qsolve N s.W.S.L s.W.Dinv b c else 0) = b i := by
  have g := h.good hi
  have key := qsolve_spec g.pat.valid g.fac g.D g.Dinv b
  constructor
  · intro i hiN hna
    have := key i hiN
    rw [sum_eq_single i] at this
    · unfold decoupled at this
      rw [if_neg (fun h => hna h.1), if_pos rfl] at this
      linear_combination -this
    · intro c _ hne
      unfold decoupled
      rw [if_neg (fun h => hna h.1), if_neg (fun h => hne h.symm), zero_mul]
    · intro hn; exact absurd (mem_range.2 hiN) hn
  · intro i hiN ha
    rw [← key i hiN]
    apply sum_congr rfl
    intro c hc
    unfold decoupled
    by_cases hca : actOf n s.a c
    · rw [if_pos hca, if_pos ⟨ha, hca⟩, symOf_kkt h.isKkt hiN (mem_range.1 hc)]
    · rw [if_neg hca, if_neg (fun h => hca h.2), if_neg, zero_mul]
      intro he
      exact hca (he ▸ ha)

/-- What one step of refinement achieves. -/
theorem refine_spec {eps : R} {n N : Nat} {P A : CscL R} {s : GradWs R} (h : Inv eps n N P A s)
    (hi : s.init = false) (hsym : ∀ r < n, ∀ c < n, ent P r c = ent P c r) (rhs : Nat → R)
    (l : Lin R) (hl : ∀ i < N, ¬ actOf n s.a i → l.r i = 0) :
    (∀ i < N, ¬ actOf n s.a i → (refine n N s.a s.W s.kkt.Kt rhs l).r i = 0) ∧
    ∀ i < N, actOf n s.a i → ∑ c ∈ range N, (if actOf n s.a c then
      kkt 0 n (ent P) (ent A) i c * (refine n N s.a s.W s.kkt.Kt rhs l).r c else 0) +
      (if i < n then eps else -eps) * (refine n N s.a s.W s.kkt.Kt rhs l).delta i = rhs i := by
  obtain ⟨res, hres⟩ : ∃ res, res = residual n N s.a s.kkt.Kt rhs l.r l.delta := ⟨_, rfl⟩
  obtain ⟨d, hd⟩ : ∃ d, d = qsolve N s.W.S.L s.W.Dinv res := ⟨_, rfl⟩
  obtain ⟨k1, k2⟩ := solve_rows h hi res
  rw [← hd] at k1 k2
  have hr : ∀ i < N, (refine n N s.a s.W s.kkt.Kt rhs l).r i = l.r i + d i := by
    intro i hiN
    unfold refine
    simp only
    rw [← hres, ← hd, loop_write N (fun i v => v + d i), if_pos hiN]
  have hdl : (refine n N s.a s.W s.kkt.Kt rhs l).delta = d := by
    unfold refine
    simp only
    rw [← hres, ← hd]
  have hrs := fun i (hiN : i < N) => residual_spec n N s.a s.kkt.Kt h.slots.vKt.mono h.slots.KtN rhs l.r
    l.delta hiN
  rw [← hres] at hrs
  constructor
  · intro i hiN hna
    rw [hr i hiN, hl i hiN hna, k1 i hiN hna, hrs i hiN, if_pos (inactive_iff.2 hna)]
    simp
  · intro i hiN ha
    rw [hdl]
    have e1 := k2 i hiN ha
    rw [hrs i hiN, if_neg (fun hc => inactive_iff.1 hc ha)] at e1
    have e2 : ∑ c ∈ range N, (if inactive n s.a c = true then 0 else ent s.kkt.Kt c i * l.r c) =
        ∑ c ∈ range N, (if actOf n s.a c then kkt 0 n (ent P) (ent A) i c * l.r c else 0) := by
      apply sum_congr rfl
      intro c hc
      by_cases hca : actOf n s.a c
      · rw [if_neg (fun hx => inactive_iff.1 hx hca), if_pos hca, h.isKkt.true i hiN c (mem_range.1 hc)]
      · rw [if_pos (inactive_iff.2 hca), if_neg hca]
    rw [e2] at e1
    have e3 : ∑ c ∈ range N, (if actOf n s.a c then
        kkt eps n (symUp (ent P)) (ent A) i c * d c else 0) =
        ∑ c ∈ range N, (if actOf n s.a c then kkt 0 n (ent P) (ent A) i c * d c else 0) +
        (if i < n then eps else -eps) * d i := by
      have : (if i < n then eps else -eps) * d i =
          ∑ c ∈ range N, (if i = c then (if i < n then eps else -eps) * d c else 0) := by
        rw [sum_ite_eq, if_pos (mem_range.2 hiN)]
      rw [this, ← sum_add_distrib]
      apply sum_congr rfl
      intro c hc
      have hsu : ∀ r < n, ∀ c < n, symUp (ent P) r c = ent P r c := by
        intro r hr' c hc'
        unfold symUp
        split
        · rfl
        · exact hsym c hc' r hr'
      by_cases hca : actOf n s.a c
      · rw [if_pos hca, if_pos hca]
        unfold kkt
        by_cases hin : i < n
        · by_cases hcn : c < n
          · simp only [if_pos hin, if_pos hcn, hsu i hin c hcn]
            by_cases hic : i = c
            · simp only [if_pos hic]; ring
            · simp only [if_neg hic]; ring
          · simp only [if_pos hin, if_neg hcn, if_neg (show ¬ i = c by omega)]; ring
        · by_cases hcn : c < n
          · simp only [if_neg hin, if_pos hcn, if_neg (show ¬ i = c by omega)]; ring
          · simp only [if_neg hin, if_neg hcn]
            by_cases hic : i = c
            · simp only [if_pos hic]; ring
            · simp only [if_neg hic]; ring
      · rw [if_neg hca, if_neg hca, if_neg (show ¬ i = c from fun hx => hca (hx ▸ ha)), add_zero]
    rw [e3] at e1
    have e4 : ∑ c ∈ range N, (if actOf n s.a c then
        kkt 0 n (ent P) (ent A) i c * (refine n N s.a s.W s.kkt.Kt rhs l).r c else 0) =
        ∑ c ∈ range N, (if actOf n s.a c then kkt 0 n (ent P) (ent A) i c * l.r c else 0) +
        ∑ c ∈ range N, (if actOf n s.a c then kkt 0 n (ent P) (ent A) i c * d c else 0) := by
      rw [← sum_add_distrib]
      apply sum_congr rfl
      intro c hc
      by_cases hca : actOf n s.a c
      · rw [if_pos hca, if_pos hca, if_pos hca, hr c (mem_range.1 hc)]; ring
      · rw [if_neg hca, if_neg hca, if_neg hca, add_zero]
    rw [e4]
    linear_combination e1

/-- The result of the linear algebra: the masked KKT system is solved up to `eps` times the last
correction. -/
theorem linsolve_spec {eps : R} {n N : Nat} {P A : CscL R} {s : GradWs R} (h : Inv eps n N P A s)
    (hi : s.init = false) (hsym : ∀ r < n, ∀ c < n, ent P r c = ent P c r) (dx delta : Nat → R) :
    (∀ i < N, ¬ actOf n s.a i → (linsolve n N s.a s.W s.kkt.Kt dx delta).r i = 0) ∧
    ∀ i < N, actOf n s.a i → ∑ c ∈ range N, (if actOf n s.a c then
      kkt 0 n (ent P) (ent A) i c * (linsolve n N s.a s.W s.kkt.Kt dx delta).r c else 0) +
      (if i < n then eps else -eps) * (linsolve n N s.a s.W s.kkt.Kt dx delta).delta i =
      if i < n then dx i else 0 := by
  have h0 : ∀ i < N, ¬ actOf n s.a i → qsolve N s.W.S.L s.W.Dinv (rhsOf n dx) i = 0 := by
    intro i hiN hna
    rw [(solve_rows h hi (rhsOf n dx)).1 i hiN hna]
    unfold rhsOf
    rw [if_neg (fun hc => hna (Or.inl hc)), neg_zero]
  have h1 := refine_spec h hi hsym (rhsOf n dx) { r := qsolve N s.W.S.L s.W.Dinv (rhsOf n dx), delta := delta } h0
  have h2 := refine_spec h hi hsym (rhsOf n dx) _ h1.1
  have h3 := refine_spec h hi hsym (rhsOf n dx) _ h2.1
  exact h3

/-- Two solves with the same matrix and right-hand side agree. -/
theorem qsolve_unique {N : Nat} {K K' : CscL R} {M M' : Nat → Nat → R} {W W' : Ws R} (h : Good N K M W)
    (h' : Good N K' M' W') (hM : ∀ r < N, ∀ c < N, M r c = M' r c) {b b' : Nat → R}
    (hb : ∀ i < N, b i = b' i) :
    ∀ i < N, qsolve N W.S.L W.Dinv b i = qsolve N W'.S.L W'.Dinv b' i := by
  have k1 := qsolve_spec h.pat.valid h.fac h.D h.Dinv b
  have k2 := qsolve_spec h'.pat.valid h'.fac h'.D h'.Dinv b'
  intro i hi
  have := ldl_inj h.pat.valid h.fac h.D
    (fun c => qsolve N W.S.L W.Dinv b c - qsolve N W'.S.L W'.Dinv b' c) (by
      intro r hr
      have e : ∑ c ∈ range N, M r c * (qsolve N W.S.L W.Dinv b c - qsolve N W'.S.L W'.Dinv b' c) =
          ∑ c ∈ range N, M r c * qsolve N W.S.L W.Dinv b c -
          ∑ c ∈ range N, M' r c * qsolve N W'.S.L W'.Dinv b' c := by
        rw [← sum_sub_distrib]
        apply sum_congr rfl
        intro c hc
        rw [hM r hr c (mem_range.1 hc)]; ring
      rw [e, k1 r hr, k2 r hr, hb r hr, sub_self]) i hi
  exact sub_eq_zero.1 this

/-- The outcome of the linear algebra does not depend on how the factor was obtained. -/
theorem linsolve_unique {eps : R} {n N : Nat} {P A P' A' : CscL R} {s s' : GradWs R}
    (h : Inv eps n N P A s) (h' : Inv eps n N P' A' s') (hi : s.init = false) (hi' : s'.init = false)
    (ha : ∀ r < N, (actOf n s.a r ↔ actOf n s'.a r))
    (hP : ∀ r < n, ∀ c < n, ent P r c = ent P' r c)
    (hA : ∀ r < N - n, ∀ c < n, ent A r c = ent A' r c) (dx delta delta' : Nat → R) :
    ∀ i < N, (linsolve n N s.a s.W s.kkt.Kt dx delta).r i =
      (linsolve n N s'.a s'.W s'.kkt.Kt dx delta').r i := by
  have hK : ∀ e r, r < N → ∀ c < N, kkt e n (ent P) (ent A) r c = kkt e n (ent P') (ent A') r c := by
    intro e r hr c hc
    unfold kkt
    by_cases h1 : r < n
    · by_cases h2 : c < n
      · simp only [if_pos h1, if_pos h2, hP r h1 c h2]
      · simp only [if_pos h1, if_neg h2]
        exact hA (c - n) (by omega) r h1
    · by_cases h2 : c < n
      · simp only [if_neg h1, if_pos h2]
        exact hA (r - n) (by omega) c h2
      · simp only [if_neg h1, if_neg h2]
  have hKs : ∀ r < N, ∀ c < N, symOf s.kkt.K r c = symOf s'.kkt.K r c := by
    intro r hr c hc
    rw [symOf_kkt h.isKkt hr hc, symOf_kkt h'.isKkt hr hc]
    unfold kkt symUp
    by_cases h1 : r < n
    · by_cases h2 : c < n
      · simp only [if_pos h1, if_pos h2, hP r h1 c h2, hP c h2 r h1]
      · simp only [if_pos h1, if_neg h2]
        exact hA (c - n) (by omega) r h1
    · by_cases h2 : c < n
      · simp only [if_neg h1, if_pos h2]
        exact hA (r - n) (by omega) c h2
      · simp only [if_neg h1, if_neg h2]
  have hM : ∀ r < N, ∀ c < N, decoupled (symOf s.kkt.K) (actOf n s.a) r c =
      decoupled (symOf s'.kkt.K) (actOf n s'.a) r c := by
    intro r hr c hc
    unfold decoupled
    simp only [ha r hr, ha c hc, hKs r hr c hc]
  have g := h.good hi
  have g' := h'.good hi'
  have hin : ∀ i < N, inactive n s.a i = inactive n s'.a i := by
    intro i hiN
    rw [Bool.eq_iff_iff, inactive_iff, inactive_iff, ha i hiN]
  have step : ∀ l l' : Lin R, (∀ i < N, l.r i = l'.r i) → ∀ i < N,
      (refine n N s.a s.W s.kkt.Kt (rhsOf n dx) l).r i =
      (refine n N s'.a s'.W s'.kkt.Kt (rhsOf n dx) l').r i := by
    intro l l' hl
    have hres : ∀ i < N, residual n N s.a s.kkt.Kt (rhsOf n dx) l.r l.delta i =
        residual n N s'.a s'.kkt.Kt (rhsOf n dx) l'.r l'.delta i := by
      intro i hiN
      rw [residual_spec n N s.a s.kkt.Kt h.slots.vKt.mono h.slots.KtN _ _ _ hiN,
        residual_spec n N s'.a s'.kkt.Kt h'.slots.vKt.mono h'.slots.KtN _ _ _ hiN, hin i hiN]
      congr 2
      apply sum_congr rfl
      intro c hc
      have hc' := mem_range.1 hc
      rw [hin c hc', h.isKkt.true i hiN c hc', h'.isKkt.true i hiN c hc', hl c hc', hK 0 i hiN c hc']
    have hd := qsolve_unique g g' hM hres
    intro i hiN
    unfold refine
    simp only
    rw [loop_write N (fun i v => v + _), if_pos hiN, loop_write N (fun i v => v + _), if_pos hiN,
      hl i hiN, hd i hiN]
  have h0 := qsolve_unique g g' hM (b := rhsOf n dx) (b' := rhsOf n dx) (fun _ _ => rfl)
  exact step _ _ (step _ _ (step { r := _, delta := delta } { r := _, delta := delta' } h0))

/-! ### the adjoint identity -/

omit [DecidableEq R] [LinearOrder R] [IsStrictOrderedRing R] in
/-- The algebra behind the gradient formulas. -/
theorem adjoint_algebra (n m : Nat) (P A dP dA : Nat → Nat → R) (act : Nat → Prop) [DecidablePred act]
    (e : R) (r1 r2 d1 d2 dx x y dq db x' y' : Nat → R)
    (hP : ∀ r < n, ∀ c < n, P r c = P c r) (hdP : ∀ r < n, ∀ c < n, dP r c = dP c r)
    (hx : ∀ i < n, ∑ j ∈ range n, P i j * r1 j + ∑ k ∈ range m, (if act k then A k i * r2 k else 0) +
      e * d1 i = dx i)
    (hy : ∀ k < m, act k → ∑ j ∈ range n, A k j * r1 j - e * d2 k = 0)
    (hs : ∀ i < n, ∑ j ∈ range n, (P i j * x' j + dP i j * x j) + dq i +
      ∑ k ∈ range m, (if act k then A k i * y' k + dA k i * y k else 0) = 0)
    (hb : ∀ k < m, act k → ∑ j ∈ range n, (A k j * x' j + dA k j * x j) = db k) (two : (2 : R) ≠ 0) :
    ∑ i ∈ range n, dx i * x' i =
      ∑ i ∈ range n, (- r1 i) * dq i +
      ∑ j ∈ range n, ∑ i ∈ range n, (-(1 / 2) * (r1 i * x j + x i * r1 j)) * dP i j +
      ∑ j ∈ range n, ∑ k ∈ range m, (if act k then - (r2 k * x j + y k * r1 j) else 0) * dA k j +
      ∑ k ∈ range m, (if act k then r2 k * db k else 0) +
      e * (∑ i ∈ range n, d1 i * x' i - ∑ k ∈ range m, if act k then d2 k * y' k else 0) := by
  -- `⟨r1, P x'⟩`
  have t1 : ∑ i ∈ range n, (∑ j ∈ range n, P i j * r1 j) * x' i =
      ∑ j ∈ range n, r1 j * ∑ i ∈ range n, P j i * x' i := by
    simp only [sum_mul, mul_sum]
    rw [sum_comm]
    apply sum_congr rfl; intro j hj
    apply sum_congr rfl; intro i hi
    rw [hP i (mem_range.1 hi) j (mem_range.1 hj)]; ring
  have t2 : ∑ i ∈ range n, (∑ k ∈ range m, (if act k then A k i * r2 k else 0)) * x' i =
      ∑ k ∈ range m, if act k then r2 k * ∑ i ∈ range n, A k i * x' i else 0 := by
    simp only [sum_mul]
    rw [sum_comm]
    apply sum_congr rfl; intro k _
    by_cases h : act k
    · simp only [if_pos h, mul_sum]
      apply sum_congr rfl; intro i _; ring
    · simp [if_neg h]
  have t3 : ∑ i ∈ range n, dx i * x' i = ∑ j ∈ range n, r1 j * ∑ i ∈ range n, P j i * x' i +
      (∑ k ∈ range m, if act k then r2 k * ∑ i ∈ range n, A k i * x' i else 0) +
      e * ∑ i ∈ range n, d1 i * x' i := by
    rw [← t1, ← t2, mul_sum, ← sum_add_distrib, ← sum_add_distrib]
    apply sum_congr rfl; intro i hi
    rw [← hx i (mem_range.1 hi)]; ring
  -- stationarity
  have s1 : ∑ j ∈ range n, r1 j * ∑ i ∈ range n, P j i * x' i =
      - ∑ j ∈ range n, r1 j * ∑ i ∈ range n, dP j i * x i - ∑ j ∈ range n, r1 j * dq j -
      ∑ j ∈ range n, r1 j * ∑ k ∈ range m, (if act k then A k j * y' k else 0) -
      ∑ j ∈ range n, r1 j * ∑ k ∈ range m, (if act k then dA k j * y k else 0) := by
    rw [← sum_neg_distrib, ← sum_sub_distrib, ← sum_sub_distrib, ← sum_sub_distrib]
    apply sum_congr rfl; intro j hj
    have := hs j (mem_range.1 hj)
    rw [sum_add_distrib] at this
    have sp : ∑ k ∈ range m, (if act k then A k j * y' k + dA k j * y k else 0) =
        ∑ k ∈ range m, (if act k then A k j * y' k else 0) +
        ∑ k ∈ range m, (if act k then dA k j * y k else 0) := by
      rw [← sum_add_distrib]
      apply sum_congr rfl; intro k _
      by_cases h : act k
      · simp only [if_pos h]
      · simp only [if_neg h, add_zero]
    rw [sp] at this
    linear_combination r1 j * this
  have s2 : ∑ j ∈ range n, r1 j * ∑ k ∈ range m, (if act k then A k j * y' k else 0) =
      e * ∑ k ∈ range m, (if act k then d2 k * y' k else 0) := by
    simp only [mul_sum]
    rw [sum_comm]
    apply sum_congr rfl; intro k hk
    by_cases h : act k
    · simp only [if_pos h]
      have := hy k (mem_range.1 hk) h
      have e1 : ∑ j ∈ range n, r1 j * (A k j * y' k) = (∑ j ∈ range n, A k j * r1 j) * y' k := by
        rw [sum_mul]; apply sum_congr rfl; intro j _; ring
      rw [e1]
      linear_combination y' k * this
    · simp [if_neg h]
  -- feasibility
  have f1 : (∑ k ∈ range m, if act k then r2 k * ∑ i ∈ range n, A k i * x' i else 0) =
      (∑ k ∈ range m, if act k then r2 k * db k else 0) -
      ∑ j ∈ range n, ∑ k ∈ range m, (if act k then r2 k * x j else 0) * dA k j := by
    rw [sum_comm (s := range n), ← sum_sub_distrib]
    apply sum_congr rfl; intro k hk
    by_cases h : act k
    · simp only [if_pos h]
      have := hb k (mem_range.1 hk) h
      rw [sum_add_distrib] at this
      have e1 : ∑ j ∈ range n, r2 k * x j * dA k j = r2 k * ∑ j ∈ range n, dA k j * x j := by
        rw [mul_sum]; apply sum_congr rfl; intro j _; ring
      rw [e1]
      linear_combination r2 k * this
    · simp [if_neg h]
  have g1 : ∑ j ∈ range n, ∑ i ∈ range n, (-(1 / 2) * (r1 i * x j + x i * r1 j)) * dP i j =
      - ∑ j ∈ range n, r1 j * ∑ i ∈ range n, dP j i * x i := by
    have a1 : ∑ j ∈ range n, ∑ i ∈ range n, r1 i * x j * dP i j =
        ∑ j ∈ range n, r1 j * ∑ i ∈ range n, dP j i * x i := by
      rw [sum_comm]
      apply sum_congr rfl; intro j _
      rw [mul_sum]
      apply sum_congr rfl; intro i _; ring
    have a2 : ∑ j ∈ range n, ∑ i ∈ range n, x i * r1 j * dP i j =
        ∑ j ∈ range n, r1 j * ∑ i ∈ range n, dP j i * x i := by
      apply sum_congr rfl; intro j hj
      rw [mul_sum]
      apply sum_congr rfl; intro i hi
      rw [hdP i (mem_range.1 hi) j (mem_range.1 hj)]; ring
    have a3 : ∑ j ∈ range n, ∑ i ∈ range n, (-(1 / 2) * (r1 i * x j + x i * r1 j)) * dP i j =
        -(1 / 2) * (∑ j ∈ range n, ∑ i ∈ range n, r1 i * x j * dP i j +
          ∑ j ∈ range n, ∑ i ∈ range n, x i * r1 j * dP i j) := by
      rw [← sum_add_distrib, mul_sum]
      apply sum_congr rfl; intro j _
      rw [← sum_add_distrib, mul_sum]
      apply sum_congr rfl; intro i _; ring
    rw [a3, a1, a2]
    field_simp
    ring
  have g2 : ∑ j ∈ range n, ∑ k ∈ range m, (if act k then - (r2 k * x j + y k * r1 j) else 0) * dA k j =
      - ∑ j ∈ range n, ∑ k ∈ range m, (if act k then r2 k * x j else 0) * dA k j -
      ∑ j ∈ range n, r1 j * ∑ k ∈ range m, (if act k then dA k j * y k else 0) := by
    rw [← sum_neg_distrib, ← sum_sub_distrib]
    apply sum_congr rfl; intro j _
    rw [mul_sum, ← sum_neg_distrib, ← sum_sub_distrib]
    apply sum_congr rfl; intro k _
    by_cases h : act k
    · simp only [if_pos h]; ring
    · simp [if_neg h]
  have g3 : ∑ i ∈ range n, (- r1 i) * dq i = - ∑ j ∈ range n, r1 j * dq j := by
    rw [← sum_neg_distrib]
    apply sum_congr rfl; intro i _; ring
  rw [t3, s1, s2, f1, g1, g2, g3]
  ring

end Verif.Lemmas.Grad
