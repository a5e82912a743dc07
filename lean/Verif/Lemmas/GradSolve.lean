import Verif.Lemmas.GradAdd
import Verif.Lemmas.KktHist
namespace Verif.Lemmas.Grad
open Verif.Model.Factor Verif.Model.Grad Verif.Spec.Factor Verif.Spec.Grad Verif.Lemmas.Factor Finset

variable {R : Type} [Field R] [DecidableEq R]

/-- A loop that writes every cell once, from the old content of that cell. -/
theorem loop_write {α : Type} (N : Nat) (g : Nat → α → α) (x : Nat → α) (r : Nat) :
    (loop 0 N).foldl (fun x i => upd x i (g i (x i))) x r = if r < N then g r (x r) else x r := by
  have key := loop_inv (fun (x : Nat → α) i => upd x i (g i (x i)))
    (fun m (x' : Nat → α) => ∀ r, x' r = if r < m then g r (x r) else x r) (Nat.zero_le N) x
    (fun r => by simp) (by
      intro k x' _ _ h r
      unfold upd
      by_cases hr : r = k
      · rw [if_pos hr, h k, if_neg (by omega), if_pos (by omega), hr]
      · rw [if_neg hr, h r]
        by_cases hlt : r < k
        · rw [if_pos hlt, if_pos (by omega)]
        · rw [if_neg hlt, if_neg (by omega)])
  exact key r

theorem lsolve_spec {N : Nat} {L : CscL R} (hV : Valid N L) (b : Nat → R) :
    ∀ r < N, lsolve N L b r + ∑ t ∈ range r, ent L r t * lsolve N L b t = b r := by
  have key := loop_inv (fun (x : Nat → R) j => (loop (L.p j) (L.p (j + 1))).foldl
      (fun x k => upd x (L.i k) (x (L.i k) - L.x k * x j)) x)
    (fun j (l : Nat → R) => (∀ r, j ≤ r → r < N → l r = b r - ∑ t ∈ range j, ent L r t * l t) ∧
      ∀ r < j, l r = b r - ∑ t ∈ range r, ent L r t * l t)
    (Nat.zero_le N) b ⟨fun r _ hr => by simp, fun r hr => by omega⟩ (by
      rintro j l - hj ⟨h1, h2⟩
      have hstep : ∀ r, (loop (L.p j) (L.p (j + 1))).foldl
          (fun x k => upd x (L.i k) (x (L.i k) - L.x k * x j)) l r = l r - ent L r j * l j :=
        fun r => col_axpy hV hj l r
      obtain ⟨l', hl'⟩ : ∃ l', l' = (loop (L.p j) (L.p (j + 1))).foldl
          (fun x k => upd x (L.i k) (x (L.i k) - L.x k * x j)) l := ⟨_, rfl⟩
      rw [← hl'] at hstep ⊢
      have hle : ∀ r ≤ j, l' r = l r := by
        intro r hr
        rw [hstep, ent_upper hV hj (by omega)]; ring
      have hsum : ∀ r q, q ≤ j → ∑ t ∈ range q, ent L r t * l' t = ∑ t ∈ range q, ent L r t * l t := by
        intro r q hq
        apply sum_congr rfl
        intro t ht
        rw [hle t (by have := mem_range.1 ht; omega)]
      constructor
      · intro r hr hrm
        rw [sum_range_succ, hsum r j (Nat.le_refl _), hle j (Nat.le_refl _), hstep,
          h1 r (by omega) hrm]; ring
      · intro r hr
        rw [hsum r r (by omega), hle r (by omega)]
        rcases Nat.lt_or_ge r j with h | h
        · exact h2 r h
        · obtain rfl : r = j := by omega
          exact h1 r (Nat.le_refl _) hj)
  intro r hr
  have := key.2 r hr
  change lsolve N L b r = b r - ∑ t ∈ range r, ent L r t * lsolve N L b t at this
  rw [this]; ring

/-- A column against a vector. -/
theorem col_dot {N : Nat} {L : CscL R} (hV : Valid N L) {j : Nat} (hj : j < N) (x : Nat → R) :
    ∑ k ∈ Ico (L.p j) (L.p (j + 1)), L.x k * x (L.i k) = ∑ t ∈ Ico (j + 1) N, ent L t j * x t := by
  unfold ent
  have h1 : ∀ k ∈ Ico (L.p j) (L.p (j + 1)), L.x k * x (L.i k) =
      ∑ t ∈ Ico (j + 1) N, (if L.i k = t then L.x k else 0) * x t := by
    intro k hk
    have hk' := mem_Ico.1 hk
    have hlow := hV.lower j hj k hk'.1 hk'.2
    rw [sum_eq_single (L.i k), if_pos rfl]
    · intro t _ hne
      rw [if_neg (fun h => hne h.symm), zero_mul]
    · intro hn
      exact absurd (mem_Ico.2 ⟨by omega, hlow.2⟩) hn
  rw [sum_congr rfl h1, sum_comm]
  apply sum_congr rfl
  intro t _
  rw [sum_mul]

theorem ltsolve_spec {N : Nat} {L : CscL R} (hV : Valid N L) (z : Nat → R) :
    ∀ r < N, ltsolve N L z r + ∑ t ∈ Ico (r + 1) N, ent L t r * ltsolve N L z t = z r := by
  have key : ∀ m, m ≤ N → ∀ x : Nat → R, (∀ r < m, x r = z r) →
      (∀ r, m ≤ r → r < N → x r + ∑ t ∈ Ico (r + 1) N, ent L t r * x t = z r) →
      ∀ r < N, (loop 0 m).reverse.foldl (fun x j => (loop (L.p j) (L.p (j + 1))).foldl
        (fun x k => upd x j (x j - L.x k * x (L.i k))) x) x r +
        ∑ t ∈ Ico (r + 1) N, ent L t r * (loop 0 m).reverse.foldl (fun x j =>
          (loop (L.p j) (L.p (j + 1))).foldl (fun x k => upd x j (x j - L.x k * x (L.i k))) x) x t =
        z r := by
    intro m
    induction m with
    | zero =>
      intro _ x _ h r hr
      exact h r (Nat.zero_le _) hr
    | succ m ih =>
      intro hm x h1 h2
      rw [loop_succ (Nat.zero_le _), List.reverse_append, List.reverse_singleton, List.singleton_append,
        List.foldl_cons]
      obtain ⟨x', hx'⟩ : ∃ x', x' = (loop (L.p m) (L.p (m + 1))).foldl
        (fun x k => upd x m (x m - L.x k * x (L.i k))) x := ⟨_, rfl⟩
      rw [← hx']
      have hin : (∀ r, r ≠ m → x' r = x r) ∧ x' m = x m - ∑ k ∈ Ico (L.p m) (L.p (m + 1)), L.x k * x (L.i k) := by
        rw [hx']
        exact loop_inv (fun (x : Nat → R) k => upd x m (x m - L.x k * x (L.i k)))
          (fun q (y : Nat → R) => (∀ r, r ≠ m → y r = x r) ∧ y m = x m - ∑ k ∈ Ico (L.p m) q, L.x k * x (L.i k))
          (hV.mono m (by omega)) x ⟨fun _ _ => rfl, by simp⟩ (by
            rintro q y h1 h2 ⟨g1, g2⟩
            have hlow := hV.lower m (by omega) q h1 h2
            constructor
            · intro r hr
              unfold upd
              rw [if_neg hr]
              exact g1 r hr
            · unfold upd
              rw [if_pos rfl, g2, g1 (L.i q) (by omega), sum_Ico_succ_top h1]; ring)
      apply ih (by omega) x'
      · intro r hr
        rw [hin.1 r (by omega)]
        exact h1 r (by omega)
      · intro r hr hrN
        have hs : ∑ t ∈ Ico (r + 1) N, ent L t r * x' t = ∑ t ∈ Ico (r + 1) N, ent L t r * x t := by
          apply sum_congr rfl
          intro t ht
          have := mem_Ico.1 ht
          rw [hin.1 t (by omega)]
        rw [hs]
        rcases Nat.lt_or_ge m r with h | h
        · rw [hin.1 r (by omega)]
          exact h2 r (by omega) hrN
        · obtain rfl : r = m := by omega
          rw [hin.2, col_dot hV hrN, h1 r (by omega)]; ring
  exact key N (Nat.le_refl _) z (fun _ _ => rfl) (fun r h1 h2 => by omega)

theorem unit_row {N : Nat} {L : CscL R} (hV : Valid N L) {r : Nat} (hr : r < N) (y : Nat → R) :
    ∑ t ∈ range N, unitOf L r t * y t = y r + ∑ t ∈ range r, ent L r t * y t := by
  have hU := unitOf_lower hV
  have : ∑ t ∈ range N, unitOf L r t * y t = ∑ t ∈ range (r + 1), unitOf L r t * y t := by
    symm
    apply sum_subset (range_mono (by omega))
    intro t ht ht'
    have a1 := mem_range.1 ht
    have a2 : ¬ t < r + 1 := fun h => ht' (mem_range.2 h)
    rw [hU.2 r hr t a1 (by omega), zero_mul]
  rw [this, sum_range_succ, hU.1 r hr, one_mul, add_comm]
  congr 1
  apply sum_congr rfl
  intro t ht
  have := mem_range.1 ht
  unfold unitOf
  rw [if_neg (by omega)]

theorem unit_col {N : Nat} {L : CscL R} (hV : Valid N L) {t : Nat} (ht : t < N) (y : Nat → R) :
    ∑ c ∈ range N, unitOf L c t * y c = y t + ∑ c ∈ Ico (t + 1) N, ent L c t * y c := by
  have hU := unitOf_lower hV
  rw [range_eq_Ico, ← sum_Ico_consecutive _ (Nat.zero_le t) (Nat.le_of_lt ht),
    sum_eq_sum_Ico_succ_bot ht, hU.1 t ht, one_mul]
  have h0 : ∑ c ∈ Ico 0 t, unitOf L c t * y c = 0 := by
    apply sum_eq_zero
    intro c hc
    have := mem_Ico.1 hc
    rw [hU.2 c (by omega) t ht (by omega), zero_mul]
  rw [h0, zero_add]
  congr 1
  apply sum_congr rfl
  intro c hc
  have := mem_Ico.1 hc
  unfold unitOf
  rw [if_neg (by omega)]

omit [DecidableEq R] in
theorem ldl_apply {N : Nat} {U : Nat → Nat → R} {D : Nat → R} {M : Nat → Nat → R} (hF : IsLDL N U D M)
    (x : Nat → R) {r : Nat} (hr : r < N) :
    ∑ c ∈ range N, M r c * x c = ∑ t ∈ range N, U r t * (D t * ∑ c ∈ range N, U c t * x c) := by
  have : ∀ c ∈ range N, M r c * x c = ∑ t ∈ range N, U r t * (D t * (U c t * x c)) := by
    intro c hc
    rw [← hF r hr c (mem_range.1 hc), sum_mul]
    exact sum_congr rfl (fun t _ => by ring)
  rw [sum_congr rfl this, sum_comm]
  apply sum_congr rfl
  intro t _
  rw [← mul_sum, ← mul_sum]

/-- `QDLDL_solve` with an exact factorization solves the system. -/
theorem qsolve_spec {N : Nat} {L : CscL R} {D Dinv : Nat → R} {M : Nat → Nat → R} (hV : Valid N L)
    (hF : IsLDL N (unitOf L) D M) (hD : ∀ t < N, D t ≠ 0) (hDi : ∀ t < N, Dinv t = 1 / D t)
    (b : Nat → R) : ∀ r < N, ∑ c ∈ range N, M r c * qsolve N L Dinv b c = b r := by
  intro r hr
  rw [ldl_apply hF _ hr]
  have hz : ∀ t < N, D t * ∑ c ∈ range N, unitOf L c t * qsolve N L Dinv b c = lsolve N L b t := by
    intro t ht
    rw [unit_col hV ht]
    unfold qsolve
    rw [ltsolve_spec hV _ t ht, loop_write N (fun i v => v * Dinv i), if_pos ht, hDi t ht]
    have := hD t ht
    field_simp
  have : ∑ t ∈ range N, unitOf L r t * (D t * ∑ c ∈ range N, unitOf L c t * qsolve N L Dinv b c) =
      ∑ t ∈ range N, unitOf L r t * lsolve N L b t :=
    sum_congr rfl (fun t ht => by rw [hz t (mem_range.1 ht)])
  rw [this, unit_row hV hr, lsolve_spec hV b r hr]

/-- A matrix with such a factorization is nonsingular. -/
theorem ldl_inj {N : Nat} {L : CscL R} {D : Nat → R} {M : Nat → Nat → R} (hV : Valid N L)
    (hF : IsLDL N (unitOf L) D M) (hD : ∀ t < N, D t ≠ 0) (x : Nat → R)
    (h0 : ∀ r < N, ∑ c ∈ range N, M r c * x c = 0) : ∀ r < N, x r = 0 := by
  have hz : ∀ r < N, D r * ∑ c ∈ range N, unitOf L c r * x c = 0 := by
    intro r
    induction r using Nat.strong_induction_on with
    | _ r ih =>
      intro hr
      have := h0 r hr
      have hs : ∑ t ∈ range r, ent L r t * (D t * ∑ c ∈ range N, unitOf L c t * x c) = 0 := by
        apply sum_eq_zero
        intro t ht
        have ht' := mem_range.1 ht
        rw [ih t ht' (by omega), mul_zero]
      rw [ldl_apply hF _ hr, unit_row hV hr, hs, add_zero] at this
      exact this
  have hx : ∀ d r, r < N → N - r ≤ d → x r = 0 := by
    intro d
    induction d with
    | zero => intro r hr h; omega
    | succ d ih =>
      intro r hr h
      have := hz r hr
      rw [unit_col hV hr, sum_eq_zero, add_zero] at this
      · exact (mul_eq_zero.1 this).resolve_left (hD r hr)
      · intro t ht
        have ht' := mem_Ico.1 ht
        rw [ih t ht'.2 (by omega), mul_zero]
  intro r hr
  exact hx (N - r) r hr (Nat.le_refl _)

/-- What the residual loop computes. -/
theorem residual_spec (n N : Nat) (a : Nat → Int) (Kt : CscL R) (hm : ∀ c < N, Kt.p c ≤ Kt.p (c + 1))
    (hi : ∀ c, ∀ r < N, Occupied Kt c r → c < N) (rhs r delta : Nat → R) {i : Nat} (hiN : i < N) :
    residual n N a Kt rhs r delta i = if inactive n a i then 0 else
      rhs i - ∑ c ∈ range N, (if inactive n a c then 0 else ent Kt c i * r c) := by
  have inner : ∀ (i : Nat) (d : Nat → R), Kt.p i ≤ Kt.p (i + 1) → ∀ q,
      (loop (Kt.p i) (Kt.p (i + 1))).foldl (fun d k =>
        if inactive n a (Kt.i k) then d else upd d i (d i - Kt.x k * r (Kt.i k))) d q =
      if q = i then d i - ∑ k ∈ Ico (Kt.p i) (Kt.p (i + 1)),
        (if inactive n a (Kt.i k) then 0 else Kt.x k * r (Kt.i k)) else d q := by
    intro i d hp
    exact loop_inv (fun (d : Nat → R) k =>
        if inactive n a (Kt.i k) then d else upd d i (d i - Kt.x k * r (Kt.i k)))
      (fun m (d' : Nat → R) => ∀ q, d' q = if q = i then d i - ∑ k ∈ Ico (Kt.p i) m,
        (if inactive n a (Kt.i k) then 0 else Kt.x k * r (Kt.i k)) else d q) hp d
      (fun q => by by_cases h : q = i <;> simp [h]) (by
        intro k d' h1 h2 h q
        rw [sum_Ico_succ_top h1]
        by_cases hin : inactive n a (Kt.i k) = true
        · rw [if_pos hin, if_pos hin, h q, add_zero]
        · rw [if_neg hin, if_neg hin]
          unfold upd
          by_cases hq : q = i
          · rw [if_pos hq, if_pos hq, h i, if_pos rfl]; ring
          · rw [if_neg hq, if_neg hq, h q, if_neg hq])
  have outer : ∀ m ≤ N, ∀ q, (loop 0 m).foldl (fun d i =>
      if inactive n a i then upd d i 0
      else (loop (Kt.p i) (Kt.p (i + 1))).foldl (fun d k =>
        if inactive n a (Kt.i k) then d else upd d i (d i - Kt.x k * r (Kt.i k))) d)
      ((loop 0 N).foldl (fun d i => upd d i (rhs i)) delta) q =
      if q < m then (if inactive n a q then 0 else rhs q - ∑ k ∈ Ico (Kt.p q) (Kt.p (q + 1)),
        (if inactive n a (Kt.i k) then 0 else Kt.x k * r (Kt.i k)))
      else (loop 0 N).foldl (fun d i => upd d i (rhs i)) delta q := by
    intro m
    induction m with
    | zero => intro _ q; simp [loop]
    | succ m ih =>
      intro hm' q
      rw [loop_succ (Nat.zero_le _), List.foldl_append, List.foldl_cons, List.foldl_nil]
      by_cases hin : inactive n a m = true
      · rw [if_pos hin]
        unfold upd
        by_cases hq : q = m
        · rw [if_pos hq, if_pos (show q < m + 1 by omega), hq, if_pos hin]
        · rw [if_neg hq]
          have := ih (by omega) q
          unfold upd at this
          rw [this]
          by_cases hlt : q < m
          · rw [if_pos hlt, if_pos (show q < m + 1 by omega)]
          · rw [if_neg hlt, if_neg (show ¬ q < m + 1 by omega)]
      · rw [if_neg hin, inner m _ (hm m (by omega))]
        by_cases hq : q = m
        · rw [if_pos hq, ih (by omega) m, if_neg (show ¬ m < m by omega), if_pos (show q < m + 1 by omega),
            hq, if_neg hin]
          have := loop_write N (fun i (_ : R) => rhs i) delta m
          rw [if_pos (by omega)] at this
          rw [this]
        · rw [if_neg hq, ih (by omega) q]
          by_cases hlt : q < m
          · rw [if_pos hlt, if_pos (show q < m + 1 by omega)]
          · rw [if_neg hlt, if_neg (show ¬ q < m + 1 by omega)]
  have := outer N (Nat.le_refl _) i
  rw [if_pos hiN] at this
  refine this.trans ?_
  by_cases hin : inactive n a i = true
  · rw [if_pos hin, if_pos hin]
  · rw [if_neg hin, if_neg hin]
    congr 1
    have h1 : ∀ k ∈ Ico (Kt.p i) (Kt.p (i + 1)),
        (if inactive n a (Kt.i k) = true then 0 else Kt.x k * r (Kt.i k)) =
        ∑ c ∈ range N, (if inactive n a c = true then 0 else (if Kt.i k = c then Kt.x k else 0) * r c) := by
      intro k hk
      have hk' := mem_Ico.1 hk
      have hb : Kt.i k < N := hi (Kt.i k) i hiN ((occupied_iff _ _ _).2 ⟨k, hk'.1, hk'.2, rfl⟩)
      rw [sum_eq_single (Kt.i k), if_pos rfl]
      · intro c _ hne
        rw [if_neg (show ¬ Kt.i k = c from fun h => hne h.symm), zero_mul, ite_self]
      · intro hn
        exact absurd (mem_range.2 hb) hn
    rw [sum_congr rfl h1, sum_comm]
    apply sum_congr rfl
    intro c _
    by_cases hc : inactive n a c = true
    · simp [hc]
    · simp only [if_neg hc]
      rw [← sum_mul]
      rfl

end Verif.Lemmas.Grad
