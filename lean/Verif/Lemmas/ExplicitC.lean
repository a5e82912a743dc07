import Verif.Lemmas.ExplicitB
import Mathlib.Algebra.Order.BigOperators.Ring.Finset
namespace Verif.Lemmas.Explicit
open Verif.Model Verif.Model.Explicit Verif.Spec Verif.Spec.Explicit Finset

/-! ### range of theta -/
section theta
variable {R : Type} [CommRing R] [LinearOrder R] [IsStrictOrderedRing R]

theorem theta_mono (NP : Nat) (C : Nat → Nat → R) (b : Bounds R) (i : Nat)
    (hs : ∀ c < NP, b.lower c < b.upper c → 0 ≤ C i c) (p : Nat → R) (hp : InBox NP b p) :
    ∑ c ∈ range NP, C i c * b.lower c ≤ ∑ c ∈ range NP, C i c * p c ∧
      ∑ c ∈ range NP, C i c * p c ≤ ∑ c ∈ range NP, C i c * b.upper c := by
  constructor
  · apply sum_le_sum
    intro c hc
    obtain ⟨h1, h2⟩ := hp c (mem_range.1 hc)
    rcases lt_or_eq_of_le (le_trans h1 h2) with h | h
    · exact mul_le_mul_of_nonneg_left h1 (hs c (mem_range.1 hc) h)
    · have : p c = b.lower c := le_antisymm (h ▸ h2) h1
      rw [this]
  · apply sum_le_sum
    intro c hc
    obtain ⟨h1, h2⟩ := hp c (mem_range.1 hc)
    rcases lt_or_eq_of_le (le_trans h1 h2) with h | h
    · exact mul_le_mul_of_nonneg_left h2 (hs c (mem_range.1 hc) h)
    · have : p c = b.upper c := le_antisymm h2 (h ▸ h1)
      rw [this]

theorem theta_anti (NP : Nat) (C : Nat → Nat → R) (b : Bounds R) (i : Nat)
    (hs : ∀ c < NP, b.lower c < b.upper c → C i c ≤ 0) (p : Nat → R) (hp : InBox NP b p) :
    ∑ c ∈ range NP, C i c * b.upper c ≤ ∑ c ∈ range NP, C i c * p c ∧
      ∑ c ∈ range NP, C i c * p c ≤ ∑ c ∈ range NP, C i c * b.lower c := by
  have := theta_mono NP (fun i c => - C i c) b i (fun c h1 h2 => by
    have := hs c h1 h2; show 0 ≤ - C i c; linarith) p hp
  simp only [neg_mul, sum_neg_distrib] at this
  constructor <;> linarith [this.1, this.2]

theorem theta_bad (NP : Nat) (C : Nat → Nat → R) (b : Bounds R) (i : Nat)
    (hb : ∀ c < NP, b.lower c ≤ b.upper c)
    (h : ∀ p, InBox NP b p → ∑ c ∈ range NP, C i c * p c ≤ (thetaBound NP C b i).2)
    (c1 c2 : Nat) (h1 : c1 < NP) (h2 : c2 < NP) (l1 : b.lower c1 < b.upper c1) (l2 : b.lower c2 < b.upper c2)
    (p1 : 0 < C i c1) (p2 : C i c2 < 0) : False := by
  have hbox : InBox NP b (fun c => if 0 ≤ C i c then b.upper c else b.lower c) := by
    intro c hc
    show b.lower c ≤ (if 0 ≤ C i c then b.upper c else b.lower c) ∧ (if 0 ≤ C i c then b.upper c else b.lower c) ≤ b.upper c
    by_cases h0 : 0 ≤ C i c
    · rw [if_pos h0]; exact ⟨hb c hc, le_refl _⟩
    · rw [if_neg h0]; exact ⟨le_refl _, hb c hc⟩
  have hle := h _ hbox
  have hup : ∑ c ∈ range NP, C i c * b.upper c <
      ∑ c ∈ range NP, C i c * (if 0 ≤ C i c then b.upper c else b.lower c) := by
    apply sum_lt_sum
    · intro c hc
      by_cases h0 : 0 ≤ C i c
      · rw [if_pos h0]
      · rw [if_neg h0]
        exact mul_le_mul_of_nonpos_left (hb c (mem_range.1 hc)) (le_of_lt (not_le.1 h0))
    · refine ⟨c2, mem_range.2 h2, ?_⟩
      rw [if_neg (not_le.2 p2)]
      exact mul_lt_mul_of_neg_left l2 p2
  have hlo : ∑ c ∈ range NP, C i c * b.lower c <
      ∑ c ∈ range NP, C i c * (if 0 ≤ C i c then b.upper c else b.lower c) := by
    apply sum_lt_sum
    · intro c hc
      by_cases h0 : 0 ≤ C i c
      · rw [if_pos h0]
        exact mul_le_mul_of_nonneg_left (hb c (mem_range.1 hc)) h0
      · rw [if_neg h0]
    · refine ⟨c1, mem_range.2 h1, ?_⟩
      rw [if_pos (le_of_lt p1)]
      exact mul_lt_mul_of_pos_left l1 p1
  unfold thetaBound at hle
  simp only at hle
  exact absurd hle (not_le.2 (max_lt hlo hup))

end theta

/-! ### elimination -/
section elim
variable {R : Type} [CommRing R] [LinearOrder R]

theorem zipWith_getElem?_false {α β : Type} (f : α → β → Bool) (l1 : List α) (l2 : List β) (i : Nat)
    (h : (List.zipWith f l1 l2)[i]? = some false) (x : α) (y : β) (hx : l1[i]? = some x) (hy : l2[i]? = some y) :
    f x y = false := by
  rw [List.getElem?_zipWith, hx, hy] at h
  simpa using h

theorem reduceMpqp_spec (n m : Nat) (A : Nat → Nat → R) (thmin thmax : List R) (hmin : thmin.length = n + m)
    (hmax : thmax.length = n + m) (q u : Nat → R)
    (hbox : ∀ i < n + m, fn thmin i ≤ (if i < n then q i else u (i - n)) ∧
      (if i < n then q i else u (i - n)) ≤ fn thmax i) :
    let M := reduceMpqp n m A thmin thmax
    let th := thetaUpdate n m M.thMask q u
    M.rows = sel (rowMask m n A) (List.range m) ∧ th.length = M.F.length ∧ th.length = M.B.length ∧
    (∀ r < n, M.f r + colDot M.F th r = q r) ∧
    (∀ r row, M.rows[r]? = some row → M.b r + colDot M.B th r = u row) := by
  intro M th
  obtain ⟨F0, hF0⟩ : ∃ F0 : List (Nat → R), F0 = (List.range (n + m)).map fun i r => if r < n ∧ r = i then 1 else 0 := ⟨_, rfl⟩
  obtain ⟨rows, hrows⟩ : ∃ rows, rows = sel (rowMask m n A) (List.range m) := ⟨_, rfl⟩
  obtain ⟨B0, hB0⟩ : ∃ B0 : List (Nat → R), B0 = (List.range (n + m)).map fun i r =>
    if n + rows.getD r 0 = i ∧ r < rows.length then 1 else 0 := ⟨_, rfl⟩
  obtain ⟨mask, hmask⟩ : ∃ mask, mask = List.zipWith (fun a b => decide (a ≠ b)) thmin thmax := ⟨_, rfl⟩
  obtain ⟨mask2, hmask2⟩ : ∃ mask2, mask2 = List.zipWith (fun (c d : Nat → R) => (List.range n).any (fun r => decide (c r ≠ 0)) ||
    (List.range rows.length).any (fun r => decide (d r ≠ 0))) (sel mask F0) (sel mask B0) := ⟨_, rfl⟩
  have hM : M = Mpqp.mk (fun r => (0 : R) + colDot (sel (mask.map (!·)) F0) (sel (mask.map (!·)) thmin) r)
      (sel mask2 (sel mask F0)) (fun r => (0 : R) + colDot (sel (mask.map (!·)) B0) (sel (mask.map (!·)) thmin) r)
      (sel mask2 (sel mask B0)) rows (putMask mask mask2) := by
    subst hmask2; subst hmask; subst hB0; subst hF0; subst hrows; rfl
  obtain ⟨g, hg⟩ : ∃ g : Nat → R, g = fun i => if i < n then q i else u (i - n) := ⟨_, rfl⟩
  obtain ⟨full, hfull⟩ : ∃ full, full = (List.range (n + m)).map g := ⟨_, rfl⟩
  have lF : F0.length = n + m := by simp [hF0]
  have lB : B0.length = n + m := by simp [hB0]
  have lm : mask.length = n + m := by simp [hmask, hmin, hmax]
  have lf : full.length = n + m := by simp [hfull]
  have lsF : (sel mask F0).length = (sel mask full).length := sel_length_eq _ _ _ (by omega)
  have lsB : (sel mask B0).length = (sel mask full).length := sel_length_eq _ _ _ (by omega)
  have lm2 : mask2.length = (sel mask full).length := by simp [hmask2, lsF, lsB]
  have hth : th = sel mask2 (sel mask full) := by
    rw [sel_sel mask mask2 full (by omega) lm2, hfull, sel_map]
    show thetaUpdate n m M.thMask q u = _
    rw [hM, hg]
    rfl
  have hfix : sel (mask.map (!·)) thmin = sel (mask.map (!·)) full := by
    rw [hmask]
    symm
    apply sel_fixed thmin thmax full (by omega) (by omega)
    intro i h h1 h2
    have := hbox i (by omega)
    have e1 : fn thmin i = thmin[i] := by simp [fn, List.getD, List.getElem?_eq_getElem h1]
    have e2 : fn thmax i = thmax[i] := by simp [fn, List.getD, List.getElem?_eq_getElem h2]
    have e3 : full[i] = (if i < n then q i else u (i - n)) := by simp [hfull, hg]
    rw [e3, ← e1, ← e2]
    exact this
  have total : ∀ (C0 : List (Nat → R)) (r : Nat), C0.length = n + m →
      (∀ i : Nat, mask2[i]? = some false → ∀ c : Nat → R, (sel mask C0)[i]? = some c → c r = 0) →
      (0 : R) + colDot (sel (mask.map (!·)) C0) (sel (mask.map (!·)) thmin) r +
        colDot (sel mask2 (sel mask C0)) th r = colDot C0 full r := by
    intro C0 r hC h
    rw [hfix, hth, zero_add, colDot_split mask C0 full r (by omega) (by omega)]
    congr 1
    symm
    apply colDot_drop
    · rw [lm2]; exact sel_length_eq _ _ _ (by omega)
    · exact sel_length_eq _ _ _ (by omega)
    · exact h
  refine ⟨by rw [hM]; exact hrows, ?_, ?_, ?_, ?_⟩
  · rw [hM, hth]; exact sel_length_eq _ _ _ lsF.symm
  · rw [hM, hth]; exact sel_length_eq _ _ _ lsB.symm
  · intro r hr
    rw [hM]
    have t := total F0 r lF (by
      intro i hi c hc
      have hil : i < (sel mask B0).length := by
        have : i < (sel mask F0).length := by
          by_contra hh; rw [List.getElem?_eq_none (by omega)] at hc; cases hc
        omega
      rw [hmask2] at hi
      have := zipWith_getElem?_false _ _ _ i hi c _ hc (List.getElem?_eq_getElem hil)
      simp only [Bool.or_eq_false_iff, List.any_eq_false, List.mem_range, decide_eq_true_eq, not_not] at this
      exact this.1 r hr)
    refine Eq.trans t ?_
    rw [hF0, hfull, colDot_unit (n + m) g (fun r => some r) r _ _ r (by omega) rfl]
    · rw [hg]; simp [hr]
    · intro i hi
      simp [hr]
  · intro r row hrow
    rw [hM] at hrow ⊢
    simp only at hrow
    have hrl : r < rows.length := by
      by_contra hh; rw [List.getElem?_eq_none (by omega)] at hrow; cases hrow
    have t := total B0 r lB (by
      intro i hi d hd
      have hil : i < (sel mask F0).length := by
        have : i < (sel mask B0).length := by
          by_contra hh; rw [List.getElem?_eq_none (by omega)] at hd; cases hd
        omega
      rw [hmask2] at hi
      have := zipWith_getElem?_false _ _ _ i hi _ d (List.getElem?_eq_getElem hil) hd
      simp only [Bool.or_eq_false_iff, List.any_eq_false, List.mem_range, decide_eq_true_eq, not_not] at this
      exact this.2 r hrl)
    refine Eq.trans t ?_
    have hrm : row < m := by
      rw [hrows] at hrow
      exact (sel_range_get hrow).1
    rw [hB0, hfull, colDot_unit (n + m) g (fun r => some (n + rows.getD r 0)) r _ _ (n + row) (by omega) (by
      simp [List.getD, hrow])]
    · rw [hg]; simp
    · intro i hi
      simp [hrl]

end elim

/-! ### gradient -/
section grad
variable {R : Type} [CommRing R]

theorem rowBump_spec {m : Csr R} (j : Nat) (t : R) (dp : List R)
    {n : Nat} (hm : Csr.Valid m n dp.length) (hj : j < n) :
    ∃ dp', rowBump m j t dp = some dp' ∧ dp'.length = dp.length ∧
      ∀ c, fn dp' c = fn dp c + csrAt m j c * t := by
  have hp : ∀ i ≤ n, m.indptr[i]? = some (m.indptr.getD i 0) := by
    intro i hi
    have : i < m.indptr.length := by rw [hm.len]; omega
    simp [List.getD, List.getElem?_eq_getElem this]
  have mono := hm.mono j hj
  have last := hm.last (j + 1) (by omega)
  obtain ⟨dp2, e2, l2, h2⟩ := fold_opt (α := Nat) (β := List R)
    (fun q dp' => dp'.length = dp.length ∧ ∀ c, fn dp' c = fn dp c +
      ∑ k ∈ Ico (m.indptr.getD j 0) q, if m.indices.getD k 0 = c then fn m.data k * t else 0)
    (fun dp k => do
      let c ← m.indices[k]?
      let x ← m.data[k]?
      bump dp c (x * t)) (m.indptr.getD j 0) (m.indptr.getD (j + 1) 0 - m.indptr.getD j 0) dp
    ⟨rfl, fun c => by simp⟩ (by
      rintro k hk1 hk2 dp3 ⟨l3, h3⟩
      have hkd : k < m.data.length := by omega
      have hki : k < m.indices.length := by rw [hm.same]; omega
      have hcol : m.indices.getD k 0 < dp.length := by
        apply hm.cols
        simp [List.getD, List.getElem?_eq_getElem hki]
      obtain ⟨dp4, e4, l4, h4⟩ := bump_spec dp3 (m.indices.getD k 0) (fn m.data k * t) (by omega)
      refine ⟨dp4, ?_, by omega, ?_⟩
      · have e1 : m.indices[k]? = some (m.indices.getD k 0) := by
          simp [List.getD, List.getElem?_eq_getElem hki]
        rw [e1, fn_get m.data k hkd]
        exact e4
      · intro c
        rw [h4 c, h3 c, sum_Ico_succ_top hk1]; ring)
  refine ⟨dp2, ?_, l2, ?_⟩
  · unfold rowBump
    rw [hp j (by omega), hp (j + 1) (by omega)]
    exact e2
  · intro c
    rw [h2 c, Nat.add_sub_cancel' mono]
    congr 1
    unfold csrAt csc
    rw [sum_mul]
    apply sum_congr rfl
    intro k _
    by_cases h : m.indices.getD k 0 = c
    · rw [if_pos h, if_pos h]
    · rw [if_neg h, if_neg h, zero_mul]

/-- Share of row `i` (of `q` or `u`) in the derivative of theta. -/
def exAt (E : ExCanon R) (i c : Nat) : R :=
  if i < E.n then (if E.qc then csrAt E.q i c else 0) else (if E.uc then csrAt E.u (i - E.n) c else 0)

theorem exRow_spec (NP : Nat) (E : ExCanon R) (dth : Nat → R) (hq : E.qc = true → Csr.Valid E.q E.n NP)
    (hu : E.uc = true → Csr.Valid E.u E.m NP) (dp : List R) (hl : dp.length = NP) (e : Nat × Nat)
    (he : e.1 < E.n + E.m) :
    ∃ dp', exRow E dth dp e = some dp' ∧ dp'.length = NP ∧
      ∀ c, fn dp' c = fn dp c + exAt E e.1 c * dth e.2 := by
  unfold exRow exAt
  by_cases h1 : e.1 < E.n
  · simp only [if_pos h1]
    by_cases h2 : E.qc = true
    · simp only [if_pos h2]
      obtain ⟨dp', a, b, c⟩ := rowBump_spec e.1 (dth e.2) dp (hl ▸ hq h2) h1
      exact ⟨dp', a, by omega, c⟩
    · simp only [if_neg h2]
      exact ⟨dp, rfl, hl, fun c => by simp⟩
  · simp only [if_neg h1]
    by_cases h2 : E.uc = true
    · simp only [if_pos h2]
      obtain ⟨dp', a, b, c⟩ := rowBump_spec (e.1 - E.n) (dth e.2) dp (hl ▸ hu h2) (by omega)
      exact ⟨dp', a, by omega, c⟩
    · simp only [if_neg h2]
      exact ⟨dp, rfl, hl, fun c => by simp⟩

theorem exFold_spec (NP : Nat) (E : ExCanon R) (dth : Nat → R) (hq : E.qc = true → Csr.Valid E.q E.n NP)
    (hu : E.uc = true → Csr.Valid E.u E.m NP) (L : List (Nat × Nat)) :
    ∀ (dp : List R), dp.length = NP → (∀ e ∈ L, e.1 < E.n + E.m) →
    ∃ dp', L.foldlM (exRow E dth) dp = some dp' ∧ dp'.length = NP ∧
      ∀ c, fn dp' c = fn dp c + (L.map fun e => exAt E e.1 c * dth e.2).sum := by
  induction L with
  | nil => intro dp hl _; exact ⟨dp, rfl, hl, fun c => by simp⟩
  | cons e L ih =>
    intro dp hl he
    obtain ⟨dp1, e1, l1, h1⟩ := exRow_spec NP E dth hq hu dp hl e (he e (List.mem_cons_self ..))
    obtain ⟨dp2, e2, l2, h2⟩ := ih dp1 l1 (fun e' h => he e' (List.mem_cons_of_mem _ h))
    refine ⟨dp2, ?_, l2, ?_⟩
    · rw [List.foldlM_cons, e1]; exact e2
    · intro c
      rw [h2 c, h1 c, List.map_cons, List.sum_cons]; ring

theorem zipIdx_sum (l : List Nat) (f : Nat → Nat → R) :
    (l.zipIdx.map fun e => f e.1 e.2).sum = ∑ k ∈ range l.length, f (l.getD k 0) k := by
  induction l using List.reverseRecOn with
  | nil => simp
  | append_singleton l a ih =>
    rw [List.zipIdx_append, List.map_append, List.sum_append, ih, List.length_append, List.length_singleton,
      sum_range_succ]
    congr 1
    · apply sum_congr rfl
      intro k hk
      congr 1
      simp only [List.getD]
      rw [List.getElem?_append_left (mem_range.1 hk)]
    · simp [List.zipIdx]

theorem zero_dp (NP : Nat) (dp : List R) (hl : dp.length = NP) :
    ∃ dp0, (List.range NP).foldlM (init := dp) (fun dp j => store dp j (0 : R)) = some dp0 ∧ dp0.length = NP ∧
      ∀ c, fn dp0 c = 0 := by
  have z := fold_opt (α := Nat) (β := List R)
    (fun q dp' => dp'.length = NP ∧ (∀ c < q, fn dp' c = 0))
    (fun dp j => store dp j (0 : R)) 0 NP dp ⟨hl, fun c h => by omega⟩ (by
      rintro k - hk dp1 ⟨l1, h1⟩
      refine ⟨dp1.set k 0, ?_, by simpa using l1, ?_⟩
      · unfold store; rw [if_pos (by omega)]
      · intro c hc
        rw [fn_set dp1 k 0 (by omega)]
        by_cases h : c = k
        · rw [if_pos h]
        · rw [if_neg h]; exact h1 c (by omega))
  rw [Nat.zero_add, ← List.range_eq_range'] at z
  obtain ⟨dp0, e0, l0, h0⟩ := z
  refine ⟨dp0, e0, l0, ?_⟩
  intro c
  rcases Nat.lt_or_ge c NP with h | h
  · exact h0 c h
  · unfold fn List.getD
    rw [List.getElem?_eq_none (by omega)]; rfl

/-- The selected entries of the mask. -/
def picked (E : ExCanon R) : List Nat := sel E.mask (List.range (E.n + E.m))

theorem uncanonExplicit_spec (NP : Nat) (E : ExCanon R) (dth : Nat → R) (hq : E.qc = true → Csr.Valid E.q E.n NP)
    (hu : E.uc = true → Csr.Valid E.u E.m NP) (dp : List R) (hl : dp.length = NP) :
    ∃ dp', uncanonExplicit NP E dth dp = some dp' ∧ dp'.length = NP ∧
      ∀ c, fn dp' c = ∑ k ∈ range (picked E).length, exAt E ((picked E).getD k 0) c * dth k := by
  obtain ⟨dp0, e0, l0, h0⟩ := zero_dp NP dp hl
  obtain ⟨dp', e, l, h⟩ := exFold_spec NP E dth hq hu (picked E).zipIdx dp0 l0 (by
    intro e he
    rw [List.mem_zipIdx_iff_getElem?] at he
    exact (sel_range_get he).1)
  refine ⟨dp', ?_, l, ?_⟩
  · unfold uncanonExplicit
    rw [e0]
    exact e
  · intro c
    rw [h c, h0 c, zero_add, zipIdx_sum (picked E) (fun i k => exAt E i c * dth k)]

/-- Change of row `j` of a canonical parameter. -/
theorem canon_row {NP rows : Nat} {ch : Bool} {m : Csr R}
    (hm : ch = true → Csr.Valid m rows NP) (p p' o o1 o2 : List R) (hp : p.length = NP)
    (hp' : p'.length = NP) (ho : rows ≤ o.length)
    (h1 : canonStep ch rows m p o = some o1) (h2 : canonStep ch rows m p' o = some o2) (j : Nat) (hj : j < rows) :
    fn o2 j - fn o1 j = ∑ c ∈ range NP, (if ch then csrAt m j c else 0) * (fn p' c - fn p c) := by
  have := block_adjoint (fun i => if i = j then 1 else 0) hm p p' o o1 o2 hp hp' ho h1 h2
  simp only [mul_ite, mul_one, mul_zero, ite_mul, one_mul, zero_mul, sum_ite_eq', mem_range, hj, if_true] at this
  rw [← this]
  apply sum_congr rfl
  intro c _
  by_cases hc : ch = true
  · simp only [if_pos hc]
  · simp only [if_neg hc, zero_mul]

end grad
end Verif.Lemmas.Explicit
