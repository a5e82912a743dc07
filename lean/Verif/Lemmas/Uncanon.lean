import Verif.Model.Uncanon
import Verif.Spec.Canonical
import Verif.Lemmas.Sparse
namespace Verif.Lemmas
open Verif.Model Verif.Spec Finset

variable {R : Type} [CommRing R]

theorem fn_set (l : List R) (i : Nat) (v : R) (hi : i < l.length) (c : Nat) :
    fn (l.set i v) c = if c = i then v else fn l c := by
  unfold fn List.getD
  by_cases h : c = i
  · subst h; rw [List.getElem?_set_self hi, if_pos rfl]; rfl
  · rw [List.getElem?_set_ne (Ne.symm h), if_neg h]

theorem fn_get (l : List R) (i : Nat) (hi : i < l.length) : l[i]? = some (fn l i) := by
  simp [fn, List.getD, List.getElem?_eq_getElem hi]

theorem bump_spec (dp : List R) (c : Nat) (v : R) (hc : c < dp.length) :
    ∃ dp', bump dp c v = some dp' ∧ dp'.length = dp.length ∧
      ∀ a, fn dp' a = fn dp a + if c = a then v else 0 := by
  refine ⟨dp.set c (fn dp c + v), ?_, by simp, ?_⟩
  · unfold bump
    rw [fn_get dp c hc]
    show store dp c (fn dp c + v) = _
    unfold store
    rw [if_pos hc]
  · intro a
    rw [fn_set dp c _ hc]
    by_cases h : a = c
    · subst h; rw [if_pos rfl, if_pos rfl]
    · rw [if_neg h, if_neg (fun hh => h hh.symm), add_zero]

theorem fold_opt {α β : Type} (P : Nat → β → Prop) (f : β → Nat → Option β) (lo n : Nat) (b : β)
    (h0 : P lo b) (hs : ∀ k, lo ≤ k → k < lo + n → ∀ b, P k b → ∃ b', f b k = some b' ∧ P (k + 1) b') :
    ∃ b', (List.range' lo n).foldlM f b = some b' ∧ P (lo + n) b' := by
  induction n with
  | zero => exact ⟨b, rfl, h0⟩
  | succ n ih =>
    obtain ⟨b1, e1, p1⟩ := ih (fun k h1 h2 => hs k h1 (by omega))
    obtain ⟨b2, e2, p2⟩ := hs (lo + n) (by omega) (by omega) b1 p1
    refine ⟨b2, ?_, p2⟩
    rw [List.range'_concat, List.foldlM_append, e1]
    simp only [Nat.one_mul]
    rw [Option.bind_eq_bind, Option.bind_some, List.foldlM_cons, e2]
    rfl

/-- Entry `(j, c)` of a compressed row matrix. -/
def csrAt (m : Csr R) (j c : Nat) : R :=
  csc (fun i => m.indptr.getD i 0) (fun k => m.indices.getD k 0) (fn m.data) c j

theorem uncanonOne_spec {rows : Nat} {m : Csr R} (d : Nat → R) (dp : List R)
    {n : Nat} (hm : Csr.Valid m n dp.length) (hr : rows ≤ n) :
    ∃ dp', uncanonOne rows m d dp = some dp' ∧ dp'.length = dp.length ∧
      ∀ c, fn dp' c = fn dp c + ∑ j ∈ range rows, csrAt m j c * d j := by
  have key := fold_opt (α := Nat) (β := List R)
    (fun q dp' => dp'.length = dp.length ∧ ∀ c, fn dp' c = fn dp c + ∑ j ∈ range q, csrAt m j c * d j)
    (fun dp j => do
      let lo ← m.indptr[j]?
      let hi ← m.indptr[j + 1]?
      (List.range' lo (hi - lo)).foldlM (init := dp) fun dp k => do
        let c ← m.indices[k]?
        let x ← m.data[k]?
        bump dp c (x * d j)) 0 rows dp ⟨rfl, fun c => by simp⟩ (by
    rintro j - hj dp1 ⟨l1, h1⟩
    have hj' : j < n := by omega
    have hp : ∀ i ≤ n, m.indptr[i]? = some (m.indptr.getD i 0) := by
      intro i hi
      have : i < m.indptr.length := by rw [hm.len]; omega
      simp [List.getD, List.getElem?_eq_getElem this]
    rw [hp j (by omega), hp (j + 1) (by omega)]
    have mono := hm.mono j hj'
    have last := hm.last (j + 1) (by omega)
    obtain ⟨dp2, e2, l2, h2⟩ := fold_opt (α := Nat) (β := List R)
      (fun q dp' => dp'.length = dp.length ∧ ∀ c, fn dp' c = fn dp1 c +
        ∑ k ∈ Ico (m.indptr.getD j 0) q, if m.indices.getD k 0 = c then fn m.data k * d j else 0)
      (fun dp k => do
        let c ← m.indices[k]?
        let x ← m.data[k]?
        bump dp c (x * d j)) (m.indptr.getD j 0) (m.indptr.getD (j + 1) 0 - m.indptr.getD j 0) dp1
      ⟨l1, fun c => by simp⟩ (by
        rintro k hk1 hk2 dp3 ⟨l3, h3⟩
        have hkd : k < m.data.length := by omega
        have hki : k < m.indices.length := by rw [hm.same]; omega
        have hcol : m.indices.getD k 0 < dp.length := by
          apply hm.cols
          simp [List.getD, List.getElem?_eq_getElem hki]
        obtain ⟨dp4, e4, l4, h4⟩ := bump_spec dp3 (m.indices.getD k 0) (fn m.data k * d j) (by omega)
        refine ⟨dp4, ?_, by omega, ?_⟩
        · have e1 : m.indices[k]? = some (m.indices.getD k 0) := by
            simp [List.getD, List.getElem?_eq_getElem hki]
          rw [e1, fn_get m.data k hkd]
          exact e4
        · intro c
          rw [h4 c, h3 c, sum_Ico_succ_top hk1]; ring)
    refine ⟨dp2, e2, l2, ?_⟩
    intro c
    rw [h2 c, h1 c, Nat.add_sub_cancel' mono, sum_range_succ, add_assoc]
    congr 2
    unfold csrAt csc
    rw [sum_mul]
    apply sum_congr rfl
    intro k _
    by_cases h : m.indices.getD k 0 = c
    · rw [if_pos h, if_pos h]
    · rw [if_neg h, if_neg h, zero_mul])
  rw [Nat.zero_add] at key
  rw [← List.range_eq_range'] at key
  obtain ⟨dp', e, l, h⟩ := key
  exact ⟨dp', e, l, h⟩

theorem uncanon_spec' (NP : Nat) (blocks : List (Block R)) (dp : List R) (hl : dp.length = NP)
    (hb : ∀ b ∈ blocks, b.changes = true → ∃ n, b.rows ≤ n ∧ Csr.Valid b.map n NP) :
    ∃ dp', uncanon NP blocks dp = some dp' ∧ dp'.length = NP ∧
      ∀ c, fn dp' c = (blocks.map fun b =>
        if b.changes then ∑ j ∈ range b.rows, csrAt b.map j c * b.d j else 0).sum := by
  have z := fold_opt (α := Nat) (β := List R)
    (fun q dp' => dp'.length = NP ∧ (∀ c < q, fn dp' c = 0))
    (fun dp j => store dp j (0 : R)) 0 NP dp ⟨hl, fun c h => by omega⟩ (by
      rintro k - hk dp1 ⟨l1, h1⟩
      refine ⟨dp1.set k 0, ?_, by simpa using l1, ?_⟩
      · unfold store; rw [if_pos (by omega)]
      · intro c hc
        rw [fn_set dp1 k 0 (by omega)]
        by_cases h : c = k
        · rw [if_pos h]
        · rw [if_neg h]; exact h1 c (by omega))
  rw [Nat.zero_add, ← List.range_eq_range'] at z
  obtain ⟨dp0, e0, l0, h0⟩ := z
  have h0' : ∀ c, fn dp0 c = 0 := by
    intro c
    rcases Nat.lt_or_ge c NP with h | h
    · exact h0 c h
    · unfold fn List.getD
      rw [List.getElem?_eq_none (by omega)]; rfl
  have fold : ∀ (bs : List (Block R)) (dp0 : List R), dp0.length = NP →
      (∀ b ∈ bs, b.changes = true → ∃ n, b.rows ≤ n ∧ Csr.Valid b.map n NP) →
      ∃ dp', bs.foldlM (init := dp0) (fun dp b =>
        if b.changes then uncanonOne b.rows b.map b.d dp else some dp) = some dp' ∧ dp'.length = NP ∧
        ∀ c, fn dp' c = fn dp0 c + (bs.map fun b =>
          if b.changes then ∑ j ∈ range b.rows, csrAt b.map j c * b.d j else 0).sum := by
    intro bs
    induction bs with
    | nil => intro dp0 l0 _; exact ⟨dp0, rfl, l0, fun c => by simp⟩
    | cons b bs ih =>
      intro dp0 l0 hb

      have step : ∃ dp1, (if b.changes then uncanonOne b.rows b.map b.d dp0 else some dp0) = some dp1 ∧
          dp1.length = NP ∧ ∀ c, fn dp1 c = fn dp0 c +
            if b.changes then ∑ j ∈ range b.rows, csrAt b.map j c * b.d j else 0 := by
        by_cases hc : b.changes = true
        · obtain ⟨n, hr, hv⟩ := hb b (List.mem_cons_self ..) hc
          simp only [if_pos hc]
          obtain ⟨dp1, e1, l1, h1⟩ := uncanonOne_spec b.d dp0 (l0 ▸ hv) hr
          exact ⟨dp1, e1, by omega, h1⟩
        · simp only [if_neg hc]
          exact ⟨dp0, rfl, l0, fun c => by simp⟩
      obtain ⟨dp1, e1, l1, h1⟩ := step
      obtain ⟨dp', e, l, h⟩ := ih dp1 l1 (fun b' hb' => hb b' (List.mem_cons_of_mem _ hb'))
      refine ⟨dp', ?_, l, fun c => ?_⟩
      · rw [List.foldlM_cons, e1]; exact e
      · rw [h c, h1 c, List.map_cons, List.sum_cons]; ring
  obtain ⟨dp', e, l, h⟩ := fold blocks dp0 l0 hb
  refine ⟨dp', ?_, l, fun c => by rw [h c, h0' c, zero_add]⟩
  unfold uncanon
  rw [e0]
  exact e

/-- One canonical parameter's share: the gradient distributed by the loop, tested against a change of
user parameters, is the gradient tested against the change of the canonical parameter. -/
theorem block_adjoint {NP rows : Nat} {ch : Bool} {m : Csr R} (d : Nat → R)
    (hm : ch = true → Csr.Valid m rows NP) (p p' o o1 o2 : List R) (hp : p.length = NP)
    (hp' : p'.length = NP) (ho : rows ≤ o.length)
    (h1 : canonStep ch rows m p o = some o1) (h2 : canonStep ch rows m p' o = some o2) :
    ∑ c ∈ range NP, (if ch then ∑ j ∈ range rows, csrAt m j c * d j else 0) * (fn p' c - fn p c) =
      ∑ j ∈ range rows, d j * (fn o2 j - fn o1 j) := by
  unfold canonStep at h1 h2
  by_cases hc : ch = true
  · have hv := hm hc
    rw [if_pos hc] at h1 h2
    simp only [if_pos hc]
    have key : ∀ (r r' : List R), r.length = NP → canonicalizeC rows m r o = some r' → ∀ j < rows,
        fn r' j = ∑ c ∈ range NP, csrAt m j c * fn r c := by
      intro r r' hr h j hj
      obtain ⟨out, e, _, e2, _⟩ := canonicalizeC_csr m rows r o (hr ▸ hv) ho
      rw [h] at e
      cases e
      have := e2 j hj
      unfold fn at this ⊢
      rw [List.getD, this]
      simp only [Option.getD_some]
      unfold csrAt csc
      simp only [sum_mul]
      rw [sum_comm]
      apply sum_congr rfl
      intro k hk
      have hk' := mem_Ico.1 hk
      have hlast := hv.last (j + 1) (by omega)
      have hki : k < m.indices.length := by rw [hv.same]; omega
      have hcol : m.indices.getD k 0 < NP := by
        apply hv.cols
        simp [List.getD, List.getElem?_eq_getElem hki]
      rw [sum_eq_single (m.indices.getD k 0)]
      · rw [if_pos rfl]; rfl
      · intro c _ hne
        rw [if_neg (fun h => hne h.symm), zero_mul]
      · intro h
        exact absurd (mem_range.2 hcol) h
    calc _ = ∑ c ∈ range NP, ∑ j ∈ range rows, d j * (csrAt m j c * (fn p' c - fn p c)) := by
          apply sum_congr rfl
          intro c _
          rw [sum_mul]
          apply sum_congr rfl
          intro j _
          ring
      _ = ∑ j ∈ range rows, ∑ c ∈ range NP, d j * (csrAt m j c * (fn p' c - fn p c)) := sum_comm
      _ = _ := by
          apply sum_congr rfl
          intro j hj
          rw [key p' o2 hp' h2 j (mem_range.1 hj), key p o1 hp h1 j (mem_range.1 hj), ← sum_sub_distrib,
            mul_sum]
          apply sum_congr rfl
          intro c _
          ring
  · rw [if_neg hc] at h1 h2
    cases h1
    cases h2
    simp [hc]

end Verif.Lemmas
