import Verif.Lemmas.GradFactor
namespace Verif.Lemmas.Factor
open Verif.Model.Factor Verif.Spec.Factor Finset

variable {R : Type} [Field R] [DecidableEq R]

/-! ### the symbolic step does nothing on a closed pattern -/

theorem insertNonzero_occupied {N : Nat} {L : CscL R} (hV : Valid N L) {row col : Nat} (hcol : col < N)
    (ho : Occupied L row col) : insertNonzero N L row col = L := by
  unfold insertNonzero
  by_cases h : row < col
  · rw [if_pos h]
  · rw [if_neg h]
    cases hs : bsearch L.i row (L.p col) (L.p (col + 1)) with
    | inl m => rfl
    | inr pos => exact absurd ho (not_occupied hV hcol hs)

theorem symbolicUpdate_noop {N offset : Nat} (w : List Nat) (S : MaskedL R) (hV : Valid N S.L)
    (hN : ∀ k ∈ w, k + offset < N)
    (hw : w.Pairwise (fun a b => Occupied S.L (b + offset) (a + offset))) :
    (symbolicUpdate N offset w S).L = S.L := by
  have inner : ∀ (rows : List Nat) (k : Nat) (S : MaskedL R), Valid N S.L → k + offset < N →
      (∀ r ∈ rows, Occupied S.L (r + offset) (k + offset)) →
      (symInner N offset k S rows).L = S.L := by
    intro rows k
    induction rows with
    | nil => intro S _ _ _; rfl
    | cons r rows ih =>
      intro S hV hk hr
      have h1 : (symStep N S (r + offset) (k + offset)).L = S.L := by
        unfold symStep
        simp only
        split
        · rfl
        · exact insertNonzero_occupied hV hk (hr r (List.mem_cons_self ..))
      change (symInner N offset k (symStep N S (r + offset) (k + offset)) rows).L = S.L
      rw [ih _ (by rw [h1]; exact hV) hk
        (fun r' h' => by rw [h1]; exact hr r' (List.mem_cons_of_mem _ h')), h1]
  induction w generalizing S with
  | nil => rfl
  | cons k rest ih =>
    obtain ⟨h1, h2⟩ := List.pairwise_cons.1 hw
    have h3 := inner rest k S hV (hN k (List.mem_cons_self ..)) h1
    rw [symbolicUpdate, ih _ (by rw [h3]; exact hV) (fun r h => hN r (List.mem_cons_of_mem _ h))
      (by rw [h3]; exact h2), h3]

/-! ### deletion -/

theorem zeroRowCol_spec (i : Nat → Nat) (index : Nat) : ∀ (d a : Nat) (x : Nat → R),
    (∀ k k', a ≤ k → k < k' → k' < a + d → i k < i k') → ∀ k,
    zeroRowCol i index (loop a (a + d)) x k =
      if a ≤ k ∧ k < a + d ∧ i k = index then 0 else x k := by
  intro d
  induction d with
  | zero =>
    intro a x _ k
    rw [loop_nil (by omega), zeroRowCol, if_neg (by omega)]
  | succ d ih =>
    intro a x hs k
    rw [loop_cons (by omega), zeroRowCol]
    by_cases h : index ≤ i a
    · rw [if_pos h]
      by_cases h2 : i a = index
      · rw [if_pos h2]
        unfold upd
        by_cases h3 : k = a
        · rw [if_pos h3, if_pos ⟨by omega, by omega, by rw [h3]; exact h2⟩]
        · rw [if_neg h3, if_neg]
          rintro ⟨h4, h5, h6⟩
          have := hs a k (by omega) (by omega) h5
          omega
      · rw [if_neg h2, if_neg]
        rintro ⟨h4, h5, h6⟩
        by_cases h3 : k = a
        · rw [h3] at h6; exact h2 h6
        · have := hs a k (by omega) (by omega) h5
          omega
    · rw [if_neg h, show a + (d + 1) = a + 1 + d by omega,
        ih (a + 1) x (fun k k' h1 h2 h3 => hs k k' (by omega) h2 (by omega))]
      by_cases h3 : k = a
      · rw [if_neg (by omega), if_neg]
        rintro ⟨_, _, h6⟩
        rw [h3] at h6; omega
      · by_cases h4 : a + 1 ≤ k ∧ k < a + 1 + d ∧ i k = index
        · rw [if_pos h4, if_pos ⟨by omega, by omega, h4.2.2⟩]
        · rw [if_neg h4, if_neg]
          rintro ⟨h5, h6, h7⟩
          exact h4 ⟨by omega, h6, h7⟩

theorem zero_fold (a b : Nat) (hab : a ≤ b) (x : Nat → R) (k : Nat) :
    (loop a b).foldl (fun x k => upd x k (0 : R)) x k = if a ≤ k ∧ k < b then 0 else x k := by
  have := loop_inv (fun x k => upd x k (0 : R))
    (fun m (x' : Nat → R) => ∀ k, x' k = if a ≤ k ∧ k < m then 0 else x k) hab x
    (fun k => by rw [if_neg (by omega)]) (by
      intro m x' h1 h2 h k
      unfold upd
      by_cases h3 : k = m
      · rw [if_pos h3, if_pos (by omega)]
      · rw [if_neg h3, h k]
        by_cases h4 : a ≤ k ∧ k < m
        · rw [if_pos h4, if_pos (by omega)]
        · rw [if_neg h4, if_neg (by omega)])
  exact this k

/-- Zeroing a row and column. -/
theorem deleteX_spec {N : Nat} {L : CscL R} (hV : Valid N L) {m : Nat} (hm : m < N) {c k : Nat}
    (hc : c < N) (h1 : L.p c ≤ k) (h2 : k < L.p (c + 1)) :
    deleteX L m k = if L.i k = m ∨ c = m then 0 else L.x k := by
  unfold deleteX
  rw [zero_fold _ _ (hV.mono m hm)]
  by_cases hcm : c = m
  · subst hcm
    rw [if_pos ⟨h1, h2⟩, if_pos (Or.inr rfl)]
  · rw [if_neg (fun h => hcm (slot_col hV hc hm h1 h2 h.1 h.2))]
    have key := loop_inv
      (fun x j => zeroRowCol L.i m (loop (L.p j) (L.p (j + 1))) x)
      (fun j (x' : Nat → R) => ∀ c < N, ∀ k, L.p c ≤ k → k < L.p (c + 1) →
        x' k = if c < j ∧ L.i k = m then 0 else L.x k) (Nat.zero_le m) L.x
      (fun c _ k _ _ => by rw [if_neg (by omega)]) (by
        intro j x' _ hj h c hc k h1 h2
        have hmono := hV.mono j (by omega)
        have := zeroRowCol_spec L.i m (L.p (j + 1) - L.p j) (L.p j) x' (by
          intro k k' a1 a2 a3
          exact Valid.sorted_lt hV (show j < N by omega) a1 a2 (by omega)) k
        rw [show L.p j + (L.p (j + 1) - L.p j) = L.p (j + 1) by omega] at this
        rw [this]
        by_cases hcj : c = j
        · subst hcj
          by_cases hi : L.i k = m
          · rw [if_pos ⟨h1, h2, hi⟩, if_pos ⟨by omega, hi⟩]
          · rw [if_neg (fun h => hi h.2.2), if_neg (fun h => hi h.2), h c hc k h1 h2,
              if_neg (fun h => hi h.2)]
        · rw [if_neg (fun h => hcj (slot_col hV hc (by omega) h1 h2 h.1 h.2.1)), h c hc k h1 h2]
          by_cases hi : c < j ∧ L.i k = m
          · rw [if_pos hi, if_pos ⟨by omega, hi.2⟩]
          · rw [if_neg hi, if_neg (fun h => hi ⟨by omega, h.2⟩)])
    rw [key c hc k h1 h2]
    by_cases hi : L.i k = m
    · have := (hV.lower c hc k h1 h2).1
      rw [if_pos ⟨by omega, hi⟩, if_pos (Or.inl hi)]
    · rw [if_neg (fun h => hi h.2), if_neg]
      rintro (h | h)
      · exact hi h
      · exact hcm h

theorem deleteX_ent {N : Nat} {L : CscL R} (hV : Valid N L) {m : Nat} (hm : m < N) {r c : Nat}
    (hc : c < N) : ent { L with x := deleteX L m } r c = if r = m ∨ c = m then 0 else ent L r c := by
  have hs := ent_of_slots hV (samePat_x L (deleteX L m)) hc
    (fun r => if r = m ∨ c = m then 0 else ent L r c) (by
      intro k h1 h2
      simp only
      rw [deleteX_spec hV hm hc h1 h2, ent_slot hV hc h1 h2]) r
  by_cases ho : Occupied L r c
  · exact hs.1 ho
  · rw [hs.2 ho, ent_free ho]
    split <;> rfl

theorem deleteW_spec (sqrt : R → R) {N : Nat} {W : Ws R} (hV : Valid N W.S.L) {m : Nat} (hm : m < N)
    (r : Nat) : deleteW sqrt W m r = ent W.S.L r m * sqrt (- W.D m) := by
  unfold deleteW
  have key := loop_inv
    (fun w k => upd w (m + 1 + (W.S.L.i k - m - 1)) (W.S.L.x k * sqrt (- W.D m)))
    (fun q (w : Nat → R) => ∀ r, w r =
      (∑ k ∈ Ico (W.S.L.p m) q, if W.S.L.i k = r then W.S.L.x k else 0) * sqrt (- W.D m))
    (hV.mono m hm) (fun _ => 0) (fun r => by simp) (by
      intro q w h1 h2 h r
      have hlow := (hV.lower m hm q h1 h2).1
      rw [show m + 1 + (W.S.L.i q - m - 1) = W.S.L.i q by omega, sum_Ico_succ_top h1]
      unfold upd
      by_cases hr : r = W.S.L.i q
      · rw [if_pos hr, hr, if_pos rfl]
        have : ∑ k ∈ Ico (W.S.L.p m) q,
            (if W.S.L.i k = W.S.L.i q then W.S.L.x k else 0) = 0 := by
          apply sum_eq_zero
          intro k hk
          have hk' := mem_Ico.1 hk
          have := Valid.sorted_lt hV hm hk'.1 hk'.2 h2
          rw [if_neg (by omega)]
        rw [this, zero_add]
      · rw [if_neg hr, h r, if_neg (fun h => hr h.symm), add_zero])
  exact key r

theorem deleteWi_spec {N : Nat} {W : Ws R} (hV : Valid N W.S.L) {m : Nat} (hm : m < N)
    (hcl : ∀ j r s, j < N → r < s → Occupied W.S.L r j → Occupied W.S.L s j → Occupied W.S.L s r) :
    (∀ k ∈ deleteWi W m, k + (m + 1) < N) ∧
      (deleteWi W m).Pairwise (fun a b => Occupied W.S.L (b + (m + 1)) (a + (m + 1))) := by
  constructor
  · intro q hq
    obtain ⟨k, hk, rfl⟩ := List.mem_map.1 hq
    obtain ⟨h1, h2⟩ := mem_loop.1 hk
    have := hV.lower m hm k h1 h2
    omega
  · unfold deleteWi
    rw [List.pairwise_map]
    have hloop : (loop (W.S.L.p m) (W.S.L.p (m + 1))).Pairwise (· < ·) := by
      unfold loop
      exact List.pairwise_lt_range'
    refine List.Pairwise.imp_of_mem ?_ hloop
    intro k k' hk hk' hlt
    obtain ⟨h1, h2⟩ := mem_loop.1 hk
    obtain ⟨h1', h2'⟩ := mem_loop.1 hk'
    have l1 := (hV.lower m hm k h1 h2).1
    have l2 := (hV.lower m hm k' h1' h2').1
    have hs := Valid.sorted_lt hV hm h1 hlt h2'
    rw [show W.S.L.i k' - m - 1 + (m + 1) = W.S.L.i k' by omega,
      show W.S.L.i k - m - 1 + (m + 1) = W.S.L.i k by omega]
    exact hcl m _ _ hm hs ((occupied_iff _ _ _).2 ⟨k, h1, h2, rfl⟩)
      ((occupied_iff _ _ _).2 ⟨k', h1', h2', rfl⟩)

variable [LinearOrder R] [IsStrictOrderedRing R]

/-- Deleting a constraint is exact. -/
theorem ldlDelete_good (sqrt : R → R) (hsqrt : ∀ x, 0 < x → sqrt x * sqrt x = x) {n N : Nat}
    {K : CscL R} (hK : QuasiDef n N K) (act act' : Nat → Prop) [DecidablePred act]
    [DecidablePred act'] (htop : ∀ r < n, act r) {m : Nat} (hnm : n ≤ m) (hmN : m < N)
    (hact' : ∀ r, act' r ↔ act r ∧ r ≠ m) (W : Ws R)
    (hW : Good N K (decoupled (symOf K) act) W) :
    Good N K (decoupled (symOf K) act') (ldlDelete sqrt N m W) := by
  have hV := hW.pat.valid
  have hQ := decoupled_qd hK act htop
  have hQ' := decoupled_qd hK act' (fun r hr => (hact' r).2 ⟨htop r hr, by omega⟩)
  have hU := unitOf_lower hV
  have hDm := factor_neg hQ hU hW.fac hnm hmN
  have hsq := hsqrt (- W.D m) (by linarith)
  have hwi := deleteWi_spec (W := W) hV hmN hW.pat.closed
  have hL : (symbolicUpdate N (m + 1) (deleteWi W m)
      { W.S with L := { W.S.L with x := deleteX W.S.L m } }).L = { W.S.L with x := deleteX W.S.L m } := by
    apply symbolicUpdate_noop
    · exact (samePat_x W.S.L _).valid hV
    · exact hwi.1
    · exact hwi.2.imp (fun h => ((samePat_x W.S.L _).occ _ _).2 h)
  unfold ldlDelete
  simp only
  refine rank1_good hQ' (-1) (by omega) (by omega) _ ?_ ?_ ?_ ?_ ?_
  · simp only [hL]
    exact Pattern.samePat hW.pat (samePat_x _ _)
  · intro t ht
    simp only [upd]
    split
    · simp
    · exact hW.D t ht
  · intro t ht
    simp only [upd]
    split
    · norm_num
    · exact hW.Dinv t ht
  · intro r hr c hc
    simp only [hL]
    -- the factor with row and column zeroed
    have hU1 : ∀ r t, t < N → unitOf { W.S.L with x := deleteX W.S.L m } r t =
        if r = t then 1 else if r = m ∨ t = m then 0 else ent W.S.L r t := by
      intro r t ht
      unfold unitOf
      rw [deleteX_ent hV hmN ht]
    have hw : ∀ r, (if m + 1 ≤ r then deleteW sqrt W m r else 0) =
        if m + 1 ≤ r then ent W.S.L r m * sqrt (- W.D m) else 0 := by
      intro r
      rw [deleteW_spec sqrt hV hmN]
    rw [hw r, hw c]
    have hsame : ∀ r c, r ≠ m → c ≠ m → decoupled (symOf K) act' r c = decoupled (symOf K) act r c := by
      intro r c h1 h2
      unfold decoupled
      simp only [hact', ne_eq, h1, h2, not_false_eq_true, and_true]
    have hrowm : ∀ c, decoupled (symOf K) act' m c = if m = c then -1 else 0 := by
      intro c
      unfold decoupled
      rw [if_neg]
      rintro ⟨h, _⟩
      exact ((hact' m).1 h).2 rfl
    have hcolm : ∀ r, decoupled (symOf K) act' r m = if r = m then -1 else 0 := by
      intro r
      unfold decoupled
      rw [if_neg]
      rintro ⟨_, h⟩
      exact ((hact' m).1 h).2 rfl
    by_cases hrm : r = m
    · subst hrm
      rw [hrowm c, if_neg (show ¬ r + 1 ≤ r by omega), zero_mul, mul_zero, add_zero, sum_eq_single r]
      · rw [hU1 r r hr, hU1 c r hr, if_pos rfl]
        simp only [upd, if_true]
        by_cases hcr : c = r
        · rw [if_pos hcr, if_pos hcr.symm]; ring
        · rw [if_neg hcr, if_pos (Or.inr trivial), if_neg (fun h => hcr h.symm)]; ring
      · intro t ht htm
        rw [hU1 r t (mem_range.1 ht), if_neg (fun h => htm h.symm), if_pos (Or.inl rfl)]; ring
      · intro h; exact absurd (mem_range.2 hr) h
    · by_cases hcm : c = m
      · subst hcm
        rw [hcolm r, if_neg hrm, if_neg (show ¬ c + 1 ≤ c by omega), mul_zero, mul_zero, add_zero]
        symm
        apply sum_eq_zero
        intro t ht
        by_cases htc : t = c
        · subst htc
          rw [hU1 r t (mem_range.1 ht), if_neg hrm, if_pos (Or.inr rfl)]; ring
        · rw [hU1 c t (mem_range.1 ht), if_neg (fun h => htc h.symm), if_pos (Or.inl rfl)]; ring
      · rw [hsame r c hrm hcm, ← hW.fac r hr c hc,
          ← sum_erase_add (range N) _ (mem_range.2 hmN),
          ← sum_erase_add (range N) (fun t => unitOf { W.S.L with x := deleteX W.S.L m } r t *
            upd W.D m (-1) t * unitOf { W.S.L with x := deleteX W.S.L m } c t) (mem_range.2 hmN)]
        have e1 : ∑ t ∈ (range N).erase m, unitOf { W.S.L with x := deleteX W.S.L m } r t *
            upd W.D m (-1) t * unitOf { W.S.L with x := deleteX W.S.L m } c t =
            ∑ t ∈ (range N).erase m, unitOf W.S.L r t * W.D t * unitOf W.S.L c t := by
          apply sum_congr rfl
          intro t ht
          have ht1 := ne_of_mem_erase ht
          have ht2 := mem_range.1 (mem_of_mem_erase ht)
          rw [hU1 r t ht2, hU1 c t ht2]
          unfold unitOf upd
          rw [if_neg ht1, if_neg (show ¬ (r = m ∨ t = m) from fun h => h.elim hrm ht1),
            if_neg (show ¬ (c = m ∨ t = m) from fun h => h.elim hcm ht1)]
        rw [e1, hU1 r m hmN, if_neg hrm, if_pos (Or.inr rfl)]
        have e2 : ∀ r < N, r ≠ m → unitOf W.S.L r m = if m + 1 ≤ r then ent W.S.L r m else 0 := by
          intro r hr hrm
          by_cases h : m + 1 ≤ r
          · rw [if_pos h]
            unfold unitOf
            rw [if_neg hrm]
          · rw [if_neg h]
            exact hU.2 r hr m hmN (by omega)
        rw [e2 r hr hrm, e2 c hc hcm]
        by_cases h1 : m + 1 ≤ r
        · by_cases h2 : m + 1 ≤ c
          · rw [if_pos h1, if_pos h2, if_pos h1, if_pos h2]
            linear_combination (- ent W.S.L r m * ent W.S.L c m) * (-hsq)
          · rw [if_neg h2, if_neg h2]; ring
        · rw [if_neg h1, if_neg h1]; ring
  · intro t r h1 h2 h3 h4 h5
    simp only [hL]
    simp only at h4 h5
    rw [deleteW_spec sqrt hV hmN] at h4 h5
    rw [(samePat_x W.S.L _).occ]
    refine hW.pat.closed m t r hmN h2 ?_ ?_
    · by_contra ho
      exact h4 (by rw [ent_free ho]; ring)
    · by_contra ho
      exact h5 (by rw [ent_free ho]; ring)

end Verif.Lemmas.Factor
