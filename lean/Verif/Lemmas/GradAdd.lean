import Verif.Lemmas.GradEdit
namespace Verif.Lemmas.Factor
open Verif.Model.Factor Verif.Spec.Factor Finset

variable {R : Type} [Field R] [DecidableEq R]

/-! ### columns of `K` -/

theorem UpperValid.sorted_lt {N : Nat} {K : CscL R} (h : UpperValid N K) {c : Nat} (hc : c < N)
    {a b : Nat} (ha : K.p c ≤ a) (hab : a < b) (hb : b < K.p (c + 1)) : K.i a < K.i b := by
  induction b with
  | zero => omega
  | succ b ih =>
    have hs := h.sorted c hc b (by omega) hb
    rcases Nat.lt_or_ge a b with h1 | h1
    · exact Nat.lt_trans (ih h1 (by omega)) hs
    · obtain rfl : a = b := by omega
      exact hs

theorem UpperValid.row_lt {N : Nat} {K : CscL R} (h : UpperValid N K) {c k : Nat} (hc : c < N)
    (h1 : K.p c ≤ k) (h2 : k < K.p (c + 1) - 1) : K.i k < c := by
  have := UpperValid.sorted_lt h hc h1 h2 (by omega)
  rwa [h.diag c hc] at this

theorem UpperValid.ent_diag {N : Nat} {K : CscL R} (h : UpperValid N K) {c : Nat} (hc : c < N) :
    ent K c c = K.x (K.p (c + 1) - 1) := by
  have hne := h.nonempty c hc
  unfold ent
  rw [sum_eq_single (K.p (c + 1) - 1), if_pos (h.diag c hc)]
  · intro k hk hne'
    have hk' := mem_Ico.1 hk
    have := UpperValid.row_lt h hc hk'.1 (by omega)
    rw [if_neg (by omega)]
  · intro h'
    exact absurd (mem_Ico.2 ⟨by omega, by omega⟩) h'

theorem addC_spec {N : Nat} {K : CscL R} (h : UpperValid N K) {m : Nat} (hm : m < N) (r : Nat) :
    addC K m r = if r = m then 0 else ent K r m := by
  have hne := h.nonempty m hm
  have key := loop_inv (fun c k => upd c (K.i k) (K.x k))
    (fun q (c : Nat → R) => ∀ r, c r = ∑ k ∈ Ico (K.p m) q, if K.i k = r then K.x k else 0)
    (show K.p m ≤ K.p (m + 1) - 1 by omega) (fun _ => 0) (fun r => by simp) (by
      intro q c h1 h2 hc r
      rw [sum_Ico_succ_top h1]
      unfold upd
      by_cases hr : r = K.i q
      · rw [if_pos hr, hr, if_pos rfl, sum_eq_zero, zero_add]
        intro k hk
        have hk' := mem_Ico.1 hk
        have := UpperValid.sorted_lt h hm hk'.1 hk'.2 (by omega)
        rw [if_neg (by omega)]
      · rw [if_neg hr, hc r, if_neg (fun h => hr h.symm), add_zero])
  have hv : addC K m r = ∑ k ∈ Ico (K.p m) (K.p (m + 1) - 1), if K.i k = r then K.x k else 0 := key r
  rw [hv]
  by_cases hr : r = m
  · rw [if_pos hr, hr]
    apply sum_eq_zero
    intro k hk
    have hk' := mem_Ico.1 hk
    have := UpperValid.row_lt h hm hk'.1 hk'.2
    rw [if_neg (by omega)]
  · rw [if_neg hr]
    unfold ent
    obtain ⟨q, hq⟩ : ∃ q, K.p (m + 1) = q + 1 := ⟨K.p (m + 1) - 1, by omega⟩
    have hd := h.diag m hm
    rw [hq] at hd ⊢
    rw [Nat.add_sub_cancel] at hd ⊢
    rw [sum_Ico_succ_top (by omega), hd, if_neg (fun h => hr h.symm), add_zero]

theorem scanRow_spec {N : Nat} {K : CscL R} (h : UpperValid N K) {j : Nat} (hj : j < N) (m : Nat) :
    (scanRow K.i K.x m (loop (K.p j) (K.p (j + 1)))).getD 0 = ent K m j := by
  have key : ∀ (d a : Nat), K.p j ≤ a → a + d = K.p (j + 1) →
      (scanRow K.i K.x m (loop a (a + d))).getD 0 =
        ∑ k ∈ Ico a (a + d), if K.i k = m then K.x k else 0 := by
    intro d
    induction d with
    | zero => intro a _ _; rw [loop_nil (by omega)]; simp [scanRow]
    | succ d ih =>
      intro a ha hd
      rw [loop_cons (by omega), scanRow, sum_eq_sum_Ico_succ_bot (by omega)]
      by_cases h1 : m ≤ K.i a
      · rw [if_pos h1, sum_eq_zero (s := Ico (a + 1) (a + (d + 1)))]
        · by_cases h2 : K.i a = m
          · rw [if_pos h2, if_pos h2]; simp
          · rw [if_neg h2, if_neg h2]; simp
        · intro k hk
          have hk' := mem_Ico.1 hk
          have := UpperValid.sorted_lt h hj ha (show a < k by omega) (by omega)
          rw [if_neg (by omega)]
      · rw [if_neg h1, if_neg (by omega), zero_add, show a + (d + 1) = a + 1 + d by omega]
        exact ih (a + 1) (by omega) (by omega)
  have hne := h.nonempty j hj
  have := key (K.p (j + 1) - K.p j) (K.p j) (Nat.le_refl _) (by omega)
  rw [show K.p j + (K.p (j + 1) - K.p j) = K.p (j + 1) by omega] at this
  exact this

theorem addL32init_spec {N : Nat} {K : CscL R} (h : UpperValid N K) {m : Nat} (hm : m < N) (q : Nat) :
    addL32init K N m q = if m + 1 + q < N then ent K m (m + 1 + q) else 0 := by
  have key := loop_inv (fun l j =>
      match scanRow K.i K.x m (loop (K.p j) (K.p (j + 1))) with
      | some v => upd l (j - m - 1) v
      | none => l)
    (fun j (l : Nat → R) => ∀ q, l q = if m + 1 + q < j then ent K m (m + 1 + q) else 0)
    (show m + 1 ≤ N by omega) (fun _ => 0) (fun q => by rw [if_neg (by omega)]) (by
      intro j l h1 h2 hl q
      have hs := scanRow_spec h h2 m
      cases hsc : scanRow K.i K.x m (loop (K.p j) (K.p (j + 1))) with
      | none =>
        rw [hsc] at hs
        simp only [Option.getD_none] at hs
        simp only
        rw [hl q]
        by_cases hq : m + 1 + q < j
        · rw [if_pos hq, if_pos (by omega)]
        · rw [if_neg hq]
          by_cases hq2 : m + 1 + q < j + 1
          · rw [if_pos hq2, show m + 1 + q = j by omega, ← hs]
          · rw [if_neg hq2]
      | some v =>
        rw [hsc] at hs
        simp only [Option.getD_some] at hs
        simp only [upd]
        by_cases hq : q = j - m - 1
        · rw [if_pos hq, if_pos (by omega), show m + 1 + q = j by omega, hs]
        · rw [if_neg hq, hl q]
          by_cases hq : m + 1 + q < j
          · rw [if_pos hq, if_pos (by omega)]
          · rw [if_neg hq, if_neg (by omega)])
  exact key q

/-! ### forward substitution -/

theorem col_axpy {N : Nat} {L : CscL R} (hV : Valid N L) {j : Nat} (hj : j < N) (l : Nat → R) (r : Nat) :
    (loop (L.p j) (L.p (j + 1))).foldl (fun l k => upd l (L.i k) (l (L.i k) - L.x k * l j)) l r =
      l r - ent L r j * l j := by
  have key := loop_inv (fun l k => upd l (L.i k) (l (L.i k) - L.x k * l j))
    (fun q (l' : Nat → R) => ∀ r, l' r =
      l r - (∑ k ∈ Ico (L.p j) q, if L.i k = r then L.x k else 0) * l j)
    (hV.mono j hj) l (fun r => by simp) (by
      intro q l' h1 h2 h r
      have hlow := (hV.lower j hj q h1 h2).1
      have hzero : ∀ r, (r ≤ j ∨ r = L.i q) →
          ∑ k ∈ Ico (L.p j) q, (if L.i k = r then L.x k else 0) = 0 := by
        intro r hr
        apply sum_eq_zero
        intro k hk
        have hk' := mem_Ico.1 hk
        have a1 := (hV.lower j hj k hk'.1 (by omega)).1
        have a2 := Valid.sorted_lt hV hj hk'.1 hk'.2 h2
        rw [if_neg (by omega)]
      have hlj : l' j = l j := by rw [h j, hzero j (Or.inl (Nat.le_refl _))]; ring
      rw [sum_Ico_succ_top h1]
      unfold upd
      by_cases hr : r = L.i q
      · rw [if_pos hr, h (L.i q), hzero _ (Or.inr rfl), hlj, hr, hzero _ (Or.inr rfl), if_pos rfl]; ring
      · rw [if_neg hr, h r, if_neg (fun h => hr h.symm)]; ring)
  exact key r

theorem addFwd_spec {N : Nat} {L : CscL R} (hV : Valid N L) (c l0 : Nat → R) {m : Nat} (hm : m < N) :
    ∀ r < m, addFwd L c m l0 r = c r - ∑ t ∈ range r, ent L r t * addFwd L c m l0 t := by
  have key := loop_inv (fwdStep L c)
    (fun j (l : Nat → R) => (∀ r, j ≤ r → r < m → l r = - ∑ t ∈ range j, ent L r t * l t) ∧
      ∀ r < j, l r = c r - ∑ t ∈ range r, ent L r t * l t)
    (Nat.zero_le m) (fun i => if i < m then 0 else l0 i)
    ⟨fun r _ hr => by simp [hr], fun r hr => by omega⟩ (by
      rintro j l - hj ⟨h1, h2⟩
      have hstep : ∀ r, fwdStep L c l j r = (upd l j (l j + c j)) r - ent L r j * (l j + c j) := by
        intro r
        unfold fwdStep
        rw [col_axpy hV (show j < N by omega)]
        simp [upd]
      have hle : ∀ r < j, fwdStep L c l j r = l r := by
        intro r hr
        rw [hstep, ent_upper hV (by omega) (by omega)]
        unfold upd
        rw [if_neg (by omega)]; ring
      have hj' : fwdStep L c l j j = l j + c j := by
        rw [hstep, ent_upper hV (by omega) (Nat.le_refl _)]
        unfold upd
        rw [if_pos rfl]; ring
      have hsum : ∀ r q, q ≤ j → ∑ t ∈ range q, ent L r t * fwdStep L c l j t =
          ∑ t ∈ range q, ent L r t * l t := by
        intro r q hq
        apply sum_congr rfl
        intro t ht
        rw [hle t (by have := mem_range.1 ht; omega)]
      constructor
      · intro r hr hrm
        rw [sum_range_succ, hsum r j (Nat.le_refl _), hj', hstep]
        unfold upd
        rw [if_neg (by omega), h1 r (by omega) hrm]; ring
      · intro r hr
        rw [hsum r r (by omega)]
        rcases Nat.lt_or_ge r j with h | h
        · rw [hle r h]; exact h2 r h
        · obtain rfl : r = j := by omega
          rw [hj', h1 r (Nat.le_refl _) hj]; ring)
  exact key.2

/-! ### sparse lists -/

/-- Folding over the nonzero entries is summing over all. -/
theorem sparsify_fold (m : Nat) (l D : Nat → R) (f : Nat → R → R) (hf : ∀ i < m, l i = 0 → f i (l i / D i) = 0)
    (d0 : R) : (sparsify m l D).foldl (fun d e => d - f e.1 e.2) d0 =
      d0 - ∑ i ∈ range m, f i (l i / D i) := by
  unfold sparsify
  rw [List.foldl_map]
  induction m with
  | zero => simp [loop]
  | succ m ih =>
    rw [loop_succ (Nat.zero_le m), List.filter_append, List.foldl_append,
      ih (fun i hi => hf i (by omega)), sum_range_succ]
    by_cases h : l m = 0
    · rw [hf m (by omega) h]
      simp [h]
    · simp [h]; ring

/-- Executing functions that act on the accumulator pointwise. -/
theorem sparsify_fold_fn (m : Nat) (l D : Nat → R) (F : (Nat → R) → Nat × R → (Nat → R))
    (f : Nat → Nat → R → R) (hF : ∀ a e q, e.1 < m → F a e q = a q - f q e.1 e.2)
    (hf : ∀ q, ∀ i < m, l i = 0 → f q i (l i / D i) = 0) (a0 : Nat → R) (q : Nat) :
    (sparsify m l D).foldl F a0 q = a0 q - ∑ i ∈ range m, f q i (l i / D i) := by
  unfold sparsify
  rw [List.foldl_map]
  induction m with
  | zero => simp [loop]
  | succ m ih =>
    rw [loop_succ (Nat.zero_le m), List.filter_append, List.foldl_append, sum_range_succ]
    have ih' := ih (fun a e q h => hF a e q (by omega)) (fun q i hi => hf q i (by omega))
    by_cases h : l m = 0
    · rw [hf q m (by omega) h]
      simp only [h, ne_eq, not_true_eq_false, decide_false, List.filter_cons, Bool.false_eq_true,
        if_false, List.filter_nil, List.foldl_nil, add_zero]
      exact ih'
    · have : [m].filter (fun i => decide (l i ≠ 0)) = [m] := by simp [h]
      rw [this, List.foldl_cons, List.foldl_nil, hF _ _ _ (by simp), ih']
      ring

theorem mem_sparsify {m : Nat} {l D : Nat → R} {e : Nat × R} :
    e ∈ sparsify m l D ↔ e.1 < m ∧ l e.1 ≠ 0 ∧ e.2 = l e.1 / D e.1 := by
  unfold sparsify
  rw [List.mem_map]
  constructor
  · rintro ⟨i, hi, rfl⟩
    have := List.mem_filter.1 hi
    exact ⟨(mem_loop.1 this.1).2, by simpa using this.2, rfl⟩
  · rintro ⟨h1, h2, h3⟩
    refine ⟨e.1, List.mem_filter.2 ⟨mem_loop.2 ⟨Nat.zero_le _, h1⟩, by simpa using h2⟩, ?_⟩
    rw [← h3]

theorem put_occupied {N : Nat} {L : CscL R} (hV : Valid N L) {row col : Nat} (hcol : col < N)
    (ho : Occupied L row col) (v : R) :
    SamePat L (insertNonzeroAndValue N L row col v) ∧
      ∀ r c, c < N → ent (insertNonzeroAndValue N L row col v) r c =
        if r = row ∧ c = col then v else ent L r c := by
  have hlow := occ_lower hV hcol ho
  unfold insertNonzeroAndValue
  rw [if_neg (by omega)]
  cases hs : bsearch L.i row (L.p col) (L.p (col + 1)) with
  | inr pos => exact absurd ho (not_occupied hV hcol hs)
  | inl k =>
    obtain ⟨h1, h2, h3⟩ := bsearch_inl _ _ _ _ _ _ (Nat.le_refl _) hs
    refine ⟨⟨rfl, rfl, rfl⟩, fun r c hc => ?_⟩
    have hsl := ent_of_slots hV (samePat_x L (upd L.x k v)) hc
      (fun r => if r = row ∧ c = col then v else ent L r c) (by
        intro k' a1 a2
        simp only [upd]
        by_cases hk : k' = k
        · subst hk
          rw [if_pos rfl, if_pos ⟨h3, slot_col hV hc hcol a1 a2 h1 h2⟩]
        · rw [if_neg hk, if_neg, ent_slot hV hc a1 a2]
          rintro ⟨b1, rfl⟩
          rcases Nat.lt_or_gt_of_ne hk with h | h
          · have := Valid.sorted_lt hV hc a1 h h2; omega
          · have := Valid.sorted_lt hV hc h1 h a2; omega) r
    by_cases hor : Occupied L r c
    · exact hsl.1 hor
    · simp only
      rw [hsl.2 hor, if_neg, ent_free hor]
      rintro ⟨rfl, rfl⟩
      exact hor ho

/-- A series of insertions at occupied positions. -/
theorem put_fold {N : Nat} (pos : Nat × R → Nat × Nat) (ls : List (Nat × R)) (L : CscL R)
    (hV : Valid N L) (hocc : ∀ e ∈ ls, (pos e).2 < N ∧ Occupied L (pos e).1 (pos e).2)
    (hinj : ls.Pairwise (fun e e' => pos e ≠ pos e')) :
    SamePat L (ls.foldl (fun L e => insertNonzeroAndValue N L (pos e).1 (pos e).2 e.2) L) ∧
      (∀ e ∈ ls, ent (ls.foldl (fun L e => insertNonzeroAndValue N L (pos e).1 (pos e).2 e.2) L)
        (pos e).1 (pos e).2 = e.2) ∧
      ∀ r c, c < N → (∀ e ∈ ls, pos e ≠ (r, c)) →
        ent (ls.foldl (fun L e => insertNonzeroAndValue N L (pos e).1 (pos e).2 e.2) L) r c = ent L r c
    := by
  induction ls generalizing L with
  | nil => exact ⟨SamePat.refl L, by simp, fun _ _ _ _ => rfl⟩
  | cons e ls ih =>
    obtain ⟨hN, ho⟩ := hocc e (List.mem_cons_self ..)
    obtain ⟨s1, s2⟩ := put_occupied hV hN ho e.2
    obtain ⟨p1, p2⟩ := List.pairwise_cons.1 hinj
    obtain ⟨i1, i2, i3⟩ := ih (insertNonzeroAndValue N L (pos e).1 (pos e).2 e.2) (s1.valid hV)
      (fun e' h' => ⟨(hocc e' (List.mem_cons_of_mem _ h')).1,
        (s1.occ _ _).2 (hocc e' (List.mem_cons_of_mem _ h')).2⟩) p2
    refine ⟨s1.trans i1, ?_, ?_⟩
    · intro e' he'
      rcases List.mem_cons.1 he' with rfl | h'
      · rw [List.foldl_cons, i3 _ _ hN (fun e'' h'' => fun heq => p1 e'' h'' (heq.symm ▸ rfl)),
          s2 _ _ hN, if_pos ⟨rfl, rfl⟩]
      · exact i2 e' h'
    · intro r c hc hne
      rw [List.foldl_cons, i3 r c hc (fun e' h' => hne e' (List.mem_cons_of_mem _ h')), s2 r c hc,
        if_neg]
      rintro ⟨h1, h2⟩
      exact hne e (List.mem_cons_self ..) (by rw [h1, h2])

theorem sparsify_pairwise (m : Nat) (l D : Nat → R) :
    (sparsify m l D).Pairwise (fun e e' => e.1 ≠ e'.1) := by
  unfold sparsify
  rw [List.pairwise_map]
  apply List.Pairwise.filter
  unfold loop
  exact List.Pairwise.imp (fun h => Nat.ne_of_lt h) List.pairwise_lt_range'

/-- Filling `w`. -/
theorem w_fold (m : Nat) (s : R) (k : Nat) (l D : Nat → R) (r : Nat) :
    (sparsify k l D).foldl (fun w e => upd w (m + 1 + e.1) (e.2 * s)) (fun _ => 0) r =
      if m + 1 ≤ r ∧ r < m + 1 + k then l (r - m - 1) / D (r - m - 1) * s else 0 := by
  unfold sparsify
  rw [List.foldl_map]
  induction k with
  | zero => rw [if_neg (by omega)]; simp [loop]
  | succ k ih =>
    rw [loop_succ (Nat.zero_le k), List.filter_append, List.foldl_append]
    by_cases h : l k = 0
    · simp only [h, ne_eq, not_true_eq_false, decide_false, List.filter_cons, Bool.false_eq_true,
        if_false, List.filter_nil, List.foldl_nil]
      rw [show (fun i => decide (l i ≠ 0)) = (fun i => decide ¬ l i = 0) from rfl] at ih
      rw [ih]
      by_cases h1 : m + 1 ≤ r ∧ r < m + 1 + k
      · rw [if_pos h1, if_pos (by omega)]
      · rw [if_neg h1]
        by_cases h2 : m + 1 ≤ r ∧ r < m + 1 + (k + 1)
        · rw [if_pos h2, show r - m - 1 = k by omega, h]; simp
        · rw [if_neg h2]
    · have : [k].filter (fun i => decide (l i ≠ 0)) = [k] := by simp [h]
      rw [this, List.foldl_cons, List.foldl_nil]
      simp only [upd]
      by_cases h1 : r = m + 1 + k
      · rw [if_pos h1, if_pos (by omega), show r - m - 1 = k by omega]
      · rw [if_neg h1, ih]
        by_cases h2 : m + 1 ≤ r ∧ r < m + 1 + k
        · rw [if_pos h2, if_pos (by omega)]
        · rw [if_neg h2, if_neg (by omega)]

theorem l32_inner {N : Nat} {L : CscL R} (hV : Valid N L) {t : Nat} (ht : t < N) (m : Nat) (s d : R)
    (l : Nat → R) (q : Nat) :
    (loop (L.p t) (L.p (t + 1))).foldl (fun l k =>
      if m < L.i k then upd l (L.i k - m - 1) (l (L.i k - m - 1) - L.x k * s * d) else l) l q =
      l q - ent L (m + 1 + q) t * s * d := by
  have key := loop_inv (fun l k =>
      if m < L.i k then upd l (L.i k - m - 1) (l (L.i k - m - 1) - L.x k * s * d) else l)
    (fun b (l' : Nat → R) => ∀ q, l' q =
      l q - (∑ k ∈ Ico (L.p t) b, if L.i k = m + 1 + q then L.x k else 0) * s * d)
    (hV.mono t ht) l (fun q => by simp) (by
      intro b l' h1 h2 h q
      rw [sum_Ico_succ_top h1]
      by_cases hb : m < L.i b
      · rw [if_pos hb]
        unfold upd
        by_cases hq : q = L.i b - m - 1
        · rw [if_pos hq, ← hq, if_pos (by omega), h q]; ring
        · rw [if_neg hq, h q, if_neg (by omega)]; ring
      · rw [if_neg hb, h q, if_neg (by omega)]; ring)
  exact key q

variable [LinearOrder R] [IsStrictOrderedRing R]

/-- Adding a constraint is exact. -/
theorem ldlAdd_good (sqrt : R → R) (hsqrt : ∀ x, 0 < x → sqrt x * sqrt x = x) {n N : Nat}
    {K : CscL R} (hKU : UpperValid N K) (hK : QuasiDef n N K) (act act' : Nat → Prop)
    [DecidablePred act] [DecidablePred act'] (htop : ∀ r < n, act r) {m : Nat} (hnm : n ≤ m)
    (hmN : m < N) (hnot : ¬ act m) (hact' : ∀ r, act' r ↔ act r ∨ r = m) (W : Ws R)
    (hW : Good N K (decoupled (symOf K) act) W) :
    Good N K (decoupled (symOf K) act') (ldlAdd sqrt N K m W) := by
  have hV := hW.pat.valid
  have hQ' := decoupled_qd hK act' (fun r hr => (hact' r).2 (Or.inl (htop r hr)))
  have hU := unitOf_lower hV
  -- the row and the column of the constraint are empty
  obtain ⟨z1, z2, z3⟩ := decoupled_row hU hW.fac hW.D hmN (fun c _ => by
    unfold decoupled
    rw [if_neg (fun h => hnot h.1)])
  -- the target matrix
  have hsame : ∀ r c, r ≠ m → c ≠ m → decoupled (symOf K) act' r c = decoupled (symOf K) act r c := by
    intro r c h1 h2
    unfold decoupled
    simp only [hact', h1, h2, or_false]
  have hrow : ∀ c < N, c ≠ m → decoupled (symOf K) act' m c = symOf K m c := by
    intro c hc hcm
    unfold decoupled
    by_cases h : act' m ∧ act' c
    · rw [if_pos h]
    · rw [if_neg h, if_neg (fun h => hcm h.symm)]
      have hna : ¬ act' c := fun h' => h ⟨(hact' m).2 (Or.inr rfl), h'⟩
      have hcn : n ≤ c := by
        by_contra hlt
        exact hna ((hact' c).2 (Or.inl (htop c (by omega))))
      unfold symOf
      by_cases hmc : m ≤ c
      · rw [if_pos hmc, hK.offdiag m c hnm (by omega) hc]
      · rw [if_neg hmc, hK.offdiag c m hcn (by omega) hmN]
  have hdiag : decoupled (symOf K) act' m m = ent K m m := by
    unfold decoupled
    rw [if_pos ⟨(hact' m).2 (Or.inr rfl), (hact' m).2 (Or.inr rfl)⟩]
    unfold symOf
    rw [if_pos (Nat.le_refl _)]
  have hsymM := hQ'.sym
  -- the forward substitution
  obtain ⟨l, hl⟩ : ∃ l, l = addFwd W.S.L (addC K m) m W.l := ⟨_, rfl⟩
  have hlspec : ∀ r < m, l r + ∑ t ∈ range r, ent W.S.L r t * l t = ent K r m := by
    intro r hr
    have := addFwd_spec hV (addC K m) W.l hmN r hr
    rw [addC_spec hKU hmN, if_neg (by omega), ← hl] at this
    rw [this]; ring
  have hocc1 : ∀ t < m, l t ≠ 0 → Occupied W.S.L m t := by
    intro t
    induction t using Nat.strong_induction_on with
    | _ t ih =>
      intro ht hne
      by_cases hk : ent K t m = 0
      · have h := hlspec t ht
        rw [hk] at h
        have hs : ∑ s ∈ range t, ent W.S.L t s * l s ≠ 0 := by
          intro h0
          rw [h0, add_zero] at h
          exact hne h
        obtain ⟨s, hs1, hs2⟩ := exists_ne_zero_of_sum_ne_zero hs
        have hst := mem_range.1 hs1
        have o1 : Occupied W.S.L t s := by
          by_contra ho
          exact hs2 (by rw [ent_free ho]; ring)
        have o2 := ih s hst (by omega) (fun h0 => hs2 (by rw [h0]; ring))
        exact hW.pat.closed s t m (by omega) ht o1 o2
      · exact hW.pat.covers t m ht hmN hk
  -- the first part of the update
  obtain ⟨ls, hls⟩ : ∃ ls, ls = sparsify m l W.D := ⟨_, rfl⟩
  obtain ⟨Dm, hDm⟩ : ∃ Dm, Dm = ls.foldl (fun d e => d - e.2 * e.2 * W.D e.1)
    (K.x (K.p (m + 1) - 1)) := ⟨_, rfl⟩
  have hDmv : Dm = ent K m m - ∑ t ∈ range m, l t / W.D t * (l t / W.D t) * W.D t := by
    rw [hDm, hls, UpperValid.ent_diag hKU hmN]
    exact sparsify_fold m l W.D (fun i v => v * v * W.D i) (fun i _ h => by simp [h]) _
  obtain ⟨L1, hL1⟩ : ∃ L1, L1 = ls.foldl (fun L e => insertNonzeroAndValue N L m e.1 e.2) W.S.L :=
    ⟨_, rfl⟩
  obtain ⟨p1, p2, p3⟩ := put_fold (fun e => (m, e.1)) ls W.S.L hV (by
      intro e he
      rw [hls] at he
      obtain ⟨h1, h2, _⟩ := mem_sparsify.1 he
      exact ⟨by simp only; omega, hocc1 e.1 h1 h2⟩) (by
      rw [hls]
      exact (sparsify_pairwise m l W.D).imp (fun h h' => h (by simpa using h')))
  simp only at p1 p2 p3
  rw [← hL1] at p1 p2 p3
  have hV1 := p1.valid hV
  have hent1 : ∀ r c, c < N → ent L1 r c = if r = m ∧ c < m then l c / W.D c else ent W.S.L r c := by
    intro r c hc
    by_cases hrc : r = m ∧ c < m
    · rw [if_pos hrc]
      by_cases hl0 : l c = 0
      · rw [p3 r c hc]
        · have := z1 c hrc.2
          unfold unitOf at this
          rw [if_neg (by omega)] at this
          rw [hrc.1, this, hl0]; simp
        · intro e he heq
          rw [hls] at he
          obtain ⟨h1, h2, _⟩ := mem_sparsify.1 he
          have : e.1 = c := (Prod.mk.inj heq).2
          rw [this] at h2
          exact h2 hl0
      · have he : (c, l c / W.D c) ∈ ls := by
          rw [hls]
          exact mem_sparsify.2 ⟨hrc.2, hl0, rfl⟩
        rw [hrc.1]
        exact p2 _ he
    · rw [if_neg hrc]
      apply p3 r c hc
      intro e he heq
      rw [hls] at he
      obtain ⟨h1, _, _⟩ := mem_sparsify.1 he
      obtain ⟨h2, h3⟩ := Prod.mk.inj heq
      exact hrc ⟨h2.symm, by omega⟩
  have hU1 := unitOf_lower hV1
  have hunit1 : ∀ r t, t < N → r ≠ m → unitOf L1 r t = unitOf W.S.L r t := by
    intro r t ht hr
    unfold unitOf
    rw [hent1 r t ht, if_neg (show ¬ (r = m ∧ t < m) from fun h => hr h.1)]
  have hunit1m : ∀ t < m, unitOf L1 m t = l t / W.D t := by
    intro t ht
    unfold unitOf
    rw [if_neg (by omega), hent1 m t (by omega), if_pos ⟨rfl, ht⟩]
  -- row `m` against the rows above
  have habove : ∀ c < m, ∑ t ∈ range m, unitOf L1 m t * W.D t * unitOf L1 c t = ent K c m := by
    intro c hc
    have : ∑ t ∈ range m, unitOf L1 m t * W.D t * unitOf L1 c t =
        ∑ t ∈ range (c + 1), unitOf L1 m t * W.D t * unitOf L1 c t := by
      symm
      apply sum_subset (range_mono (by omega))
      intro t ht ht'
      have a1 := mem_range.1 ht
      have a2 : ¬ t < c + 1 := fun h => ht' (mem_range.2 h)
      rw [hU1.2 c (by omega) t (by omega) (by omega)]; ring
    rw [this, sum_range_succ, hU1.1 c (by omega), hunit1m c hc, ← hlspec c hc,
      div_mul_cancel₀ _ (hW.D c (by omega)), mul_one, add_comm]
    congr 1
    apply sum_congr rfl
    intro t ht
    have ht' := mem_range.1 ht
    rw [hunit1m t (by omega), div_mul_cancel₀ _ (hW.D t (by omega)), hunit1 c t (by omega) (by omega)]
    unfold unitOf
    rw [if_neg (by omega)]; ring
  have hself : ∑ t ∈ range m, unitOf L1 m t * W.D t * unitOf L1 m t + Dm = ent K m m := by
    rw [hDmv]
    have : ∑ t ∈ range m, unitOf L1 m t * W.D t * unitOf L1 m t =
        ∑ t ∈ range m, l t / W.D t * (l t / W.D t) * W.D t := by
      apply sum_congr rfl
      intro t ht
      rw [hunit1m t (mem_range.1 ht)]; ring
    rw [this]; ring
  -- the pivot
  have hDneg : Dm < 0 := by
    have := pivot_neg hQ' (unitOf L1) W.D (fun r c => if r < m ∨ c < m then 0 else Dm) m hnm hmN
      (fun r hr => hU1.1 r (by omega)) (fun r c h1 h2 => hU1.2 r (by omega) c (by omega) h1) ?_ ?_
    · rwa [if_neg (by omega)] at this
    · intro r hr c hc
      by_cases hrm : r = m
      · by_cases hcm : c = m
        · rw [hrm, hcm, hdiag, if_neg (by omega), hself]
        · rw [hrm, hrow c (by omega) hcm, if_pos (by omega), add_zero, habove c (by omega)]
          unfold symOf
          rw [if_neg (by omega)]
      · by_cases hcm : c = m
        · rw [hcm, hsymM r (by omega) m hmN, hrow r (by omega) hrm, if_pos (by omega), add_zero]
          have := habove r (by omega)
          have e : ∑ t ∈ range m, unitOf L1 r t * W.D t * unitOf L1 m t =
              ∑ t ∈ range m, unitOf L1 m t * W.D t * unitOf L1 r t :=
            sum_congr rfl (fun t _ => by ring)
          rw [e, this]
          unfold symOf
          rw [if_neg (by omega)]
        · rw [if_pos (by omega), add_zero, hsame r c hrm hcm, ← hW.fac r (by omega) c (by omega),
            ldl_trunc hU (by omega) (by omega) (m := m) (by omega) (Or.inl (by omega))]
          apply sum_congr rfl
          intro t ht
          have := mem_range.1 ht
          rw [hunit1 r t (by omega) hrm, hunit1 c t (by omega) hcm]
    · intro r c h
      rw [if_pos h]
  have hsq := hsqrt (- Dm) (by linarith)
  -- the second part
  obtain ⟨D2, hD2⟩ : ∃ D2, D2 = upd W.D m Dm := ⟨_, rfl⟩
  have hD2m : D2 m = Dm := by rw [hD2]; simp [upd]
  have hD2o : ∀ t, t ≠ m → D2 t = W.D t := by intro t ht; rw [hD2]; simp [upd, ht]
  obtain ⟨l2, hl2⟩ : ∃ l2, l2 = addL32 L1 D2 m ls (addL32init K N m) := ⟨_, rfl⟩
  have hl2v : ∀ r, m < r → r < N → l2 (r - m - 1) = ent K m r -
      ∑ t ∈ range m, unitOf L1 m t * W.D t * unitOf L1 r t := by
    intro r hr hrN
    have h := sparsify_fold_fn m l W.D
      (fun l e => (loop (L1.p e.1) (L1.p (e.1 + 1))).foldl (fun l k =>
        if m < L1.i k then
          upd l (L1.i k - m - 1) (l (L1.i k - m - 1) - L1.x k * e.2 * D2 e.1)
        else l) l)
      (fun q t v => ent L1 (m + 1 + q) t * v * D2 t)
      (fun a e q he => l32_inner hV1 (by omega) m e.2 (D2 e.1) a q)
      (fun q i _ h0 => by rw [h0]; simp) (addL32init K N m) (r - m - 1)
    have h' := (congrFun hl2 (r - m - 1))
    rw [hls] at h'
    rw [h'.trans h, addL32init_spec hKU hmN, if_pos (by omega), show m + 1 + (r - m - 1) = r by omega]
    congr 1
    apply sum_congr rfl
    intro t ht
    have := mem_range.1 ht
    rw [hunit1m t (by omega), hD2o t (by omega)]
    unfold unitOf
    rw [if_neg (by omega)]; ring
  have hocc2 : ∀ r, m < r → r < N → l2 (r - m - 1) ≠ 0 → Occupied W.S.L r m := by
    intro r hr hrN hne
    by_cases hk : ent K m r = 0
    · rw [hl2v r hr hrN, hk, zero_sub] at hne
      obtain ⟨t, ht1, ht2⟩ := exists_ne_zero_of_sum_ne_zero (fun h0 => hne (by rw [h0, neg_zero]))
      have ht := mem_range.1 ht1
      have o1 : Occupied W.S.L m t := by
        apply hocc1 t ht
        intro h0
        exact ht2 (by rw [hunit1m t ht, h0]; simp)
      have o2 : Occupied W.S.L r t := by
        by_contra ho
        apply ht2
        rw [hunit1 r t (by omega) (by omega)]
        unfold unitOf
        rw [if_neg (show ¬ r = t by omega), ent_free ho]; ring
      exact hW.pat.closed t m r (by omega) hr o1 o2
    · exact hW.pat.covers m r hr hrN hk
  obtain ⟨ls2, hls2⟩ : ∃ ls2, ls2 = sparsify (N - m - 1) l2 (fun _ => D2 m) := ⟨_, rfl⟩
  obtain ⟨L2, hL2⟩ : ∃ L2, L2 = ls2.foldl
    (fun L e => insertNonzeroAndValue N L (e.1 + m + 1) m e.2) L1 := ⟨_, rfl⟩
  obtain ⟨q1, q2, q3⟩ := put_fold (fun e => (e.1 + m + 1, m)) ls2 L1 hV1 (by
      intro e he
      rw [hls2] at he
      obtain ⟨h1, h2, _⟩ := mem_sparsify.1 he
      refine ⟨hmN, (p1.occ _ _).2 (hocc2 (e.1 + m + 1) (by omega) (by omega) ?_)⟩
      rw [show e.1 + m + 1 - m - 1 = e.1 by omega]
      exact h2) (by
      rw [hls2]
      refine (sparsify_pairwise _ _ _).imp (fun h h' => h ?_)
      have := (Prod.mk.inj h').1
      omega)
  simp only at q1 q2 q3
  rw [← hL2] at q1 q2 q3
  have hent2 : ∀ r c, c < N → r < N → ent L2 r c =
      if m < r ∧ c = m then l2 (r - m - 1) / Dm else ent L1 r c := by
    intro r c hc hr
    by_cases hrc : m < r ∧ c = m
    · rw [if_pos hrc]
      by_cases hl0 : l2 (r - m - 1) = 0
      · rw [q3 r c hc]
        · have := z3 r hrc.1 hr
          unfold unitOf at this
          rw [if_neg (by omega)] at this
          rw [hent1 r c hc, if_neg (by omega), hrc.2, this, hl0]; simp
        · intro e he heq
          rw [hls2] at he
          obtain ⟨h1, h2, _⟩ := mem_sparsify.1 he
          have : e.1 + m + 1 = r := (Prod.mk.inj heq).1
          rw [show r - m - 1 = e.1 by omega] at hl0
          exact h2 hl0
      · have he : (r - m - 1, l2 (r - m - 1) / D2 m) ∈ ls2 := by
          rw [hls2]
          exact mem_sparsify.2 ⟨by simp only; omega, hl0, rfl⟩
        have := q2 _ he
        simp only at this
        rw [show r - m - 1 + m + 1 = r by omega, hD2m] at this
        rw [hrc.2]
        exact this
    · rw [if_neg hrc]
      apply q3 r c hc
      intro e he heq
      obtain ⟨h2, h3⟩ := Prod.mk.inj heq
      exact hrc ⟨by omega, h3.symm⟩
  have hV2 := q1.valid hV1
  have hU2 := unitOf_lower hV2
  have hunit2 : ∀ r t, r < N → t < N → t ≠ m → unitOf L2 r t = unitOf L1 r t := by
    intro r t hr ht htm
    unfold unitOf
    rw [hent2 r t ht hr, if_neg (show ¬ (m < r ∧ t = m) from fun h => htm h.2)]
  have hunit2m : ∀ r, m < r → r < N → unitOf L2 r m = l2 (r - m - 1) / Dm := by
    intro r hr hrN
    unfold unitOf
    rw [if_neg (by omega), hent2 r m hmN hrN, if_pos ⟨hr, rfl⟩]
  obtain ⟨w, hw⟩ : ∃ w : Nat → R, w = ls2.foldl
    (fun w e => upd w (m + 1 + e.1) (e.2 * sqrt (- D2 m))) (fun _ => 0) := ⟨_, rfl⟩
  have hwv : ∀ r < N, (if m + 1 ≤ r then w r else 0) =
      if m < r then unitOf L2 r m * sqrt (- Dm) else 0 := by
    intro r hr
    by_cases h : m < r
    · rw [if_pos (by omega), if_pos h, hw, hls2, w_fold, if_pos (by omega), hunit2m r h hr, hD2m]
    · rw [if_neg (by omega), if_neg h]
  have hfinal : ldlAdd sqrt N K m W = rank1 N 1 (m + 1)
      { S := { W.S with L := L2 }, D := D2, Dinv := upd W.Dinv m (1 / Dm), w := w, l := l2 } := by
    rw [hw, hL2, hls2, hl2, hL1, hD2, hDm, hls, hl]
    rfl
  rw [hfinal]
  refine rank1_good hQ' 1 (by omega) (by omega) _ ?_ ?_ ?_ ?_ ?_
  · exact Pattern.samePat hW.pat (p1.trans q1)
  · intro t ht
    simp only
    by_cases htm : t = m
    · rw [htm, hD2m]; exact ne_of_lt hDneg
    · rw [hD2o t htm]; exact hW.D t ht
  · intro t ht
    simp only
    by_cases htm : t = m
    · rw [htm, hD2m]; simp [upd]
    · rw [hD2o t htm, ← hW.Dinv t ht]; simp [upd, htm]
  · -- the matrix identity, by cases
    have hbelow : ∀ c, m < c → c < N → ∑ t ∈ range N, unitOf L2 m t * D2 t * unitOf L2 c t = ent K m c := by
      intro c hc hcN
      rw [ldl_trunc hU2 hmN hcN (m := m + 1) (by omega) (Or.inl (by omega)), sum_range_succ,
        hU2.1 m hmN, hD2m, one_mul, hunit2m c hc hcN, hl2v c hc hcN,
        mul_div_cancel₀ _ (ne_of_lt hDneg)]
      have : ∑ t ∈ range m, unitOf L2 m t * D2 t * unitOf L2 c t =
          ∑ t ∈ range m, unitOf L1 m t * W.D t * unitOf L1 c t := by
        apply sum_congr rfl
        intro t ht
        have := mem_range.1 ht
        rw [hunit2 m t hmN (by omega) (by omega), hunit2 c t hcN (by omega) (by omega),
          hD2o t (by omega)]
      rw [this]; ring
    have habove2 : ∀ c < m, ∑ t ∈ range N, unitOf L2 m t * D2 t * unitOf L2 c t = ent K c m := by
      intro c hc
      rw [ldl_trunc hU2 hmN (by omega) (m := m) (by omega) (Or.inr hc), ← habove c hc]
      apply sum_congr rfl
      intro t ht
      have := mem_range.1 ht
      rw [hunit2 m t hmN (by omega) (by omega), hunit2 c t (by omega) (by omega) (by omega),
        hD2o t (by omega)]
    have hself2 : ∑ t ∈ range N, unitOf L2 m t * D2 t * unitOf L2 m t = ent K m m := by
      rw [ldl_trunc hU2 hmN hmN (m := m + 1) (by omega) (Or.inl (by omega)), sum_range_succ,
        hU2.1 m hmN, hD2m, one_mul, mul_one, ← hself]
      congr 1
      apply sum_congr rfl
      intro t ht
      have := mem_range.1 ht
      rw [hunit2 m t hmN (by omega) (by omega), hD2o t (by omega)]
    have hm' : ∀ c < N, decoupled (symOf K) act' m c =
        ∑ t ∈ range N, unitOf L2 m t * D2 t * unitOf L2 c t := by
      intro c hc
      rcases Nat.lt_trichotomy c m with h | h | h
      · rw [habove2 c h, hrow c hc (by omega)]
        unfold symOf
        rw [if_neg (by omega)]
      · rw [h, hself2, hdiag]
      · rw [hbelow c h hc, hrow c hc (by omega)]
        unfold symOf
        rw [if_pos (by omega)]
    intro r hr c hc
    simp only
    rw [hwv r hr, hwv c hc]
    by_cases hrm : r = m
    · rw [hrm, hm' c hc, if_neg (show ¬ m < m by omega)]; ring
    · by_cases hcm : c = m
      · rw [hcm, hsymM r hr m hmN, hm' r hr, if_neg (show ¬ m < m by omega)]
        have : ∑ t ∈ range N, unitOf L2 m t * D2 t * unitOf L2 r t =
            ∑ t ∈ range N, unitOf L2 r t * D2 t * unitOf L2 m t :=
          sum_congr rfl (fun t _ => by ring)
        rw [this]; ring
      · rw [hsame r c hrm hcm, ← hW.fac r hr c hc, ← sum_erase_add (range N) _ (mem_range.2 hmN),
          ← sum_erase_add (range N) (fun t => unitOf L2 r t * D2 t * unitOf L2 c t) (mem_range.2 hmN)]
        have e1 : ∑ t ∈ (range N).erase m, unitOf L2 r t * D2 t * unitOf L2 c t =
            ∑ t ∈ (range N).erase m, unitOf W.S.L r t * W.D t * unitOf W.S.L c t := by
          apply sum_congr rfl
          intro t ht
          have ht1 := ne_of_mem_erase ht
          have ht2 := mem_range.1 (mem_of_mem_erase ht)
          rw [hunit2 r t hr ht2 ht1, hunit2 c t hc ht2 ht1, hunit1 r t ht2 hrm, hunit1 c t ht2 hcm,
            hD2o t ht1]
        have e2 : unitOf W.S.L r m = 0 := by
          rcases Nat.lt_or_gt_of_ne hrm with h | h
          · exact hU.2 r hr m hmN h
          · exact z3 r h hr
        rw [e1, e2, hD2m]
        by_cases h1 : m < r
        · by_cases h2 : m < c
          · rw [if_pos h1, if_pos h2]
            linear_combination (- unitOf L2 r m * unitOf L2 c m) * hsq
          · rw [if_neg h2, hU2.2 c hc m hmN (by omega)]; ring
        · rw [if_neg h1, hU2.2 r hr m hmN (by omega)]; ring
  · intro t r h1 h2 h3 h4 h5
    simp only at h4 h5 ⊢
    rw [(p1.trans q1).occ]
    have hnz : ∀ r, m + 1 ≤ r → r < N → w r ≠ 0 → Occupied W.S.L r m := by
      intro r hr hrN hne
      apply hocc2 r (by omega) hrN
      intro h0
      apply hne
      have := hwv r hrN
      rw [if_pos hr, if_pos (by omega), hunit2m r (by omega) hrN, h0] at this
      rw [this]; simp
    exact hW.pat.closed m t r hmN h2 (hnz t h1 (by omega) h4) (hnz r (by omega) h3 h5)

end Verif.Lemmas.Factor
