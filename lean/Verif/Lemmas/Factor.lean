import Verif.Spec.Factor
import Mathlib.Algebra.Order.BigOperators.Group.Finset
import Mathlib.Algebra.BigOperators.Intervals
import Mathlib.Tactic.Ring
import Mathlib.Tactic.Linarith
namespace Verif.Lemmas.Factor
open Verif.Model.Factor Verif.Spec.Factor

/-! ### loops -/

theorem shiftUp_eq {α : Type} (pos k : Nat) (a : Nat → α) (j : Nat) :
    shiftUp pos k a j = if pos < j ∧ j ≤ pos + k then a (j - 1) else a j := by
  induction k generalizing a with
  | zero => simp [shiftUp]
  | succ k ih =>
    rw [shiftUp, ih]
    unfold upd
    by_cases h1 : pos < j ∧ j ≤ pos + k
    · rw [if_pos h1, if_neg (by omega), if_pos (by omega)]
    · rw [if_neg h1]
      by_cases h2 : j = pos + k + 1
      · rw [if_pos h2, if_pos (by omega), h2]; rfl
      · rw [if_neg h2, if_neg (by omega)]

theorem shiftDown_eq {α : Type} (pos k : Nat) (a : Nat → α) (j : Nat) :
    shiftDown pos k a j = if pos ≤ j ∧ j < pos + k then a (j + 1) else a j := by
  induction k generalizing a pos with
  | zero => simp [shiftDown]
  | succ k ih =>
    rw [shiftDown, ih]
    unfold upd
    by_cases h1 : pos + 1 ≤ j ∧ j < pos + 1 + k
    · rw [if_pos h1, if_neg (by omega), if_pos (by omega)]
    · rw [if_neg h1]
      by_cases h2 : j = pos
      · rw [if_pos h2, if_pos (by omega), h2]
      · rw [if_neg h2, if_neg (by omega)]

theorem bump_eq (f : Nat → Nat) (s k : Nat) (p : Nat → Nat) (j : Nat) :
    bump f s k p j = if s ≤ j ∧ j < s + k then f (p j) else p j := by
  induction k generalizing p s with
  | zero => simp [bump]
  | succ k ih =>
    rw [bump, ih]
    unfold upd
    by_cases h1 : s + 1 ≤ j ∧ j < s + 1 + k
    · rw [if_pos h1, if_neg (by omega), if_pos (by omega)]
    · rw [if_neg h1]
      by_cases h2 : j = s
      · rw [if_pos h2, if_pos (by omega), h2]
      · rw [if_neg h2, if_neg (by omega)]

/-! ### validity -/

variable {R : Type}

theorem Valid.mono_le {N : Nat} {M : CscL R} (h : Valid N M) {a b : Nat} (hab : a ≤ b)
    (hb : b ≤ N) : M.p a ≤ M.p b := by
  induction b with
  | zero => obtain rfl : a = 0 := by omega
            exact Nat.le_refl _
  | succ b ih =>
    rcases Nat.lt_or_ge a (b + 1) with h1 | h1
    · exact Nat.le_trans (ih (by omega) (by omega)) (h.mono b (by omega))
    · obtain rfl : a = b + 1 := by omega
      exact Nat.le_refl _

theorem Valid.sorted_lt {N : Nat} {M : CscL R} (h : Valid N M) {c : Nat} (hc : c < N) {a b : Nat}
    (ha : M.p c ≤ a) (hab : a < b) (hb : b < M.p (c + 1)) : M.i a < M.i b := by
  induction b with
  | zero => omega
  | succ b ih =>
    have hs := h.sorted c hc b (by omega) hb
    rcases Nat.lt_or_ge a b with h1 | h1
    · exact Nat.lt_trans (ih h1 (by omega)) hs
    · obtain rfl : a = b := by omega
      exact hs

theorem bsearch_inl (i : Nat → Nat) (row : Nat) : ∀ (n start stop m : Nat), stop - start ≤ n →
    bsearch i row start stop = .inl m → start ≤ m ∧ m < stop ∧ i m = row := by
  intro n
  induction n with
  | zero =>
    intro start stop m hn h
    rw [bsearch, if_neg (by omega)] at h
    exact absurd h (by simp)
  | succ n ih =>
    intro start stop m hn h
    rw [bsearch] at h
    by_cases hlt : start < stop
    · rw [if_pos hlt] at h
      simp only at h
      split at h
      · rename_i he
        cases h
        exact ⟨by omega, by omega, he⟩
      · split at h
        · have := ih _ _ _ (by omega) h
          omega
        · have := ih _ _ _ (by omega) h
          omega
    · rw [if_neg hlt] at h
      exact absurd h (by simp)

theorem bsearch_inr (i : Nat → Nat) (row : Nat) : ∀ (n start stop pos : Nat), stop - start ≤ n →
    start ≤ stop → (∀ a b, start ≤ a → a < b → b < stop → i a < i b) →
    bsearch i row start stop = .inr pos →
    start ≤ pos ∧ pos ≤ stop ∧ (∀ k, start ≤ k → k < pos → i k < row) ∧
      (∀ k, pos ≤ k → k < stop → row < i k) := by
  intro n
  induction n with
  | zero =>
    intro start stop pos hn hle _ h
    rw [bsearch, if_neg (by omega)] at h
    cases h
    exact ⟨hle, Nat.le_refl _, fun k h1 h2 => by omega, fun k h1 h2 => by omega⟩
  | succ n ih =>
    intro start stop pos hn hle hs h
    rw [bsearch] at h
    by_cases hlt : start < stop
    · rw [if_pos hlt] at h
      simp only at h
      split at h
      · exact absurd h (by simp)
      · rename_i hne
        split at h
        · rename_i hl
          have := ih _ _ _ (by omega) (by omega)
            (fun a b h1 h2 h3 => hs a b (by omega) h2 h3) h
          refine ⟨by omega, this.2.1, fun k h1 h2 => ?_, this.2.2.2⟩
          rcases Nat.lt_or_ge k (start + (stop - start) / 2 + 1) with h3 | h3
          · rcases Nat.lt_or_ge k (start + (stop - start) / 2) with h4 | h4
            · exact Nat.lt_trans (hs _ _ h1 h4 (by omega)) hl
            · obtain rfl : k = start + (stop - start) / 2 := by omega
              exact hl
          · exact this.2.2.1 k h3 h2
        · rename_i hl
          have := ih _ _ _ (by omega) (by omega)
            (fun a b h1 h2 h3 => hs a b h1 h2 (by omega)) h
          refine ⟨this.1, by omega, this.2.2.1, fun k h1 h2 => ?_⟩
          rcases Nat.lt_or_ge k (start + (stop - start) / 2) with h3 | h3
          · exact this.2.2.2 k h1 h3
          · rcases Nat.lt_or_ge (start + (stop - start) / 2) k with h4 | h4
            · have := hs _ _ (by omega) h4 h2
              omega
            · obtain rfl : k = start + (stop - start) / 2 := by omega
              omega
    · rw [if_neg hlt] at h
      cases h
      exact ⟨hle, Nat.le_refl _, fun k h1 h2 => by omega, fun k h1 h2 => by omega⟩

theorem Stored.unique {N : Nat} {M : CscL R} (h : Valid N M) {r c : Nat} (hc : c < N) {v v' : R}
    (h1 : Stored M r c v) (h2 : Stored M r c v') : v = v' := by
  obtain ⟨k, a1, a2, a3, a4⟩ := h1
  obtain ⟨k', b1, b2, b3, b4⟩ := h2
  rcases Nat.lt_trichotomy k k' with hk | hk | hk
  · have := Valid.sorted_lt h hc a1 hk b2
    omega
  · rw [← a4, ← b4, hk]
  · have := Valid.sorted_lt h hc b1 hk a2
    omega

/-! ### insertion at a free position -/

theorem insertAt_i (N : Nat) (M : CscL R) (row col pos : Nat) (v : R) (hpos : pos ≤ M.nnz)
    (j : Nat) : (insertAt N M row col pos v).i j =
      if j = pos then row else if pos < j ∧ j ≤ M.nnz then M.i (j - 1) else M.i j := by
  unfold insertAt upd
  simp only
  by_cases h : j = pos
  · rw [if_pos h, if_pos h]
  · rw [if_neg h, if_neg h, shiftUp_eq]
    have : pos + (M.nnz + 1 - 1 - pos) = M.nnz := by omega
    rw [this]

theorem insertAt_x (N : Nat) (M : CscL R) (row col pos : Nat) (v : R) (hpos : pos ≤ M.nnz)
    (j : Nat) : (insertAt N M row col pos v).x j =
      if j = pos then v else if pos < j ∧ j ≤ M.nnz then M.x (j - 1) else M.x j := by
  unfold insertAt upd
  simp only
  by_cases h : j = pos
  · rw [if_pos h, if_pos h]
  · rw [if_neg h, if_neg h, shiftUp_eq]
    have : pos + (M.nnz + 1 - 1 - pos) = M.nnz := by omega
    rw [this]

theorem insertAt_p (N : Nat) (M : CscL R) (row col pos : Nat) (v : R) (hcol : col < N)
    (j : Nat) : (insertAt N M row col pos v).p j =
      if col < j ∧ j ≤ N then M.p j + 1 else M.p j := by
  unfold insertAt
  simp only
  rw [bump_eq]
  by_cases h : col < j ∧ j ≤ N
  · rw [if_pos h, if_pos (by omega)]
  · rw [if_neg h, if_neg (by omega)]

/-- Where the slots of the new matrix come from. -/
theorem insertAt_stored {N : Nat} {M : CscL R} (hM : Valid N M) {row col pos : Nat} {v : R}
    (hcol : col < N) (hp1 : M.p col ≤ pos) (hp2 : pos ≤ M.p (col + 1))
    {r c : Nat} {v' : R} (hc : c < N) :
    Stored (insertAt N M row col pos v) r c v' ↔
      (r = row ∧ c = col ∧ v' = v) ∨ Stored M r c v' := by
  have hnnz : M.p (col + 1) ≤ M.nnz := by
    rw [← hM.last]; exact Valid.mono_le hM (by omega) (Nat.le_refl _)
  have hpos : pos ≤ M.nnz := by omega
  have hcn : M.p (c + 1) ≤ M.nnz := by
    rw [← hM.last]; exact Valid.mono_le hM (by omega) (Nat.le_refl _)
  unfold Stored
  simp only [insertAt_i N M row col pos v hpos, insertAt_x N M row col pos v hpos,
    insertAt_p N M row col pos v hcol]
  rcases Nat.lt_trichotomy c col with hlt | rfl | hgt
  · have h1 : M.p (c + 1) ≤ pos :=
      Nat.le_trans (Valid.mono_le hM (show c + 1 ≤ col by omega) (by omega)) hp1
    rw [if_neg (show ¬ (col < c ∧ c ≤ N) by omega),
      if_neg (show ¬ (col < c + 1 ∧ c + 1 ≤ N) by omega)]
    constructor
    · rintro ⟨k, a1, a2, a3, a4⟩
      rw [if_neg (by omega), if_neg (by omega)] at a3 a4
      exact Or.inr ⟨k, a1, a2, a3, a4⟩
    · rintro (⟨_, h, _⟩ | ⟨k, a1, a2, a3, a4⟩)
      · omega
      · refine ⟨k, a1, a2, ?_, ?_⟩
        · rw [if_neg (by omega), if_neg (by omega)]; exact a3
        · rw [if_neg (by omega), if_neg (by omega)]; exact a4
  · rw [if_neg (show ¬ (c < c ∧ c ≤ N) by omega),
      if_pos (show c < c + 1 ∧ c + 1 ≤ N by omega)]
    constructor
    · rintro ⟨k, a1, a2, a3, a4⟩
      by_cases h : k = pos
      · rw [if_pos h] at a3 a4
        exact Or.inl ⟨a3.symm, rfl, a4.symm⟩
      · rw [if_neg h] at a3 a4
        right
        by_cases h2 : pos < k ∧ k ≤ M.nnz
        · rw [if_pos h2] at a3 a4
          exact ⟨k - 1, by omega, by omega, a3, a4⟩
        · rw [if_neg h2] at a3 a4
          exact ⟨k, a1, by omega, a3, a4⟩
    · rintro (⟨rfl, _, rfl⟩ | ⟨k, a1, a2, a3, a4⟩)
      · exact ⟨pos, hp1, by omega, if_pos rfl, if_pos rfl⟩
      · by_cases h : k < pos
        · refine ⟨k, a1, by omega, ?_, ?_⟩
          · rw [if_neg (by omega), if_neg (by omega)]; exact a3
          · rw [if_neg (by omega), if_neg (by omega)]; exact a4
        · refine ⟨k + 1, by omega, by omega, ?_, ?_⟩
          · rw [if_neg (by omega), if_pos (by omega)]; exact a3
          · rw [if_neg (by omega), if_pos (by omega)]; exact a4
  · have h1 : M.p (col + 1) ≤ M.p c := Valid.mono_le hM (show col + 1 ≤ c by omega) (by omega)
    rw [if_pos (show col < c ∧ c ≤ N by omega), if_pos (show col < c + 1 ∧ c + 1 ≤ N by omega)]
    constructor
    · rintro ⟨k, a1, a2, a3, a4⟩
      rw [if_neg (by omega), if_pos (by omega)] at a3 a4
      exact Or.inr ⟨k - 1, by omega, by omega, a3, a4⟩
    · rintro (⟨_, h, _⟩ | ⟨k, a1, a2, a3, a4⟩)
      · omega
      · refine ⟨k + 1, by omega, by omega, ?_, ?_⟩
        · rw [if_neg (by omega), if_pos (by omega)]; exact a3
        · rw [if_neg (by omega), if_pos (by omega)]; exact a4

theorem insertAt_valid {N : Nat} {M : CscL R} (hM : Valid N M) {row col pos : Nat} {v : R}
    (hrc : col < row) (hrow : row < N) (hp1 : M.p col ≤ pos) (hp2 : pos ≤ M.p (col + 1))
    (hlo : ∀ k, M.p col ≤ k → k < pos → M.i k < row)
    (hhi : ∀ k, pos ≤ k → k < M.p (col + 1) → row < M.i k) :
    Valid N (insertAt N M row col pos v) := by
  have hcol : col < N := by omega
  have hnnz : M.p (col + 1) ≤ M.nnz := by
    rw [← hM.last]; exact Valid.mono_le hM (by omega) (Nat.le_refl _)
  have hpos : pos ≤ M.nnz := by omega
  constructor
  · rw [insertAt_p N M row col pos v hcol, if_neg (by omega)]; exact hM.zero
  · intro c hc
    have := hM.mono c hc
    rw [insertAt_p N M row col pos v hcol, insertAt_p N M row col pos v hcol]
    split <;> split <;> omega
  · rw [insertAt_p N M row col pos v hcol, if_pos (by omega), hM.last]; rfl
  · intro c hc k h1 h2
    rw [insertAt_p N M row col pos v hcol] at h1 h2
    rw [insertAt_i N M row col pos v hpos, insertAt_i N M row col pos v hpos]
    have hcn : M.p (c + 1) ≤ M.nnz := by
      rw [← hM.last]; exact Valid.mono_le hM (by omega) (Nat.le_refl _)
    rcases Nat.lt_trichotomy c col with hlt | rfl | hgt
    · have h3 : M.p (c + 1) ≤ pos :=
        Nat.le_trans (Valid.mono_le hM (show c + 1 ≤ col by omega) (by omega)) hp1
      rw [if_neg (by omega)] at h1 h2
      rw [if_neg (by omega), if_neg (by omega), if_neg (by omega), if_neg (by omega)]
      exact hM.sorted c hc k h1 h2
    · rw [if_neg (by omega)] at h1
      rw [if_pos (by omega)] at h2
      rcases Nat.lt_trichotomy (k + 1) pos with h | h | h
      · rw [if_neg (by omega), if_neg (by omega), if_neg (by omega), if_neg (by omega)]
        exact hM.sorted c hc k h1 (by omega)
      · rw [if_neg (by omega), if_neg (by omega), if_pos h]
        exact hlo k h1 (by omega)
      · by_cases hk : k = pos
        · rw [if_pos hk, if_neg (by omega), if_pos (by omega)]
          exact hhi _ (by omega) (by omega)
        · rw [if_neg hk, if_pos (by omega), if_neg (by omega), if_pos (by omega)]
          have := hM.sorted c hc (k - 1) (by omega) (by omega)
          rwa [show k - 1 + 1 = k + 1 - 1 by omega] at this
    · have h3 : M.p (col + 1) ≤ M.p c := Valid.mono_le hM (show col + 1 ≤ c by omega) (by omega)
      rw [if_pos (by omega)] at h1 h2
      rw [if_neg (by omega), if_pos (by omega), if_neg (by omega), if_pos (by omega)]
      have := hM.sorted c hc (k - 1) (by omega) (by omega)
      rwa [show k - 1 + 1 = k + 1 - 1 by omega] at this
  · intro c hc k h1 h2
    have hst : Stored (insertAt N M row col pos v) ((insertAt N M row col pos v).i k) c
        ((insertAt N M row col pos v).x k) := ⟨k, h1, h2, rfl, rfl⟩
    rw [insertAt_stored hM hcol hp1 hp2 hc] at hst
    rcases hst with ⟨h3, h4, _⟩ | ⟨k', a1, a2, a3, _⟩
    · rw [h3, h4]; exact ⟨hrc, hrow⟩
    · rw [← a3]; exact hM.lower c hc k' a1 a2

/-! ### the two insertion functions -/

theorem search_free {N : Nat} {M : CscL R} (hM : Valid N M) {row col pos : Nat} (hcol : col < N)
    (h : bsearch M.i row (M.p col) (M.p (col + 1)) = .inr pos) :
    M.p col ≤ pos ∧ pos ≤ M.p (col + 1) ∧ (∀ k, M.p col ≤ k → k < pos → M.i k < row) ∧
      (∀ k, pos ≤ k → k < M.p (col + 1) → row < M.i k) :=
  bsearch_inr M.i row _ _ _ _ (Nat.le_refl _) (hM.mono col hcol)
    (fun _ _ h1 h2 h3 => Valid.sorted_lt hM hcol h1 h2 h3) h

theorem not_occupied {N : Nat} {M : CscL R} (hM : Valid N M) {row col pos : Nat} (hcol : col < N)
    (h : bsearch M.i row (M.p col) (M.p (col + 1)) = .inr pos) : ¬ Occupied M row col := by
  obtain ⟨_, _, h3, h4⟩ := search_free hM hcol h
  rintro ⟨v, k, a1, a2, a3, _⟩
  rcases Nat.lt_or_ge k pos with hk | hk
  · have := h3 k a1 hk; omega
  · have := h4 k hk a2; omega

theorem set_valid {N : Nat} {M : CscL R} (hM : Valid N M) (x : Nat → R) :
    Valid N { M with x := x } := ⟨hM.zero, hM.mono, hM.last, hM.sorted, hM.lower⟩

/-! ### removal -/

theorem findRemovable_some (big : R → Bool) (M : CscL R) (row : Nat) : ∀ k q m,
    findRemovable big M row q k = some m → q ≤ m ∧ m < q + k ∧ M.i m = row ∧ big (M.x m) = false := by
  intro k
  induction k with
  | zero => intro q m h; simp [findRemovable] at h
  | succ k ih =>
    intro q m h
    rw [findRemovable] at h
    split at h
    · rename_i he
      split at h
      · simp at h
      · rename_i hb
        cases h
        exact ⟨by omega, by omega, he, by simpa using hb⟩
    · have := ih _ _ h
      exact ⟨by omega, by omega, this.2.2⟩

theorem findRemovable_none (big : R → Bool) (M : CscL R) (row : Nat) : ∀ k q,
    findRemovable big M row q k = none →
    (∀ m, q ≤ m → m < q + k → M.i m ≠ row) ∨
      ∃ m, q ≤ m ∧ m < q + k ∧ M.i m = row ∧ big (M.x m) = true := by
  intro k
  induction k with
  | zero => intro q _; left; intro m h1 h2; omega
  | succ k ih =>
    intro q h
    rw [findRemovable] at h
    split at h
    · rename_i he
      split at h
      · rename_i hb
        exact Or.inr ⟨q, by omega, by omega, he, hb⟩
      · simp at h
    · rename_i hne
      rcases ih _ h with h1 | ⟨m, h1, h2, h3, h4⟩
      · left
        intro m a1 a2
        rcases Nat.lt_or_ge q m with h3 | h3
        · exact h1 m (by omega) (by omega)
        · obtain rfl : m = q := by omega
          exact hne
      · exact Or.inr ⟨m, by omega, by omega, h3, h4⟩

/-- The matrix after the shifts of `remove_nonzero`. -/
def removeAt (N : Nat) (M : CscL R) (col q : Nat) : CscL R :=
  { i := shiftDown q (M.nnz - 1 - q) M.i
    x := shiftDown q (M.nnz - 1 - q) M.x
    nnz := M.nnz - 1
    p := bump (· - 1) (col + 1) (N - col) M.p }

theorem removeAt_p (N : Nat) (M : CscL R) (col q : Nat) (hcol : col < N) (j : Nat) :
    (removeAt N M col q).p j = if col < j ∧ j ≤ N then M.p j - 1 else M.p j := by
  unfold removeAt
  simp only
  rw [bump_eq]
  by_cases h : col < j ∧ j ≤ N
  · rw [if_pos h, if_pos (by omega)]
  · rw [if_neg h, if_neg (by omega)]

theorem removeAt_i (N : Nat) (M : CscL R) (col q : Nat) (hq : q < M.nnz) (j : Nat) :
    (removeAt N M col q).i j = if q ≤ j ∧ j < M.nnz - 1 then M.i (j + 1) else M.i j := by
  unfold removeAt
  simp only
  rw [shiftDown_eq, show q + (M.nnz - 1 - q) = M.nnz - 1 by omega]

theorem removeAt_x (N : Nat) (M : CscL R) (col q : Nat) (hq : q < M.nnz) (j : Nat) :
    (removeAt N M col q).x j = if q ≤ j ∧ j < M.nnz - 1 then M.x (j + 1) else M.x j := by
  unfold removeAt
  simp only
  rw [shiftDown_eq, show q + (M.nnz - 1 - q) = M.nnz - 1 by omega]

theorem removeAt_slot {N : Nat} {M : CscL R} (hM : Valid N M) {col q : Nat}
    (hcol : col < N) (hq1 : M.p col ≤ q) (hq2 : q < M.p (col + 1)) {c k : Nat} (hc : c < N) :
    ((removeAt N M col q).p c ≤ k ∧ k < (removeAt N M col q).p (c + 1)) ↔
      (k < q ∧ M.p c ≤ k ∧ k < M.p (c + 1)) ∨ (q ≤ k ∧ M.p c ≤ k + 1 ∧ k + 1 < M.p (c + 1)) := by
  rw [removeAt_p N M col q hcol, removeAt_p N M col q hcol]
  rcases Nat.lt_trichotomy c col with hlt | rfl | hgt
  · have h1 : M.p (c + 1) ≤ M.p col := Valid.mono_le hM (show c + 1 ≤ col by omega) (by omega)
    rw [if_neg (show ¬ (col < c ∧ c ≤ N) by omega),
      if_neg (show ¬ (col < c + 1 ∧ c + 1 ≤ N) by omega)]
    omega
  · rw [if_neg (show ¬ (c < c ∧ c ≤ N) by omega),
      if_pos (show c < c + 1 ∧ c + 1 ≤ N by omega)]
    omega
  · have h1 : M.p (col + 1) ≤ M.p c := Valid.mono_le hM (show col + 1 ≤ c by omega) (by omega)
    rw [if_pos (show col < c ∧ c ≤ N by omega), if_pos (show col < c + 1 ∧ c + 1 ≤ N by omega)]
    omega

theorem removeAt_stored {N : Nat} {M : CscL R} (hM : Valid N M) {col q : Nat}
    (hcol : col < N) (hq1 : M.p col ≤ q) (hq2 : q < M.p (col + 1)) {r c : Nat} {v : R}
    (hc : c < N) :
    Stored (removeAt N M col q) r c v ↔ ¬ (r = M.i q ∧ c = col) ∧ Stored M r c v := by
  have hnnz : M.p (col + 1) ≤ M.nnz := by
    rw [← hM.last]; exact Valid.mono_le hM (by omega) (Nat.le_refl _)
  have hcn : M.p (c + 1) ≤ M.nnz := by
    rw [← hM.last]; exact Valid.mono_le hM (by omega) (Nat.le_refl _)
  have hq : q < M.nnz := by omega
  unfold Stored
  constructor
  · rintro ⟨k, a1, a2, a3, a4⟩
    have hs := (removeAt_slot hM hcol hq1 hq2 hc).1 ⟨a1, a2⟩
    rw [removeAt_i N M col q hq] at a3
    rw [removeAt_x N M col q hq] at a4
    rcases hs with ⟨b1, b2, b3⟩ | ⟨b1, b2, b3⟩
    · rw [if_neg (by omega)] at a3 a4
      refine ⟨?_, k, b2, b3, a3, a4⟩
      rintro ⟨h1, rfl⟩
      have := Valid.sorted_lt hM hcol b2 b1 hq2
      omega
    · rw [if_pos (by omega)] at a3 a4
      refine ⟨?_, k + 1, b2, b3, a3, a4⟩
      rintro ⟨h1, rfl⟩
      have := Valid.sorted_lt hM hcol hq1 (show q < k + 1 by omega) b3
      omega
  · rintro ⟨hne, k, a1, a2, a3, a4⟩
    have hkq : k ≠ q := by
      rintro rfl
      apply hne
      refine ⟨a3.symm, ?_⟩
      rcases Nat.lt_trichotomy c col with hlt | h | hgt
      · have h1 : M.p (c + 1) ≤ M.p col := Valid.mono_le hM (show c + 1 ≤ col by omega) (by omega)
        omega
      · exact h
      · have h1 : M.p (col + 1) ≤ M.p c := Valid.mono_le hM (show col + 1 ≤ c by omega) (by omega)
        omega
    rcases Nat.lt_or_ge k q with h | h
    · refine ⟨k, ((removeAt_slot hM hcol hq1 hq2 hc).2 (Or.inl ⟨h, a1, a2⟩)).1,
        ((removeAt_slot hM hcol hq1 hq2 hc).2 (Or.inl ⟨h, a1, a2⟩)).2, ?_, ?_⟩
      · rw [removeAt_i N M col q hq, if_neg (by omega)]; exact a3
      · rw [removeAt_x N M col q hq, if_neg (by omega)]; exact a4
    · have hs := (removeAt_slot hM hcol hq1 hq2 (c := c) (k := k - 1) hc).2
        (Or.inr ⟨by omega, by omega, by omega⟩)
      refine ⟨k - 1, hs.1, hs.2, ?_, ?_⟩
      · rw [removeAt_i N M col q hq, if_pos (by omega), show k - 1 + 1 = k by omega]; exact a3
      · rw [removeAt_x N M col q hq, if_pos (by omega), show k - 1 + 1 = k by omega]; exact a4

theorem removeAt_valid {N : Nat} {M : CscL R} (hM : Valid N M) {col q : Nat}
    (hcol : col < N) (hq1 : M.p col ≤ q) (hq2 : q < M.p (col + 1)) :
    Valid N (removeAt N M col q) := by
  have hnnz : M.p (col + 1) ≤ M.nnz := by
    rw [← hM.last]; exact Valid.mono_le hM (by omega) (Nat.le_refl _)
  have hq : q < M.nnz := by omega
  constructor
  · rw [removeAt_p N M col q hcol, if_neg (by omega)]; exact hM.zero
  · intro c hc
    have h0 := hM.mono c hc
    rw [removeAt_p N M col q hcol, removeAt_p N M col q hcol]
    split <;> split
    · omega
    · omega
    · have : c = col := by omega
      subst this
      omega
    · omega
  · rw [removeAt_p N M col q hcol, if_pos (by omega), hM.last]; rfl
  · intro c hc k h1 h2
    have hcn : M.p (c + 1) ≤ M.nnz := by
      rw [← hM.last]; exact Valid.mono_le hM (by omega) (Nat.le_refl _)
    have s1 := (removeAt_slot hM hcol hq1 hq2 hc).1 ⟨h1, by omega⟩
    have s2 := (removeAt_slot hM hcol hq1 hq2 hc).1 ⟨Nat.le_succ_of_le h1, h2⟩
    rw [removeAt_i N M col q hq, removeAt_i N M col q hq]
    rcases s1 with ⟨a1, a2, a3⟩ | ⟨a1, a2, a3⟩
    · rcases s2 with ⟨b1, b2, b3⟩ | ⟨b1, b2, b3⟩
      · rw [if_neg (by omega), if_neg (by omega)]
        exact hM.sorted c hc k a2 b3
      · rw [if_neg (by omega), if_pos (by omega)]
        exact Valid.sorted_lt hM hc a2 (by omega) b3
    · rcases s2 with ⟨b1, b2, b3⟩ | ⟨b1, b2, b3⟩
      · omega
      · rw [if_pos (by omega), if_pos (by omega)]
        exact Valid.sorted_lt hM hc a2 (by omega) b3
  · intro c hc k h1 h2
    have hst : Stored (removeAt N M col q) ((removeAt N M col q).i k) c
        ((removeAt N M col q).x k) := ⟨k, h1, h2, rfl, rfl⟩
    rw [removeAt_stored hM hcol hq1 hq2 hc] at hst
    obtain ⟨_, k', a1, a2, a3, _⟩ := hst
    rw [← a3]; exact hM.lower c hc k' a1 a2

/-! ### capacity -/

theorem column_size {N : Nat} {M : CscL R} (hM : Valid N M) {c : Nat} (hc : c < N) :
    M.p (c + 1) - M.p c ≤ N - c - 1 := by
  -- the k-th row index of the column is at least c + 1 + k
  have key : ∀ k, M.p c + k < M.p (c + 1) → c + 1 + k ≤ M.i (M.p c + k) := by
    intro k
    induction k with
    | zero => intro h; exact (hM.lower c hc _ (Nat.le_refl _) h).1
    | succ k ih =>
      intro h
      have := ih (by omega)
      have h2 := hM.sorted c hc (M.p c + k) (by omega) h
      rw [← Nat.add_assoc (M.p c) k 1]
      omega
  have h0 := hM.mono c hc
  by_cases h : M.p (c + 1) - M.p c = 0
  · omega
  · have h1 := key (M.p (c + 1) - M.p c - 1) (by omega)
    have h2 := (hM.lower c hc (M.p c + (M.p (c + 1) - M.p c - 1)) (by omega) (by omega)).2
    omega

theorem ptr_le_reserved {N : Nat} {M : CscL R} (hM : Valid N M) : ∀ c ≤ N,
    M.p c ≤ reservedPtr N c := by
  intro c
  induction c with
  | zero => intro _; rw [hM.zero]; exact Nat.zero_le _
  | succ c ih =>
    intro hc
    have h1 := ih (by omega)
    have h2 := column_size hM (show c < N by omega)
    have h3 := hM.mono c (by omega)
    rw [reservedPtr]
    omega

theorem reservedPtr_double (N : Nat) : ∀ c ≤ N, 2 * reservedPtr N c = c * (2 * N - c - 1) := by
  intro c
  induction c with
  | zero => intro _; simp [reservedPtr]
  | succ c ih =>
    intro hc
    rw [reservedPtr, Nat.mul_add, ih (by omega)]
    obtain ⟨d, rfl⟩ : ∃ d, N = c + 1 + d := ⟨N - c - 1, by omega⟩
    rw [show 2 * (c + 1 + d) - c - 1 = c + 1 + 2 * d by omega,
      show c + 1 + d - c - 1 = d by omega,
      show 2 * (c + 1 + d) - (c + 1) - 1 = c + 2 * d by omega]
    ring

theorem reserved_eq (N : Nat) : reserved N = maskSize N := by
  have h := reservedPtr_double N N (Nat.le_refl _)
  unfold reserved maskSize
  have : N * (2 * N - N - 1) = (N - 1) * N := by
    rw [show 2 * N - N - 1 = N - 1 by omega, Nat.mul_comm]
  rw [this] at h
  omega

/-! ### the mask index -/

theorem maskIndex_eq {N row col : Nat} (h1 : col < row) (h2 : row < N) :
    maskIndex N row col = ((reservedPtr N col + (row - col - 1) : Nat) : Int) := by
  unfold maskIndex
  have hd := reservedPtr_double N col (by omega)
  have : ((2 * (N : Int) - 3 - col) * col) = 2 * ((reservedPtr N col : Int) - col) := by
    have hz : (2 * (reservedPtr N col : Int)) = (col : Int) * (2 * N - col - 1) := by
      have := congrArg (Nat.cast : Nat → Int) hd
      push_cast [Nat.cast_sub (show 1 ≤ 2 * N - col by omega),
        Nat.cast_sub (show col ≤ 2 * N by omega)] at this
      linarith
    nlinarith [hz]
  rw [this, Int.mul_tdiv_cancel_left _ (by decide)]
  omega

theorem reservedPtr_mono (N : Nat) {a b : Nat} (h : a ≤ b) : reservedPtr N a ≤ reservedPtr N b := by
  induction b with
  | zero => obtain rfl : a = 0 := by omega
            exact Nat.le_refl _
  | succ b ih =>
    rcases Nat.lt_or_ge a (b + 1) with h1 | h1
    · have := ih (by omega)
      rw [reservedPtr]; omega
    · obtain rfl : a = b + 1 := by omega
      exact Nat.le_refl _

end Verif.Lemmas.Factor
