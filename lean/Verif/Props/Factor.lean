import Verif.Lemmas.Factor
/-!
C30, C31, C32: the sparse factor of the gradient code.
-/
namespace Verif.Props
open Verif.Model.Factor Verif.Spec.Factor Verif.Lemmas.Factor

variable {R : Type}

/-! ### C31 -/

/-- Every strictly lower triangular position has its mask index within the mask. -/
theorem C31_in_range {N row col : Nat} (h1 : col < row) (h2 : row < N) :
    0 ≤ maskIndex N row col ∧ maskIndex N row col < maskSize N := by
  rw [maskIndex_eq h1 h2, ← reserved_eq]
  refine ⟨Int.natCast_nonneg _, ?_⟩
  have h3 := reservedPtr_mono N (show col + 1 ≤ N by omega)
  rw [reservedPtr] at h3
  unfold reserved
  exact_mod_cast (show reservedPtr N col + (row - col - 1) < reservedPtr N N by omega)

/-- Different positions have different mask indices. -/
theorem C31_injective {N r c r' c' : Nat} (h1 : c < r) (h2 : r < N) (h1' : c' < r') (h2' : r' < N)
    (h : maskIndex N r c = maskIndex N r' c') : r = r' ∧ c = c' := by
  rw [maskIndex_eq h1 h2, maskIndex_eq h1' h2'] at h
  have h : reservedPtr N c + (r - c - 1) = reservedPtr N c' + (r' - c' - 1) := by exact_mod_cast h
  rcases Nat.lt_trichotomy c c' with hc | hc | hc
  · have := reservedPtr_mono N (show c + 1 ≤ c' by omega)
    rw [reservedPtr] at this
    omega
  · subst hc
    omega
  · have := reservedPtr_mono N (show c' + 1 ≤ c by omega)
    rw [reservedPtr] at this
    omega

/-- Every cell of the mask belongs to a position: no cell is wasted or shared. -/
theorem C31_surjective {N : Nat} (k : Nat) (hk : k < maskSize N) :
    ∃ row col, col < row ∧ row < N ∧ maskIndex N row col = k := by
  rw [← reserved_eq] at hk
  unfold reserved at hk
  have key : ∀ n, n ≤ N → k < reservedPtr N n → ∃ row col, col < row ∧ row < N ∧
      maskIndex N row col = k := by
    intro n
    induction n with
    | zero => intro _ h; simp [reservedPtr] at h
    | succ n ih =>
      intro hn h
      by_cases hlt : k < reservedPtr N n
      · exact ih (by omega) hlt
      · rw [reservedPtr] at h
        refine ⟨n + 1 + (k - reservedPtr N n), n, by omega, by omega, ?_⟩
        rw [maskIndex_eq (by omega) (by omega)]
        congr 1
        omega
  exact key N (Nat.le_refl _) hk

example : maskIndex 4 1 0 = 0 ∧ maskIndex 4 3 0 = 2 ∧ maskIndex 4 2 1 = 3 ∧ maskIndex 4 3 2 = 5 ∧
    maskSize 4 = 6 := by decide

/-! ### C30 -/

/-- One edit: the matrix stays valid and changes exactly as specified. -/
theorem C30_edit [Zero R] (big : R → Bool) {N : Nat} {M : CscL R} {f : Partial R}
    (hM : Valid N M) (hf : Represents N M f) (e : Edit R) (he : e.OK N) :
    Valid N (e.exec big N M) ∧ Represents N (e.exec big N M) (e.meaning big f) := by
  by_cases habove : e.at.1 < e.at.2
  · have h1 : e.exec big N M = M := by
      cases e <;> simp only [Edit.at] at habove <;>
        simp only [Edit.exec, insertNonzero, insertNonzeroAndValue, removeNonzero, if_pos habove]
    have h2 : e.meaning big f = f := by unfold Edit.meaning; rw [if_pos habove]
    rw [h1, h2]
    exact ⟨hM, hf⟩
  · obtain ⟨hlt, hN⟩ : e.at.2 < e.at.1 ∧ e.at.1 < N := by
      rcases he with h | h
      · exact absurd h habove
      · exact h
    unfold Edit.meaning
    rw [if_neg habove]
    cases e with
    | insert row col =>
      simp only [Edit.at] at hlt hN habove
      have hcol : col < N := by omega
      simp only [Edit.exec, insertNonzero, if_neg habove]
      cases hs : bsearch M.i row (M.p col) (M.p (col + 1)) with
      | inl m =>
        obtain ⟨h1, h2, h3⟩ := bsearch_inl _ _ _ _ _ _ (Nat.le_refl _) hs
        refine ⟨hM, fun r c v hc => ?_⟩
        rw [hf r c v hc, Partial.set]
        by_cases hrc : r = row ∧ c = col
        · obtain ⟨rfl, rfl⟩ := hrc
          have hv : f r c = some (M.x m) := (hf _ _ _ hc).1 ⟨m, h1, h2, h3, rfl⟩
          rw [if_pos ⟨rfl, rfl⟩, hv]
          simp
        · rw [if_neg hrc]
      | inr pos =>
        obtain ⟨p1, p2, p3, p4⟩ := search_free hM hcol hs
        have hno := not_occupied hM hcol hs
        refine ⟨insertAt_valid hM hlt hN p1 p2 p3 p4, fun r c v hc => ?_⟩
        simp only
        rw [insertAt_stored hM hcol p1 p2 hc, hf r c v hc, Partial.set]
        by_cases hrc : r = row ∧ c = col
        · obtain ⟨rfl, rfl⟩ := hrc
          have hv : f r c = none := by
            cases hfv : f r c with
            | none => rfl
            | some v => exact absurd ⟨v, (hf _ _ _ hc).2 hfv⟩ hno
          rw [if_pos ⟨rfl, rfl⟩, hv]
          simp [eq_comm]
        · rw [if_neg hrc]
          constructor
          · rintro (⟨h1, h2, _⟩ | h)
            · exact absurd ⟨h1, h2⟩ hrc
            · exact h
          · exact Or.inr
    | put row col val =>
      simp only [Edit.at] at hlt hN habove
      have hcol : col < N := by omega
      simp only [Edit.exec, insertNonzeroAndValue, if_neg habove]
      cases hs : bsearch M.i row (M.p col) (M.p (col + 1)) with
      | inl m =>
        obtain ⟨h1, h2, h3⟩ := bsearch_inl _ _ _ _ _ _ (Nat.le_refl _) hs
        refine ⟨set_valid hM _, fun r c v hc => ?_⟩
        rw [Partial.set]
        by_cases hrc : r = row ∧ c = col
        · obtain ⟨rfl, rfl⟩ := hrc
          rw [if_pos ⟨rfl, rfl⟩]
          constructor
          · intro hst
            have hst2 : Stored { M with x := upd M.x m val } r c val :=
              ⟨m, h1, h2, h3, by simp [upd]⟩
            rw [Stored.unique (set_valid hM _) hc hst hst2]
          · intro h
            cases h
            exact ⟨m, h1, h2, h3, by simp [upd]⟩
        · rw [if_neg hrc, ← hf r c v hc]
          have hk : ∀ k, M.p c ≤ k → k < M.p (c + 1) → M.i k = r → k ≠ m := by
            rintro k a1 a2 a3 rfl
            apply hrc
            refine ⟨by omega, ?_⟩
            rcases Nat.lt_trichotomy c col with h | h | h
            · have := Valid.mono_le hM (show c + 1 ≤ col by omega) (by omega)
              omega
            · exact h
            · have := Valid.mono_le hM (show col + 1 ≤ c by omega) (by omega)
              omega
          constructor
          · rintro ⟨k, a1, a2, a3, a4⟩
            refine ⟨k, a1, a2, a3, ?_⟩
            simpa [upd, hk k a1 a2 a3] using a4
          · rintro ⟨k, a1, a2, a3, a4⟩
            refine ⟨k, a1, a2, a3, ?_⟩
            simpa [upd, hk k a1 a2 a3] using a4
      | inr pos =>
        obtain ⟨p1, p2, p3, p4⟩ := search_free hM hcol hs
        have hno := not_occupied hM hcol hs
        refine ⟨insertAt_valid hM hlt hN p1 p2 p3 p4, fun r c v hc => ?_⟩
        simp only
        rw [insertAt_stored hM hcol p1 p2 hc, hf r c v hc, Partial.set]
        by_cases hrc : r = row ∧ c = col
        · obtain ⟨rfl, rfl⟩ := hrc
          have hv : f r c = none := by
            cases hfv : f r c with
            | none => rfl
            | some v => exact absurd ⟨v, (hf _ _ _ hc).2 hfv⟩ hno
          rw [if_pos ⟨rfl, rfl⟩, hv]
          simp [eq_comm]
        · rw [if_neg hrc]
          constructor
          · rintro (⟨h1, h2, _⟩ | h)
            · exact absurd ⟨h1, h2⟩ hrc
            · exact h
          · exact Or.inr
    | remove row col =>
      simp only [Edit.at] at hlt hN habove
      have hcol : col < N := by omega
      have hmono := hM.mono col hcol
      simp only [Edit.exec, removeNonzero, if_neg habove]
      cases hs : findRemovable big M row (M.p col) (M.p (col + 1) - M.p col) with
      | none =>
        refine ⟨hM, fun r c v hc => ?_⟩
        simp only
        rw [hf r c v hc, Partial.set]
        by_cases hrc : r = row ∧ c = col
        · obtain ⟨rfl, rfl⟩ := hrc
          rw [if_pos ⟨rfl, rfl⟩]
          rcases findRemovable_none _ _ _ _ _ hs with h | ⟨m, h1, h2, h3, h4⟩
          · have hv : f r c = none := by
              cases hfv : f r c with
              | none => rfl
              | some v =>
                obtain ⟨k, a1, a2, a3, _⟩ := (hf _ _ _ hc).2 hfv
                exact absurd a3 (h k a1 (by omega))
            rw [hv]; simp
          · have hv : f r c = some (M.x m) := (hf _ _ _ hc).1 ⟨m, h1, by omega, h3, rfl⟩
            rw [hv]
            simp [Option.filter, h4]
        · rw [if_neg hrc]
      | some q =>
        obtain ⟨q1, q2, q3, q4⟩ := findRemovable_some _ _ _ _ _ _ hs
        have q2' : q < M.p (col + 1) := by omega
        refine ⟨removeAt_valid hM hcol q1 q2', fun r c v hc => ?_⟩
        have hst := removeAt_stored hM hcol q1 q2' (r := r) (c := c) (v := v) hc
        simp only
        change Stored (removeAt N M col q) r c v ↔ _
        rw [hst, hf r c v hc, Partial.set, q3]
        by_cases hrc : r = row ∧ c = col
        · obtain ⟨rfl, rfl⟩ := hrc
          have hv : f r c = some (M.x q) := (hf _ _ _ hc).1 ⟨q, q1, q2', q3, rfl⟩
          rw [if_pos ⟨rfl, rfl⟩, hv]
          simp [Option.filter, q4]
        · rw [if_neg hrc]
          simp only [hrc, not_false_eq_true, true_and]

/-- Every sequence of edits: the matrix stays valid and represents what the edits mean. -/
theorem C30_history [Zero R] (big : R → Bool) {N : Nat} (es : List (Edit R)) {M : CscL R}
    {f : Partial R} (hM : Valid N M) (hf : Represents N M f) (he : ∀ e ∈ es, e.OK N) :
    Valid N (es.foldl (Edit.exec big N) M) ∧
      Represents N (es.foldl (Edit.exec big N) M) (es.foldl (Edit.meaning big) f) := by
  induction es generalizing M f with
  | nil => exact ⟨hM, hf⟩
  | cons e es ih =>
    obtain ⟨h1, h2⟩ := C30_edit big hM hf e (he e (List.mem_cons_self ..))
    exact ih h1 h2 (fun e' h => he e' (List.mem_cons_of_mem _ h))

/-- A valid matrix does represent some partial matrix. -/
theorem C30_represented {N : Nat} {M : CscL R} (hM : Valid N M) : ∃ f, Represents N M f := by
  classical
  refine ⟨fun r c => if h : Occupied M r c then some h.choose else none, fun r c v hc => ?_⟩
  constructor
  · intro h
    have ho : Occupied M r c := ⟨v, h⟩
    simp only
    rw [dif_pos ho, Stored.unique hM hc ho.choose_spec h]
  · intro h
    by_cases ho : Occupied M r c
    · simp only [dif_pos ho, Option.some.injEq] at h
      rw [← h]
      exact ho.choose_spec
    · simp only [dif_neg ho] at h
      cases h

/-- The fill-in step: afterwards all pairs of the given indices are stored, the matrix stays valid,
at most zeros have been added, and the mask is still right. -/
theorem C30_symbolic_update [Zero R] {N offset : Nat} (w : List Nat) {S : MaskedL R} {f : Partial R}
    (hw : w.Pairwise (· < ·)) (hN : ∀ k ∈ w, k + offset < N)
    (hM : Valid N S.L) (hf : Represents N S.L f) (hmask : MaskSound N S) :
    Valid N (symbolicUpdate N offset w S).L ∧ MaskSound N (symbolicUpdate N offset w S) ∧
      (∃ g, Represents N (symbolicUpdate N offset w S).L g ∧ OnlyZerosAdded f g) ∧
      ∀ a ∈ w, ∀ b ∈ w, a < b → Occupied (symbolicUpdate N offset w S).L (b + offset) (a + offset) := by
  -- one step
  have step : ∀ (S : MaskedL R) (f : Partial R) (row col : Nat), col < row → row < N →
      Valid N S.L → Represents N S.L f → MaskSound N S →
      Valid N (symStep N S row col).L ∧ MaskSound N (symStep N S row col) ∧
      (∃ g, Represents N (symStep N S row col).L g ∧ OnlyZerosAdded f g) ∧
      Occupied (symStep N S row col).L row col ∧
      ∀ r c, c < N → Occupied S.L r c → Occupied (symStep N S row col).L r c := by
    intro S f row col hrc hrow hM hf hmask
    unfold symStep
    simp only
    by_cases hm : S.mask (maskIndex N row col) = true
    · rw [if_pos hm]
      exact ⟨hM, hmask, ⟨f, hf, fun _ _ => Or.inl rfl⟩, hmask row col hrc hrow hm,
        fun _ _ _ h => h⟩
    · rw [if_neg hm]
      obtain ⟨h1, h2⟩ := C30_edit (fun _ => true) hM hf (.insert row col) (Or.inr ⟨hrc, hrow⟩)
      simp only [Edit.exec] at h1 h2
      unfold Edit.meaning at h2
      rw [if_neg (by simp only [Edit.at]; omega)] at h2
      change Represents N _ (f.set row col (some ((f row col).getD 0))) at h2
      have hkeep : ∀ r c, c < N → Occupied S.L r c → Occupied (insertNonzero N S.L row col) r c := by
        rintro r c hc ⟨v, hv⟩
        have hv' := (hf r c v hc).1 hv
        by_cases h : r = row ∧ c = col
        · obtain ⟨rfl, rfl⟩ := h
          exact ⟨_, (h2 _ _ ((f r c).getD 0) hc).2 (by simp [Partial.set])⟩
        · exact ⟨v, (h2 r c v hc).2 (by simp [Partial.set, h, hv'])⟩
      have hocc : Occupied (insertNonzero N S.L row col) row col :=
        ⟨_, (h2 _ _ ((f row col).getD 0) (by omega)).2 (by simp [Partial.set])⟩
      refine ⟨h1, ?_, ⟨_, h2, ?_⟩, hocc, hkeep⟩
      · intro r c hc hr hmk
        simp only at hmk ⊢
        by_cases hi : maskIndex N r c = maskIndex N row col
        · obtain ⟨rfl, rfl⟩ := C31_injective hc hr hrc hrow hi
          exact hocc
        · rw [if_neg hi] at hmk
          exact hkeep r c (by omega) (hmask r c hc hr hmk)
      · intro r c
        unfold Partial.set
        by_cases h : r = row ∧ c = col
        · rw [if_pos h, h.1, h.2]
          cases hfv : f row col <;> simp
        · rw [if_neg h]
          exact Or.inl rfl
  have trans : ∀ f g h : Partial R, OnlyZerosAdded f g → OnlyZerosAdded g h → OnlyZerosAdded f h := by
    intro f g h h1 h2 r c
    rcases h1 r c with a | a <;> rcases h2 r c with b | b
    · exact Or.inl (b.trans a)
    · exact Or.inr ⟨a ▸ b.1, b.2⟩
    · exact Or.inr ⟨a.1, b.trans a.2⟩
    · rw [a.2] at b
      exact absurd b.1 (by simp)
  -- inner loop
  have inner : ∀ (rows : List Nat) (k : Nat) (S : MaskedL R) (f : Partial R),
      (∀ r ∈ rows, k < r ∧ r + offset < N) →
      Valid N S.L → Represents N S.L f → MaskSound N S →
      Valid N (symInner N offset k S rows).L ∧ MaskSound N (symInner N offset k S rows) ∧
      (∃ g, Represents N (symInner N offset k S rows).L g ∧ OnlyZerosAdded f g) ∧
      (∀ r ∈ rows, Occupied (symInner N offset k S rows).L (r + offset) (k + offset)) ∧
      ∀ r c, c < N → Occupied S.L r c → Occupied (symInner N offset k S rows).L r c := by
    intro rows k
    induction rows with
    | nil =>
      intro S f _ hM hf hmask
      exact ⟨hM, hmask, ⟨f, hf, fun _ _ => Or.inl rfl⟩, by simp, fun _ _ _ h => h⟩
    | cons r rows ih =>
      intro S f hr hM hf hmask
      obtain ⟨hr1, hr2⟩ := hr r (List.mem_cons_self ..)
      obtain ⟨a1, a2, ⟨g, a3, a4⟩, a5, a6⟩ :=
        step S f (r + offset) (k + offset) (by omega) hr2 hM hf hmask
      obtain ⟨b1, b2, ⟨g', b3, b4⟩, b5, b6⟩ :=
        ih (symStep N S (r + offset) (k + offset)) g
          (fun r' h => hr r' (List.mem_cons_of_mem _ h)) a1 a3 a2
      refine ⟨b1, b2, ⟨g', b3, trans _ _ _ a4 b4⟩, ?_, fun r c hc h => b6 r c hc (a6 r c hc h)⟩
      intro r' hr'
      rcases List.mem_cons.1 hr' with rfl | h
      · exact b6 _ _ (by omega) a5
      · exact b5 r' h
  -- outer loop
  have outer : ∀ (w : List Nat) (S : MaskedL R) (f : Partial R),
      w.Pairwise (· < ·) → (∀ k ∈ w, k + offset < N) →
      Valid N S.L → Represents N S.L f → MaskSound N S →
      Valid N (symbolicUpdate N offset w S).L ∧ MaskSound N (symbolicUpdate N offset w S) ∧
      (∃ g, Represents N (symbolicUpdate N offset w S).L g ∧ OnlyZerosAdded f g) ∧
      (∀ a ∈ w, ∀ b ∈ w, a < b →
        Occupied (symbolicUpdate N offset w S).L (b + offset) (a + offset)) ∧
      ∀ r c, c < N → Occupied S.L r c → Occupied (symbolicUpdate N offset w S).L r c := by
    intro w
    induction w with
    | nil =>
      intro S f _ _ hM hf hmask
      exact ⟨hM, hmask, ⟨f, hf, fun _ _ => Or.inl rfl⟩, by simp, fun _ _ _ h => h⟩
    | cons k rest ih =>
      intro S f hw hN hM hf hmask
      obtain ⟨hk, hrest⟩ := List.pairwise_cons.1 hw
      obtain ⟨a1, a2, ⟨g, a3, a4⟩, a5, a6⟩ := inner rest k S f
        (fun r h => ⟨hk r h, hN r (List.mem_cons_of_mem _ h)⟩) hM hf hmask
      obtain ⟨b1, b2, ⟨g', b3, b4⟩, b5, b6⟩ := ih (symInner N offset k S rest) g hrest
        (fun r h => hN r (List.mem_cons_of_mem _ h)) a1 a3 a2
      have hkN := hN k (List.mem_cons_self ..)
      refine ⟨b1, b2, ⟨g', b3, trans _ _ _ a4 b4⟩, ?_, fun r c hc h => b6 r c hc (a6 r c hc h)⟩
      intro a ha b hb hab
      rcases List.mem_cons.1 ha with rfl | ha'
      · rcases List.mem_cons.1 hb with rfl | hb'
        · omega
        · exact b6 _ _ hkN (a5 b hb')
      · rcases List.mem_cons.1 hb with rfl | hb'
        · have := hk a ha'
          omega
        · exact b5 a ha' b hb' hab
  obtain ⟨h1, h2, h3, h4, _⟩ := outer w S f hw hN hM hf hmask
  exact ⟨h1, h2, h3, h4⟩

/-! ### C32 -/

/-- A valid factor fits in the reserved storage. -/
theorem C32_fits {N : Nat} {M : CscL R} (hM : Valid N M) : M.nnz ≤ reserved N := by
  rw [← hM.last]
  exact ptr_le_reserved hM N (Nat.le_refl _)

/-- The reserved storage is one entry per strictly lower triangular position. -/
theorem C32_reserved (N : Nat) : reserved N = N * (N - 1) / 2 := by
  rw [reserved_eq, maskSize, Nat.mul_comm]

/-- Whatever sequence of edits is executed, the number of entries never exceeds the reserved storage
and no cell outside of the reserved storage is written. -/
theorem C32_history [Zero R] (big : R → Bool) {N : Nat} (es : List (Edit R)) {M : CscL R}
    (hM : Valid N M) (he : ∀ e ∈ es, e.OK N) :
    (es.foldl (Edit.exec big N) M).nnz ≤ N * (N - 1) / 2 ∧
      (∀ k, N * (N - 1) / 2 ≤ k → (es.foldl (Edit.exec big N) M).i k = M.i k ∧
        (es.foldl (Edit.exec big N) M).x k = M.x k) ∧
      ∀ j, N < j → (es.foldl (Edit.exec big N) M).p j = M.p j := by
  rw [← C32_reserved]
  induction es generalizing M with
  | nil => exact ⟨C32_fits hM, fun _ _ => ⟨rfl, rfl⟩, fun _ _ => rfl⟩
  | cons e es ih =>
    obtain ⟨f, hf⟩ := C30_represented hM
    obtain ⟨h1, -⟩ := C30_edit big hM hf e (he e (List.mem_cons_self ..))
    obtain ⟨a1, a2, a3⟩ := ih h1 (fun e' h => he e' (List.mem_cons_of_mem _ h))
    have hcap := C32_fits h1
    have hcap0 := C32_fits hM
    have key : (∀ k, reserved N ≤ k → (e.exec big N M).i k = M.i k ∧
        (e.exec big N M).x k = M.x k) ∧ ∀ j, N < j → (e.exec big N M).p j = M.p j := by
      have ins : ∀ row col pos v, (col < N) → M.p col ≤ pos → pos ≤ M.p (col + 1) →
          (insertAt N M row col pos v).nnz ≤ reserved N →
          (∀ k, reserved N ≤ k → (insertAt N M row col pos v).i k = M.i k ∧
            (insertAt N M row col pos v).x k = M.x k) ∧
          ∀ j, N < j → (insertAt N M row col pos v).p j = M.p j := by
        intro row col pos v hcol hp1 hp2 hc
        have hc' : M.nnz + 1 ≤ reserved N := hc
        have hnnz : M.p (col + 1) ≤ M.nnz := by
          rw [← hM.last]; exact Valid.mono_le hM (by omega) (Nat.le_refl _)
        refine ⟨fun k hk => ⟨?_, ?_⟩, fun j hj => ?_⟩
        · rw [insertAt_i N M row col pos v (by omega), if_neg (by omega), if_neg (by omega)]
        · rw [insertAt_x N M row col pos v (by omega), if_neg (by omega), if_neg (by omega)]
        · rw [insertAt_p N M row col pos v hcol, if_neg (by omega)]
      have hOK := he e (List.mem_cons_self ..)
      cases e with
      | insert row col =>
        simp only [Edit.exec, insertNonzero] at hcap ⊢
        by_cases hab : row < col
        · rw [if_pos hab]; exact ⟨fun _ _ => ⟨rfl, rfl⟩, fun _ _ => rfl⟩
        · rw [if_neg hab] at hcap ⊢
          have hcol : col < N := by
            rcases hOK with h | ⟨h, h'⟩ <;> simp only [Edit.at] at * <;> omega
          cases hs : bsearch M.i row (M.p col) (M.p (col + 1)) with
          | inl m => exact ⟨fun _ _ => ⟨rfl, rfl⟩, fun _ _ => rfl⟩
          | inr pos =>
            rw [hs] at hcap
            obtain ⟨p1, p2, _, _⟩ := search_free hM hcol hs
            exact ins row col pos 0 hcol p1 p2 hcap
      | put row col v =>
        simp only [Edit.exec, insertNonzeroAndValue] at hcap ⊢
        by_cases hab : row < col
        · rw [if_pos hab]; exact ⟨fun _ _ => ⟨rfl, rfl⟩, fun _ _ => rfl⟩
        · rw [if_neg hab] at hcap ⊢
          have hcol : col < N := by
            rcases hOK with h | ⟨h, h'⟩ <;> simp only [Edit.at] at * <;> omega
          cases hs : bsearch M.i row (M.p col) (M.p (col + 1)) with
          | inl m =>
            obtain ⟨h1, h2, h3⟩ := bsearch_inl _ _ _ _ _ _ (Nat.le_refl _) hs
            have hnnz : M.p (col + 1) ≤ M.nnz := by
              rw [← hM.last]; exact Valid.mono_le hM (by omega) (Nat.le_refl _)
            refine ⟨fun k hk => ⟨rfl, ?_⟩, fun _ _ => rfl⟩
            simp only [upd]
            rw [if_neg (by omega)]
          | inr pos =>
            rw [hs] at hcap
            obtain ⟨p1, p2, _, _⟩ := search_free hM hcol hs
            exact ins row col pos v hcol p1 p2 hcap
      | remove row col =>
        simp only [Edit.exec, removeNonzero]
        by_cases hab : row < col
        · rw [if_pos hab]; exact ⟨fun _ _ => ⟨rfl, rfl⟩, fun _ _ => rfl⟩
        · rw [if_neg hab]
          have hcol : col < N := by
            rcases hOK with h | ⟨h, h'⟩ <;> simp only [Edit.at] at * <;> omega
          cases hs : findRemovable big M row (M.p col) (M.p (col + 1) - M.p col) with
          | none => exact ⟨fun _ _ => ⟨rfl, rfl⟩, fun _ _ => rfl⟩
          | some q =>
            obtain ⟨q1, q2, q3, q4⟩ := findRemovable_some _ _ _ _ _ _ hs
            have hmono := hM.mono col hcol
            have hnnz : M.p (col + 1) ≤ M.nnz := by
              rw [← hM.last]; exact Valid.mono_le hM (by omega) (Nat.le_refl _)
            refine ⟨fun k hk => ⟨?_, ?_⟩, fun j hj => ?_⟩
            · change (removeAt N M col q).i k = _
              rw [removeAt_i N M col q (by omega), if_neg (by omega)]
            · change (removeAt N M col q).x k = _
              rw [removeAt_x N M col q (by omega), if_neg (by omega)]
            · change (removeAt N M col q).p j = _
              rw [removeAt_p N M col q hcol, if_neg (by omega)]
    refine ⟨a1, fun k hk => ?_, fun j hj => ?_⟩
    · exact ⟨((a2 k hk).1).trans (key.1 k hk).1, ((a2 k hk).2).trans (key.1 k hk).2⟩
    · exact (a3 j hj).trans (key.2 j hj)

/-! ### non-vacuity -/

/-- A `3 × 3` factor with one entry `7` at row `2`, column `0`. -/
def exampleL : CscL Int where
  p := fun j => if j = 0 then 0 else 1
  i := fun _ => 2
  x := fun _ => 7
  nnz := 1

example : Valid 3 exampleL := by
  refine ⟨rfl, ?_, rfl, ?_, ?_⟩
  · intro c hc
    simp only [exampleL]
    split <;> simp
  · intro c hc k h1 h2
    simp only [exampleL] at h1 h2
    split at h1 <;> simp at h2 <;> omega
  · intro c hc k h1 h2
    simp only [exampleL] at h1 h2 ⊢
    split at h1 <;> simp at h2 <;> omega

example : MaskSound 3 ⟨exampleL, fun k => k == 1⟩ := by
  intro r c h1 h2 h
  have : maskIndex ((3 : Nat) : Int) r c = maskIndex ((3 : Nat) : Int) ((2 : Nat) : Int) ((0 : Nat) : Int) := by
    have h' : maskIndex ((3 : Nat) : Int) r c = 1 := by simpa using h
    rw [h']
    decide
  obtain ⟨rfl, rfl⟩ := C31_injective h1 h2 (show 0 < 2 by omega) (show 2 < 3 by omega) this
  exact ⟨7, 0, by decide, by decide, rfl, rfl⟩

example : Edit.OK (R := Int) 3 (.put 1 0 5) ∧ Edit.OK (R := Int) 3 (.remove 2 0) :=
  ⟨Or.inr (by decide), Or.inr (by decide)⟩

end Verif.Props
