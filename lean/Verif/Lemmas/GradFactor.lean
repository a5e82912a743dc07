import Verif.Lemmas.Factor
import Verif.Lemmas.Ldl
import Verif.Lemmas.Pivots
namespace Verif.Lemmas.Factor
open Verif.Model.Factor Verif.Spec.Factor Finset

variable {R : Type} [Field R] [DecidableEq R]

/-! ### entries and slots -/

/-- The same pattern: only values may differ. -/
structure SamePat (L L' : CscL R) : Prop where
  p : L'.p = L.p
  i : L'.i = L.i
  nnz : L'.nnz = L.nnz

theorem SamePat.refl (L : CscL R) : SamePat L L := ⟨rfl, rfl, rfl⟩

theorem SamePat.trans {L L' L'' : CscL R} (h : SamePat L L') (h' : SamePat L' L'') :
    SamePat L L'' := ⟨h'.p.trans h.p, h'.i.trans h.i, h'.nnz.trans h.nnz⟩

theorem SamePat.valid {N : Nat} {L L' : CscL R} (h : SamePat L L') (hV : Valid N L) : Valid N L' := by
  obtain ⟨p, i, x, nnz⟩ := L
  obtain ⟨p', i', x', nnz'⟩ := L'
  obtain ⟨h1, h2, h3⟩ := h
  simp only at h1 h2 h3
  subst h1 h2 h3
  exact ⟨hV.zero, hV.mono, hV.last, hV.sorted, hV.lower⟩

theorem occupied_iff (L : CscL R) (r c : Nat) :
    Occupied L r c ↔ ∃ k, L.p c ≤ k ∧ k < L.p (c + 1) ∧ L.i k = r := by
  constructor
  · rintro ⟨v, k, h1, h2, h3, _⟩
    exact ⟨k, h1, h2, h3⟩
  · rintro ⟨k, h1, h2, h3⟩
    exact ⟨_, k, h1, h2, h3, rfl⟩

theorem SamePat.occ {L L' : CscL R} (h : SamePat L L') (r c : Nat) :
    Occupied L' r c ↔ Occupied L r c := by
  rw [occupied_iff, occupied_iff, h.p, h.i]

theorem samePat_x (L : CscL R) (x : Nat → R) : SamePat L { L with x := x } := ⟨rfl, rfl, rfl⟩

theorem ent_slot {N : Nat} {L : CscL R} (hV : Valid N L) {c k : Nat} (hc : c < N)
    (h1 : L.p c ≤ k) (h2 : k < L.p (c + 1)) : ent L (L.i k) c = L.x k := by
  unfold ent
  rw [sum_eq_single k, if_pos rfl]
  · intro k' hk' hne
    have := mem_Ico.1 hk'
    rw [if_neg]
    intro he
    rcases Nat.lt_or_gt_of_ne hne with h | h
    · have := Valid.sorted_lt hV hc this.1 h h2; omega
    · have := Valid.sorted_lt hV hc h1 h this.2; omega
  · intro h
    exact absurd (mem_Ico.2 ⟨h1, h2⟩) h

theorem ent_free {L : CscL R} {r c : Nat} (h : ¬ Occupied L r c) : ent L r c = 0 := by
  unfold ent
  apply sum_eq_zero
  intro k hk
  have := mem_Ico.1 hk
  rw [if_neg]
  intro he
  exact h ((occupied_iff L r c).2 ⟨k, this.1, this.2, he⟩)

theorem occ_lower {N : Nat} {L : CscL R} (hV : Valid N L) {r c : Nat} (hc : c < N)
    (h : Occupied L r c) : c < r ∧ r < N := by
  obtain ⟨k, h1, h2, h3⟩ := (occupied_iff L r c).1 h
  rw [← h3]
  exact hV.lower c hc k h1 h2

theorem ent_upper {N : Nat} {L : CscL R} (hV : Valid N L) {r c : Nat} (hc : c < N)
    (h : r ≤ c) : ent L r c = 0 :=
  ent_free (fun ho => by have := occ_lower hV hc ho; omega)

theorem slot_col {N : Nat} {L : CscL R} (hV : Valid N L) {c c' k : Nat} (hc : c < N) (hc' : c' < N)
    (h1 : L.p c ≤ k) (h2 : k < L.p (c + 1)) (h1' : L.p c' ≤ k) (h2' : k < L.p (c' + 1)) : c = c' := by
  rcases Nat.lt_trichotomy c c' with h | h | h
  · have := Valid.mono_le hV (show c + 1 ≤ c' by omega) (by omega); omega
  · exact h
  · have := Valid.mono_le hV (show c' + 1 ≤ c by omega) (by omega); omega

/-- If the values on the slots of a column are known as a function of the row, so are the entries. -/
theorem ent_of_slots {N : Nat} {L L' : CscL R} (hV : Valid N L) (hS : SamePat L L') {c : Nat}
    (hc : c < N) (G : Nat → R) (hG : ∀ k, L.p c ≤ k → k < L.p (c + 1) → L'.x k = G (L.i k)) (r : Nat) :
    (Occupied L r c → ent L' r c = G r) ∧ (¬ Occupied L r c → ent L' r c = 0) := by
  constructor
  · intro ho
    obtain ⟨k, h1, h2, h3⟩ := (occupied_iff L r c).1 ho
    have := ent_slot (hS.valid hV) hc (k := k) (by rw [hS.p]; exact h1) (by rw [hS.p]; exact h2)
    rw [hS.i, h3] at this
    rw [this, hG k h1 h2, h3]
  · intro ho
    exact ent_free (fun h => ho ((hS.occ r c).1 h))

theorem ent_congr {L L' : CscL R} (hS : SamePat L L') {c : Nat}
    (hG : ∀ k, L.p c ≤ k → k < L.p (c + 1) → L'.x k = L.x k) (r : Nat) : ent L' r c = ent L r c := by
  unfold ent
  rw [hS.p, hS.i]
  apply sum_congr rfl
  intro k hk
  have := mem_Ico.1 hk
  rw [hG k this.1 this.2]

theorem unitOf_lower {N : Nat} {L : CscL R} (hV : Valid N L) : UnitLower N (unitOf L) := by
  constructor
  · intro r _
    unfold unitOf
    rw [if_pos rfl]
  · intro r _ c hc h
    unfold unitOf
    rw [if_neg (by omega)]
    exact ent_upper hV hc (by omega)

/-! ### the loops over one column -/

/-- The inner loop of the rank-1 update. -/
theorem rank1Entry_fold {N : Nat} {L : CscL R} (hV : Valid N L) {j : Nat} (hj : j < N) (s : R)
    (w x : Nat → R) :
    (∀ r, ((loop (L.p j) (L.p (j + 1))).foldl (rank1Entry L.i j s) (w, x)).1 r =
      w r - w j * ent { L with x := x } r j) ∧
    ∀ k, ((loop (L.p j) (L.p (j + 1))).foldl (rank1Entry L.i j s) (w, x)).2 k =
      if L.p j ≤ k ∧ k < L.p (j + 1) then x k + s * (w (L.i k) - w j * x k) else x k := by
  have key := loop_inv (rank1Entry L.i j s) (fun m (wx : (Nat → R) × (Nat → R)) =>
      (∀ r, wx.1 r = w r - w j * ∑ k ∈ Ico (L.p j) m, if L.i k = r then x k else 0) ∧
      ∀ k, wx.2 k = if L.p j ≤ k ∧ k < m then x k + s * (w (L.i k) - w j * x k) else x k)
    (a := L.p j) (b := L.p (j + 1)) (hV.mono j hj) (w, x) ?_ ?_
  · exact key
  · refine ⟨fun r => ?_, fun k => ?_⟩
    · simp
    · rw [if_neg (by omega)]
  · rintro m ⟨w', x'⟩ hm1 hm2 ⟨h1, h2⟩
    simp only at h1 h2
    have hlow := (hV.lower j hj m hm1 hm2).1
    unfold rank1Entry
    simp only [if_pos hlow]
    have hzero : ∀ r, (r ≤ j ∨ r = L.i m) → ∑ k ∈ Ico (L.p j) m, (if L.i k = r then x k else 0) = 0 := by
      intro r hr
      apply sum_eq_zero
      intro k hk
      have hk' := mem_Ico.1 hk
      have a1 := (hV.lower j hj k hk'.1 (by omega)).1
      have a2 := Valid.sorted_lt hV hj hk'.1 hk'.2 hm2
      rw [if_neg (by omega)]
    have hwj : w' j = w j := by rw [h1 j, hzero j (Or.inl (Nat.le_refl _))]; ring
    have hwi : w' (L.i m) = w (L.i m) := by rw [h1 _, hzero _ (Or.inr rfl)]; ring
    have hxm : x' m = x m := by rw [h2 m, if_neg (by omega)]
    constructor
    · intro r
      rw [sum_Ico_succ_top hm1, mul_add]
      unfold upd
      by_cases hr : r = L.i m
      · rw [if_pos hr, hwi, hwj, hxm, hr, hzero _ (Or.inr rfl), if_pos rfl]; ring
      · rw [if_neg hr, h1 r, if_neg (fun h => hr h.symm)]; ring
    · intro k
      unfold upd
      by_cases hk : k = m
      · rw [if_pos hk, if_pos rfl, if_pos (show L.p j ≤ k ∧ k < m + 1 by omega), hwi, hwj, hxm, hk]
      · rw [if_neg hk, h2 k]
        by_cases hk2 : L.p j ≤ k ∧ k < m
        · rw [if_pos hk2, if_pos (by omega)]
        · rw [if_neg hk2, if_neg (by omega)]

/-! ### the rank-1 update -/

variable [LinearOrder R] [IsStrictOrderedRing R]

/-- The loop invariant of the rank-1 update, for the target matrix `M`. -/
structure R1Inv (N : Nat) (L : CscL R) (M : Nat → Nat → R) (sigma : R) (j : Nat) (s : R1 R) : Prop where
  a : s.a ≠ 0
  D : ∀ t < N, s.D t ≠ 0
  Dinv : ∀ t < N, s.Dinv t = 1 / s.D t
  fac : ∀ r < N, ∀ c < N, M r c = ∑ t ∈ range N, unitOf { L with x := s.x } r t * s.D t *
    unitOf { L with x := s.x } c t +
      sigma / s.a * ((if j ≤ r then s.w r else 0) * (if j ≤ c then s.w c else 0))
  pat : ∀ t r, j ≤ t → t < r → r < N → s.w t ≠ 0 → s.w r ≠ 0 → Occupied L r t

theorem rank1Step_inv {n N : Nat} {L : CscL R} (hV : Valid N L)
    (hcl : ∀ j r s, j < N → r < s → Occupied L r j → Occupied L s j → Occupied L s r)
    {M : Nat → Nat → R} (hQ : QD n N M) (sigma : R) {j : Nat} (hnj : n ≤ j) (hj : j < N) (s : R1 R)
    (h : R1Inv N L M sigma j s) : R1Inv N L M sigma (j + 1) (rank1Step L sigma s j) := by
  -- names for what the step computes
  obtain ⟨f1, f2⟩ := rank1Entry_fold hV hj
    (sigma * (s.w j / (s.D j * (s.a + sigma * s.w j * s.w j / s.D j)))) s.w s.x
  have hVx : Valid N { L with x := s.x } := (samePat_x L s.x).valid hV
  have hU := unitOf_lower hVx
  -- the new pivot is negative
  have hpiv : s.D j + sigma / s.a * (s.w j * s.w j) < 0 := by
    have := pivot_neg hQ (unitOf { L with x := s.x }) s.D
      (fun r c => if r < j ∨ c < j then 0 else s.D j + sigma / s.a * (s.w j * s.w j)) j hnj hj
      (fun r hr => hU.1 r (by omega)) (fun r c h1 h2 => hU.2 r (by omega) c (by omega) h1) ?_ ?_
    · rwa [if_neg (by omega)] at this
    · intro r hr c hc
      rw [h.fac r (by omega) c (by omega), ldl_trunc hU (by omega) (by omega) (m := j + 1) (by omega)
        (Or.inl (by omega)), sum_range_succ, add_assoc]
      congr 1
      by_cases hlt : r < j ∨ c < j
      · rw [if_pos hlt]
        rcases hlt with h' | h'
        · rw [hU.2 r (by omega) j hj h', if_neg (show ¬ j ≤ r by omega)]; ring
        · rw [hU.2 c (by omega) j hj h', if_neg (show ¬ j ≤ c by omega)]; ring
      · obtain rfl : r = j := by omega
        obtain rfl : c = r := by omega
        rw [if_neg hlt, if_pos (Nat.le_refl _), hU.1 c hj]; ring
    · intro r c h'
      rw [if_pos h']
  have hDj := h.D j hj
  have ha := h.a
  have hab : s.a + sigma * s.w j * s.w j / s.D j ≠ 0 := by
    intro h0
    have : s.D j + sigma / s.a * (s.w j * s.w j) = s.D j * (s.a + sigma * s.w j * s.w j / s.D j) / s.a
      := by field_simp
    rw [this, h0] at hpiv
    simp at hpiv
  -- the new values
  have hDnew : ∀ t, (rank1Step L sigma s j).D t =
      if t = j then s.D j * ((s.a + sigma * s.w j * s.w j / s.D j) / s.a) else s.D t := by
    intro t; rfl
  have hwnew : ∀ r, (rank1Step L sigma s j).w r = s.w r - s.w j * ent { L with x := s.x } r j := f1
  have hanew : (rank1Step L sigma s j).a = s.a + sigma * s.w j * s.w j / s.D j := rfl
  -- the new factor
  have hother : ∀ r c, c < N → c ≠ j →
      ent { L with x := (rank1Step L sigma s j).x } r c = ent { L with x := s.x } r c := by
    intro r c hc hne
    refine ent_congr (L := { L with x := s.x })
      (L' := { L with x := (rank1Step L sigma s j).x }) ⟨rfl, rfl, rfl⟩ ?_ r
    intro k h1 h2
    refine (f2 k).trans ?_
    rw [if_neg]
    rintro ⟨h3, h4⟩
    exact hne (slot_col hV hc hj h1 h2 h3 h4)
  have hcolj : ∀ r < N, ent { L with x := (rank1Step L sigma s j).x } r j =
      ent { L with x := s.x } r j +
        if j < r then sigma * (s.w j / (s.D j * (s.a + sigma * s.w j * s.w j / s.D j))) *
          (rank1Step L sigma s j).w r else 0 := by
    intro r hr
    have hs := ent_of_slots hVx (L' := { L with x := (rank1Step L sigma s j).x }) ⟨rfl, rfl, rfl⟩ hj
      (fun r => ent { L with x := s.x } r j +
        sigma * (s.w j / (s.D j * (s.a + sigma * s.w j * s.w j / s.D j))) *
          (s.w r - s.w j * ent { L with x := s.x } r j)) (by
        intro k h1 h2
        refine (f2 k).trans ?_
        rw [if_pos ⟨h1, h2⟩]
        have := ent_slot hVx hj (k := k) h1 h2
        simp only at this ⊢
        rw [this]) r
    by_cases ho : Occupied { L with x := s.x } r j
    · have hlow := occ_lower hVx hj ho
      rw [hs.1 ho, if_pos hlow.1, hwnew]
    · rw [hs.2 ho, ent_free ho, zero_add]
      by_cases hlt : j < r
      · rw [if_pos hlt, hwnew, ent_free ho, mul_zero, sub_zero]
        by_cases hwj : s.w j = 0
        · rw [hwj]; simp
        · by_cases hwr : s.w r = 0
          · rw [hwr]; simp
          · exact absurd (h.pat j r (Nat.le_refl _) hlt hr hwj hwr)
              (fun h' => ho (((samePat_x L s.x).occ r j).2 h'))
      · rw [if_neg hlt]
  constructor
  · rw [hanew]; exact hab
  · intro t ht
    rw [hDnew]
    split
    · exact mul_ne_zero hDj (div_ne_zero hab ha)
    · exact h.D t ht
  · intro t ht
    by_cases htj : t = j
    · subst htj
      simp [rank1Step, upd]
    · have : (rank1Step L sigma s j).Dinv t = s.Dinv t := by simp [rank1Step, upd, htj]
      rw [this, hDnew, if_neg htj]
      exact h.Dinv t ht
  · intro r hr c hc
    rw [h.fac r hr c hc]
    -- only the term of column `j` differs
    have hdiff : ∀ r c, r < N → c < N →
        ∑ t ∈ range N, unitOf { L with x := (rank1Step L sigma s j).x } r t *
          (rank1Step L sigma s j).D t * unitOf { L with x := (rank1Step L sigma s j).x } c t =
        ∑ t ∈ range N, unitOf { L with x := s.x } r t * s.D t * unitOf { L with x := s.x } c t +
        (unitOf { L with x := (rank1Step L sigma s j).x } r j *
          (rank1Step L sigma s j).D j * unitOf { L with x := (rank1Step L sigma s j).x } c j -
          unitOf { L with x := s.x } r j * s.D j * unitOf { L with x := s.x } c j) := by
      intro r c hr hc
      rw [← sum_erase_add (range N) _ (mem_range.2 hj),
        ← sum_erase_add (range N) (fun t => unitOf { L with x := s.x } r t * s.D t *
          unitOf { L with x := s.x } c t) (mem_range.2 hj)]
      have : ∑ t ∈ (range N).erase j, unitOf { L with x := (rank1Step L sigma s j).x } r t *
          (rank1Step L sigma s j).D t * unitOf { L with x := (rank1Step L sigma s j).x } c t =
          ∑ t ∈ (range N).erase j, unitOf { L with x := s.x } r t * s.D t *
            unitOf { L with x := s.x } c t := by
        apply sum_congr rfl
        intro t ht
        have ht1 := ne_of_mem_erase ht
        have ht2 := mem_range.1 (mem_of_mem_erase ht)
        rw [hDnew, if_neg ht1]
        unfold unitOf
        rw [hother r t ht2 ht1, hother c t ht2 ht1]
      rw [this]; ring
    rw [hdiff r c hr hc, hanew]
    -- values in column `j`
    have hcol : ∀ r < N, j ≤ r → unitOf { L with x := (rank1Step L sigma s j).x } r j =
        unitOf { L with x := s.x } r j +
          sigma * (s.w j / (s.D j * (s.a + sigma * s.w j * s.w j / s.D j))) *
          (s.w r - s.w j * unitOf { L with x := s.x } r j) := by
      intro r hr hjr
      unfold unitOf
      by_cases h0 : r = j
      · rw [if_pos h0, h0]; simp
      · rw [if_neg h0, if_neg h0, hcolj r hr, if_pos (by omega), hwnew]
    have hcol0 : ∀ r < N, r < j → unitOf { L with x := (rank1Step L sigma s j).x } r j = 0 ∧
        unitOf { L with x := s.x } r j = 0 := by
      intro r hr hrj
      exact ⟨(unitOf_lower ((samePat_x L _).valid hV)).2 r hr j hj hrj, hU.2 r hr j hj hrj⟩
    have hw : ∀ r < N, j ≤ r → (if j + 1 ≤ r then (rank1Step L sigma s j).w r else 0) =
        s.w r - s.w j * unitOf { L with x := s.x } r j := by
      intro r hr hjr
      by_cases h0 : r = j
      · rw [if_neg (by omega), h0, hU.1 j hj]; ring
      · rw [if_pos (by omega), hwnew]
        unfold unitOf
        rw [if_neg h0]
    by_cases hrj : r < j
    · rw [(hcol0 r hr hrj).1, (hcol0 r hr hrj).2, if_neg (show ¬ j ≤ r by omega),
        if_neg (show ¬ j + 1 ≤ r by omega)]
      ring
    · by_cases hcj : c < j
      · rw [(hcol0 c hc hcj).1, (hcol0 c hc hcj).2, if_neg (show ¬ j ≤ c by omega),
          if_neg (show ¬ j + 1 ≤ c by omega)]
        ring
      · rw [hw r hr (by omega), hw c hc (by omega), hcol r hr (by omega), hcol c hc (by omega), hDnew,
          if_pos rfl, if_pos (show j ≤ r by omega), if_pos (show j ≤ c by omega)]
        have := rank1_algebra s.a (s.a + sigma * s.w j * s.w j / s.D j) (s.D j) (s.w j) sigma
          (unitOf { L with x := s.x } r j) (unitOf { L with x := s.x } c j) (s.w r) (s.w c)
          ha hab hDj rfl
        linear_combination this
  · intro t r ht htr hr hwt hwr
    rw [hwnew] at hwt hwr
    have occ_of : ∀ r, s.w r - s.w j * ent { L with x := s.x } r j ≠ 0 → s.w r = 0 →
        Occupied L r j ∧ s.w j ≠ 0 := by
      intro r h1 h2
      rw [h2, zero_sub] at h1
      have h3 : s.w j ≠ 0 := fun h => h1 (by rw [h]; ring)
      refine ⟨?_, h3⟩
      by_contra ho
      apply h1
      rw [ent_free (fun h' => ho (((samePat_x L s.x).occ r j).1 h'))]
      ring
    by_cases h1 : s.w t = 0
    · obtain ⟨o1, o2⟩ := occ_of t hwt h1
      by_cases h2 : s.w r = 0
      · exact hcl j t r hj htr o1 (occ_of r hwr h2).1
      · exact hcl j t r hj htr o1 (h.pat j r (Nat.le_refl _) (by omega) hr o2 h2)
    · by_cases h2 : s.w r = 0
      · obtain ⟨o1, o2⟩ := occ_of r hwr h2
        exact hcl j t r hj htr (h.pat j t (Nat.le_refl _) (by omega) (by omega) o2 h1) o1
      · exact h.pat t r (by omega) htr hr h1 h2

/-- The factorization carried by a workspace. -/
structure Good (N : Nat) (K : CscL R) (M : Nat → Nat → R) (W : Ws R) : Prop where
  pat : Pattern N W.S.L K
  fac : IsLDL N (unitOf W.S.L) W.D M
  D : ∀ t < N, W.D t ≠ 0
  Dinv : ∀ t < N, W.Dinv t = 1 / W.D t

omit [LinearOrder R] [IsStrictOrderedRing R] in
theorem Pattern.samePat {N : Nat} {L L' K : CscL R} (h : Pattern N L K) (hS : SamePat L L') :
    Pattern N L' K := by
  refine ⟨hS.valid h.valid, fun r c h1 h2 h3 => (hS.occ c r).2 (h.covers r c h1 h2 h3), ?_⟩
  intro j r s hj hrs h1 h2
  exact (hS.occ s r).2 (h.closed j r s hj hrs ((hS.occ r j).1 h1) ((hS.occ s j).1 h2))

/-- The rank-1 update is exact. -/
theorem rank1_good {n N : Nat} {K : CscL R} {M : Nat → Nat → R} (hQ : QD n N M) (sigma : R)
    {offset : Nat} (hno : n ≤ offset) (hoN : offset ≤ N) (W : Ws R) (hpat : Pattern N W.S.L K)
    (hD : ∀ t < N, W.D t ≠ 0) (hDinv : ∀ t < N, W.Dinv t = 1 / W.D t)
    (hfac : ∀ r < N, ∀ c < N, M r c = ∑ t ∈ range N, unitOf W.S.L r t * W.D t * unitOf W.S.L c t +
      sigma * ((if offset ≤ r then W.w r else 0) * (if offset ≤ c then W.w c else 0)))
    (hw : ∀ t r, offset ≤ t → t < r → r < N → W.w t ≠ 0 → W.w r ≠ 0 → Occupied W.S.L r t) :
    Good N K M (rank1 N sigma offset W) := by
  have key := loop_inv (rank1Step W.S.L sigma) (R1Inv N W.S.L M sigma) hoN
    { a := 1, w := W.w, x := W.S.L.x, D := W.D, Dinv := W.Dinv }
    ⟨one_ne_zero, hD, hDinv, by simpa using hfac, hw⟩
    (fun j s h1 h2 h => rank1Step_inv hpat.valid hpat.closed hQ sigma (by omega) h2 s h)
  refine ⟨Pattern.samePat hpat ⟨rfl, rfl, rfl⟩, ?_, key.D, key.Dinv⟩
  intro r hr c hc
  have := key.fac r hr c hc
  rw [if_neg (by omega), zero_mul, mul_zero, add_zero] at this
  exact this.symm

end Verif.Lemmas.Factor
