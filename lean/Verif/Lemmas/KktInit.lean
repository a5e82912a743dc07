import Verif.Lemmas.Kkt
namespace Verif.Lemmas.Grad
open Verif.Model.Factor Verif.Model.Grad Verif.Spec.Factor Verif.Spec.Grad Verif.Lemmas.Factor Finset

variable {R : Type} [Field R] [DecidableEq R]

theorem flat_succ (lines : Nat → List (Nat × R)) (c : Nat) :
    (loop 0 (c + 1)).flatMap lines = (loop 0 c).flatMap lines ++ lines c := by
  rw [loop_succ (Nat.zero_le _), List.flatMap_append]
  simp

theorem flat_split (lines : Nat → List (Nat × R)) {c N : Nat} (h : c < N) :
    ∃ rest, (loop 0 N).flatMap lines = (loop 0 c).flatMap lines ++ (lines c ++ rest) := by
  obtain ⟨d, rfl⟩ : ∃ d, N = c + 1 + d := ⟨N - (c + 1), by omega⟩
  clear h
  induction d with
  | zero => exact ⟨[], by rw [Nat.add_zero, flat_succ, List.append_nil]⟩
  | succ d ih =>
    obtain ⟨rest, hr⟩ := ih
    refine ⟨rest ++ lines (c + 1 + d), ?_⟩
    rw [← Nat.add_assoc, flat_succ, hr]
    simp

theorem compress_p {N : Nat} (lines : Nat → List (Nat × R)) {c : Nat} (hc : c < N) :
    (compress N lines).p (c + 1) = (compress N lines).p c + (lines c).length := by
  unfold compress
  simp only
  rw [if_pos (show c + 1 ≤ N by omega), if_pos (show c ≤ N by omega), flat_succ, List.length_append]

theorem compress_slot {N : Nat} (lines : Nat → List (Nat × R)) {c : Nat} (hc : c < N) (q : Nat)
    (hq : q < (lines c).length) :
    (compress N lines).i ((compress N lines).p c + q) = (lines c)[q].1 ∧
    (compress N lines).x ((compress N lines).p c + q) = (lines c)[q].2 := by
  obtain ⟨rest, hr⟩ := flat_split lines hc
  unfold compress
  simp only
  rw [if_pos (show c ≤ N by omega)]
  have : ((loop 0 N).flatMap lines).getD (((loop 0 c).flatMap lines).length + q) (0, 0) = (lines c)[q] := by
    rw [hr, List.getD_eq_getElem?_getD, List.getElem?_append_right (by omega),
      List.getElem?_append_left (by omega), show ((loop 0 c).flatMap lines).length + q -
        ((loop 0 c).flatMap lines).length = q by omega, List.getElem?_eq_getElem hq]
    rfl
  rw [this]
  exact ⟨rfl, rfl⟩

theorem compress_occ {N : Nat} (lines : Nat → List (Nat × R)) {c : Nat} (hc : c < N) (r : Nat) :
    Occupied (compress N lines) r c ↔ ∃ v, (r, v) ∈ lines c := by
  rw [occupied_iff]
  constructor
  · rintro ⟨k, h1, h2, h3⟩
    rw [compress_p _ hc] at h2
    obtain ⟨q, rfl⟩ : ∃ q, k = (compress N lines).p c + q := ⟨k - (compress N lines).p c, by omega⟩
    have hq : q < (lines c).length := by omega
    refine ⟨(lines c)[q].2, ?_⟩
    rw [← h3, (compress_slot lines hc q hq).1]
    exact List.getElem_mem _
  · rintro ⟨v, hv⟩
    obtain ⟨q, hq, he⟩ := List.mem_iff_getElem.1 hv
    refine ⟨(compress N lines).p c + q, by omega, by rw [compress_p _ hc]; omega, ?_⟩
    rw [(compress_slot lines hc q hq).1, he]

theorem compress_valid {N : Nat} (lines : Nat → List (Nat × R))
    (h : ∀ c < N, ((lines c).map (fun e => e.1)).Nodup) : ColValid N (compress N lines) := by
  constructor
  · intro c hc
    rw [compress_p _ hc]; omega
  · intro c hc k k' h1 h2 h3 he
    rw [compress_p _ hc] at h3
    obtain ⟨q, rfl⟩ : ∃ q, k = (compress N lines).p c + q := ⟨k - (compress N lines).p c, by omega⟩
    obtain ⟨q', rfl⟩ : ∃ q, k' = (compress N lines).p c + q := ⟨k' - (compress N lines).p c, by omega⟩
    have hq : q < (lines c).length := by omega
    have hq' : q' < (lines c).length := by omega
    rw [(compress_slot lines hc q hq).1, (compress_slot lines hc q' hq').1] at he
    have := (List.Nodup.getElem_inj_iff (h c hc) (i := q) (j := q') (hi := by simpa using hq)
      (hj := by simpa using hq')).1 (by simpa using he)
    omega

/-- The value at a position that is stored once. -/
theorem compress_ent {N : Nat} (lines : Nat → List (Nat × R))
    (h : ∀ c < N, ((lines c).map (fun e => e.1)).Nodup) {c r : Nat} (hc : c < N) {v : R}
    (hv : (r, v) ∈ lines c) : ent (compress N lines) r c = v := by
  obtain ⟨q, hq, he⟩ := List.mem_iff_getElem.1 hv
  have hs := compress_slot lines hc q hq
  have := ColValid.ent (compress_valid lines h) hc (k := (compress N lines).p c + q) (by omega)
    (by rw [compress_p _ hc]; omega)
  rw [hs.1, hs.2, he] at this
  exact this

theorem mem_colList {M : CscL R} {c : Nat} {e : Nat × R} :
    e ∈ colList M c ↔ ∃ k, M.p c ≤ k ∧ k < M.p (c + 1) ∧ M.i k = e.1 ∧ M.x k = e.2 := by
  unfold colList
  rw [List.mem_map]
  constructor
  · rintro ⟨k, hk, rfl⟩
    have := mem_loop.1 hk
    exact ⟨k, this.1, this.2, rfl, rfl⟩
  · rintro ⟨k, h1, h2, h3, h4⟩
    exact ⟨k, mem_loop.2 ⟨h1, h2⟩, by rw [h3, h4]⟩

theorem colList_nodup {n : Nat} {M : CscL R} (h : ColValid n M) {c : Nat} (hc : c < n) :
    ((colList M c).map (fun e => e.1)).Nodup := by
  unfold colList
  rw [List.map_map, List.Nodup, List.pairwise_map]
  refine List.Pairwise.imp_of_mem ?_ (loop_pairwise _ _)
  intro k k' hk hk' hlt
  have e1 := mem_loop.1 hk
  have e2 := mem_loop.1 hk'
  exact h.inj c hc k k' e1.1 hlt e2.2

theorem mem_rowList {n : Nat} {M : CscL R} {r : Nat} {e : Nat × R} :
    e ∈ rowList n M r ↔ e.1 < n ∧ (r, e.2) ∈ colList M e.1 := by
  unfold rowList
  rw [List.mem_flatMap]
  constructor
  · rintro ⟨c, hc, h⟩
    obtain ⟨f, hf, rfl⟩ := List.mem_map.1 h
    obtain ⟨h1, h2⟩ := List.mem_filter.1 hf
    have := mem_loop.1 hc
    refine ⟨by simp only; omega, ?_⟩
    have h2 : f.1 = r := by simpa using h2
    rw [← h2]
    exact h1
  · rintro ⟨h1, h2⟩
    refine ⟨e.1, mem_loop.2 ⟨Nat.zero_le _, h1⟩, List.mem_map.2 ⟨(r, e.2), ?_, rfl⟩⟩
    exact List.mem_filter.2 ⟨h2, by simp⟩

theorem rowList_sorted {n : Nat} {M : CscL R} (h : ColValid n M) (r : Nat) :
    (rowList n M r).Pairwise (fun e e' => e.1 < e'.1) := by
  unfold rowList
  rw [List.pairwise_flatMap]
  constructor
  · intro c hc
    have hc' := (mem_loop.1 hc).2
    rw [List.pairwise_map]
    have hn := colList_nodup h hc'
    rw [List.Nodup, List.pairwise_map] at hn
    refine List.Pairwise.imp_of_mem ?_ (hn.filter _)
    intro e e' he he' hne
    have a1 : e.1 = r := by simpa using (List.mem_filter.1 he).2
    have a2 : e'.1 = r := by simpa using (List.mem_filter.1 he').2
    exact absurd (a1.trans a2.symm) hne
  · refine List.Pairwise.imp ?_ (loop_pairwise _ _)
    intro c c' hlt e he e' he'
    obtain ⟨_, _, rfl⟩ := List.mem_map.1 he
    obtain ⟨_, _, rfl⟩ := List.mem_map.1 he'
    exact hlt

theorem nodup_of_sorted {l : List (Nat × R)} (h : l.Pairwise (fun e e' => e.1 < e'.1)) :
    (l.map (fun e => e.1)).Nodup := by
  rw [List.Nodup, List.pairwise_map]
  exact h.imp (fun h => Nat.ne_of_lt h)

theorem mem_colList_ent {n : Nat} {M : CscL R} (h : ColValid n M) {c r : Nat} (hc : c < n) {v : R}
    (hv : (r, v) ∈ colList M c) : ent M r c = v := by
  obtain ⟨k, h1, h2, h3, h4⟩ := mem_colList.1 hv
  rw [← show M.i k = r from h3, ← show M.x k = v from h4]
  exact ColValid.ent h hc h1 h2

theorem colList_occ {M : CscL R} {c r : Nat} : Occupied M r c ↔ ∃ v, (r, v) ∈ colList M c := by
  rw [occupied_iff]
  constructor
  · rintro ⟨k, h1, h2, h3⟩
    exact ⟨M.x k, mem_colList.2 ⟨k, h1, h2, h3, rfl⟩⟩
  · rintro ⟨v, hv⟩
    obtain ⟨k, h1, h2, h3, _⟩ := mem_colList.1 hv
    exact ⟨k, h1, h2, h3⟩

theorem cell_ent (M : CscL R) (r c : Nat) : cell M r c = ent M r c := by
  unfold cell colList ent
  rw [List.filter_map, List.map_map]
  have : ∀ l : List Nat, ((l.filter ((fun e : Nat × R => decide (e.1 = r)) ∘ fun k => (M.i k, M.x k))).map
      ((fun e : Nat × R => e.2) ∘ fun k => (M.i k, M.x k))).sum =
      (l.map (fun k => if M.i k = r then M.x k else 0)).sum := by
    intro l
    induction l with
    | nil => rfl
    | cons k l ih =>
      by_cases h : M.i k = r
      · rw [List.filter_cons_of_pos (by simpa using h)]
        simp only [List.map_cons, List.sum_cons, ih, if_pos h]
        rfl
      · rw [List.filter_cons_of_neg (by simpa using h)]
        simp only [List.map_cons, List.sum_cons, ih, if_neg h, zero_add]
  rw [this]
  generalize M.p c = a
  generalize M.p (c + 1) = b
  by_cases hab : a ≤ b
  · induction b with
    | zero => obtain rfl : a = 0 := by omega
              simp [loop]
    | succ b ih =>
      rcases Nat.lt_or_ge b a with h | h
      · obtain rfl : a = b + 1 := by omega
        simp [loop]
      · rw [loop_succ h, List.map_append, List.sum_append, ih h, sum_Ico_succ_top h]
        simp
  · rw [loop_nil (by omega), Ico_eq_empty (by omega)]
    rfl

theorem mem_plusDiag {eps : R} {n : Nat} {P : CscL R} {c : Nat} {e : Nat × R} :
    e ∈ plusDiag eps n P c ↔ e.1 < n ∧ e.2 ≠ 0 ∧ e.2 = ent P e.1 c + (if e.1 = c then eps else 0) := by
  unfold plusDiag
  rw [List.mem_filterMap]
  simp only [cell_ent]
  constructor
  · rintro ⟨r, hr, h⟩
    by_cases hv : ent P r c + (if r = c then eps else 0) = 0
    · rw [if_pos hv] at h
      cases h
    · rw [if_neg hv] at h
      obtain rfl := Option.some.inj h
      have := mem_loop.1 hr
      exact ⟨by simp only; omega, hv, rfl⟩
  · rintro ⟨h1, h2, h3⟩
    refine ⟨e.1, mem_loop.2 ⟨Nat.zero_le _, h1⟩, ?_⟩
    rw [← h3, if_neg h2]

theorem plusDiag_sorted (eps : R) (n : Nat) (P : CscL R) (c : Nat) :
    (plusDiag eps n P c).Pairwise (fun e e' => e.1 < e'.1) := by
  unfold plusDiag
  rw [List.pairwise_filterMap]
  refine List.Pairwise.imp ?_ (loop_pairwise _ _)
  intro r r' hlt e he e' he'
  have key : ∀ (q : Nat) (v : R) (f : Nat × R), (if v = 0 then none else some (q, v)) = some f → f.1 = q := by
    intro q v f h
    by_cases hv : v = 0
    · rw [if_pos hv] at h
      cases h
    · rw [if_neg hv] at h
      obtain rfl := Option.some.inj h
      rfl
  rw [key _ _ _ he, key _ _ _ he']
  exact hlt

theorem kLines_nodup (eps : R) {n N : Nat} {P A : CscL R} (h : QpData n N P A) (c : Nat) :
    ((if c < n then plusDiag eps n P c else rowList n A (c - n) ++ [(c, -eps)]).map
      (fun e => e.1)).Nodup := by
  by_cases hc : c < n
  · rw [if_pos hc]
    exact nodup_of_sorted (plusDiag_sorted eps n P c)
  · rw [if_neg hc]
    apply nodup_of_sorted
    rw [List.pairwise_append]
    refine ⟨rowList_sorted h.vA _, List.pairwise_singleton _ _, ?_⟩
    intro e he e' he'
    rw [List.mem_singleton] at he'
    subst he'
    have := (mem_rowList.1 he).1
    simp only
    omega

theorem ktLines_nodup {n N : Nat} {P A : CscL R} (h : QpData n N P A) (r : Nat) :
    ((if r < n then rowList n P r ++ (colList A r).map (fun e => (n + e.1, e.2))
      else rowList n A (r - n)).map (fun e => e.1)).Nodup := by
  by_cases hr : r < n
  · rw [if_pos hr, List.map_append, List.nodup_append]
    refine ⟨nodup_of_sorted (rowList_sorted h.vP r), ?_, ?_⟩
    · have := colList_nodup h.vA hr
      rw [List.map_map]
      rw [List.Nodup, List.pairwise_map] at this ⊢
      refine this.imp (fun hne he => hne ?_)
      simp only [Function.comp] at he
      omega
    · intro a ha b hb heq
      obtain ⟨e, he, rfl⟩ := List.mem_map.1 ha
      obtain ⟨f, hf, rfl⟩ := List.mem_map.1 hb
      obtain ⟨g, _, rfl⟩ := List.mem_map.1 hf
      have := (mem_rowList.1 he).1
      simp only at heq
      omega
  · rw [if_neg hr]
    exact nodup_of_sorted (rowList_sorted h.vA _)

/-- The initial matrices are the KKT matrices of the initial data. -/
theorem init_isKkt (eps : R) {n N : Nat} {P A : CscL R} (h : QpData n N P A) :
    IsKkt eps n N (ent P) (ent A) (kInit eps n N P A) (ktInit n N P A) := by
  constructor
  · intro r hr c hc
    unfold kInit
    obtain ⟨lines, hl⟩ : ∃ lines, lines = fun c => if c < n then plusDiag eps n P c else
      rowList n A (c - n) ++ [(c, -eps)] := ⟨_, rfl⟩
    have hnd : ∀ c < N, ((lines c).map (fun e => e.1)).Nodup := by
      intro c _; rw [hl]; exact kLines_nodup eps h c
    rw [← hl]
    by_cases ho : ∃ v, (r, v) ∈ lines c
    · obtain ⟨v, hv⟩ := ho
      rw [compress_ent lines hnd hc hv]
      simp only [hl] at hv
      by_cases hcn : c < n
      · rw [if_pos hcn] at hv
        obtain ⟨a1, a2, a3⟩ := mem_plusDiag.1 hv
        simp only at a1 a2 a3
        rw [if_neg (by omega)]
        unfold kkt
        rw [if_pos a1, if_pos hcn, a3]
      · rw [if_neg hcn] at hv
        rw [if_neg (by omega)]
        unfold kkt
        rcases List.mem_append.1 hv with hv | hv
        · obtain ⟨a1, a2⟩ := mem_rowList.1 hv
          simp only at a1 a2
          rw [if_pos a1, if_neg hcn, mem_colList_ent h.vA a1 a2]
        · rw [List.mem_singleton] at hv
          obtain ⟨e1, e2⟩ := Prod.mk.inj hv
          rw [if_neg (by omega), if_neg (by omega), if_pos e1, e2]
    · rw [ent_free (fun h' => ho ((compress_occ lines hc r).1 h'))]
      by_cases hb : n ≤ r ∧ c < n
      · rw [if_pos hb]
      · rw [if_neg hb]
        unfold kkt
        by_cases hcn : c < n
        · have hrn : r < n := by omega
          rw [if_pos hrn, if_pos hcn]
          by_contra hne
          apply ho
          refine ⟨ent P r c + (if r = c then eps else 0), ?_⟩
          rw [hl]
          simp only
          rw [if_pos hcn]
          exact mem_plusDiag.2 ⟨hrn, fun h0 => hne h0.symm, rfl⟩
        · rw [if_neg hcn, if_neg hcn]
          by_cases hrn : r < n
          · rw [if_pos hrn, ent_free]
            intro h'
            obtain ⟨v, hv⟩ := colList_occ.1 h'
            apply ho
            refine ⟨v, ?_⟩
            rw [hl]
            simp only
            rw [if_neg hcn]
            exact List.mem_append_left _ (mem_rowList.2 ⟨hrn, hv⟩)
          · rw [if_neg hrn, if_neg]
            rintro rfl
            apply ho
            refine ⟨-eps, ?_⟩
            rw [hl]
            simp only
            rw [if_neg hcn]
            exact List.mem_append_right _ (List.mem_singleton.2 rfl)
  · intro r hr c hc
    unfold ktInit
    obtain ⟨lines, hl⟩ : ∃ lines, lines = fun r => if r < n then
      rowList n P r ++ (colList A r).map (fun e => (n + e.1, e.2)) else rowList n A (r - n) := ⟨_, rfl⟩
    have hnd : ∀ c < N, ((lines c).map (fun e => e.1)).Nodup := by
      intro c _; rw [hl]; exact ktLines_nodup h c
    rw [← hl]
    unfold kkt
    by_cases ho : ∃ v, (c, v) ∈ lines r
    · obtain ⟨v, hv⟩ := ho
      rw [compress_ent lines hnd hr hv]
      simp only [hl] at hv
      by_cases hrn : r < n
      · rw [if_pos hrn] at hv
        rw [if_pos hrn]
        rcases List.mem_append.1 hv with hv | hv
        · obtain ⟨a1, a2⟩ := mem_rowList.1 hv
          simp only at a1 a2
          rw [if_pos a1, mem_colList_ent h.vP a1 a2]
          simp
        · obtain ⟨e, he, heq⟩ := List.mem_map.1 hv
          obtain ⟨e1, e2⟩ := Prod.mk.inj heq
          rw [if_neg (by omega), ← e1, ← e2, show n + e.1 - n = e.1 by omega]
          exact (mem_colList_ent h.vA hrn (v := e.2) he).symm
      · rw [if_neg hrn] at hv
        obtain ⟨a1, a2⟩ := mem_rowList.1 hv
        simp only at a1 a2
        rw [if_neg hrn, if_pos a1, mem_colList_ent h.vA a1 a2]
    · rw [ent_free (fun h' => ho ((compress_occ lines hr c).1 h'))]
      have hno : ∀ v, (c, v) ∉ lines r := fun v hv => ho ⟨v, hv⟩
      rw [hl] at hno
      simp only at hno
      by_cases hrn : r < n
      · rw [if_pos hrn] at hno
        rw [if_pos hrn]
        by_cases hcn : c < n
        · rw [if_pos hcn, ent_free]
          · simp
          · intro h'
            obtain ⟨v, hv⟩ := colList_occ.1 h'
            exact hno v (List.mem_append_left _ (mem_rowList.2 ⟨hcn, hv⟩))
        · rw [if_neg hcn, ent_free]
          intro h'
          obtain ⟨v, hv⟩ := colList_occ.1 h'
          refine hno v (List.mem_append_right _ (List.mem_map.2 ⟨_, hv, ?_⟩))
          simp only
          rw [show n + (c - n) = c by omega]
      · rw [if_neg hrn] at hno
        rw [if_neg hrn]
        by_cases hcn : c < n
        · rw [if_pos hcn, ent_free]
          intro h'
          obtain ⟨v, hv⟩ := colList_occ.1 h'
          exact hno v (mem_rowList.2 ⟨hcn, hv⟩)
        · rw [if_neg hcn]
          simp

/-- Every stored position has a place in the initial matrices, provided that no stored entry of
`P + eps I` is zero at generation time. -/
theorem init_slots {eps : R} {n N : Nat} {P A : CscL R} (h : QpData n N P A)
    (hz : ∀ r, ∀ c < n, Occupied P r c → ent P r c + (if r = c then eps else 0) ≠ 0) :
    HasSlots n N P A (kInit eps n N P A) (ktInit n N P A) := by
  have hnN := h.nN
  have vK : ColValid N (kInit eps n N P A) := compress_valid _ (fun c _ => kLines_nodup eps h c)
  have vKt : ColValid N (ktInit n N P A) := compress_valid _ (fun c _ => ktLines_nodup h c)
  refine ⟨hnN, h.vP, h.vA, vK, vKt, h.Prow, h.Arow, ?_, ?_, ?_⟩
  rotate_left 1
  · intro c r hr ho
    unfold ktInit at ho
    rw [compress_occ _ hr] at ho
    obtain ⟨v, hv⟩ := ho
    by_cases hrn : r < n
    · rw [if_pos hrn] at hv
      rcases List.mem_append.1 hv with hv | hv
      · have := (mem_rowList.1 hv).1
        simp only at this
        omega
      · obtain ⟨e, he, heq⟩ := List.mem_map.1 hv
        have := h.Arow e.1 r hrn (colList_occ.2 ⟨e.2, he⟩)
        have := (Prod.mk.inj heq).1
        omega
    · rw [if_neg hrn] at hv
      have := (mem_rowList.1 hv).1
      simp only at this
      omega
  rotate_left 1
  · intro r c hc ho
    have hr := h.Prow r c hc ho
    constructor
    · unfold kInit
      rw [compress_occ _ (by omega)]
      refine ⟨ent P r c + (if r = c then eps else 0), ?_⟩
      rw [if_pos hc]
      exact mem_plusDiag.2 ⟨hr, hz r c hc ho, rfl⟩
    · unfold ktInit
      rw [compress_occ _ (by omega)]
      obtain ⟨v, hv⟩ := colList_occ.1 ho
      refine ⟨v, ?_⟩
      rw [if_pos hr]
      exact List.mem_append_left _ (mem_rowList.2 ⟨hc, hv⟩)
  · intro r c hc ho
    have hr := h.Arow r c hc ho
    obtain ⟨v, hv⟩ := colList_occ.1 ho
    refine ⟨?_, ?_, ?_⟩
    · unfold kInit
      rw [compress_occ _ hr]
      refine ⟨v, ?_⟩
      rw [if_neg (by omega), show n + r - n = r by omega]
      exact List.mem_append_left _ (mem_rowList.2 ⟨hc, hv⟩)
    · unfold ktInit
      rw [compress_occ _ (by omega)]
      refine ⟨v, ?_⟩
      rw [if_pos hc]
      exact List.mem_append_right _ (List.mem_map.2 ⟨_, hv, rfl⟩)
    · unfold ktInit
      rw [compress_occ _ hr]
      refine ⟨v, ?_⟩
      rw [if_neg (by omega), show n + r - n = r by omega]
      exact mem_rowList.2 ⟨hc, hv⟩

/-- The initial `K` is upper triangular with a full diagonal if `P` is upper triangular with
nonnegative diagonal; sorted columns. -/
theorem init_upper {eps : R} {n N : Nat} {P A : CscL R} (h : QpData n N P A)
    (hup : ∀ r, ∀ c < n, c < r → ent P r c = 0) (hd : ∀ c < n, ent P c c + eps ≠ 0) :
    UpperValid N (kInit eps n N P A) := by
  obtain ⟨lines, hl⟩ : ∃ lines, lines = fun c => if c < n then plusDiag eps n P c else
    rowList n A (c - n) ++ [(c, -eps)] := ⟨_, rfl⟩
  have hK : kInit eps n N P A = compress N lines := by rw [hl]; rfl
  have hsort : ∀ c, (lines c).Pairwise (fun e e' => e.1 < e'.1) := by
    intro c
    rw [hl]
    simp only
    by_cases hc : c < n
    · rw [if_pos hc]; exact plusDiag_sorted eps n P c
    · rw [if_neg hc, List.pairwise_append]
      refine ⟨rowList_sorted h.vA _, List.pairwise_singleton _ _, ?_⟩
      intro e he e' he'
      rw [List.mem_singleton] at he'
      subst he'
      have := (mem_rowList.1 he).1
      simp only
      omega
  have hle : ∀ c, ∀ e ∈ lines c, e.1 ≤ c := by
    intro c e he
    rw [hl] at he
    simp only at he
    by_cases hc : c < n
    · rw [if_pos hc] at he
      obtain ⟨a1, a2, a3⟩ := mem_plusDiag.1 he
      by_contra hlt
      rw [hup e.1 c hc (by omega), if_neg (by omega), add_zero] at a3
      exact a2 a3
    · rw [if_neg hc] at he
      rcases List.mem_append.1 he with he | he
      · have := (mem_rowList.1 he).1
        omega
      · rw [List.mem_singleton] at he
        rw [he]
  have hdiag : ∀ c, ∃ v, (c, v) ∈ lines c := by
    intro c
    rw [hl]
    simp only
    by_cases hc : c < n
    · rw [if_pos hc]
      exact ⟨ent P c c + eps, mem_plusDiag.2 ⟨hc, hd c hc, by simp⟩⟩
    · rw [if_neg hc]
      exact ⟨-eps, List.mem_append_right _ (List.mem_singleton.2 rfl)⟩
  have hlen : ∀ c, 0 < (lines c).length := by
    intro c
    obtain ⟨v, hv⟩ := hdiag c
    exact List.length_pos_of_mem hv
  rw [hK]
  refine ⟨?_, ?_, ?_⟩
  · intro c hc
    rw [compress_p _ hc]
    have := hlen c
    omega
  · intro c hc
    have hlc := hlen c
    rw [compress_p _ hc, show (compress N lines).p c + (lines c).length - 1 =
      (compress N lines).p c + ((lines c).length - 1) by omega,
      (compress_slot lines hc ((lines c).length - 1) (by omega)).1]
    obtain ⟨v, hv⟩ := hdiag c
    obtain ⟨q, hq, he⟩ := List.mem_iff_getElem.1 hv
    have h1 := hle c _ (List.getElem_mem (show (lines c).length - 1 < (lines c).length by omega))
    rcases Nat.lt_or_ge q ((lines c).length - 1) with hlt | hge
    · have := List.pairwise_iff_getElem.1 (hsort c) q ((lines c).length - 1) hq (by omega) hlt
      rw [he] at this
      simp only at this
      omega
    · have : (lines c).length - 1 = q := by omega
      simp only [this, he]
  · intro c hc k h1 h2
    rw [compress_p _ hc] at h2
    obtain ⟨q, rfl⟩ : ∃ q, k = (compress N lines).p c + q := ⟨k - (compress N lines).p c, by omega⟩
    rw [Nat.add_assoc, (compress_slot lines hc q (by omega)).1,
      (compress_slot lines hc (q + 1) (by omega)).1]
    exact List.pairwise_iff_getElem.1 (hsort c) q (q + 1) (by omega) (by omega) (by omega)

end Verif.Lemmas.Grad
