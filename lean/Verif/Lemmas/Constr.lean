import Verif.Lemmas.Defaults
import Verif.Spec.Constr
/-!
Helper lemmas on the constraint maps.
-/
namespace Verif.Lemmas
open Verif.Model Verif.Spec Finset

variable {R : Type}

theorem nMat_eq {d : ConstrData R} (h : ConstrWF d) : d.nMat = nfn d.indptr d.nVar := by
  unfold ConstrData.nMat
  have h1 := h.last
  have h2 := h.mono d.nVar (Nat.le_refl _)
  unfold nfn at *
  omega

theorem nMat_le {d : ConstrData R} (h : ConstrWF d) : d.nMat ≤ d.indices.length := by
  unfold ConstrData.nMat; omega

theorem nfn_take (l : List Nat) (n k : Nat) (h : k < n) : nfn (l.take n) k = nfn l k := by
  unfold nfn
  simp [List.getD, List.getElem?_take, h]

theorem take_ok {d : ConstrData R} (h : ConstrWF d) :
    PtrOK (d.indptr.take (d.nVar + 1)) d.nVar d.nMat := by
  refine ⟨by rw [List.length_take, h.len]; omega, ?_, ?_, ?_⟩
  · rw [nfn_take _ _ _ (by omega), h.zero]
  · intro c hc
    rw [nfn_take _ _ _ (by omega), nfn_take _ _ _ (by omega)]
    exact h.mono c (by omega)
  · rw [nfn_take _ _ _ (by omega), nMat_eq h]

theorem filter_range_and (N M : Nat) (p : Nat → Bool) (h : M ≤ N) :
    (List.range N).filter (fun r => decide (r < M) && p r) = (List.range M).filter p := by
  obtain ⟨k, rfl⟩ : ∃ k, N = M + k := ⟨N - M, by omega⟩
  rw [List.range_add, List.filter_append]
  have h1 : (List.range M).filter (fun r => decide (r < M) && p r) = (List.range M).filter p := by
    apply List.filter_congr
    intro r hr
    simp [List.mem_range.mp hr]
  have h2 : ((List.range k).map (M + ·)).filter (fun r => decide (r < M) && p r) = [] := by
    rw [List.filter_eq_nil_iff]
    intro r hr
    obtain ⟨j, _, rfl⟩ := List.mem_map.mp hr
    simp
  rw [h1, h2, List.append_nil]

theorem rowsOf_A {d : ConstrData R} (h : ConstrWF d) :
    d.rowsOf .A = (List.range d.nMat).filter fun r => decide (nfn d.indices r < d.nEq) := by
  unfold ConstrData.rowsOf ConstrData.rowsEq
  rw [List.filter_filter]
  exact filter_range_and _ _ _ (nMat_le h)

theorem rowsOf_G {d : ConstrData R} (h : ConstrWF d) :
    d.rowsOf .G = (List.range d.nMat).filter fun r => decide (d.nEq ≤ nfn d.indices r) := by
  unfold ConstrData.rowsOf ConstrData.rowsIneq
  rw [List.filter_filter]
  exact filter_range_and _ _ _ (nMat_le h)

theorem rowsOf_b (d : ConstrData R) :
    d.rowsOf .b = (List.range d.indices.length).filter fun r =>
      decide (d.nMat ≤ r) && decide (nfn d.indices r < d.nEq) := by
  show (d.rowsEq.filter fun r => decide (d.nMat ≤ r)) = _
  unfold ConstrData.rowsEq
  rw [List.filter_filter]
  rfl

theorem rowsOf_h (d : ConstrData R) :
    d.rowsOf .h = (List.range d.indices.length).filter fun r =>
      decide (d.nMat ≤ r) && decide (d.nEq ≤ nfn d.indices r) := by
  show (d.rowsIneq.filter fun r => decide (d.nMat ≤ r)) = _
  unfold ConstrData.rowsIneq
  rw [List.filter_filter]
  rfl

theorem qpRowsL_eq (d : ConstrData R) : d.qpRowsL = d.rowsOf .b := rfl

theorem qpRowsU_eq {d : ConstrData R} (h : ConstrWF d) :
    d.qpRowsU = (List.range d.indices.length).filter fun r => decide (d.nMat ≤ r) := by
  unfold ConstrData.qpRowsU
  obtain ⟨k, hk⟩ : ∃ k, d.indices.length = d.nMat + k := ⟨d.indices.length - d.nMat, by
    have := nMat_le h; omega⟩
  rw [hk, List.range_add, List.filter_append, Nat.add_sub_cancel_left]
  have h1 : (List.range d.nMat).filter (fun r => decide (d.nMat ≤ r)) = [] := by
    rw [List.filter_eq_nil_iff]
    intro r hr
    have := List.mem_range.mp hr
    simpa using this
  have h2 : ((List.range k).map (d.nMat + ·)).filter (fun r => decide (d.nMat ≤ r))
      = (List.range k).map (d.nMat + ·) := by
    rw [List.filter_eq_self]
    intro r hr
    obtain ⟨j, _, rfl⟩ := List.mem_map.mp hr
    simp
  rw [h1, h2, List.nil_append, List.range'_eq_map_range]

/-- Sum over the positions of a selection. -/
theorem sum_selection {S : Type} [AddCommMonoid S] (p : Nat → Bool) (N : Nat) (F : Nat → S) :
    ∑ k ∈ range ((List.range N).filter p).length, F (((List.range N).filter p).getD k 0)
      = ∑ r ∈ range N, if p r then F r else 0 := by
  have h := sum_compress p N F 0 N (Nat.zero_le _) (Nat.le_refl _)
  rw [countP_range_filter p N 0 (Nat.zero_le _), countP_range_filter p N N (Nat.le_refl _)] at h
  simp only [List.range_zero, List.filter_nil, List.length_nil, Nat.Ico_zero_eq_range] at h
  exact h

/-! ### Dense rows -/

theorem denseRows_at [AddCommMonoid R] (m : Sp R) (rows : Nat) (idx : List Nat)
    (hnd : ∀ k k', k < idx.length → k' < idx.length → nfn idx k = nfn idx k' → k = k')
    (i j : Nat) (hi : i < rows) :
    (denseRows m rows idx).at i j = ∑ k ∈ range idx.length, if nfn idx k = i then m.at k j else 0 := by
  unfold Sp.at denseRows
  simp only [List.filter_flatMap, List.map_flatMap]
  let B : Nat → List (Nat × Nat × R) := fun i =>
    match ((List.range idx.length).reverse.find? fun k => decide (idx.getD k 0 = i)) with
    | none => []
    | some k => (m.row k).map fun e => (i, e.2.1, e.2.2)
  let V : R := ∑ k ∈ range idx.length, if nfn idx k = i then
    ((m.ents.filter fun e => decide (e.1 = k ∧ e.2.1 = j)).map fun e => e.2.2).sum else 0
  have hone : ∀ i', (((B i').filter fun e => decide (e.1 = i ∧ e.2.1 = j)).map fun e => e.2.2).sum
      = if i' = i then V else 0 := by
    intro i'
    simp only [B]
    cases hf : (List.range idx.length).reverse.find? fun k => decide (idx.getD k 0 = i') with
    | none =>
      simp only [List.filter_nil, List.map_nil, List.sum_nil]
      split
      · rename_i hii
        subst hii
        symm
        apply sum_eq_zero
        intro k hk
        rw [if_neg]
        intro hki
        have := List.find?_eq_none.mp hf k (by simpa using hk)
        unfold nfn at hki
        rw [decide_eq_true hki] at this
        exact this rfl
      · rfl
    | some k0 =>
      have hk0 : k0 < idx.length := by
        have := List.mem_of_find?_eq_some hf
        simpa using this
      have hk0' : nfn idx k0 = i' := by
        have := List.find?_some hf
        simpa [nfn] using this
      simp only []
      by_cases hii : i' = i
      · subst hii
        rw [if_pos rfl, List.filter_map, List.map_map]
        simp only [V]
        rw [Finset.sum_eq_single k0]
        · rw [if_pos hk0']
          simp only [Function.comp_def, Sp.row, List.filter_filter, true_and]
          congr 2
          apply List.filter_congr
          intro e _
          rw [Bool.and_comm, Bool.decide_and]
        · intro k hk hne
          rw [if_neg]
          intro h
          exact hne (hnd k k0 (by simpa using hk) hk0 (h.trans hk0'.symm))
        · intro h; exact absurd (by simpa using hk0) h
      · rw [if_neg hii, List.filter_map]
        simp [Function.comp_def, hii]
  have houter : ∀ n, ((List.range n).flatMap fun i' =>
      ((B i').filter fun e => decide (e.1 = i ∧ e.2.1 = j)).map fun e => e.2.2).sum
      = if i < n then V else 0 := by
    intro n
    induction n with
    | zero => simp
    | succ n ih =>
      rw [List.range_succ, List.flatMap_append, List.sum_append, ih, List.flatMap_singleton, hone]
      by_cases hn : n = i
      · subst hn; simp
      · have : i < n + 1 ↔ i < n := by omega
        simp [hn, this]
  have := houter rows
  rw [if_pos hi] at this
  exact this

/-- Value of a dense canonical vector: the sum of the data with that row index. -/
theorem dense_value [CommRing R] {d : ConstrData R} (p : Nat → Bool) (sh : Nat → Nat) (rows : Nat)
    (hnd : ∀ r r', r < d.indices.length → r' < d.indices.length → p r = true → p r' = true →
      sh r = sh r' → r = r') (v : Nat → R) (i : Nat) (hi : i < rows) :
    mulVec d.red.cols (denseRows
        (d.red.selectRows ((List.range d.indices.length).filter p)) rows
        (((List.range d.indices.length).filter p).map sh)).at v i
      = ∑ r ∈ range d.indices.length,
          if p r then (if sh r = i then mulVec d.red.cols d.red.at v r else 0) else 0 := by
  let sel := (List.range d.indices.length).filter p
  have hnodup : sel.Nodup := List.nodup_range.filter _
  have hget : ∀ k, k < sel.length → nfn (sel.map sh) k = sh (sel.getD k 0) := by
    intro k hk
    simp [nfn, List.getD, List.getElem?_eq_getElem hk]
  have hselmem : ∀ k, k < sel.length → sel.getD k 0 ∈ sel := by
    intro k hk
    simp [List.getD, List.getElem?_eq_getElem hk]
  have hnd' : ∀ k k', k < (sel.map sh).length → k' < (sel.map sh).length →
      nfn (sel.map sh) k = nfn (sel.map sh) k' → k = k' := by
    intro k k' hk hk' h
    rw [List.length_map] at hk hk'
    rw [hget k hk, hget k' hk'] at h
    have h1 := List.mem_filter.mp (hselmem k hk)
    have h2 := List.mem_filter.mp (hselmem k' hk')
    have h3 := hnd _ _ (List.mem_range.mp h1.1) (List.mem_range.mp h2.1) h1.2 h2.2 h
    simp only [List.getD, List.getElem?_eq_getElem hk, List.getElem?_eq_getElem hk',
      Option.getD_some] at h3
    exact (List.Nodup.getElem_inj_iff hnodup).mp h3
  have e1 : ∀ j, (denseRows (d.red.selectRows sel) rows (sel.map sh)).at i j
      = ∑ k ∈ range sel.length, if sh (sel.getD k 0) = i then d.red.at (sel.getD k 0) j else 0 := by
    intro j
    rw [denseRows_at _ _ _ hnd' i j hi, List.length_map]
    apply sum_congr rfl
    intro k hk
    have hk' : k < sel.length := by simpa using hk
    rw [hget k hk', selectRows_at _ _ _ hk']
  change mulVec d.red.cols (denseRows (d.red.selectRows sel) rows (sel.map sh)).at v i = _
  have e2 : mulVec d.red.cols (denseRows (d.red.selectRows sel) rows (sel.map sh)).at v i
      = ∑ k ∈ range sel.length,
          (fun r => if sh r = i then mulVec d.red.cols d.red.at v r else 0) (sel.getD k 0) := by
    unfold mulVec
    simp only [e1, sum_mul]
    rw [sum_comm]
    apply sum_congr rfl
    intro k _
    by_cases h : sh (sel.getD k 0) = i
    · simp [h]
    · simp [h]
  rw [e2]
  exact sum_selection p d.indices.length
    (fun r => if sh r = i then mulVec d.red.cols d.red.at v r else 0)

/-! ### Values of the constraint parameters -/

section
variable [CommRing R] [DecidableEq R]

/-- The last column of the full matrix. -/
theorem full_last {d : ConstrData R} (h : ConstrWF d) (θ : List R) (i : Nat) :
    fullMat d θ i d.nVar
      = ∑ r ∈ range d.indices.length, if d.nMat ≤ r then (if nfn d.indices r = i then datum d θ r else 0) else 0 := by
  unfold fullMat csc
  rw [h.last, ← nMat_eq h]
  have hs : (range d.indices.length).filter (fun r => d.nMat ≤ r) = Ico d.nMat d.indices.length := by
    ext r
    simp only [mem_Ico, mem_filter, mem_range]
    omega
  rw [← hs, Finset.sum_filter]

theorem nodup_last {d : ConstrData R} (h : ConstrWF d) {r r' : Nat} (h1 : r < d.indices.length)
    (h2 : r' < d.indices.length) (h3 : d.nMat ≤ r) (h4 : d.nMat ≤ r')
    (h5 : nfn d.indices r = nfn d.indices r') : r = r' := by
  rw [nMat_eq h] at h3 h4
  exact h.nodup r r' h3 h1 h4 h2 h5

/-- A dense canonical vector at run time. -/
theorem vec_value (m : RawMap R) (θ v : List R) (hc : m.mapping.cols = θ.length + 1)
    (hv : canonVal (some m) false θ = some v) :
    v.length = m.mapping.rows ∧ ∀ i < m.mapping.rows,
      fn v i = m.sign i * mulVec m.mapping.cols m.mapping.at (fn (θ ++ [1])) i := by
  rw [canonVal_eq m false θ hc] at hv
  cases hv
  have hrows : (m.final false).rows = m.mapping.rows := rfl
  refine ⟨by simp [hrows], fun i hi => ?_⟩
  have : ∀ (l : List R) k, fn l k = l.getD k 0 := fun _ _ => rfl
  rw [this, List.getD_eq_getElem?_getD, List.getElem?_map,
    List.getElem?_range (by rw [hrows]; exact hi)]
  simp only [Option.map_some, Option.getD_some]
  unfold mulVec
  rw [mul_sum]
  apply sum_congr rfl
  intro j hj
  rw [final_at m false i j (by rw [hrows]; exact hi) (by simpa using hj)]
  simp only [srcRow, Bool.false_eq_true, if_false]
  ring

theorem b_value {d : ConstrData R} (h : ConstrWF d) (θ v : List R) (hc : d.red.cols = θ.length + 1)
    (m : RawMap R) (hm : d.conicMap .b = some m) (hv : canonVal (some m) false θ = some v) :
    v.length = d.nEq ∧ ∀ i < d.nEq, fn v i = fullMat d θ i d.nVar := by
  cases hm
  obtain ⟨h1, h2⟩ := vec_value _ θ v hc hv
  refine ⟨h1, fun i hi => ?_⟩
  rw [h2 i hi, full_last h, one_mul]
  have e : d.indicesOf .b = (d.rowsOf .b).map (nfn d.indices) := rfl
  simp only [e, rowsOf_b]
  have := dense_value (d := d) (fun r => decide (d.nMat ≤ r) && decide (nfn d.indices r < d.nEq))
    (nfn d.indices) d.nEq (by
      intro r r' h1 h2 h3 h4 h5
      simp only [Bool.and_eq_true, decide_eq_true_eq] at h3 h4
      exact nodup_last h h1 h2 h3.1 h4.1 h5) (fn (θ ++ [1])) i hi
  refine this.trans ?_
  apply sum_congr rfl
  intro r _
  by_cases h3 : d.nMat ≤ r
  · by_cases h4 : nfn d.indices r = i
    · have : nfn d.indices r < d.nEq := by omega
      simp [h3, h4, hi, datum]
    · simp [h3, h4]
  · simp [h3]

theorem h_value {d : ConstrData R} (h : ConstrWF d) (θ v : List R) (hc : d.red.cols = θ.length + 1)
    (m : RawMap R) (hm : d.conicMap .h = some m) (hv : canonVal (some m) false θ = some v) :
    v.length = d.nIneq ∧ ∀ i < d.nIneq, fn v i = fullMat d θ (d.nEq + i) d.nVar := by
  cases hm
  obtain ⟨h1, h2⟩ := vec_value _ θ v hc hv
  refine ⟨h1, fun i hi => ?_⟩
  rw [h2 i hi, full_last h, one_mul]
  have e : d.indicesOf .h = (d.rowsOf .h).map fun r => nfn d.indices r - d.nEq := rfl
  simp only [e, rowsOf_h]
  have := dense_value (d := d) (fun r => decide (d.nMat ≤ r) && decide (d.nEq ≤ nfn d.indices r))
    (fun r => nfn d.indices r - d.nEq) d.nIneq (by
      intro r r' h1 h2 h3 h4 h5
      simp only [Bool.and_eq_true, decide_eq_true_eq] at h3 h4
      exact nodup_last h h1 h2 h3.1 h4.1 (by omega)) (fn (θ ++ [1])) i hi
  refine this.trans ?_
  apply sum_congr rfl
  intro r _
  by_cases h3 : d.nMat ≤ r
  · by_cases h4 : nfn d.indices r = d.nEq + i
    · simp [h3, h4, datum]
    · by_cases h5 : d.nEq ≤ nfn d.indices r
      · have : ¬ (nfn d.indices r - d.nEq = i) := by omega
        simp [h3, h4, h5, this]
      · simp [h4, h5]
  · simp [h3]

theorem l_value {d : ConstrData R} (h : ConstrWF d) (θ v : List R) (hc : d.red.cols = θ.length + 1)
    (hv : canonVal (some d.qpL) false θ = some v) :
    v.length = d.nEq ∧ ∀ i < d.nEq, fn v i = - fullMat d θ i d.nVar := by
  obtain ⟨h1, h2⟩ := vec_value _ θ v hc hv
  refine ⟨h1, fun i hi => ?_⟩
  obtain ⟨h3, h4⟩ := vec_value (⟨d.qpL.mapping, fun _ => 1⟩ : RawMap R) θ
    ((List.range d.nEq).map fun i => mulVec d.red.cols d.qpL.mapping.at (fn (θ ++ [1])) i) hc (by
      rw [canonVal_eq _ _ _ hc]
      congr 1
      apply List.map_congr_left
      intro k hk
      unfold mulVec
      apply sum_congr rfl
      intro j hj
      rw [final_at _ _ _ _ (by simpa using hk) (by simpa using hj)]
      simp [srcRow])
  have hb := (b_value h θ _ hc ⟨d.qpL.mapping, fun _ => 1⟩ rfl (by
      rw [canonVal_eq _ _ _ hc])).2 i hi
  have hb' := (vec_value _ θ _ hc (canonVal_eq (⟨d.qpL.mapping, fun _ => 1⟩ : RawMap R) false θ hc)).2 i hi
  rw [hb] at hb'
  rw [h2 i hi, hb']
  simp only [ConstrData.qpL]
  ring

theorem u_value {d : ConstrData R} (h : ConstrWF d) (θ v : List R) (hc : d.red.cols = θ.length + 1)
    (hv : canonVal (some d.qpU) false θ = some v) :
    v.length = d.nEq + d.nIneq ∧ ∀ i < d.nEq + d.nIneq,
      fn v i = (if i < d.nEq then -1 else 1) * fullMat d θ i d.nVar := by
  obtain ⟨h1, h2⟩ := vec_value _ θ v hc hv
  refine ⟨h1, fun i hi => ?_⟩
  rw [h2 i hi, full_last h]
  simp only [ConstrData.qpU, qpRowsU_eq h]
  congr 1
  have := dense_value (d := d) (fun r => decide (d.nMat ≤ r))
    (nfn d.indices) (d.nEq + d.nIneq) (by
      intro r r' h1 h2 h3 h4 h5
      simp only [decide_eq_true_eq] at h3 h4
      exact nodup_last h h1 h2 h3 h4 h5) (fn (θ ++ [1])) i hi
  refine this.trans ?_
  apply sum_congr rfl
  intro r _
  by_cases h3 : d.nMat ≤ r <;> simp [h3, datum]

theorem csc_neg (ptr idx : Nat → Nat) (dat : Nat → R) (i c : Nat) :
    csc ptr idx (fun r => -1 * dat r) i c = - csc ptr idx dat i c := by
  unfold csc
  rw [← sum_neg_distrib]
  apply sum_congr rfl
  intro k _
  split <;> simp

theorem csc_take {d : ConstrData R} (dat : Nat → R) (i c : Nat) (hc : c < d.nVar) :
    csc (nfn (d.indptr.take (d.nVar + 1))) (nfn d.indices) dat i c
      = csc (nfn d.indptr) (nfn d.indices) dat i c := by
  unfold csc
  rw [nfn_take _ _ _ (by omega), nfn_take _ _ _ (by omega)]

/-- The stored split blocks. -/
theorem split_value {d : ConstrData R} (h : ConstrWF d) (θ v : List R)
    (hc : d.red.cols = θ.length + 1) (p : Nat → Bool) (sh : Nat → Nat) (rws ind : List Nat)
    (hrws : rws = (List.range d.nMat).filter p) (hind : ind = rws.map sh) (ptr : List Nat)
    (hptr : ptr = countPtr (d.indptr.take (d.nVar + 1)) d.nVar rws)
    (hv : canonVal (some ⟨d.red.selectRows rws, fun _ => -1⟩) true θ = some v)
    (i c : Nat) (hcn : c < d.nVar) :
    csc (nfn (uspIdx ind ptr d.nVar (nonzeroRows (RawMap.signed ⟨d.red.selectRows rws, fun _ => -1⟩))).indptr)
        (nfn (uspIdx ind ptr d.nVar (nonzeroRows (RawMap.signed ⟨d.red.selectRows rws, fun _ => -1⟩))).indices)
        (fn v) i c
      = - ∑ r ∈ Ico (nfn d.indptr c) (nfn d.indptr (c + 1)),
          if p r then (if sh r = i then datum d θ r else 0) else 0 := by
  have hok : PtrOK ptr d.nVar rws.length := by
    rw [hptr]
    exact countPtr_ok (take_ok h) rws (by
      rw [hrws]; intro r hr; exact List.mem_range.mp (List.mem_filter.mp hr).1)
  have hlen : nfn ptr (c + 1) ≤ rws.length := by
    have := hok.le (show c + 1 ≤ d.nVar by omega) (Nat.le_refl _)
    rw [hok.last] at this; exact this
  rw [stored_eq ⟨d.red.selectRows rws, fun _ => -1⟩ ind ptr d.nVar hok θ hc v hv i c hcn, csc_neg]
  congr 1
  have := csc_compress (take_ok h) p sh (datum d θ) i c hcn
  rw [nfn_take _ _ _ (by omega), nfn_take _ _ _ (by omega), ← hrws, ← hptr] at this
  rw [← this]
  apply csc_congr
  intro k _ hk
  have hk' : k < rws.length := by omega
  constructor
  · rw [hind]; simp [nfn, List.getD, List.getElem?_eq_getElem hk']
  · unfold datum mulVec
    apply sum_congr rfl
    intro j _
    rw [selectRows_at _ _ _ hk']

/-- Stored equality block. -/
theorem A_value {d : ConstrData R} (h : ConstrWF d) (θ v : List R) (hc : d.red.cols = θ.length + 1)
    (m : RawMap R) (hm : d.conicMap .A = some m) (hv : canonVal (some m) true θ = some v)
    (i c : Nat) (hi : i < d.nEq) (hcn : c < d.nVar) :
    csc (nfn (d.splitIdx .A m).indptr) (nfn (d.splitIdx .A m).indices) (fn v) i c
      = - fullMat d θ i c := by
  cases hm
  have := split_value h θ v hc (fun r => decide (nfn d.indices r < d.nEq)) (nfn d.indices)
    (d.rowsOf .A) (d.indicesOf .A) (rowsOf_A h) rfl (d.splitPtr .A) rfl hv i c hcn
  refine this.trans ?_
  congr 1
  unfold fullMat csc
  apply sum_congr rfl
  intro r _
  by_cases h4 : nfn d.indices r = i
  · simp [h4, hi]
  · simp [h4]

/-- Stored inequality block. -/
theorem G_value {d : ConstrData R} (h : ConstrWF d) (θ v : List R) (hc : d.red.cols = θ.length + 1)
    (m : RawMap R) (hm : d.conicMap .G = some m) (hv : canonVal (some m) true θ = some v)
    (i c : Nat) (hcn : c < d.nVar) :
    csc (nfn (d.splitIdx .G m).indptr) (nfn (d.splitIdx .G m).indices) (fn v) i c
      = - fullMat d θ (d.nEq + i) c := by
  cases hm
  have := split_value h θ v hc (fun r => decide (d.nEq ≤ nfn d.indices r))
    (fun r => nfn d.indices r - d.nEq)
    (d.rowsOf .G) (d.indicesOf .G) (rowsOf_G h) rfl (d.splitPtr .G) rfl hv i c hcn
  refine this.trans ?_
  congr 1
  unfold fullMat csc
  apply sum_congr rfl
  intro r _
  by_cases h4 : nfn d.indices r = d.nEq + i
  · simp [h4]
  · by_cases h5 : d.nEq ≤ nfn d.indices r
    · have : ¬ (nfn d.indices r - d.nEq = i) := by omega
      simp [h4, h5, this]
    · simp [h4, h5]

/-- Stored matrix without split (all rows are "equalities"). -/
theorem whole_value {d : ConstrData R} (h : ConstrWF d) (hn : d.nIneq = 0) (θ v : List R)
    (hc : d.red.cols = θ.length + 1)
    (m : RawMap R) (hm : d.conicMap .A = some m) (hv : canonVal (some m) true θ = some v)
    (i c : Nat) (hcn : c < d.nVar) :
    csc (nfn (d.wholeIdx m).indptr) (nfn (d.wholeIdx m).indices) (fn v) i c = - fullMat d θ i c := by
  cases hm
  have hrows : d.rowsOf .A = List.range d.nMat := by
    rw [rowsOf_A h, List.filter_eq_self]
    intro r hr
    have h1 := List.mem_range.mp hr
    have h2 := nMat_le h
    have := h.range r (by omega)
    simp; omega
  have hok : PtrOK (d.indptr.take (d.nVar + 1)) d.nVar (d.rowsOf .A).length := by
    rw [hrows, List.length_range]; exact take_ok h
  have hlen : nfn (d.indptr.take (d.nVar + 1)) (c + 1) ≤ d.nMat := by
    have := (take_ok h).le (show c + 1 ≤ d.nVar by omega) (Nat.le_refl _)
    rw [(take_ok h).last] at this; exact this
  refine (stored_eq ⟨d.red.selectRows (d.rowsOf .A), fun _ => -1⟩ (d.indicesOf .A) _ d.nVar hok θ hc v hv
    i c hcn).trans ?_
  rw [csc_neg]
  congr 1
  unfold fullMat
  rw [← csc_take _ _ _ hcn]
  apply csc_congr
  intro k _ hk
  have hk' : k < (d.rowsOf .A).length := by rw [hrows, List.length_range]; omega
  have hg : (d.rowsOf .A).getD k 0 = k := by
    rw [hrows]; simp [List.getD, List.getElem?_range (show k < d.nMat by omega)]
  constructor
  · have : d.indicesOf .A = (d.rowsOf .A).map (nfn d.indices) := rfl
    rw [this]
    have e : nfn ((d.rowsOf .A).map (nfn d.indices)) k = nfn d.indices ((d.rowsOf .A).getD k 0) := by
      simp [nfn, List.getD, List.getElem?_eq_getElem hk']
    rw [e, hg]
  · unfold datum mulVec
    apply sum_congr rfl
    intro j _
    rw [selectRows_at _ _ _ hk', hg]

/-- The negated rows of the QP matrix. -/
theorem qpMat_at {d : ConstrData R} (r j : Nat) (hr : r < d.nMat) :
    d.qpMat.mapping.at r j = (if d.nEq ≤ nfn d.indices r then -1 else 1) * d.red.at r j := by
  unfold ConstrData.qpMat Sp.at
  simp only
  rw [List.filter_map, List.map_map]
  generalize d.red.ents = L
  induction L with
  | nil => simp
  | cons e L ih =>
    by_cases h1 : e.1 < d.nMat
    · rw [List.filter_cons_of_pos (by simpa using h1)]
      by_cases h2 : e.1 = r ∧ e.2.1 = j
      · rw [List.filter_cons_of_pos (by
          simp only [Function.comp_apply]; split <;> simpa using h2), List.filter_cons_of_pos (by simpa using h2)]
        rw [List.map_cons, List.sum_cons, ih, List.map_cons, List.sum_cons, mul_add]
        congr 1
        simp only [Function.comp_apply]
        rw [← h2.1]
        unfold nfn
        split <;> simp
      · rw [List.filter_cons_of_neg (by
          simp only [Function.comp_apply]; split <;> simpa using h2), List.filter_cons_of_neg (by simpa using h2)]
        exact ih
    · rw [List.filter_cons_of_neg (by simpa using h1)]
      rw [List.filter_cons_of_neg (a := e) (by simp; omega)]
      exact ih

/-- Stored QP matrix. -/
theorem qpA_value {d : ConstrData R} (h : ConstrWF d) (θ v : List R) (hc : d.red.cols = θ.length + 1)
    (hv : canonVal (some d.qpMat) true θ = some v) (i c : Nat) (hcn : c < d.nVar) :
    csc (nfn d.qpIdx.indptr) (nfn d.qpIdx.indices) (fn v) i c
      = (if d.nEq ≤ i then -1 else 1) * fullMat d θ i c := by
  refine (stored_eq d.qpMat (d.indices.take d.nMat) _ d.nVar (take_ok h) θ hc v hv i c hcn).trans ?_
  unfold fullMat
  rw [← csc_take _ _ _ hcn]
  have hlen : nfn (d.indptr.take (d.nVar + 1)) (c + 1) ≤ d.nMat := by
    have := (take_ok h).le (show c + 1 ≤ d.nVar by omega) (Nat.le_refl _)
    rw [(take_ok h).last] at this; exact this
  unfold csc
  rw [mul_sum]
  apply sum_congr rfl
  intro r hr
  rw [mem_Ico] at hr
  rw [nfn_take _ _ _ (by omega)]
  by_cases hi : nfn d.indices r = i
  · rw [if_pos hi, if_pos hi]
    have e : mulVec d.qpMat.mapping.cols d.qpMat.mapping.at (fn (θ ++ [1])) r
        = (if d.nEq ≤ i then -1 else 1) * datum d θ r := by
      unfold mulVec datum mulVec
      rw [mul_sum]
      apply sum_congr rfl
      intro j _
      rw [qpMat_at r j (by omega), hi, mul_assoc]
    change d.qpMat.sign r * mulVec d.qpMat.mapping.cols d.qpMat.mapping.at (fn (θ ++ [1])) r = _
    rw [e]
    simp [ConstrData.qpMat]
  · rw [if_neg hi, if_neg hi, mul_zero]

end

end Verif.Lemmas
