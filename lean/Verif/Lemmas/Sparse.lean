import Verif.Model.Sparse
import Verif.Spec.Linear
import Mathlib.Tactic.Ring
import Mathlib.Algebra.BigOperators.Intervals
import Mathlib.Algebra.BigOperators.Ring.List
import Mathlib.Algebra.BigOperators.Group.List.Lemmas
/-!
Facts about sparse storage and the canonicalization loop.
-/
namespace Verif.Lemmas
open Verif.Model Verif.Spec Finset

variable {R : Type}

/-- Sum over a row of `value * v column`. -/
def rowDot [CommRing R] (l : List (Nat × Nat × R)) (v : Nat → R) : R :=
  (l.map fun e => e.2.2 * v e.2.1).sum

theorem sum_atL [CommRing R] (n : Nat) (L : List (Nat × Nat × R)) (i : Nat) (v : Nat → R)
    (h : ∀ e ∈ L, e.2.1 < n) :
    ∑ j ∈ range n, ((L.filter fun e => decide (e.1 = i ∧ e.2.1 = j)).map fun e => e.2.2).sum * v j
      = rowDot (L.filter fun e => decide (e.1 = i)) v := by
  induction L with
  | nil => simp [rowDot]
  | cons e L ih =>
    have ih' := ih fun e' he' => h e' (by simp [he'])
    have hstep : ∀ j, (((e :: L).filter fun e => decide (e.1 = i ∧ e.2.1 = j)).map fun e => e.2.2).sum * v j
        = (if e.1 = i ∧ e.2.1 = j then e.2.2 * v j else 0)
          + ((L.filter fun e => decide (e.1 = i ∧ e.2.1 = j)).map fun e => e.2.2).sum * v j := by
      intro j
      by_cases hc : e.1 = i ∧ e.2.1 = j
      · simp [List.filter_cons, hc, add_mul]
      · simp only [List.filter_cons, decide_eq_true_eq, hc, if_false, zero_add]
    simp only [hstep, sum_add_distrib, ih']
    by_cases hi : e.1 = i
    · simp only [hi, true_and, List.filter_cons, decide_true, if_true, rowDot, List.map_cons,
        List.sum_cons]
      rw [sum_ite_eq (range n) e.2.1 (fun j => e.2.2 * v j)]
      rw [if_pos (by simpa using h e (by simp))]
    · simp [hi, List.filter_cons, rowDot]

/-- The product with a represented matrix is a sum over the stored entries. -/
theorem mulVec_at [CommRing R] (A : Sp R) (hA : A.WF) (v : Nat → R) (i : Nat) :
    mulVec A.cols A.at v i = rowDot (A.row i) v :=
  sum_atL A.cols A.ents i v fun e he => (hA e he).2

theorem at_of_not_mem [AddCommMonoid R] (A : Sp R) (i j : Nat)
    (h : ∀ e ∈ A.ents, ¬ (e.1 = i ∧ e.2.1 = j)) : A.at i j = 0 := by
  unfold Sp.at
  rw [List.filter_eq_nil_iff.mpr (by simpa using h)]
  rfl

/-! ### The loop -/

theorem foldlM_range'_get {α β : Type} (l : List α) (f : β → α → Option β) :
    ∀ (seg : List α) (lo : Nat) (b : β), (∃ rest, l.drop lo = seg ++ rest) →
      (List.range' lo seg.length).foldlM (fun b j => (l[j]?).bind fun x => f b x) b
        = seg.foldlM f b := by
  intro seg
  induction seg with
  | nil => intro lo b _; rfl
  | cons x seg ih =>
    rintro lo b ⟨rest, hr⟩
    have hx : l[lo]? = some x := by
      have := congrArg (fun t => t[0]?) hr
      simpa using this
    have hr' : ∃ rest, l.drop (lo + 1) = seg ++ rest := by
      refine ⟨rest, ?_⟩
      rw [← List.drop_drop, hr]; rfl
    rw [List.length_cons, List.range'_succ, List.foldlM_cons, hx]
    simp only [Option.bind_some, List.foldlM_cons]
    cases hf : f b x with
    | none => rfl
    | some b' => exact ih (lo + 1) b' hr'

theorem inner_loop [CommRing R] (i : Nat) (params : List R) :
    ∀ (seg : List (Nat × Nat × R)) (out : List R) (o : R), out[i]? = some o →
      (∀ e ∈ seg, e.2.1 < params.length) →
      seg.foldlM (fun (out : List R) e => (params[e.2.1]?).bind fun v => (out[i]?).bind fun o =>
          store out i (o + e.2.2 * v)) out
        = some (out.set i (o + rowDot seg (fn params))) := by
  intro seg
  induction seg with
  | nil =>
    intro out o ho _
    have hi : i < out.length := by
      by_contra hc
      rw [List.getElem?_eq_none (by omega)] at ho; cases ho
    have : out.set i (o + rowDot [] (fn params)) = out := by
      rw [rowDot, List.map_nil, List.sum_nil, add_zero]
      apply List.ext_getElem?
      intro k
      by_cases hk : k = i
      · subst hk; rw [List.getElem?_set_self hi, ho]
      · rw [List.getElem?_set_ne (Ne.symm hk)]
    rw [List.foldlM_nil, this]; rfl
  | cons e seg ih =>
    intro out o ho hb
    have hi : i < out.length := by
      by_contra hc
      rw [List.getElem?_eq_none (by omega)] at ho; cases ho
    have hv : params[e.2.1]? = some (fn params e.2.1) := by
      have := hb e (by simp)
      simp [fn, List.getD, List.getElem?_eq_getElem this]
    rw [List.foldlM_cons, hv, ho]
    have hst : ∀ w, store out i w = some (out.set i w) := fun w => by simp [store, hi]
    simp only [Option.bind_some, hst, bind]
    rw [ih (out.set i (o + e.2.2 * fn params e.2.1)) (o + e.2.2 * fn params e.2.1)
      (by rw [List.getElem?_set_self hi]) (fun e' he' => hb e' (by simp [he']))]
    rw [List.set_set]
    simp only [rowDot, List.map_cons, List.sum_cons, add_assoc]

theorem flatMap_range_split {α : Type} (f : Nat → List α) (i n : Nat) (h : i < n) :
    ∃ rest, (List.range n).flatMap f = (List.range i).flatMap f ++ (f i ++ rest) := by
  obtain ⟨d, rfl⟩ : ∃ d, n = i + 1 + d := ⟨n - (i + 1), by omega⟩
  rw [List.range_add, List.range_succ]
  simp only [List.flatMap_append, List.flatMap_cons, List.flatMap_nil, List.append_nil,
    List.append_assoc]
  exact ⟨_, rfl⟩

theorem length_flatMap_range {α : Type} (f : Nat → List α) (i : Nat) :
    ((List.range i).flatMap f).length = ((List.range i).map fun k => (f k).length).sum := by
  rw [List.length_flatMap]

theorem csr_segment (A : Sp R) (i : Nat) (h : i < A.rows) :
    ∃ rest, ((List.range A.rows).flatMap A.row).drop
      (((List.range i).map fun k => (A.row k).length).sum) = A.row i ++ rest := by
  obtain ⟨rest, hr⟩ := flatMap_range_split A.row i A.rows h
  refine ⟨rest, ?_⟩
  rw [hr, ← length_flatMap_range, List.drop_left]

theorem csr_indptr (A : Sp R) (i : Nat) (h : i ≤ A.rows) :
    A.toCsr.indptr[i]? = some (((List.range i).map fun k => (A.row k).length).sum) := by
  simp [Sp.toCsr, Nat.lt_succ_of_le h]

/-- The generated loop on the CSR storage computes the matrix–vector product and touches nothing
else. -/
theorem canonicalizeC_ok [CommRing R] (A : Sp R) (hA : A.WF) (params out : List R)
    (hp : A.cols ≤ params.length) (ho : A.rows ≤ out.length) :
    ∃ out', canonicalizeC A.rows A.toCsr params out = some out' ∧ out'.length = out.length ∧
      (∀ i < A.rows, out'[i]? = some (mulVec A.cols A.at (fn params) i)) ∧
      (∀ i, A.rows ≤ i → out'[i]? = out[i]?) := by
  unfold canonicalizeC
  suffices h : ∀ k, k ≤ A.rows → ∃ out', (List.range k).foldlM (init := out) (fun out i => do
      let out ← store out i 0
      let lo ← A.toCsr.indptr[i]?
      let hi ← A.toCsr.indptr[i + 1]?
      (List.range' lo (hi - lo)).foldlM (init := out) fun out j => do
        let x ← A.toCsr.data[j]?
        let c ← A.toCsr.indices[j]?
        let v ← params[c]?
        let o ← out[i]?
        store out i (o + x * v)) = some out' ∧ out'.length = out.length ∧
      (∀ i < k, out'[i]? = some (mulVec A.cols A.at (fn params) i)) ∧
      (∀ i, k ≤ i → out'[i]? = out[i]?) from h A.rows (Nat.le_refl _)
  intro k
  induction k with
  | zero => intro _; exact ⟨out, rfl, rfl, by intro i hi; omega, fun _ _ => rfl⟩
  | succ k ih =>
    intro hk
    obtain ⟨out1, h1, h2, h3, h4⟩ := ih (by omega)
    rw [List.range_succ, List.foldlM_append, h1]
    have hklt : k < out1.length := by omega
    have hlo := csr_indptr A k (by omega)
    have hhi := csr_indptr A (k + 1) hk
    have hdiff : ((List.range (k + 1)).map fun k => (A.row k).length).sum
        - ((List.range k).map fun k => (A.row k).length).sum = (A.row k).length := by
      rw [List.range_succ, List.map_append, List.sum_append]; simp
    have hbody : ∀ (o : List R) (j : Nat), (do
        let x ← A.toCsr.data[j]?
        let c ← A.toCsr.indices[j]?
        let v ← params[c]?
        let ov ← o[k]?
        store o k (ov + x * v)) = (((List.range A.rows).flatMap A.row)[j]?).bind fun e =>
          (params[e.2.1]?).bind fun v => (o[k]?).bind fun ov => store o k (ov + e.2.2 * v) := by
      intro o j
      simp only [Sp.toCsr, List.getElem?_map, bind]
      cases ((List.range A.rows).flatMap A.row)[j]? with
      | none => rfl
      | some e => rfl
    have hrow : ∀ e ∈ A.row k, e.2.1 < params.length := by
      intro e he
      have := (hA e (List.mem_of_mem_filter he)).2
      omega
    have hin := inner_loop k params (A.row k) (out1.set k 0) 0 (by rw [List.getElem?_set_self hklt]) hrow
    have hfold := foldlM_range'_get ((List.range A.rows).flatMap A.row)
      (fun (o : List R) e => (params[e.2.1]?).bind fun v => (o[k]?).bind fun ov =>
          store o k (ov + e.2.2 * v)) (A.row k)
      (((List.range k).map fun k => (A.row k).length).sum) (out1.set k 0) (csr_segment A k (by omega))
    refine ⟨out1.set k (rowDot (A.row k) (fn params)), ?_, by simp [h2], ?_, ?_⟩
    · simp only [bind, Option.bind_some, List.foldlM_cons, List.foldlM_nil, store, hklt, if_true,
        hlo, hhi, hdiff]
      simp only [bind, store] at hbody
      simp only [hbody]
      simp only [store] at hfold hin
      rw [hfold, hin, List.set_set, zero_add]
      rfl
    · intro i hi
      by_cases hik : i = k
      · subst hik
        rw [List.getElem?_set_self hklt, mulVec_at A hA]
      · rw [List.getElem?_set_ne (Ne.symm hik)]
        exact h3 i (by omega)
    · intro i hi
      rw [List.getElem?_set_ne (by omega)]
      exact h4 i (by omega)

/-- Valid compressed row storage with `rows` rows for a vector with `n` entries. -/
structure Csr.Valid (m : Csr R) (rows n : Nat) : Prop where
  len : m.indptr.length = rows + 1
  mono : ∀ i < rows, m.indptr.getD i 0 ≤ m.indptr.getD (i + 1) 0
  last : ∀ i ≤ rows, m.indptr.getD i 0 ≤ m.data.length
  same : m.indices.length = m.data.length
  cols : ∀ c ∈ m.indices, c < n

theorem rowDot_segment [CommRing R] (idx : List Nat) (dat : List R) (v : Nat → R)
    (hl : idx.length = dat.length) :
    ∀ (n lo : Nat), lo + n ≤ dat.length →
      rowDot (((List.zipWith (fun c x => (0, c, x)) idx dat).drop lo).take n) v
        = ∑ k ∈ Finset.Ico lo (lo + n), fn dat k * v (idx.getD k 0) := by
  intro n
  induction n with
  | zero => intro lo _; simp [rowDot]
  | succ n ih =>
    intro lo hlo
    have h1 : lo < dat.length := by omega
    have h2 : lo < idx.length := by omega
    have hz : lo < (List.zipWith (fun c x => ((0 : Nat), c, x)) idx dat).length := by
      simp [hl, h1]
    rw [List.drop_eq_getElem_cons hz, List.take_succ_cons]
    have ih' := ih (lo + 1) (by omega)
    have hIco : ∑ k ∈ Finset.Ico lo (lo + (n + 1)), fn dat k * v (idx.getD k 0)
        = fn dat lo * v (idx.getD lo 0)
          + ∑ k ∈ Finset.Ico (lo + 1) (lo + 1 + n), fn dat k * v (idx.getD k 0) := by
      rw [Finset.sum_eq_sum_Ico_succ_bot (by omega)]
      congr 2
      congr 1
      omega
    rw [hIco, ← ih']
    simp only [rowDot, List.map_cons, List.sum_cons, List.getElem_zipWith, fn, List.getD,
      List.getElem?_eq_getElem h1, List.getElem?_eq_getElem h2, Option.getD_some]

/-- The generated loop on any valid compressed storage. -/
theorem canonicalizeC_csr [CommRing R] (m : Csr R) (rows : Nat) (params out : List R)
    (hm : Csr.Valid m rows params.length) (ho : rows ≤ out.length) :
    ∃ out', canonicalizeC rows m params out = some out' ∧ out'.length = out.length ∧
      (∀ i < rows, out'[i]? = some (∑ k ∈ Finset.Ico (m.indptr.getD i 0) (m.indptr.getD (i + 1) 0),
        fn m.data k * fn params (m.indices.getD k 0))) ∧
      (∀ i, rows ≤ i → out'[i]? = out[i]?) := by
  unfold canonicalizeC
  suffices h : ∀ k, k ≤ rows → ∃ out', (List.range k).foldlM (init := out) (fun out i => do
      let out ← store out i 0
      let lo ← m.indptr[i]?
      let hi ← m.indptr[i + 1]?
      (List.range' lo (hi - lo)).foldlM (init := out) fun out j => do
        let x ← m.data[j]?
        let c ← m.indices[j]?
        let v ← params[c]?
        let o ← out[i]?
        store out i (o + x * v)) = some out' ∧ out'.length = out.length ∧
      (∀ i < k, out'[i]? = some (∑ k ∈ Finset.Ico (m.indptr.getD i 0) (m.indptr.getD (i + 1) 0),
        fn m.data k * fn params (m.indices.getD k 0))) ∧
      (∀ i, k ≤ i → out'[i]? = out[i]?) from h rows (Nat.le_refl _)
  intro k
  induction k with
  | zero => intro _; exact ⟨out, rfl, rfl, by intro i hi; omega, fun _ _ => rfl⟩
  | succ k ih =>
    intro hk
    obtain ⟨out1, h1, h2, h3, h4⟩ := ih (by omega)
    rw [List.range_succ, List.foldlM_append, h1]
    have hklt : k < out1.length := by omega
    have hget : ∀ i ≤ rows, m.indptr[i]? = some (m.indptr.getD i 0) := by
      intro i hi
      have : i < m.indptr.length := by rw [hm.len]; omega
      simp [List.getD, List.getElem?_eq_getElem this]
    have hlo := hget k (by omega)
    have hhi := hget (k + 1) hk
    have hmono := hm.mono k (by omega)
    have hlast := hm.last (k + 1) hk
    generalize m.indptr.getD k 0 = lo at hlo hmono
    generalize m.indptr.getD (k + 1) 0 = hi at hhi hmono hlast
    let all := List.zipWith (fun c x => ((0 : Nat), c, x)) m.indices m.data
    have hall : all.length = m.data.length := by simp [all, hm.same]
    have hseglen : ((all.drop lo).take (hi - lo)).length = hi - lo := by
      rw [List.length_take, List.length_drop]; omega
    have hbody : ∀ (o : List R) (j : Nat), (do
        let x ← m.data[j]?
        let c ← m.indices[j]?
        let v ← params[c]?
        let ov ← o[k]?
        store o k (ov + x * v)) = (all[j]?).bind fun e =>
          (params[e.2.1]?).bind fun v => (o[k]?).bind fun ov => store o k (ov + e.2.2 * v) := by
      intro o j
      simp only [all, List.getElem?_zipWith, bind]
      by_cases hj : j < m.data.length
      · rw [List.getElem?_eq_getElem hj, List.getElem?_eq_getElem (by rw [hm.same]; exact hj)]
        rfl
      · rw [List.getElem?_eq_none (by omega), List.getElem?_eq_none (by rw [hm.same]; omega)]
        rfl
    have hrow : ∀ e ∈ (all.drop lo).take (hi - lo), e.2.1 < params.length := by
      intro e he
      have hmem : e ∈ all := List.mem_of_mem_drop (List.mem_of_mem_take he)
      obtain ⟨i, hi', rfl⟩ := List.getElem_of_mem hmem
      simp only [all, List.getElem_zipWith]
      exact hm.cols _ (List.getElem_mem _)
    have hin := inner_loop k params ((all.drop lo).take (hi - lo)) (out1.set k 0) 0
      (by rw [List.getElem?_set_self hklt]) hrow
    have hfold := foldlM_range'_get all
      (fun (o : List R) e => (params[e.2.1]?).bind fun v => (o[k]?).bind fun ov =>
          store o k (ov + e.2.2 * v)) ((all.drop lo).take (hi - lo)) lo (out1.set k 0)
      ⟨(all.drop lo).drop (hi - lo), (List.take_append_drop _ _).symm⟩
    rw [hseglen] at hfold
    have hdot := rowDot_segment m.indices m.data (fn params) hm.same (hi - lo) lo (by omega)
    refine ⟨out1.set k (rowDot ((all.drop lo).take (hi - lo)) (fn params)), ?_, by simp [h2], ?_, ?_⟩
    · simp only [bind, Option.bind_some, List.foldlM_cons, List.foldlM_nil, store, hklt, if_true,
        hlo, hhi]
      simp only [bind, store] at hbody
      simp only [hbody]
      simp only [store] at hfold hin
      rw [hfold, hin, List.set_set, zero_add]
      rfl
    · intro i hi'
      by_cases hik : i = k
      · subst hik
        rw [List.getElem?_set_self hklt]
        have e1 : m.indptr.getD i 0 = lo := by simp [List.getD, hlo]
        have e2 : m.indptr.getD (i + 1) 0 = hi := by simp [List.getD, hhi]
        rw [e1, e2, hdot, Nat.add_sub_of_le hmono]
      · rw [List.getElem?_set_ne (Ne.symm hik)]
        exact h3 i (by omega)
    · intro i hi'
      rw [List.getElem?_set_ne (by omega)]
      exact h4 i (by omega)

/-! ### Row selection and dense conversion -/

theorem ofDense_wf [Zero R] [DecidableEq R] (rows cols : Nat) (f : Nat → Nat → R) :
    (Sp.ofDense rows cols f).WF := by
  intro e he
  simp only [Sp.ofDense, List.mem_flatMap, List.mem_filterMap, List.mem_range] at he
  obtain ⟨j, hj, i, hi, h⟩ := he
  split at h
  · cases h
  · simp only [Option.some.injEq] at h; subst h; exact ⟨hi, hj⟩

theorem mem_ofDense [Zero R] [DecidableEq R] (rows cols : Nat) (f : Nat → Nat → R)
    (e : Nat × Nat × R) :
    e ∈ (Sp.ofDense rows cols f).ents ↔
      e.1 < rows ∧ e.2.1 < cols ∧ f e.1 e.2.1 ≠ 0 ∧ e.2.2 = f e.1 e.2.1 := by
  obtain ⟨i, j, v⟩ := e
  simp only [Sp.ofDense, List.mem_flatMap, List.mem_filterMap, List.mem_range]
  constructor
  · rintro ⟨j', hj, i', hi, h⟩
    split at h
    · cases h
    · rename_i hne
      simp only [Option.some.injEq, Prod.mk.injEq] at h
      obtain ⟨rfl, rfl, rfl⟩ := h
      exact ⟨hi, hj, hne, rfl⟩
  · rintro ⟨hi, hj, hne, hv⟩
    refine ⟨j, hj, i, hi, ?_⟩
    rw [if_neg hne, hv]

theorem ofDense_at [AddCommMonoid R] [DecidableEq R] (rows cols : Nat) (f : Nat → Nat → R) (i j : Nat)
    (hi : i < rows) (hj : j < cols) : (Sp.ofDense rows cols f).at i j = f i j := by
  unfold Sp.at Sp.ofDense
  simp only [List.filter_flatMap, List.map_flatMap]
  have hinner : ∀ j', ((((List.range rows).filterMap fun i' =>
      if f i' j' = 0 then none else some (i', j', f i' j')).filter
        fun e => decide (e.1 = i ∧ e.2.1 = j)).map fun e => e.2.2).sum
      = if j' = j then f i j else 0 := by
    intro j'
    have h2 : ∀ n, ((((List.range n).filterMap fun i' =>
      if f i' j' = 0 then none else some (i', j', f i' j')).filter
        fun e => decide (e.1 = i ∧ e.2.1 = j)).map fun e => e.2.2).sum
        = if i < n ∧ j' = j then f i j else 0 := by
      intro n
      induction n with
      | zero => simp
      | succ n ih =>
        rw [List.range_succ, List.filterMap_append, List.filter_append, List.map_append,
          List.sum_append, ih]
        by_cases hin : n = i
        · subst hin
          by_cases hjj : j' = j
          · subst hjj
            by_cases hz : f n j' = 0 <;> simp [hz]
          · by_cases hz : f n j' = 0 <;> simp [hz, hjj]
        · have hlt : (i < n + 1 ∧ j' = j) ↔ (i < n ∧ j' = j) := by
            constructor <;> rintro ⟨a, b⟩ <;> exact ⟨by omega, b⟩
          simp only [hlt]
          by_cases hz : f n j' = 0 <;> simp [hz, hin]
    rw [h2 rows]
    by_cases hjj : j' = j <;> simp [hi, hjj]
  have houter : ∀ n, ((List.range n).flatMap fun j' => (((List.range rows).filterMap fun i' =>
      if f i' j' = 0 then none else some (i', j', f i' j')).filter
        fun e => decide (e.1 = i ∧ e.2.1 = j)).map fun e => e.2.2).sum = if j < n then f i j else 0 := by
    intro n
    induction n with
    | zero => simp
    | succ n ih =>
      rw [List.range_succ, List.flatMap_append, List.sum_append, ih, List.flatMap_singleton, hinner]
      by_cases hn : n = j
      · subst hn; simp
      · have : j < n + 1 ↔ j < n := by omega
        simp [hn, this]
  rw [houter cols, if_pos hj]

theorem selectRows_wf (A : Sp R) (hA : A.WF) (sel : List Nat) : (A.selectRows sel).WF := by
  intro e he
  simp only [Sp.selectRows, List.mem_flatMap, List.mem_range, List.mem_map, List.mem_filter] at he
  obtain ⟨k, hk, e', ⟨he', _⟩, rfl⟩ := he
  exact ⟨hk, (hA e' he').2⟩

theorem selectRows_at [AddCommMonoid R] (A : Sp R) (sel : List Nat) (k : Nat) (hk : k < sel.length)
    (j : Nat) : (A.selectRows sel).at k j = A.at (sel.getD k 0) j := by
  unfold Sp.at Sp.selectRows
  simp only [List.filter_flatMap, List.map_flatMap]
  have hsel : sel[k]? = some (sel.getD k 0) := by simp [List.getD, List.getElem?_eq_getElem hk]
  have hone : ∀ k', ((((A.ents.filter fun e => decide (sel[k']? = some e.1)).map
      fun e => (k', e.2.1, e.2.2)).filter fun e => decide (e.1 = k ∧ e.2.1 = j)).map fun e => e.2.2).sum
      = if k' = k then ((A.ents.filter fun e => decide (e.1 = sel.getD k 0 ∧ e.2.1 = j)).map
          fun e => e.2.2).sum else 0 := by
    intro k'
    by_cases h : k' = k
    · subst h
      rw [if_pos rfl, List.filter_map, List.map_map]
      simp only [Function.comp_def, List.filter_filter, hsel, Option.some.injEq]
      congr 2
      apply List.filter_congr
      intro e _
      simp only [true_and]
      rw [Bool.and_comm, Bool.decide_and]
      congr 1
      exact decide_eq_decide.mpr eq_comm
    · rw [if_neg h, List.filter_map]
      simp [Function.comp_def, h]
  have houter : ∀ n, ((List.range n).flatMap fun k' => (((A.ents.filter fun e => decide (sel[k']? = some e.1)).map
      fun e => (k', e.2.1, e.2.2)).filter fun e => decide (e.1 = k ∧ e.2.1 = j)).map fun e => e.2.2).sum
      = if k < n then ((A.ents.filter fun e => decide (e.1 = sel.getD k 0 ∧ e.2.1 = j)).map
          fun e => e.2.2).sum else 0 := by
    intro n
    induction n with
    | zero => simp
    | succ n ih =>
      rw [List.range_succ, List.flatMap_append, List.sum_append, ih, List.flatMap_singleton, hone]
      by_cases hn : n = k
      · subst hn; simp
      · have : k < n + 1 ↔ k < n := by omega
        simp [hn, this]
  rw [houter, if_pos hk]

end Verif.Lemmas
