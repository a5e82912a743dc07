import Verif.Model.Defaults
import Verif.Spec.Canonical
import Verif.Lemmas.Canon
/-!
Helper lemmas on compressed-column storage.
-/
namespace Verif.Lemmas
open Verif.Model Verif.Spec Finset

/-! ### Compressing a range -/

theorem countP_range_filter (p : Nat → Bool) (N a : Nat) (h : a ≤ N) :
    ((List.range N).filter p).countP (fun r => decide (r < a)) = ((List.range a).filter p).length := by
  obtain ⟨d, rfl⟩ : ∃ d, N = a + d := ⟨N - a, by omega⟩
  rw [List.range_add, List.filter_append, List.countP_append]
  have h1 : ((List.range a).filter p).countP (fun r => decide (r < a))
      = ((List.range a).filter p).length := by
    rw [List.countP_eq_length]
    intro r hr
    simpa using List.mem_range.mp (List.mem_filter.mp hr).1
  have h2 : (((List.range d).map (a + ·)).filter p).countP (fun r => decide (r < a)) = 0 := by
    rw [List.countP_eq_zero]
    intro r hr
    obtain ⟨k, _, rfl⟩ := List.mem_map.mp (List.mem_filter.mp hr).1
    simp
  omega

theorem filter_range_get (p : Nat → Bool) (N b : Nat) (h : b < N) (hb : p b = true) :
    ((List.range N).filter p).getD (((List.range b).filter p).length) 0 = b := by
  obtain ⟨d, rfl⟩ : ∃ d, N = b + 1 + d := ⟨N - (b + 1), by omega⟩
  rw [List.range_add, List.range_succ, List.filter_append, List.filter_append]
  simp [hb]

theorem sum_compress {R : Type} [AddCommMonoid R] (p : Nat → Bool) (N : Nat) (F : Nat → R) (a b : Nat)
    (hab : a ≤ b) (hb : b ≤ N) :
    ∑ k ∈ Ico (((List.range N).filter p).countP fun r => decide (r < a))
        (((List.range N).filter p).countP fun r => decide (r < b)),
      F (((List.range N).filter p).getD k 0)
    = ∑ r ∈ Ico a b, if p r then F r else 0 := by
  rw [countP_range_filter p N a (by omega), countP_range_filter p N b hb]
  induction b, hab using Nat.le_induction with
  | base => simp
  | succ b hab ih =>
    have ih := ih (by omega)
    rw [Finset.sum_Ico_succ_top hab, ← ih]
    have hmono : ((List.range a).filter p).length ≤ ((List.range b).filter p).length := by
      obtain ⟨d, rfl⟩ : ∃ d, b = a + d := ⟨b - a, by omega⟩
      rw [List.range_add, List.filter_append, List.length_append]; omega
    rw [List.range_succ, List.filter_append, List.length_append]
    by_cases hp : p b = true
    · simp only [hp, if_true]
      rw [show (List.filter p [b]).length = 1 by simp [hp], Finset.sum_Ico_succ_top hmono,
        filter_range_get p N b (by omega) hp]
    · simp [hp]

/-! ### Column pointers -/

structure PtrOK (ptr : List Nat) (n N : Nat) : Prop where
  len : ptr.length = n + 1
  zero : nfn ptr 0 = 0
  mono : ∀ c < n, nfn ptr c ≤ nfn ptr (c + 1)
  last : nfn ptr n = N

theorem PtrOK.le {ptr : List Nat} {n N : Nat} (h : PtrOK ptr n N) {a b : Nat} (hab : a ≤ b)
    (hb : b ≤ n) : nfn ptr a ≤ nfn ptr b := by
  induction b, hab using Nat.le_induction with
  | base => exact Nat.le_refl _
  | succ b _ ih => exact (ih (by omega)).trans (h.mono b (by omega))

theorem bumpFrom_get (l : List Nat) (c k : Nat) (hk : k < l.length) :
    nfn (bumpFrom l c) k = nfn l k + if c + 1 ≤ k then 1 else 0 := by
  unfold bumpFrom nfn
  simp only [List.getD, List.getElem?_mapIdx, List.getElem?_eq_getElem hk, Option.map_some,
    Option.getD_some]
  split <;> rfl

theorem bumpFrom_length (l : List Nat) (c : Nat) : (bumpFrom l c).length = l.length := by
  simp [bumpFrom]

theorem exists_col {ptr : List Nat} {n N : Nat} (h : PtrOK ptr n N) (r : Nat) (hr : r < N) :
    ∃ c < n, nfn ptr c ≤ r ∧ r < nfn ptr (c + 1) := by
  have key : ∀ k ≤ n, r < nfn ptr k → ∃ c < k, nfn ptr c ≤ r ∧ r < nfn ptr (c + 1) := by
    intro k
    induction k with
    | zero => intro _ h0; rw [h.zero] at h0; omega
    | succ k ih =>
      intro hk h1
      by_cases h2 : r < nfn ptr k
      · obtain ⟨c, hc, h3⟩ := ih (by omega) h2; exact ⟨c, by omega, h3⟩
      · exact ⟨k, by omega, by omega, h1⟩
  exact key n (Nat.le_refl _) (by rw [h.last]; exact hr)

theorem placeRow_get {ptr : List Nat} {n N : Nat} (h : PtrOK ptr n N) (acc : List Nat)
    (hacc : acc.length = n + 1) (r : Nat) (hr : r < N) :
    (placeRow ptr n acc r).length = n + 1 ∧
    ∀ c ≤ n, nfn (placeRow ptr n acc r) c = nfn acc c + if r < nfn ptr c then 1 else 0 := by
  unfold placeRow
  cases hf : (List.range n).find? fun c =>
      decide (ptr.getD c 0 ≤ r) && decide (r < ptr.getD (c + 1) 0) with
  | none =>
    exfalso
    obtain ⟨c, hc, h1, h2⟩ := exists_col h r hr
    have := List.find?_eq_none.mp hf c (List.mem_range.mpr hc)
    unfold nfn at h1 h2
    rw [decide_eq_true h1, decide_eq_true h2] at this
    exact this rfl
  | some c0 =>
    have hmem := List.mem_range.mp (List.mem_of_find?_eq_some hf)
    have hp := List.find?_some hf
    simp only [Bool.and_eq_true, decide_eq_true_eq] at hp
    refine ⟨by rw [bumpFrom_length, hacc], ?_⟩
    intro c hc
    simp only []
    rw [bumpFrom_get _ _ _ (by omega)]
    congr 1
    by_cases hcc : c0 + 1 ≤ c
    · have h1 := h.le hcc hc
      have h2 : r < nfn ptr c := lt_of_lt_of_le hp.2 h1
      rw [if_pos hcc, if_pos h2]
    · have h1 := h.le (show c ≤ c0 by omega) (by omega)
      have h2 : ¬ r < nfn ptr c := by
        have := hp.1
        unfold nfn at h1 ⊢
        omega
      rw [if_neg hcc, if_neg h2]

theorem countPtr_get {ptr : List Nat} {n N : Nat} (h : PtrOK ptr n N) (rows : List Nat)
    (hr : ∀ r ∈ rows, r < N) :
    (countPtr ptr n rows).length = n + 1 ∧
    ∀ c ≤ n, nfn (countPtr ptr n rows) c = rows.countP fun r => decide (r < nfn ptr c) := by
  have key : ∀ (rows : List Nat) (acc : List Nat), (∀ r ∈ rows, r < N) → acc.length = n + 1 →
      (rows.foldl (placeRow ptr n) acc).length = n + 1 ∧
      ∀ c ≤ n, nfn (rows.foldl (placeRow ptr n) acc) c
        = nfn acc c + rows.countP fun r => decide (r < nfn ptr c) := by
    intro rows
    induction rows with
    | nil => intro acc _ ha; exact ⟨ha, fun c _ => by simp⟩
    | cons r rows ih =>
      intro acc hr ha
      obtain ⟨h1, h2⟩ := placeRow_get h acc ha r (hr r (by simp))
      obtain ⟨h3, h4⟩ := ih _ (fun r' hr' => hr r' (by simp [hr'])) h1
      refine ⟨h3, fun c hc => ?_⟩
      rw [List.foldl_cons, h4 c hc, h2 c hc, List.countP_cons]
      by_cases hlt : r < nfn ptr c <;> simp [hlt] <;> omega
  obtain ⟨h1, h2⟩ := key rows (ptr.map fun _ => 0) hr (by simp [h.len])
  refine ⟨h1, fun c hc => ?_⟩
  unfold countPtr
  rw [h2 c hc]
  have : nfn (ptr.map fun _ => 0) c = 0 := by
    unfold nfn
    simp only [List.getD, List.getElem?_map]
    cases ptr[c]? <;> rfl
  omega

/-- Counting a sorted selection gives valid column pointers again. -/
theorem countPtr_ok {ptr : List Nat} {n N : Nat} (h : PtrOK ptr n N) (rows : List Nat)
    (hr : ∀ r ∈ rows, r < N) : PtrOK (countPtr ptr n rows) n rows.length := by
  obtain ⟨h1, h2⟩ := countPtr_get h rows hr
  refine ⟨h1, ?_, ?_, ?_⟩
  · rw [h2 0 (by omega), h.zero]; simp
  · intro c hc
    rw [h2 c (by omega), h2 (c + 1) (by omega)]
    apply List.countP_mono_left
    intro r _ hlt
    have := h.mono c hc
    simp only [decide_eq_true_eq] at hlt ⊢
    omega
  · rw [h2 n (Nat.le_refl _), h.last, List.countP_eq_length]
    intro r hr'; simpa using hr r hr'

/-- Compressed storage restricted to a selection. -/
theorem csc_compress {R : Type} [AddCommMonoid R] {ptr : List Nat} {n N : Nat} (h : PtrOK ptr n N)
    (p : Nat → Bool) (idx : Nat → Nat) (dat : Nat → R) (i c : Nat) (hc : c < n) :
    csc (nfn (countPtr ptr n ((List.range N).filter p)))
      (fun k => idx (((List.range N).filter p).getD k 0))
      (fun k => dat (((List.range N).filter p).getD k 0)) i c
    = ∑ r ∈ Ico (nfn ptr c) (nfn ptr (c + 1)), if p r then (if idx r = i then dat r else 0) else 0 := by
  obtain ⟨h1, h2⟩ := countPtr_get h ((List.range N).filter p)
    (fun r hr => List.mem_range.mp (List.mem_filter.mp hr).1)
  unfold csc
  rw [h2 c (by omega), h2 (c + 1) (by omega)]
  exact sum_compress p N (fun r => if idx r = i then dat r else 0) _ _ (h.mono c hc)
    (by have := h.le (show c + 1 ≤ n by omega) (Nat.le_refl _); rw [h.last] at this; exact this)

theorem csc_congr {R : Type} [AddCommMonoid R] {ptr : Nat → Nat} {idx idx' : Nat → Nat}
    {dat dat' : Nat → R} {i c : Nat}
    (h : ∀ k, ptr c ≤ k → k < ptr (c + 1) → idx k = idx' k ∧ dat k = dat' k) :
    csc ptr idx dat i c = csc ptr idx' dat' i c := by
  unfold csc
  apply sum_congr rfl
  intro k hk
  rw [mem_Ico] at hk
  rw [(h k hk.1 hk.2).1, (h k hk.1 hk.2).2]

/-! ### The stored matrix -/

section
variable {R : Type} [CommRing R] [DecidableEq R]

theorem mem_nonzeroRows_ofDense (rows cols : Nat) (f : Nat → Nat → R) (r : Nat) :
    r ∈ nonzeroRows (Sp.ofDense rows cols f) ↔ r < rows ∧ ∃ j < cols, f r j ≠ 0 := by
  unfold nonzeroRows
  rw [List.mem_filter, List.mem_range]
  simp only [List.any_eq_true, decide_eq_true_eq]
  constructor
  · rintro ⟨hr, e, he, h1, h2⟩
    obtain ⟨_, h4, h5, h6⟩ := (mem_ofDense rows cols f e).mp he
    rw [h1] at h5
    exact ⟨hr, e.2.1, h4, h5⟩
  · rintro ⟨hr, j, hj, h⟩
    exact ⟨hr, (r, j, f r j), (mem_ofDense rows cols f _).mpr ⟨hr, hj, h, rfl⟩, rfl, h⟩

/-- The matrix stored by the generated code, recomputed at run time, is the matrix of all data. -/
theorem stored_eq (m : RawMap R) (indices indptr : List Nat) (n : Nat)
    (hp : PtrOK indptr n m.mapping.rows) (θ : List R) (hc : m.mapping.cols = θ.length + 1)
    (v : List R) (hv : canonVal (some m) true θ = some v) (i c : Nat) (hcn : c < n) :
    csc (nfn (uspIdx indices indptr n (nonzeroRows m.signed)).indptr)
        (nfn (uspIdx indices indptr n (nonzeroRows m.signed)).indices) (fn v) i c
      = csc (nfn indptr) (nfn indices)
          (fun r => m.sign r * mulVec m.mapping.cols m.mapping.at (fn (θ ++ [1])) r) i c := by
  rw [canonVal_eq m true θ hc] at hv
  cases hv
  let D : Nat → R := fun r => m.sign r * mulVec m.mapping.cols m.mapping.at (fn (θ ++ [1])) r
  let p : Nat → Bool := fun i => m.signed.ents.any fun e => decide (e.1 = i ∧ e.2.2 ≠ 0)
  have hnz : nonzeroRows m.signed = (List.range m.mapping.rows).filter p := rfl
  have hrows : (m.final true).rows = (nonzeroRows m.signed).length := rfl
  have hlen : nfn (uspIdx indices indptr n (nonzeroRows m.signed)).indptr (c + 1)
      ≤ (nonzeroRows m.signed).length := by
    have h1 := countPtr_ok hp (nonzeroRows m.signed) (nonzeroRows_lt m.signed)
    have h2 := h1.le (show c + 1 ≤ n by omega) (Nat.le_refl _)
    rw [h1.last] at h2
    exact h2
  have e1 : csc (nfn (uspIdx indices indptr n (nonzeroRows m.signed)).indptr)
        (nfn (uspIdx indices indptr n (nonzeroRows m.signed)).indices)
        (fn ((List.range (m.final true).rows).map fun i =>
          mulVec m.mapping.cols (m.final true).at (fn (θ ++ [1])) i)) i c
      = csc (nfn (countPtr indptr n ((List.range m.mapping.rows).filter p)))
        (fun k => nfn indices (((List.range m.mapping.rows).filter p).getD k 0))
        (fun k => D (((List.range m.mapping.rows).filter p).getD k 0)) i c := by
    apply csc_congr
    intro k _ hk
    have hk' : k < (nonzeroRows m.signed).length := by omega
    constructor
    · simp only [uspIdx, nfn]
      rw [← hnz]
      simp [List.getD, List.getElem?_eq_getElem hk']
    · rw [← hnz]
      unfold fn
      rw [List.getD_eq_getElem?_getD, List.getElem?_map, List.getElem?_range (by rw [hrows]; exact hk')]
      simp only [Option.map_some, Option.getD_some, D]
      unfold mulVec
      rw [mul_sum]
      apply sum_congr rfl
      intro j hj
      rw [final_at m true k j (by rw [hrows]; exact hk') (by simpa using hj)]
      simp only [srcRow, if_true, fn]
      ring
  rw [e1, csc_compress hp p (nfn indices) D i c hcn]
  unfold csc
  apply sum_congr rfl
  intro r hr
  rw [mem_Ico] at hr
  by_cases hpr : p r = true
  · rw [if_pos hpr]
  · rw [if_neg hpr]
    have hrN : r < m.mapping.rows := by
      have := hp.le (show c + 1 ≤ n by omega) (Nat.le_refl _)
      rw [hp.last] at this; omega
    have hnot : r ∉ nonzeroRows m.signed := by
      rw [hnz, List.mem_filter]; tauto
    unfold RawMap.signed at hnot
    rw [mem_nonzeroRows_ofDense] at hnot
    have hz : ∀ j < m.mapping.cols, m.mapping.at r j * m.sign r = 0 := by
      intro j hj
      by_contra hne
      exact hnot ⟨hrN, j, hj, hne⟩
    have : D r = 0 := by
      simp only [D, mulVec]
      rw [mul_sum]
      apply sum_eq_zero
      intro j hj
      have := hz j (by simpa using hj)
      calc m.sign r * (m.mapping.at r j * fn (θ ++ [1]) j)
          = (m.mapping.at r j * m.sign r) * fn (θ ++ [1]) j := by ring
        _ = 0 := by rw [this, zero_mul]
    change (0 : R) = if nfn indices r = i then D r else 0
    rw [this, ite_self]

end

end Verif.Lemmas
