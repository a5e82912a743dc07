import Verif.Lemmas.Constr
import Mathlib.Algebra.Order.Group.Defs
import Mathlib.Algebra.Order.Ring.Defs
import Mathlib.Tactic.Linarith
import Mathlib.Tactic.LinearCombination
/-!
C09–C14: the stored canonical data mean the CVXPY problem, for every parameter value.
-/
namespace Verif.Props
open Verif.Model Verif.Spec Verif.Lemmas Finset

variable {R : Type} [CommRing R] [DecidableEq R]

/-! ### Examples used below: two variables, one equality, two inequalities, one parameter `t`

`[A b]` has rows `(1, t | -1)`, `(t, 0 | 2)`, `(0, -1 | t)`; the last datum of column 1, at row 1, is
identically zero (an all-zero map row). -/
def exD : ConstrData ℤ where
  nVar := 2
  nEq := 1
  nIneq := 2
  indices := [0, 1, 0, 1, 2, 0, 1, 2]
  indptr := [0, 2, 5, 8]
  red := { rows := 8, cols := 2,
           ents := [(0, 1, 1), (1, 0, 1), (2, 0, 1), (4, 1, -1), (5, 1, -1), (6, 1, 2), (7, 0, 1)] }

theorem exD_wf : ConstrWF exD where
  len := rfl
  zero := rfl
  mono := by decide
  last := rfl
  range := by decide
  rows := rfl
  wf := by unfold Sp.WF; decide
  nodup := by
    have key : ∀ r < 8, ∀ r' < 8, 5 ≤ r → 5 ≤ r' → nfn exD.indices r = nfn exD.indices r' → r = r' := by
      decide
    intro r r' h1 h2 h3 h4
    exact key r h2 r' h4 h1 h3

/-- **C09.** Whatever the data map `m` (one row per stored datum, any sign), the compressed matrix
kept by the generated code — all-zero map rows dropped, column pointers recounted — filled with the
values recomputed at run time is, entry by entry, the matrix of *all* data at the current parameter
values `θ` (not only at generation time), and computing the values makes no invalid access. -/
theorem C09_stored_matrix_is_full_matrix (m : RawMap R) (indices indptr : List Nat) (n : Nat)
    (hlen : indptr.length = n + 1) (hzero : nfn indptr 0 = 0)
    (hmono : ∀ c < n, nfn indptr c ≤ nfn indptr (c + 1)) (hlast : nfn indptr n = m.mapping.rows)
    (θ : List R) (hc : m.mapping.cols = θ.length + 1) :
    ∃ v, canonVal (some m) true θ = some v ∧
      v.length = (uspIdx indices indptr n (nonzeroRows m.signed)).indices.length ∧
      ∀ i, ∀ c < n,
        csc (nfn (uspIdx indices indptr n (nonzeroRows m.signed)).indptr)
            (nfn (uspIdx indices indptr n (nonzeroRows m.signed)).indices) (fn v) i c
          = csc (nfn indptr) (nfn indices)
              (fun r => m.sign r * mulVec m.mapping.cols m.mapping.at (fn (θ ++ [1])) r) i c := by
  refine ⟨_, canonVal_eq m true θ hc, ?_, fun i c hcn =>
    stored_eq m indices indptr n ⟨hlen, hzero, hmono, hlast⟩ θ hc _ (canonVal_eq m true θ hc) i c hcn⟩
  simp [uspIdx, RawMap.final, Sp.selectRows]

/-- The recounted column pointers are valid: they start at 0, increase, and end at the number of
stored values. -/
theorem C09_column_pointers_valid (m : RawMap R) (indices indptr : List Nat) (n : Nat)
    (hlen : indptr.length = n + 1) (hzero : nfn indptr 0 = 0)
    (hmono : ∀ c < n, nfn indptr c ≤ nfn indptr (c + 1)) (hlast : nfn indptr n = m.mapping.rows) :
    let s := uspIdx indices indptr n (nonzeroRows m.signed)
    s.indptr.length = n + 1 ∧ nfn s.indptr 0 = 0 ∧ (∀ c < n, nfn s.indptr c ≤ nfn s.indptr (c + 1)) ∧
      nfn s.indptr n = s.indices.length := by
  have h := countPtr_ok ⟨hlen, hzero, hmono, hlast⟩ (nonzeroRows m.signed) (nonzeroRows_lt m.signed)
  refine ⟨h.len, h.zero, h.mono, ?_⟩
  simp only [uspIdx, List.length_map]
  exact h.last

-- hypotheses met by a map with a dropped row; row 3 of the data disappears from the pattern
example : exD.qpMat.mapping.rows = nfn [0, 2, 5] 2 ∧
    exD.qpIdx = { indices := [0, 1, 0, 2], indptr := [0, 2, 4] } := by decide

/-- **C10.** With equality/inequality split (ECOS, QOCO), the two stored blocks on top of each other
are the negated constraint matrix, for every parameter value: row `i` of the first block is row `i`,
row `i` of the second block is row `nEq + i`. -/
theorem C10_split_blocks {d : ConstrData R} (h : ConstrWF d) (θ : List R)
    (hc : d.red.cols = θ.length + 1) :
    ∃ mA mG vA vG, d.conicMap .A = some mA ∧ d.conicMap .G = some mG ∧
      canonVal (some mA) true θ = some vA ∧ canonVal (some mG) true θ = some vG ∧
      (∀ i < d.nEq, ∀ c < d.nVar,
        csc (nfn (d.splitIdx .A mA).indptr) (nfn (d.splitIdx .A mA).indices) (fn vA) i c
          = - fullMat d θ i c) ∧
      (∀ i < d.nIneq, ∀ c < d.nVar,
        csc (nfn (d.splitIdx .G mG).indptr) (nfn (d.splitIdx .G mG).indices) (fn vG) i c
          = - fullMat d θ (d.nEq + i) c) :=
  ⟨_, _, _, _, rfl, rfl, canonVal_eq _ true θ hc, canonVal_eq _ true θ hc,
    fun i hi c hcn => A_value h θ _ hc _ rfl (canonVal_eq _ true θ hc) i c hi hcn,
    fun i _ c hcn => G_value h θ _ hc _ rfl (canonVal_eq _ true θ hc) i c hcn⟩

/-- All row indices stored in the blocks are inside the blocks. -/
theorem C10_block_indices_in_range {d : ConstrData R} (h : ConstrWF d) (mA mG : RawMap R)
    (hA : d.conicMap .A = some mA) (hG : d.conicMap .G = some mG) :
    (∀ i ∈ (d.splitIdx .A mA).indices, i < d.nEq) ∧ (∀ i ∈ (d.splitIdx .G mG).indices, i < d.nIneq) := by
  cases hA; cases hG
  have hlen := nMat_le h
  constructor
  · intro i hi
    simp only [ConstrData.splitIdx, uspIdx, List.mem_map] at hi
    obtain ⟨k, hk, rfl⟩ := hi
    have hk' : k < (d.rowsOf .A).length := nonzeroRows_lt _ k hk
    have hm : (d.rowsOf .A)[k] ∈ d.rowsOf .A := List.getElem_mem _
    generalize hr : (d.rowsOf .A)[k] = r at hm
    rw [rowsOf_A h] at hm
    have h2 := (List.mem_filter.mp hm).2
    simp only [decide_eq_true_eq] at h2
    simp only [ConstrData.indicesOf, List.getD, List.getElem?_map, List.getElem?_eq_getElem hk',
      Option.map_some, Option.getD_some, hr]
    exact h2
  · intro i hi
    simp only [ConstrData.splitIdx, uspIdx, List.mem_map] at hi
    obtain ⟨k, hk, rfl⟩ := hi
    have hk' : k < (d.rowsOf .G).length := nonzeroRows_lt _ k hk
    have hm : (d.rowsOf .G)[k] ∈ d.rowsOf .G := List.getElem_mem _
    generalize hr : (d.rowsOf .G)[k] = r at hm
    rw [rowsOf_G h] at hm
    have h1 := List.mem_range.mp (List.mem_filter.mp hm).1
    have h2 := (List.mem_filter.mp hm).2
    have h3 := h.range r (by omega)
    simp only [decide_eq_true_eq] at h2
    simp only [ConstrData.indicesOf, List.getD, List.getElem?_map, List.getElem?_eq_getElem hk',
      Option.map_some, Option.getD_some, hr]
    unfold nfn at h2 h3
    simp only [List.getD] at h2 h3
    omega

example : ConstrWF exD ∧ exD.red.cols = ([3] : List ℤ).length + 1 ∧ exD.nEq = 1 ∧ exD.nIneq = 2 ∧
    fullMat exD [3] 1 0 = 3 := ⟨exD_wf, rfl, rfl, rfl, by decide⟩

/-! ### QP form -/

/-- **C11.** For every parameter value `θ` and every point `x`: `l ≤ A x ≤ u` for the data produced
by the generated canonicalization (OSQP and explicit mode) holds iff the equality rows of CVXPY's
canonical form vanish at `x` and its inequality rows are nonnegative. -/
theorem C11_qp_form [LinearOrder R] [IsStrictOrderedRing R] {d : ConstrData R} (h : ConstrWF d)
    (θ : List R) (hc : d.red.cols = θ.length + 1) :
    ∃ A l u, canonVal (some d.qpMat) true θ = some A ∧ canonVal (some d.qpL) false θ = some l ∧
      canonVal (some d.qpU) false θ = some u ∧
      (augmentL d.nIneq l).length = d.nEq + d.nIneq ∧ u.length = d.nEq + d.nIneq ∧
      ∀ x : Nat → R,
        FeasibleQP d.nVar (d.nEq + d.nIneq) (csc (nfn d.qpIdx.indptr) (nfn d.qpIdx.indices) (fn A))
            (fun i => (augmentL d.nIneq l).getD i none) (fn u) x
          ↔ FeasibleCvxpy d.nVar d.nEq d.nIneq (fullMat d θ) x := by
  have hA := canonVal_eq d.qpMat true θ hc
  have hl := canonVal_eq d.qpL false θ hc
  have hu := canonVal_eq d.qpU false θ hc
  refine ⟨_, _, _, hA, hl, hu, ?_⟩
  generalize hlg : ((List.range (d.qpL.final false).rows).map fun i =>
    mulVec d.qpL.mapping.cols (d.qpL.final false).at (fn (θ ++ [1])) i) = l at *
  generalize hug : ((List.range (d.qpU.final false).rows).map fun i =>
    mulVec d.qpU.mapping.cols (d.qpU.final false).at (fn (θ ++ [1])) i) = u at *
  generalize hAg : ((List.range (d.qpMat.final true).rows).map fun i =>
    mulVec d.qpMat.mapping.cols (d.qpMat.final true).at (fn (θ ++ [1])) i) = A at *
  obtain ⟨l1, l2⟩ := l_value h θ l hc hl
  obtain ⟨u1, u2⟩ := u_value h θ u hc hu
  refine ⟨by simp [augmentL, l1], u1, ?_⟩
  intro x
  have hAx : ∀ i, mulVec d.nVar (csc (nfn d.qpIdx.indptr) (nfn d.qpIdx.indices) (fn A)) x i
      = (if d.nEq ≤ i then -1 else 1) * mulVec d.nVar (fullMat d θ) x i := by
    intro i
    unfold mulVec
    rw [mul_sum]
    apply sum_congr rfl
    intro c hcn
    rw [qpA_value h θ A hc hA i c (by simpa using hcn), mul_assoc]
  have hlo : ∀ i < d.nEq, (augmentL d.nIneq l).getD i none = some (- fullMat d θ i d.nVar) := by
    intro i hi
    have h1 := l2 i hi
    unfold augmentL
    unfold fn at h1
    rw [List.getD_eq_getElem?_getD, List.getElem?_append_left (by simpa [l1] using hi),
      List.getElem?_map, List.getElem?_eq_getElem (by omega)]
    rw [List.getD_eq_getElem?_getD, List.getElem?_eq_getElem (by omega)] at h1
    simpa using h1
  have hno : ∀ i, d.nEq ≤ i → (augmentL d.nIneq l).getD i none = none := by
    intro i hi
    unfold augmentL
    rw [List.getD_eq_getElem?_getD, List.getElem?_append_right (by simpa [l1] using hi)]
    rw [List.getElem?_replicate]
    split <;> rfl
  unfold FeasibleQP FeasibleCvxpy affineRow
  constructor
  · intro hf
    constructor
    · intro i hi
      obtain ⟨f1, f2⟩ := hf i (by omega)
      have f1 := f1 _ (hlo i hi)
      rw [hAx, if_neg (by omega), one_mul] at f1 f2
      rw [u2 i (by omega), if_pos hi] at f2
      linarith
    · intro i hi hi2
      obtain ⟨_, f2⟩ := hf i hi2
      rw [hAx, if_pos hi, u2 i hi2, if_neg (by omega)] at f2
      linarith
  · rintro ⟨g1, g2⟩ i hi
    by_cases hlt : i < d.nEq
    · have g := g1 i hlt
      rw [hAx, if_neg (by omega), one_mul, u2 i hi, if_pos hlt]
      constructor
      · intro v hv
        simp only [hlo i hlt, Option.some.injEq] at hv
        rw [← hv]; linarith
      · linarith
    · have g := g2 i (by omega) hi
      rw [hAx, if_pos (by omega), u2 i hi, if_neg hlt]
      constructor
      · intro v hv
        simp only [hno i (by omega)] at hv
        exact absurd hv (by simp)
      · linarith

-- at `t = 3`: `x₀ + 3 x₁ = 1`, `3 x₀ + 2 ≥ 0`, `-x₁ + 3 ≥ 0`; the point (1, 0) is feasible, (−5, 2) not
example : FeasibleCvxpy 2 1 2 (fullMat exD [3]) (fun j => if j = 0 then 1 else 0) ∧
    ¬ FeasibleCvxpy 2 1 2 (fullMat exD [3]) (fun j => if j = 0 then -5 else 2) := by
  constructor
  · constructor
    · decide
    · intro i h1 h2
      have : i = 1 ∨ i = 2 := by omega
      rcases this with rfl | rfl <;> decide
  · rintro ⟨_, h2⟩
    have := h2 1 (by decide) (by decide)
    revert this
    decide

/-! ### Conic form -/

/-- **C12** (SCS, Clarabel: one block of rows). For every parameter value, point `x` and set `K`:
there is a slack `s ∈ K` with `A x + s = b` for the generated data iff CVXPY's conic rows `A x + b` at
`x` are in `K`. -/
theorem C12_conic_form_joint {d : ConstrData R} (h : ConstrWF d) (hn : d.nIneq = 0) (θ : List R)
    (hc : d.red.cols = θ.length + 1) :
    ∃ mA mb vA vb, d.conicMap .A = some mA ∧ d.conicMap .b = some mb ∧
      canonVal (some mA) true θ = some vA ∧ canonVal (some mb) false θ = some vb ∧
      vb.length = d.nEq ∧
      ∀ (x : Nat → R) (K : List R → Prop),
        (∃ s : Nat → R, K ((List.range d.nEq).map s) ∧ ∀ i < d.nEq,
          mulVec d.nVar (csc (nfn (d.wholeIdx mA).indptr) (nfn (d.wholeIdx mA).indices) (fn vA)) x i
            + s i = fn vb i)
        ↔ K ((List.range d.nEq).map (affineRow d.nVar (fullMat d θ) x)) := by
  obtain ⟨vA, hvA⟩ : ∃ v, canonVal (some ⟨d.red.selectRows (d.rowsOf .A), fun _ => -1⟩) true θ = some v :=
    ⟨_, canonVal_eq _ true θ hc⟩
  refine ⟨_, _, vA, _, rfl, rfl, hvA, canonVal_eq _ false θ hc, ?_⟩
  obtain ⟨b1, b2⟩ := b_value h θ _ hc _ rfl (canonVal_eq _ false θ hc)
  refine ⟨b1, fun x K => ?_⟩
  have hAx : ∀ i, mulVec d.nVar (csc (nfn (d.wholeIdx ⟨d.red.selectRows (d.rowsOf .A), fun _ => -1⟩).indptr)
      (nfn (d.wholeIdx ⟨d.red.selectRows (d.rowsOf .A), fun _ => -1⟩).indices) (fn vA)) x i
      = - mulVec d.nVar (fullMat d θ) x i := by
    intro i
    unfold mulVec
    rw [← sum_neg_distrib]
    apply sum_congr rfl
    intro c hcn
    rw [whole_value h hn θ _ hc _ rfl hvA i c (by simpa using hcn), neg_mul]
  constructor
  · rintro ⟨s, hK, hs⟩
    have : (List.range d.nEq).map (affineRow d.nVar (fullMat d θ) x) = (List.range d.nEq).map s := by
      apply List.map_congr_left
      intro i hi
      have e := hs i (List.mem_range.mp hi)
      rw [hAx, b2 i (List.mem_range.mp hi)] at e
      unfold affineRow
      linear_combination - e
    rw [this]; exact hK
  · intro hK
    refine ⟨_, hK, fun i hi => ?_⟩
    rw [hAx, b2 i hi]
    unfold affineRow
    ring

/-- **C12** (ECOS, QOCO: equality and cone rows split). `A x = b` and `h − G x ∈ K` for the generated
data iff CVXPY's equality rows vanish and its other rows are in `K`. -/
theorem C12_conic_form_split {d : ConstrData R} (h : ConstrWF d) (θ : List R)
    (hc : d.red.cols = θ.length + 1) :
    ∃ mA mb mG mh vA vb vG vh, d.conicMap .A = some mA ∧ d.conicMap .b = some mb ∧
      d.conicMap .G = some mG ∧ d.conicMap .h = some mh ∧
      canonVal (some mA) true θ = some vA ∧ canonVal (some mb) false θ = some vb ∧
      canonVal (some mG) true θ = some vG ∧ canonVal (some mh) false θ = some vh ∧
      vb.length = d.nEq ∧ vh.length = d.nIneq ∧
      ∀ (x : Nat → R) (K : List R → Prop),
        ((∀ i < d.nEq,
            mulVec d.nVar (csc (nfn (d.splitIdx .A mA).indptr) (nfn (d.splitIdx .A mA).indices) (fn vA)) x i
              = fn vb i) ∧
          K ((List.range d.nIneq).map fun i => fn vh i -
            mulVec d.nVar (csc (nfn (d.splitIdx .G mG).indptr) (nfn (d.splitIdx .G mG).indices) (fn vG)) x i))
        ↔ (∀ i < d.nEq, affineRow d.nVar (fullMat d θ) x i = 0) ∧
          K ((List.range d.nIneq).map fun i => affineRow d.nVar (fullMat d θ) x (d.nEq + i)) := by
  obtain ⟨vA, hvA⟩ : ∃ v, canonVal (some ⟨d.red.selectRows (d.rowsOf .A), fun _ => -1⟩) true θ = some v :=
    ⟨_, canonVal_eq _ true θ hc⟩
  obtain ⟨vG, hvG⟩ : ∃ v, canonVal (some ⟨d.red.selectRows (d.rowsOf .G), fun _ => -1⟩) true θ = some v :=
    ⟨_, canonVal_eq _ true θ hc⟩
  refine ⟨_, _, _, _, vA, _, vG, _, rfl, rfl, rfl, rfl, hvA, canonVal_eq _ false θ hc,
    hvG, canonVal_eq _ false θ hc, ?_⟩
  obtain ⟨b1, b2⟩ := b_value h θ _ hc _ rfl (canonVal_eq _ false θ hc)
  obtain ⟨h1, h2⟩ := h_value h θ _ hc _ rfl (canonVal_eq _ false θ hc)
  refine ⟨b1, h1, fun x K => ?_⟩
  have hA : ∀ i < d.nEq, mulVec d.nVar (csc (nfn (d.splitIdx .A ⟨d.red.selectRows (d.rowsOf .A), fun _ => -1⟩).indptr)
      (nfn (d.splitIdx .A ⟨d.red.selectRows (d.rowsOf .A), fun _ => -1⟩).indices) (fn vA)) x i
      = - mulVec d.nVar (fullMat d θ) x i := by
    intro i hi
    unfold mulVec
    rw [← sum_neg_distrib]
    apply sum_congr rfl
    intro c hcn
    rw [A_value h θ _ hc _ rfl hvA i c hi (by simpa using hcn), neg_mul]
  have hG : ∀ i, mulVec d.nVar (csc (nfn (d.splitIdx .G ⟨d.red.selectRows (d.rowsOf .G), fun _ => -1⟩).indptr)
      (nfn (d.splitIdx .G ⟨d.red.selectRows (d.rowsOf .G), fun _ => -1⟩).indices) (fn vG)) x i
      = - mulVec d.nVar (fullMat d θ) x (d.nEq + i) := by
    intro i
    unfold mulVec
    rw [← sum_neg_distrib]
    apply sum_congr rfl
    intro c hcn
    rw [G_value h θ _ hc _ rfl hvG i c (by simpa using hcn), neg_mul]
  apply and_congr
  · apply forall_congr'
    intro i
    apply imp_congr_right
    intro hi
    rw [hA i hi, b2 i hi]
    unfold affineRow
    constructor
    · intro e; linear_combination - e
    · intro e; linear_combination - e
  · apply iff_of_eq
    congr 1
    apply List.map_congr_left
    intro i hi
    rw [hG, h2 i (List.mem_range.mp hi)]
    unfold affineRow
    ring

/-- Example data without split: the same rows, all counted as one block. -/
def exD1 : ConstrData ℤ := { exD with nEq := 3, nIneq := 0 }

theorem exD1_wf : ConstrWF exD1 :=
  ⟨rfl, rfl, exD_wf.mono, rfl, exD_wf.range, rfl, exD_wf.wf, exD_wf.nodup⟩

example : ConstrWF exD1 ∧ exD1.nIneq = 0 ∧ ConstrWF exD := ⟨exD1_wf, rfl, exD_wf⟩

/-! ### Every datum is used exactly once -/

/-- Datum `r` belongs to column `c` of `[A b]`. -/
def InColumn (d : ConstrData R) (r c : Nat) : Prop := nfn d.indptr c ≤ r ∧ r < nfn d.indptr (c + 1)

omit [CommRing R] [DecidableEq R] in
theorem inMat_iff {d : ConstrData R} (h : ConstrWF d) (r : Nat) :
    (∃ c < d.nVar, InColumn d r c) ↔ r < d.nMat := by
  constructor
  · rintro ⟨c, hc, _, h2⟩
    have := (take_ok h).le (show c + 1 ≤ d.nVar by omega) (Nat.le_refl _)
    rw [(take_ok h).last, nfn_take _ _ _ (by omega)] at this
    omega
  · intro hr
    obtain ⟨c, hc, h1, h2⟩ := exists_col (take_ok h) r hr
    rw [nfn_take _ _ _ (by omega)] at h1 h2
    exact ⟨c, hc, h1, h2⟩

omit [CommRing R] [DecidableEq R] in
theorem inVec_iff {d : ConstrData R} (h : ConstrWF d) (r : Nat) :
    InColumn d r d.nVar ↔ d.nMat ≤ r ∧ r < d.indices.length := by
  unfold InColumn
  rw [h.last, nMat_eq h]

omit [CommRing R] [DecidableEq R] in
/-- **C13.** The four row selections of the conic interfaces: a datum is sent to `A`/`G` iff it lies
in a matrix column, to `b`/`h` iff it lies in the last column, to `A`/`b` iff its row is an equality
row; every selection lists each datum at most once. -/
theorem C13_selection_by_position {d : ConstrData R} (h : ConstrWF d) (r : Nat) :
    (r ∈ d.rowsOf .A ↔ (∃ c < d.nVar, InColumn d r c) ∧ nfn d.indices r < d.nEq) ∧
    (r ∈ d.rowsOf .G ↔ (∃ c < d.nVar, InColumn d r c) ∧ d.nEq ≤ nfn d.indices r) ∧
    (r ∈ d.rowsOf .b ↔ InColumn d r d.nVar ∧ nfn d.indices r < d.nEq) ∧
    (r ∈ d.rowsOf .h ↔ InColumn d r d.nVar ∧ d.nEq ≤ nfn d.indices r) ∧
    (∀ p, (d.rowsOf p).Nodup) := by
  rw [inMat_iff h, inVec_iff h, rowsOf_A h, rowsOf_G h, rowsOf_b, rowsOf_h]
  simp only [List.mem_filter, List.mem_range, Bool.and_eq_true, decide_eq_true_eq]
  refine ⟨trivial, trivial, by tauto, by tauto, ?_⟩
  intro p
  cases p <;> first
    | exact (List.nodup_range.filter _).filter _
    | exact List.nodup_nil

omit [CommRing R] [DecidableEq R] in
/-- **C13.** Each datum is used by exactly one of the canonical parameters `A`, `G`, `b`, `h`. -/
theorem C13_each_datum_used_once {d : ConstrData R} (h : ConstrWF d) (r : Nat)
    (hr : r < d.indices.length) :
    ∃! p, p ∈ [CId.A, CId.G, CId.b, CId.h] ∧ r ∈ d.rowsOf p := by
  obtain ⟨hA, hG, hb, hh, _⟩ := C13_selection_by_position h r
  rw [inMat_iff h] at hA hG
  rw [inVec_iff h] at hb hh
  have huniq : ∀ p q, p ∈ [CId.A, CId.G, CId.b, CId.h] → q ∈ [CId.A, CId.G, CId.b, CId.h] →
      r ∈ d.rowsOf p → r ∈ d.rowsOf q → p = q := by
    intro p q hp hq h1 h2
    simp only [List.mem_cons, List.not_mem_nil, or_false] at hp hq
    rcases hp with rfl | rfl | rfl | rfl <;> rcases hq with rfl | rfl | rfl | rfl <;>
      first | rfl | (exfalso; simp only [hA, hG, hb, hh] at h1 h2; omega)
  have hex : ∃ p, p ∈ [CId.A, CId.G, CId.b, CId.h] ∧ r ∈ d.rowsOf p := by
    by_cases h1 : r < d.nMat
    · by_cases h2 : nfn d.indices r < d.nEq
      · exact ⟨.A, by simp, hA.mpr ⟨h1, h2⟩⟩
      · exact ⟨.G, by simp, hG.mpr ⟨h1, by omega⟩⟩
    · by_cases h2 : nfn d.indices r < d.nEq
      · exact ⟨.b, by simp, hb.mpr ⟨⟨by omega, hr⟩, h2⟩⟩
      · exact ⟨.h, by simp, hh.mpr ⟨⟨by omega, hr⟩, by omega⟩⟩
  obtain ⟨p, hp, hrp⟩ := hex
  exact ⟨p, ⟨hp, hrp⟩, fun q hq => huniq q p hq.1 hp hq.2 hrp⟩

omit [CommRing R] [DecidableEq R] in
/-- **C13** for the QP form: `A` takes the data of the matrix columns, `u` those of the last column,
each once; `l` repeats the equality part of `u`. -/
theorem C13_qp_selection {d : ConstrData R} (h : ConstrWF d) (r : Nat) :
    (r ∈ d.qpRowsU ↔ InColumn d r d.nVar) ∧ d.qpRowsU.Nodup ∧
    (r < d.nMat ↔ ∃ c < d.nVar, InColumn d r c) ∧
    d.qpRowsL = d.qpRowsU.filter fun r => decide (nfn d.indices r < d.nEq) := by
  refine ⟨?_, ?_, (inMat_iff h r).symm, ?_⟩
  · rw [inVec_iff h, qpRowsU_eq h]
    simp only [List.mem_filter, List.mem_range, decide_eq_true_eq]
    tauto
  · rw [qpRowsU_eq h]; exact List.nodup_range.filter _
  · rw [qpRowsL_eq, rowsOf_b, qpRowsU_eq h, List.filter_filter]
    apply List.filter_congr
    intro r _
    rw [Bool.and_comm]

example : exD.rowsOf .A = [0, 2] ∧ exD.rowsOf .G = [1, 3, 4] ∧ exD.rowsOf .b = [5] ∧
    exD.rowsOf .h = [6, 7] := by decide

/-! ### Equality rows -/

/-- **C14.** For every parameter value the run-time values of `l` and `u` coincide on equality rows;
`l` has exactly one value per equality row, the rows after them keep minus infinity. -/
theorem C14_equality_bounds_coincide {d : ConstrData R} (h : ConstrWF d) (θ : List R)
    (hc : d.red.cols = θ.length + 1) :
    ∃ l u, canonVal (some d.qpL) false θ = some l ∧ canonVal (some d.qpU) false θ = some u ∧
      l.length = d.nEq ∧ u.length = d.nEq + d.nIneq ∧
      (∀ i < d.nEq, (augmentL d.nIneq l).getD i none = some (fn u i)) ∧
      (∀ i, d.nEq ≤ i → (augmentL d.nIneq l).getD i none = none) := by
  obtain ⟨l, hl⟩ : ∃ l, canonVal (some d.qpL) false θ = some l := ⟨_, canonVal_eq d.qpL false θ hc⟩
  refine ⟨l, _, hl, canonVal_eq d.qpU false θ hc, ?_⟩
  obtain ⟨l1, l2⟩ := l_value h θ _ hc hl
  obtain ⟨u1, u2⟩ := u_value h θ _ hc (canonVal_eq d.qpU false θ hc)
  refine ⟨l1, u1, ?_, ?_⟩
  · intro i hi
    rw [u2 i (by omega), if_pos hi, neg_one_mul, ← l2 i hi]
    unfold augmentL fn
    rw [List.getD_eq_getElem?_getD, List.getElem?_append_left (by rw [List.length_map, l1]; exact hi),
      List.getElem?_map, List.getD_eq_getElem?_getD, List.getElem?_eq_getElem (by rw [l1]; exact hi)]
    rfl
  · intro i hi
    unfold augmentL
    rw [List.getD_eq_getElem?_getD, List.getElem?_append_right (by rw [List.length_map, l1]; exact hi)]
    rw [List.getElem?_replicate]
    split <;> rfl

example : canonVal (some exD.qpL) false [3] = some [1] ∧ canonVal (some exD.qpU) false [3] = some [1, 2, 3] := by
  decide

end Verif.Props
