import Verif.Model.RoundedGrad
import Verif.Lemmas.Rounded
import Verif.Lemmas.Uncanon
import Verif.Lemmas.ExplicitD
/-!
The loops of `cpg_gradient` with rounding: every entry of `cpg_dp` is a sum of products in the order of the loops.
-/
namespace Verif.Lemmas.Rounded
open Verif.Model Verif.Model.Printed Verif.Model.Rounded Verif.Model.GradPipe Verif.Spec Verif.Spec.Printed Verif.Spec.Rounded Verif.Lemmas
  Verif.Lemmas.Printed Finset

/-- A sum of products in the order of the list. -/
def macs (mac : ℚ → ℚ → ℚ → ℚ) (l : List (ℚ × ℚ)) (s : ℚ) : ℚ := l.foldl (fun s t => mac s t.1 t.2) s

theorem macs_append (mac : ℚ → ℚ → ℚ → ℚ) (l l' : List (ℚ × ℚ)) (s : ℚ) : macs mac (l ++ l') s = macs mac l' (macs mac l s) := by
  simp [macs]

/-- The products of the entries of a list with column `c`. -/
def col (c : Nat) (d : ℚ) (seg : List (Nat × Nat × ℚ)) : List (ℚ × ℚ) :=
  (seg.filter fun e => decide (e.2.1 = c)).map fun e => (e.2.2, d)

/-- The products for column `c` of a map. -/
def colTerms (F : Sp ℚ) (rows : Nat) (d : Nat → ℚ) (c : Nat) : List (ℚ × ℚ) :=
  (List.range rows).flatMap fun j => col c (d j) (F.row j)

theorem bumpF_spec (A : Arith) (dp : List ℚ) (c : Nat) (x d : ℚ) (hc : c < dp.length) :
    bumpF A dp c x d = some (dp.set c (A.mac (fn dp c) x d)) := by
  unfold bumpF
  rw [fn_get dp c hc]
  show store dp c _ = _
  unfold store
  rw [if_pos hc]

theorem inner_uncanonF (A : Arith) (d : ℚ) (seg : List (Nat × Nat × ℚ)) :
    ∀ dp : List ℚ, (∀ e ∈ seg, e.2.1 < dp.length) →
      ∃ dp', seg.foldlM (fun (dp : List ℚ) e => bumpF A dp e.2.1 e.2.2 d) dp = some dp' ∧ dp'.length = dp.length ∧
        ∀ c, fn dp' c = macs A.mac (col c d seg) (fn dp c) := by
  induction seg with
  | nil => intro dp _; exact ⟨dp, rfl, rfl, fun c => rfl⟩
  | cons e seg ih =>
    intro dp h
    have he := h e (by simp)
    obtain ⟨dp', h1, h2, h3⟩ := ih (dp.set e.2.1 (A.mac (fn dp e.2.1) e.2.2 d)) (fun e' he' => by
      rw [List.length_set]; exact h e' (by simp [he']))
    refine ⟨dp', ?_, by rw [h2, List.length_set], fun c => ?_⟩
    · rw [List.foldlM_cons, bumpF_spec A dp _ _ _ he]
      exact h1
    · rw [h3 c, fn_set dp _ _ he]
      by_cases hc : c = e.2.1
      · subst hc
        simp [col, macs]
      · simp [col, macs, hc, Ne.symm hc]

/-- One loop. -/
theorem uncanonOneF_spec (A : Arith) (F : Sp ℚ) (hF : F.WF) (rows : Nat) (hr : rows ≤ F.rows) (d : Nat → ℚ) (dp : List ℚ)
    (hd : F.cols ≤ dp.length) :
    ∃ dp', uncanonOneF A rows F.toCsr d dp = some dp' ∧ dp'.length = dp.length ∧
      ∀ c, fn dp' c = macs A.mac (colTerms F rows d c) (fn dp c) := by
  unfold uncanonOneF
  induction rows with
  | zero => exact ⟨dp, rfl, rfl, fun c => rfl⟩
  | succ k ih =>
    obtain ⟨dp1, h1, h2, h3⟩ := ih (by omega)
    have hlo := csr_indptr F k (by omega)
    have hhi := csr_indptr F (k + 1) hr
    have hdiff : ((List.range (k + 1)).map fun k => (F.row k).length).sum
        - ((List.range k).map fun k => (F.row k).length).sum = (F.row k).length := by
      rw [List.range_succ, List.map_append, List.sum_append]; simp
    have hbody : ∀ (o : List ℚ) (j : Nat), (do
        let c ← F.toCsr.indices[j]?
        let x ← F.toCsr.data[j]?
        bumpF A o c x (d k)) = (((List.range F.rows).flatMap F.row)[j]?).bind fun e => bumpF A o e.2.1 e.2.2 (d k) := by
      intro o j
      simp only [Sp.toCsr, List.getElem?_map, bind]
      cases ((List.range F.rows).flatMap F.row)[j]? with
      | none => rfl
      | some e => rfl
    have hfold := foldlM_range'_get ((List.range F.rows).flatMap F.row)
      (fun (o : List ℚ) e => bumpF A o e.2.1 e.2.2 (d k)) (F.row k)
      (((List.range k).map fun k => (F.row k).length).sum) dp1 (csr_segment F k (by omega))
    obtain ⟨dp2, g1, g2, g3⟩ := inner_uncanonF A (d k) (F.row k) dp1 (fun e he => by
      have := (hF e (List.mem_of_mem_filter he)).2
      omega)
    refine ⟨dp2, ?_, by omega, fun c => ?_⟩
    · rw [List.range_succ, List.foldlM_append, h1]
      simp only [bind, Option.bind_some, List.foldlM_cons, List.foldlM_nil, hlo, hhi, hdiff]
      simp only [bind] at hbody
      simp only [hbody]
      rw [hfold, g1]
      rfl
    · rw [g3 c, h3 c, ← macs_append]
      unfold colTerms
      rw [List.range_succ, List.flatMap_append, List.flatMap_singleton]

/-- All loops: what a list of loops adds to entry `c`. -/
def allTerms (f : ℚ → ℚ) (maps : CId → Option (RawMap ℚ)) (l : List (CId × Nat × (Nat → ℚ))) (c : Nat) : List (ℚ × ℚ) :=
  l.flatMap fun t => match maps t.1 with
    | some m => if mapChanges (some m) t.1.isUpper then colTerms (prSp f (m.final t.1.isUpper)) t.2.1 t.2.2 c else []
    | none => []

def blockOf (f : ℚ → ℚ) (maps : CId → Option (RawMap ℚ)) (t : CId × Nat × (Nat → ℚ)) : Block ℚ :=
  ⟨mapChanges (maps t.1) t.1.isUpper, t.2.1, { csrOf (maps t.1) t.1.isUpper with data := (csrOf (maps t.1) t.1.isUpper).data.map f }, t.2.2⟩

theorem uncanonF_spec (A : Arith) (f : ℚ → ℚ) (maps : CId → Option (RawMap ℚ)) (NP : Nat) (l : List (CId × Nat × (Nat → ℚ)))
    (hl : ∀ t ∈ l, ∀ m, maps t.1 = some m → m.mapping.cols = NP ∧ t.2.1 ≤ (m.final t.1.isUpper).rows)
    (dp : List ℚ) (hd : dp.length = NP) :
    ∃ dp', uncanonF A NP (l.map (blockOf f maps)) dp = some dp' ∧ dp'.length = NP ∧
      ∀ c, fn dp' c = macs A.mac (allTerms f maps l c) 0 := by
  have z := fold_opt (α := Nat) (β := List ℚ)
    (fun q dp' => dp'.length = NP ∧ (∀ c < q, fn dp' c = 0))
    (fun dp j => store dp j (0 : ℚ)) 0 NP dp ⟨hd, fun c h => by omega⟩ (by
      rintro k - hk dp1 ⟨l1, h1⟩
      refine ⟨dp1.set k 0, ?_, by simpa using l1, ?_⟩
      · unfold store; rw [if_pos (by omega)]
      · intro c hc
        rw [fn_set dp1 k 0 (by omega)]
        by_cases h : c = k
        · rw [if_pos h]
        · rw [if_neg h]; exact h1 c (by omega))
  rw [Nat.zero_add, ← List.range_eq_range'] at z
  obtain ⟨dp0, e0, l0, h0⟩ := z
  have h0' : ∀ c, fn dp0 c = 0 := by
    intro c
    rcases Nat.lt_or_ge c NP with h | h
    · exact h0 c h
    · unfold fn List.getD
      rw [List.getElem?_eq_none (by omega)]; rfl
  have fold : ∀ (l : List (CId × Nat × (Nat → ℚ))) (dp0 : List ℚ), dp0.length = NP →
      (∀ t ∈ l, ∀ m, maps t.1 = some m → m.mapping.cols = NP ∧ t.2.1 ≤ (m.final t.1.isUpper).rows) →
      ∃ dp', (l.map (blockOf f maps)).foldlM (init := dp0) (fun dp b =>
        if b.changes then uncanonOneF A b.rows b.map b.d dp else some dp) = some dp' ∧ dp'.length = NP ∧
        ∀ c, fn dp' c = macs A.mac (allTerms f maps l c) (fn dp0 c) := by
    intro l
    induction l with
    | nil => intro dp0 l0 _; exact ⟨dp0, rfl, l0, fun c => rfl⟩
    | cons t l ih =>
      intro dp0 l0 hl
      have step : ∃ dp1, (if (blockOf f maps t).changes then uncanonOneF A (blockOf f maps t).rows (blockOf f maps t).map
            (blockOf f maps t).d dp0 else some dp0) = some dp1 ∧ dp1.length = NP ∧
          ∀ c, fn dp1 c = macs A.mac (allTerms f maps [t] c) (fn dp0 c) := by
        cases hm : maps t.1 with
        | none =>
          refine ⟨dp0, ?_, l0, fun c => ?_⟩
          · simp [blockOf, hm, mapChanges]
          · simp [allTerms, hm, macs]
        | some m =>
          obtain ⟨hc, hr⟩ := hl t (by simp) m hm
          by_cases hch : mapChanges (some m) t.1.isUpper = true
          · obtain ⟨dp1, e1, l1, h1⟩ := uncanonOneF_spec A (prSp f (m.final t.1.isUpper)) (prSp_wf _ _ (final_wf m _)) t.2.1
              hr t.2.2 dp0 (by show (m.final _).cols ≤ _; rw [final_cols, hc, l0])
            refine ⟨dp1, ?_, by omega, fun c => ?_⟩
            · simp only [blockOf, hm, hch, if_true, csrOf]
              rw [← prSp_toCsr] at e1
              exact e1
            · rw [h1 c]
              simp [allTerms, hm, hch]
          · refine ⟨dp0, ?_, l0, fun c => ?_⟩
            · simp [blockOf, hm, hch]
            · simp [allTerms, hm, hch, macs]
      obtain ⟨dp1, e1, l1, h1⟩ := step
      obtain ⟨dp', e, l2, h⟩ := ih dp1 l1 (fun b' hb' => hl b' (List.mem_cons_of_mem _ hb'))
      refine ⟨dp', ?_, l2, fun c => ?_⟩
      · rw [List.map_cons, List.foldlM_cons, e1]; exact e
      · rw [h c, h1 c, ← macs_append]
        unfold allTerms
        rw [← List.flatMap_append]
        rfl
  obtain ⟨dp', e, l2, h⟩ := fold l dp0 l0 hl
  refine ⟨dp', ?_, l2, fun c => by rw [h c, h0' c]⟩
  unfold uncanonF
  rw [e0]
  exact e

/-! ### sums -/

def dots (l : List (ℚ × ℚ)) : ℚ := (l.map fun t => t.1 * t.2).sum
def abss (l : List (ℚ × ℚ)) : ℚ := (l.map fun t => |t.1 * t.2|).sum

/-- A list of products as a row. -/
theorem as_row (l : List (ℚ × ℚ)) : ∃ (seg : List (Nat × Nat × ℚ)) (v : Nat → ℚ), seg.length = l.length ∧
    seg.map (fun e => (e.2.2, v e.2.1)) = l := by
  refine ⟨(List.range l.length).map fun k => (0, k, (l.getD k (0, 0)).1), fun k => (l.getD k (0, 0)).2, by simp, ?_⟩
  rw [List.map_map]
  apply List.ext_getElem?
  intro k
  by_cases hk : k < l.length
  · simp [hk]
  · rw [List.getElem?_eq_none (by simpa using hk), List.getElem?_eq_none (by omega)]

variable {p : Nat} {emin : Int} {fl : ℚ → ℚ}

theorem macs_err {mac : ℚ → ℚ → ℚ → ℚ} (hp : 0 < p) (h : NearestIn p emin fl) (hm : Mac fl mac) (l : List (ℚ × ℚ)) :
    |macs mac l 0 - dots l| ≤ ((1 + unit p) ^ (l.length + 1) - 1) * abss l + small p emin l.length := by
  obtain ⟨seg, v, h1, rfl⟩ := as_row l
  have := rowMac_err hp h hm v seg
  rw [List.length_map]
  simpa [macs, dots, abss, rowMac, rowDot, rowAbs, List.foldl_map, Function.comp_def] using this

theorem macs_exact {mac : ℚ → ℚ → ℚ → ℚ} (h : NearestIn p emin fl) (hm : Mac fl mac) (e : Int) (he : emin ≤ e)
    (l : List (ℚ × ℚ)) (hg : ∀ t ∈ l, ∃ n : Int, t.1 * t.2 = n * (2 : ℚ) ^ e) (hb : abss l < 2 ^ p * (2 : ℚ) ^ e) :
    macs mac l 0 = dots l := by
  obtain ⟨seg, v, h1, rfl⟩ := as_row l
  have := rowMac_exact h hm v e he seg (fun c hc => hg (c.2.2, v c.2.1) (List.mem_map.2 ⟨c, hc, rfl⟩))
    (by simpa [abss, rowAbs, Function.comp_def] using hb)
  simpa [macs, dots, rowMac, rowDot, List.foldl_map, Function.comp_def] using this

/-- Sums over the products of a column, for any weight of a product. -/
theorem colTerms_sum (f : ℚ → ℚ) (m : RawMap ℚ) (u : Bool) (rows : Nat) (hr : rows ≤ (m.final u).rows) (d : Nat → ℚ) (c : Nat)
    (hc : c < m.mapping.cols) (w : ℚ → ℚ → ℚ) (h0 : ∀ y, w (f 0) y = 0) :
    ((colTerms (prSp f (m.final u)) rows d c).map fun t => w t.1 t.2).sum
      = ∑ j ∈ range rows, w (f (m.mapping.at (srcRow m u j) c * m.sign (srcRow m u j))) (d j) := by
  induction rows with
  | zero => simp [colTerms]
  | succ k ih =>
    rw [sum_range_succ, ← ih (by omega)]
    unfold colTerms
    rw [List.range_succ, List.flatMap_append, List.flatMap_singleton, List.map_append, List.sum_append]
    congr 1
    have := prSp_final_at (fun x => w (f x) (d k)) (h0 _) m u k c (by omega) hc
    rw [← this]
    unfold col Sp.at Sp.row prSp
    simp only [List.filter_filter, List.filter_map, List.map_map, Function.comp_def]
    congr 2
    apply List.filter_congr
    intro e _
    rw [Bool.and_comm, Bool.decide_and]

theorem colTerms_prSp (f : ℚ → ℚ) (F : Sp ℚ) (rows : Nat) (d : Nat → ℚ) (c : Nat) :
    colTerms (prSp f F) rows d c = (colTerms F rows d c).map fun t => (f t.1, t.2) := by
  unfold colTerms col
  rw [List.map_flatMap]
  simp only [prSp_row, List.filter_map, List.map_map, Function.comp_def]

/-- The number of products: positions with a coefficient. -/
theorem colTerms_length (f : ℚ → ℚ) (m : RawMap ℚ) (u : Bool) (rows : Nat) (hr : rows ≤ (m.final u).rows) (d : Nat → ℚ) (c : Nat)
    (hc : c < m.mapping.cols) :
    (colTerms (prSp f (m.final u)) rows d c).length
      = ((range rows).filter fun j => m.mapping.at (srcRow m u j) c * m.sign (srcRow m u j) ≠ 0).card := by
  rw [colTerms_prSp, List.length_map]
  have h := colTerms_sum (fun x : ℚ => if x = 0 then (0 : ℚ) else 1) m u rows hr d c hc (fun x _ => x) (by simp)
  rw [colTerms_prSp, List.map_map] at h
  have hne : ∀ t ∈ colTerms (m.final u) rows d c, t.1 ≠ 0 := by
    intro t ht
    simp only [colTerms, col, List.mem_flatMap, List.mem_map] at ht
    obtain ⟨j, _, e, he, rfl⟩ := ht
    exact final_ne_zero m u e (List.mem_of_mem_filter (List.mem_of_mem_filter he))
  have e : ∀ l : List (ℚ × ℚ), (∀ t ∈ l, t.1 ≠ 0) →
      (l.map ((fun t : ℚ × ℚ => t.1) ∘ fun t => (if t.1 = 0 then (0 : ℚ) else 1, t.2))).sum = (l.length : ℚ) := by
    intro l
    induction l with
    | nil => intro _; simp
    | cons t l ih =>
      intro hl
      rw [List.map_cons, List.sum_cons, ih fun t ht => hl t (List.mem_cons_of_mem _ ht)]
      simp [hl t (List.mem_cons_self ..)]
      ring
  have h' := e _ hne
  rw [h'] at h
  have : ((colTerms (m.final u) rows d c).length : ℚ)
      = (((range rows).filter fun j => m.mapping.at (srcRow m u j) c * m.sign (srcRow m u j) ≠ 0).card : ℚ) := by
    rw [h, Finset.card_filter, Nat.cast_sum]
    refine sum_congr rfl fun j _ => ?_
    by_cases hz : m.mapping.at (srcRow m u j) c * m.sign (srcRow m u j) = 0
    · simp only [hz, if_true, ne_eq, not_true_eq_false, if_false, Nat.cast_zero]
    · simp only [hz, if_false, ne_eq, not_false_eq_true, if_true, Nat.cast_one]
  exact_mod_cast this

/-! ### explicit mode -/

section explicit
open Verif.Model.Explicit Verif.Spec.Explicit Verif.Lemmas.Explicit

/-- The products that one row of a map adds to entry `c`. -/
def rowT (f : ℚ → ℚ) (maps : CId → Option (RawMap ℚ)) (id : CId) (j : Nat) (t : ℚ) (c : Nat) : List (ℚ × ℚ) :=
  match maps id with
  | some m => if mapChanges (some m) id.isUpper then col c t ((prSp f (m.final id.isUpper)).row j) else []
  | none => []

theorem rowBumpF_spec (A : Arith) (F : Sp ℚ) (hF : F.WF) (j : Nat) (hj : j < F.rows) (t : ℚ) (dp : List ℚ) (hd : F.cols ≤ dp.length) :
    ∃ dp', rowBumpF A F.toCsr j t dp = some dp' ∧ dp'.length = dp.length ∧
      ∀ c, fn dp' c = macs A.mac (col c t (F.row j)) (fn dp c) := by
  have hlo := csr_indptr F j (by omega)
  have hhi := csr_indptr F (j + 1) hj
  have hdiff : ((List.range (j + 1)).map fun k => (F.row k).length).sum
      - ((List.range j).map fun k => (F.row k).length).sum = (F.row j).length := by
    rw [List.range_succ, List.map_append, List.sum_append]; simp
  have hbody : ∀ (o : List ℚ) (k : Nat), (do
      let c ← F.toCsr.indices[k]?
      let x ← F.toCsr.data[k]?
      bumpF A o c x t) = (((List.range F.rows).flatMap F.row)[k]?).bind fun e => bumpF A o e.2.1 e.2.2 t := by
    intro o k
    simp only [Sp.toCsr, List.getElem?_map, bind]
    cases ((List.range F.rows).flatMap F.row)[k]? with
    | none => rfl
    | some e => rfl
  have hfold := foldlM_range'_get ((List.range F.rows).flatMap F.row)
    (fun (o : List ℚ) e => bumpF A o e.2.1 e.2.2 t) (F.row j)
    (((List.range j).map fun k => (F.row k).length).sum) dp (csr_segment F j hj)
  obtain ⟨dp2, g1, g2, g3⟩ := inner_uncanonF A t (F.row j) dp (fun e he => by
    have := (hF e (List.mem_of_mem_filter he)).2
    omega)
  refine ⟨dp2, ?_, g2, g3⟩
  unfold rowBumpF
  simp only [bind, Option.bind_some, hlo, hhi, hdiff]
  simp only [bind] at hbody
  simp only [hbody]
  rw [hfold, g1]

/-- The canonical entry that position `i` of the mask stands for. -/
def posOf (n i : Nat) : CId × Nat := if i < n then (.q, i) else (.u, i - n)

theorem oneRow_spec (A : Arith) (maps : CId → Option (RawMap ℚ)) (NP : Nat) (id : CId) (j : Nat)
    (hl : ∀ m, maps id = some m → m.mapping.cols = NP ∧ j < (m.final id.isUpper).rows) (t : ℚ) (dp : List ℚ) (hd : dp.length = NP) :
    ∃ dp', (if mapChanges (maps id) id.isUpper then rowBumpF A (mapF A (csrOf (maps id) id.isUpper)) j t dp else some dp) = some dp' ∧
      dp'.length = NP ∧ ∀ c, fn dp' c = macs A.mac (rowT A.num maps id j t c) (fn dp c) := by
  cases hm : maps id with
  | none =>
    refine ⟨dp, by simp [mapChanges], hd, fun c => ?_⟩
    simp [rowT, hm, macs]
  | some m =>
    obtain ⟨hc, hj⟩ := hl m hm
    by_cases hch : mapChanges (some m) id.isUpper = true
    · obtain ⟨dp1, e1, l1, h1⟩ := rowBumpF_spec A (prSp A.num (m.final id.isUpper)) (prSp_wf _ _ (final_wf m _)) j hj t dp
        (by show (m.final _).cols ≤ _; rw [final_cols, hc, hd])
      refine ⟨dp1, ?_, by omega, fun c => ?_⟩
      · rw [if_pos hch]
        rw [← prSp_toCsr] at e1
        exact e1
      · rw [h1 c]
        simp [rowT, hm, hch]
    · refine ⟨dp, by rw [if_neg hch], hd, fun c => ?_⟩
      simp [rowT, hm, hch, macs]

theorem exRowF_spec (A : Arith) (maps : CId → Option (RawMap ℚ)) (NP n m : Nat) (mask : List Bool)
    (hq : ∀ mp, maps .q = some mp → mp.mapping.cols = NP ∧ n = (mp.final false).rows)
    (hu : ∀ mp, maps .u = some mp → mp.mapping.cols = NP ∧ m = (mp.final false).rows)
    (dth : Nat → ℚ) (dp : List ℚ) (hd : dp.length = NP) (e : Nat × Nat) (he : e.1 < n + m) :
    ∃ dp', exRowF A (usedMaps maps n m mask) dth dp e = some dp' ∧ dp'.length = NP ∧
      ∀ c, fn dp' c = macs A.mac (rowT A.num maps (posOf n e.1).1 (posOf n e.1).2 (dth e.2) c) (fn dp c) := by
  unfold exRowF posOf
  by_cases h1 : e.1 < n
  · have h1' : e.1 < (usedMaps maps n m mask).n := h1
    rw [if_pos h1, if_pos h1']
    exact oneRow_spec A maps NP .q e.1 (fun mp hmp => ⟨(hq mp hmp).1, (hq mp hmp).2 ▸ h1⟩) (dth e.2) dp hd
  · have h1' : ¬ e.1 < (usedMaps maps n m mask).n := h1
    rw [if_neg h1, if_neg h1']
    exact oneRow_spec A maps NP .u (e.1 - n) (fun mp hmp => ⟨(hu mp hmp).1, by
      have := (hu mp hmp).2
      show e.1 - n < (mp.final false).rows
      omega⟩) (dth e.2) dp hd

/-- All products of entry `c`. -/
def exTerms (f : ℚ → ℚ) (maps : CId → Option (RawMap ℚ)) (n : Nat) (L : List (Nat × Nat)) (dth : Nat → ℚ) (c : Nat) : List (ℚ × ℚ) :=
  L.flatMap fun e => rowT f maps (posOf n e.1).1 (posOf n e.1).2 (dth e.2) c

theorem uncanonExplicitF_spec (A : Arith) (maps : CId → Option (RawMap ℚ)) (NP n m : Nat) (mask : List Bool)
    (hq : ∀ mp, maps .q = some mp → mp.mapping.cols = NP ∧ n = (mp.final false).rows)
    (hu : ∀ mp, maps .u = some mp → mp.mapping.cols = NP ∧ m = (mp.final false).rows)
    (dth : Nat → ℚ) (dp : List ℚ) (hd : dp.length = NP) :
    ∃ dp', uncanonExplicitF A NP (usedMaps maps n m mask) dth dp = some dp' ∧ dp'.length = NP ∧
      ∀ c, fn dp' c = macs A.mac (exTerms A.num maps n (sel mask (List.range (n + m))).zipIdx dth c) 0 := by
  obtain ⟨dp0, e0, l0, h0⟩ := zero_dp NP dp hd
  have fold : ∀ (L : List (Nat × Nat)) (dp : List ℚ), dp.length = NP → (∀ e ∈ L, e.1 < n + m) →
      ∃ dp', L.foldlM (exRowF A (usedMaps maps n m mask) dth) dp = some dp' ∧ dp'.length = NP ∧
        ∀ c, fn dp' c = macs A.mac (exTerms A.num maps n L dth c) (fn dp c) := by
    intro L
    induction L with
    | nil => intro dp hl _; exact ⟨dp, rfl, hl, fun c => rfl⟩
    | cons e L ih =>
      intro dp hl he
      obtain ⟨dp1, e1, l1, h1⟩ := exRowF_spec A maps NP n m mask hq hu dth dp hl e (he e (List.mem_cons_self ..))
      obtain ⟨dp2, e2, l2, h2⟩ := ih dp1 l1 (fun e' h => he e' (List.mem_cons_of_mem _ h))
      refine ⟨dp2, ?_, l2, fun c => ?_⟩
      · rw [List.foldlM_cons, e1]; exact e2
      · rw [h2 c, h1 c, ← macs_append]
        rfl
  obtain ⟨dp', e, l, h⟩ := fold (sel mask (List.range (n + m))).zipIdx dp0 l0 (by
    intro e he
    rw [List.mem_zipIdx_iff_getElem?] at he
    exact (sel_range_get he).1)
  refine ⟨dp', ?_, l, fun c => by rw [h c, h0 c]⟩
  unfold uncanonExplicitF
  rw [e0]
  exact e

/-- Sums over the products of a row. -/
theorem rowT_sum (f : ℚ → ℚ) (maps : CId → Option (RawMap ℚ)) (id : CId) (m : RawMap ℚ) (hm : maps id = some m)
    (hch : mapChanges (some m) id.isUpper = true) (j : Nat) (hj : j < (m.final id.isUpper).rows) (t : ℚ) (c : Nat)
    (hc : c < m.mapping.cols) (w : ℚ → ℚ) (h0 : w (f 0) = 0) :
    ((rowT f maps id j t c).map fun e => w e.1).sum
      = w (f (m.mapping.at (srcRow m id.isUpper j) c * m.sign (srcRow m id.isUpper j))) ∧
    ∀ e ∈ rowT f maps id j t c, e.2 = t := by
  have := prSp_final_at (fun x => w (f x)) h0 m id.isUpper j c hj hc
  constructor
  · rw [← this]
    simp only [rowT, hm, hch, if_true]
    unfold col Sp.at Sp.row prSp
    simp only [List.filter_filter, List.filter_map, List.map_map, Function.comp_def]
    congr 2
    apply List.filter_congr
    intro e _
    rw [Bool.and_comm, Bool.decide_and]
  · intro e he
    simp only [rowT, hm, hch, if_true, col, List.mem_map] at he
    obtain ⟨x, _, rfl⟩ := he
    rfl

theorem rowT_length (f : ℚ → ℚ) (maps : CId → Option (RawMap ℚ)) (id : CId) (m : RawMap ℚ) (hm : maps id = some m)
    (hch : mapChanges (some m) id.isUpper = true) (j : Nat) (hj : j < (m.final id.isUpper).rows) (t : ℚ) (c : Nat)
    (hc : c < m.mapping.cols) :
    (rowT f maps id j t c).length
      = if m.mapping.at (srcRow m id.isUpper j) c * m.sign (srcRow m id.isUpper j) = 0 then 0 else 1 := by
  have h1 : (rowT f maps id j t c).length = (col c t ((m.final id.isUpper).row j)).length := by
    simp only [rowT, hm, hch, if_true, col, prSp_row, List.filter_map, List.length_map, Function.comp_def]
  have h := (rowT_sum (fun x : ℚ => if x = 0 then (0 : ℚ) else 1) maps id m hm hch j hj t c hc (fun x => x) (by simp)).1
  simp only [rowT, hm, hch, if_true, col, prSp_row, List.filter_map, List.map_map, Function.comp_def] at h
  have hne : ∀ e ∈ ((m.final id.isUpper).row j).filter (fun e => decide (e.2.1 = c)), e.2.2 ≠ 0 := fun e he =>
    final_ne_zero m _ e (List.mem_of_mem_filter (List.mem_of_mem_filter he))
  have e : ∀ l : List (Nat × Nat × ℚ), (∀ e ∈ l, e.2.2 ≠ 0) →
      (l.map fun e => if e.2.2 = 0 then (0 : ℚ) else 1).sum = (l.length : ℚ) := by
    intro l
    induction l with
    | nil => intro _; simp
    | cons t l ih =>
      intro hl
      rw [List.map_cons, List.sum_cons, ih fun t ht => hl t (List.mem_cons_of_mem _ ht)]
      simp [hl t (List.mem_cons_self ..)]
      ring
  rw [e _ hne] at h
  rw [h1]
  unfold col
  rw [List.length_map]
  split at h
  · rename_i hz
    rw [if_pos hz]
    exact_mod_cast h
  · rename_i hz
    rw [if_neg hz]
    exact_mod_cast h

/-- `cpg_dtheta[j]` as a sum of products. -/
theorem dthetaF_eq (A : Arith) (K nSol nLoop : Nat) (fb : Nat → ℚ) (h : Nat) (dx : Nat → ℚ) (j : Nat) :
    dthetaF A K nSol nLoop fb h dx j = macs A.mac ((List.range nLoop).map fun i => (A.conv (feedback K nSol fb h i j), dx i)) 0 := by
  unfold dthetaF macs
  rw [List.foldl_map]

theorem exRunF_snoc (A : Arith) (T : ExTab ℚ) (E : ExCanon ℚ) (ops : List (ExOp ℚ)) (o : ExOp ℚ) :
    exRunF A T E (ops ++ [o]) = (exRunF A T E ops).bind fun s => exStepF A T E s o := by
  unfold exRunF
  rw [List.foldlM_append]
  cases List.foldlM (exStepF A T E) (exInit T.NP) ops with
  | none => rfl
  | some s =>
    rw [Option.bind_eq_bind, Option.bind_some, List.foldlM_cons, Option.bind_some]
    cases exStepF A T E s o <;> rfl

/-- Region and sensitivities after any sequence of calls. -/
theorem exRunF_inv (A : Arith) (h0 : A.conv 0 = 0) (T : ExTab ℚ) (maps : CId → Option (RawMap ℚ)) (n m : Nat) (mask : List Bool)
    (hq : ∀ mp, maps .q = some mp → mp.mapping.cols = T.NP ∧ n = (mp.final false).rows)
    (hu : ∀ mp, maps .u = some mp → mp.mapping.cols = T.NP ∧ m = (mp.final false).rows)
    (ops : List (ExOp ℚ)) : ∀ s, exRunF A T (usedMaps maps n m mask) ops = some s →
      s.region = regionOf ops ∧ s.dp.length = T.NP ∧ ∀ k < T.nLoop, s.dx k = A.conv (givenDx ops k) := by
  induction ops using List.reverseRecOn with
  | nil =>
    intro s h
    cases h
    exact ⟨rfl, by simp [exInit], fun k _ => h0.symm⟩
  | append_singleton ops o ih =>
    intro s h
    rw [exRunF_snoc] at h
    cases hr0 : exRunF A T (usedMaps maps n m mask) ops with
    | none => rw [hr0] at h; cases h
    | some s0 =>
      rw [hr0, Option.bind_some] at h
      obtain ⟨i1, i2, i3⟩ := ih s0 hr0
      rw [regionOf_snoc]
      cases o with
      | solve r =>
        cases h
        exact ⟨rfl, i2, fun k hk => by rw [givenDx_snoc]; exact i3 k hk⟩
      | setD j v =>
        cases h
        refine ⟨i1, i2, fun k hk => ?_⟩
        rw [givenDx_snoc]
        show (if k = j then A.conv v else s0.dx k) = A.conv (if k = j then v else givenDx ops k)
        by_cases hkj : k = j
        · rw [if_pos hkj, if_pos hkj]
        · rw [if_neg hkj, if_neg hkj, i3 k hk]
      | gradient u =>
        unfold exStepF at h
        simp only at h
        cases hr : u.or s0.region with
        | none => rw [hr] at h; cases h
        | some r =>
          rw [hr] at h
          obtain ⟨dp', e, l, _⟩ := uncanonExplicitF_spec A maps T.NP n m mask hq hu
            (dthetaF A T.K T.nSol T.nLoop T.fb (T.hp r) s0.dx) s0.dp i2
          simp only [e] at h
          cases h
          refine ⟨?_, l, fun k hk => ?_⟩
          · cases u with
            | some r' => simp only [Option.some_or] at hr; rw [hr]
            | none => rw [Option.none_or, i1] at hr; rw [hr]
          · rw [givenDx_snoc]
            show (if k < T.nLoop then (0 : ℚ) else _) = A.conv 0
            rw [if_pos hk, h0]

end explicit

end Verif.Lemmas.Rounded
