import Verif.Model.Printed
import Verif.Spec.Printed
import Verif.Lemmas.Text
import Verif.Lemmas.Canon
import Verif.Props.Text
import Mathlib.Tactic.Linarith
import Mathlib.Tactic.Positivity
import Mathlib.Tactic.NormNum
import Mathlib.Tactic.FieldSimp
import Mathlib.Algebra.Order.BigOperators.Group.Finset
import Mathlib.Algebra.Order.AbsoluteValue.Basic
/-!
Helper facts about compiled numbers.
-/
namespace Verif.Lemmas.Printed
open Verif.Model Verif.Model.Text Verif.Model.Printed Verif.Spec Verif.Spec.Text Verif.Spec.Printed
open Verif.Lemmas Verif.Lemmas.Text Finset

/-- The literal of a number. -/
def lit (x : ℚ) : ℚ := (if x < 0 then -1 else 1) * ((roundEven (|x| * 10 ^ 20) : ℚ) / 10 ^ 20)

theorem litVal_lit (x : ℚ) : litVal (fmt20 (ofRat x)) = some (lit x) := by
  have := litVal_fmt (decide (x < 0)) (roundEven (|x| * 10 ^ 20)) 20
  simpa [fmt20, ofRat, lit] using this

theorem compiled_eq (cc : ℚ → ℚ) (x : ℚ) : compiled cc x = cc (lit x) := by
  simp [compiled, litVal_lit]

theorem lit_err (x : ℚ) : |lit x - x| ≤ 1 / 2 / 10 ^ 20 := by
  have he := roundEven_err (|x| * 10 ^ 20) (by positivity)
  have h10 : (0 : ℚ) < 10 ^ 20 := by positivity
  have key : |(roundEven (|x| * 10 ^ 20) : ℚ) / 10 ^ 20 - (|x|)| ≤ 1 / 2 / 10 ^ 20 := by
    have : (roundEven (|x| * 10 ^ 20) : ℚ) / 10 ^ 20 - (|x|) = ((roundEven (|x| * 10 ^ 20) : ℚ) - |x| * 10 ^ 20) / 10 ^ 20 := by
      field_simp
    rw [this, abs_div, abs_of_pos h10]
    exact div_le_div_of_nonneg_right he h10.le
  unfold lit
  by_cases hx : x < 0
  · rw [abs_of_neg hx] at key ⊢
    rw [if_pos hx]
    rw [show -1 * ((roundEven (-x * 10 ^ 20) : ℚ) / 10 ^ 20) - x = -((roundEven (-x * 10 ^ 20) : ℚ) / 10 ^ 20 - -x) by ring, abs_neg]
    exact key
  · rw [abs_of_nonneg (not_lt.1 hx)] at key ⊢
    rw [if_neg hx, one_mul]
    exact key

theorem roundEven_nat (n : Nat) : roundEven (n : ℚ) = n := by
  unfold roundEven
  simp

theorem lit_decimals (n : Int) : lit ((n : ℚ) / 10 ^ 20) = (n : ℚ) / 10 ^ 20 := by
  have h10 : (0 : ℚ) < 10 ^ 20 := by positivity
  have habs : |(n : ℚ) / 10 ^ 20| * 10 ^ 20 = ((n.natAbs : Nat) : ℚ) := by
    rw [abs_div, abs_of_pos h10, div_mul_cancel₀ _ h10.ne']
    rw [Nat.cast_natAbs, Int.cast_abs]
  unfold lit
  rw [habs, roundEven_nat]
  have hn : ((n.natAbs : Nat) : ℚ) = |(n : ℚ)| := by rw [Nat.cast_natAbs, Int.cast_abs]
  rw [hn]
  by_cases h : (n : ℚ) < 0
  · rw [if_pos (div_neg_of_neg_of_pos h h10), abs_of_neg h]; ring
  · rw [if_neg (not_lt.2 (div_nonneg (not_lt.1 h) h10.le)), abs_of_nonneg (not_lt.1 h), one_mul]

theorem lit_small (x : ℚ) (h : |x| < 1 / 2 / 10 ^ 20) : lit x = 0 := by
  have h10 : (0 : ℚ) < 10 ^ 20 := by positivity
  have h0 : 0 ≤ |x| * 10 ^ 20 := by positivity
  have h1 : |x| * 10 ^ 20 < 1 / 2 := by
    have := mul_lt_mul_of_pos_right h h10
    rwa [div_mul_cancel₀ _ h10.ne'] at this
  have hfl : ⌊|x| * 10 ^ 20⌋ = 0 := Int.floor_eq_iff.2 ⟨by simpa using h0, by simp; linarith⟩
  have : roundEven (|x| * 10 ^ 20) = 0 := by
    unfold roundEven
    simp only [hfl, Int.toNat_zero, Nat.cast_zero, sub_zero]
    rw [if_pos h1]
  unfold lit
  rw [this]; simp

/-! ### doubles -/

theorem nearest_double {cc : ℚ → ℚ} (hc : Nearest cc) {y : ℚ} (hy : Double y) : cc y = y := by
  have := (hc y).2 y hy
  rw [sub_self, abs_zero] at this
  exact sub_eq_zero.1 (abs_eq_zero.1 (le_antisymm this (abs_nonneg _)))

theorem double_int (n : Int) (h : n.natAbs < 2 ^ 53) : Double n := ⟨n, 0, h, by omega, by simp⟩

/-- Numbers of type `double` that are not small are multiples of `2 ^ -66`. -/
theorem double_grid {x : ℚ} (hx : Double x) (h : (1 : ℚ) / 2 ^ 14 ≤ |x|) : ∃ k : Int, x = k / 2 ^ 66 := by
  obtain ⟨m, e, hm, _, rfl⟩ := hx
  have he : -66 ≤ e := by
    by_contra hlt
    have hlt : e ≤ -67 := by omega
    have h2 : (2 : ℚ) ^ e ≤ 2 ^ (-67 : Int) := zpow_le_zpow_right₀ (by norm_num) hlt
    have hm' : |(m : ℚ)| < 2 ^ 53 := by
      rw [← Int.cast_abs, ← Nat.cast_natAbs]
      exact_mod_cast hm
    rw [abs_mul, abs_of_pos (zpow_pos (by norm_num : (0 : ℚ) < 2) e)] at h
    have h3 : |(m : ℚ)| * 2 ^ e < 2 ^ 53 * 2 ^ (-67 : Int) :=
      mul_lt_mul hm' h2 (zpow_pos (by norm_num) _) (by positivity)
    have h4 : (2 : ℚ) ^ 53 * 2 ^ (-67 : Int) = 1 / 2 ^ 14 := by norm_num
    rw [h4] at h3
    exact absurd h (not_le.2 h3)
  obtain ⟨k, hk⟩ := Int.eq_ofNat_of_zero_le (show 0 ≤ e + 66 by omega)
  refine ⟨m * 2 ^ k, ?_⟩
  have : (2 : ℚ) ^ e = 2 ^ (k : Int) / 2 ^ 66 := by
    rw [← hk, zpow_add₀ (by norm_num)]
    norm_num
  rw [this]
  push_cast
  rw [zpow_natCast]
  ring

/-- Numbers of type `double` next to one that is not small are more than `1e-20` away. -/
theorem double_gap {x y : ℚ} (hx : Double x) (hy : Double y) (h : (1 : ℚ) / 2 ^ 13 ≤ |x|)
    (hd : |y - x| ≤ 1 / 10 ^ 20) : y = x := by
  have hy' : (1 : ℚ) / 2 ^ 14 ≤ |y| := by
    have : |x| ≤ |y| + |y - x| := by
      have := abs_sub_abs_le_abs_sub x y
      rw [abs_sub_comm x y] at this
      linarith
    norm_num at h hd ⊢
    linarith
  have hx' : (1 : ℚ) / 2 ^ 14 ≤ |x| := le_trans (by norm_num) h
  obtain ⟨a, rfl⟩ := double_grid hx hx'
  obtain ⟨b, rfl⟩ := double_grid hy hy'
  have : |((b - a : Int) : ℚ)| < 1 := by
    push_cast
    have e : (b : ℚ) / 2 ^ 66 - a / 2 ^ 66 = ((b : ℚ) - a) / 2 ^ 66 := by ring
    rw [e, abs_div, abs_of_pos (by positivity : (0 : ℚ) < 2 ^ 66), div_le_iff₀ (by positivity)] at hd
    exact lt_of_le_of_lt hd (by norm_num)
  have h0 : b - a = 0 := by
    have : |b - a| < 1 := by exact_mod_cast this
    exact Int.abs_lt_one_iff.1 this
  have : b = a := by omega
  rw [this]

theorem compiled_err {cc : ℚ → ℚ} (hc : Nearest cc) {x : ℚ} (hx : Double x) : |compiled cc x - x| ≤ 1 / 10 ^ 20 := by
  rw [compiled_eq]
  have h1 := lit_err x
  have h2 := (hc (lit x)).2 x hx
  rw [abs_sub_comm x] at h2
  have h3 := abs_sub_le (cc (lit x)) (lit x) x
  have : (1 : ℚ) / 10 ^ 20 = 1 / 2 / 10 ^ 20 + 1 / 2 / 10 ^ 20 := by norm_num
  linarith

theorem compiled_safe {cc : ℚ → ℚ} (hc : Nearest cc) {x : ℚ} (hx : Safe x) : compiled cc x = x := by
  obtain ⟨hd, ⟨n, rfl⟩ | h⟩ := hx
  · rw [compiled_eq, lit_decimals]; exact nearest_double hc hd
  · have := compiled_err hc hd
    rw [compiled_eq] at this ⊢
    exact double_gap hd (hc _).1 h this

theorem safe_zero : Safe 0 := ⟨by simpa using double_int 0 (by norm_num), Or.inl ⟨0, by simp⟩⟩
theorem safe_one : Safe 1 :=
  ⟨by simpa using double_int 1 (by norm_num), Or.inl ⟨10 ^ 20, by norm_num⟩⟩

theorem compiled_small {cc : ℚ → ℚ} (hc : Nearest cc) {x : ℚ} (h : |x| < 1 / 2 / 10 ^ 20) : compiled cc x = 0 := by
  rw [compiled_eq, lit_small x h]; exact nearest_double hc safe_zero.1

/-! ### maps -/

/-- The map with all entries replaced. -/
def prSp (pr : ℚ → ℚ) (A : Sp ℚ) : Sp ℚ := { A with ents := A.ents.map fun e => (e.1, e.2.1, pr e.2.2) }

theorem prSp_row (pr : ℚ → ℚ) (A : Sp ℚ) (i : Nat) : (prSp pr A).row i = (A.row i).map fun e => (e.1, e.2.1, pr e.2.2) := by
  simp [Sp.row, prSp, List.filter_map, Function.comp_def]

theorem prSp_csr (cc : ℚ → ℚ) (A : Sp ℚ) : mapC cc A.toCsr = (prSp (compiled cc) A).toCsr := by
  have h : (fun i => (prSp (compiled cc) A).row i) = fun i => (A.row i).map fun e => (e.1, e.2.1, compiled cc e.2.2) := by
    funext i; exact prSp_row _ A i
  simp only [mapC, Sp.toCsr]
  congr 1
  · show _ = (List.range (A.rows + 1)).map fun i => ((List.range i).map fun k => ((prSp (compiled cc) A).row k).length).sum
    simp only [prSp_row, List.length_map]
  · show _ = (((List.range A.rows).flatMap (prSp (compiled cc) A).row).map fun e => e.2.1)
    rw [show (prSp (compiled cc) A).row = fun i => (A.row i).map fun e => (e.1, e.2.1, compiled cc e.2.2) from h]
    simp [List.map_flatMap, Function.comp_def]
  · show _ = (((List.range A.rows).flatMap (prSp (compiled cc) A).row).map fun e => e.2.2)
    rw [show (prSp (compiled cc) A).row = fun i => (A.row i).map fun e => (e.1, e.2.1, compiled cc e.2.2) from h]
    simp [List.map_flatMap, Function.comp_def]

theorem prSp_wf (pr : ℚ → ℚ) (A : Sp ℚ) (h : A.WF) : (prSp pr A).WF := by
  intro e he
  obtain ⟨e', he', rfl⟩ := List.mem_map.1 he
  exact h e' he'

theorem prSp_selectRows (pr : ℚ → ℚ) (A : Sp ℚ) (sel : List Nat) :
    prSp pr (A.selectRows sel) = (prSp pr A).selectRows sel := by
  simp [prSp, Sp.selectRows, List.map_flatMap, List.filter_map, Function.comp_def]

/-- Entries of the replaced map: every position has at most one stored entry. -/
theorem prSp_ofDense_at (pr : ℚ → ℚ) (h0 : pr 0 = 0) (rows cols : Nat) (f : Nat → Nat → ℚ) (i j : Nat)
    (hi : i < rows) (hj : j < cols) : (prSp pr (Sp.ofDense rows cols f)).at i j = pr (f i j) := by
  have hents : (prSp pr (Sp.ofDense rows cols f)).ents = (List.range cols).flatMap fun j =>
      (List.range rows).filterMap fun i => if f i j = 0 then none else some (i, j, pr (f i j)) := by
    simp only [prSp, Sp.ofDense, List.map_flatMap, List.map_filterMap]
    congr 1
    funext j
    congr 1
    funext i
    split <;> rfl
  unfold Sp.at
  rw [hents]
  simp only [List.filter_flatMap, List.map_flatMap]
  have hinner : ∀ j', ((((List.range rows).filterMap fun i' =>
      if f i' j' = 0 then none else some (i', j', pr (f i' j'))).filter
        fun e => decide (e.1 = i ∧ e.2.1 = j)).map fun e => e.2.2).sum
      = if j' = j then pr (f i j) else 0 := by
    intro j'
    have h2 : ∀ n, ((((List.range n).filterMap fun i' =>
      if f i' j' = 0 then none else some (i', j', pr (f i' j'))).filter
        fun e => decide (e.1 = i ∧ e.2.1 = j)).map fun e => e.2.2).sum
        = if i < n ∧ j' = j then pr (f i j) else 0 := by
      intro n
      induction n with
      | zero => simp
      | succ n ih =>
        rw [List.range_succ, List.filterMap_append, List.filter_append, List.map_append,
          List.sum_append, ih]
        by_cases hin : n = i
        · subst hin
          by_cases hjj : j' = j
          · subst hjj
            by_cases hz : f n j' = 0 <;> simp [hz, h0]
          · by_cases hz : f n j' = 0 <;> simp [hz, hjj]
        · have hlt : (i < n + 1 ∧ j' = j) ↔ (i < n ∧ j' = j) := by
            constructor <;> rintro ⟨a, b⟩ <;> exact ⟨by omega, b⟩
          simp only [hlt]
          by_cases hz : f n j' = 0 <;> simp [hz, hin]
    rw [h2 rows]
    by_cases hjj : j' = j <;> simp [hi, hjj]
  have houter : ∀ n, ((List.range n).flatMap fun j' => (((List.range rows).filterMap fun i' =>
      if f i' j' = 0 then none else some (i', j', pr (f i' j'))).filter
        fun e => decide (e.1 = i ∧ e.2.1 = j)).map fun e => e.2.2).sum = if j < n then pr (f i j) else 0 := by
    intro n
    induction n with
    | zero => simp
    | succ n ih =>
      rw [List.range_succ, List.flatMap_append, List.sum_append, ih, List.flatMap_singleton, hinner]
      by_cases hn : n = j
      · subst hn; simp
      · have : j < n + 1 ↔ j < n := by omega
        simp [hn, this]
  rw [houter cols, if_pos hj]

theorem prSp_final_at (pr : ℚ → ℚ) (h0 : pr 0 = 0) (m : RawMap ℚ) (u : Bool) (i j : Nat)
    (hi : i < (m.final u).rows) (hj : j < m.mapping.cols) :
    (prSp pr (m.final u)).at i j = pr (m.mapping.at (srcRow m u i) j * m.sign (srcRow m u i)) := by
  have hlt := srcRow_lt m u i hi
  unfold RawMap.final srcRow at *
  by_cases h : u = true
  · simp only [h, if_true] at hi hlt ⊢
    rw [prSp_selectRows, selectRows_at _ _ _ hi]
    exact prSp_ofDense_at pr h0 _ _ _ _ _ hlt hj
  · simp only [h] at hi hlt ⊢
    exact prSp_ofDense_at pr h0 _ _ _ _ _ hlt hj

/-- The rows of the original map that the canonical parameter consists of. -/
def srcRows (m : RawMap ℚ) (u : Bool) : List Nat :=
  if u then nonzeroRows m.signed else List.range m.mapping.rows

theorem srcRows_spec (m : RawMap ℚ) (u : Bool) : (srcRows m u).length = (m.final u).rows ∧
    srcRows m u = (List.range (m.final u).rows).map (srcRow m u) := by
  have h1 : (srcRows m u).length = (m.final u).rows := by
    unfold srcRows RawMap.final
    cases u <;> simp [Sp.selectRows, RawMap.signed, Sp.ofDense]
  refine ⟨h1, List.ext_getElem (by simp [h1]) fun i hi hi' => ?_⟩
  simp only [List.getElem_map, List.getElem_range]
  unfold srcRow
  cases u with
  | false => simp [srcRows]
  | true =>
    simp only [srcRows, if_true] at hi ⊢
    simp [List.getD, List.getElem?_eq_getElem hi]

/-- The compiled canonicalization computes with the compiled coefficients. -/
theorem canonValC_eq {cc : ℚ → ℚ} (hc : Nearest cc) (m : RawMap ℚ) (u : Bool) (θ : List ℚ)
    (hcols : m.mapping.cols = θ.length + 1) :
    canonValC cc (some m) u θ = some ((srcRows m u).map fun r =>
      ∑ j ∈ range (θ.length + 1), compiled cc (m.mapping.at r j * m.sign r) * fn (θ ++ [1]) j) := by
  unfold canonValC
  simp only [Option.bind_some]
  rw [prSp_csr, compiled_safe hc safe_one]
  obtain ⟨out, h1, h2, h3, h4⟩ := canonicalizeC_ok (prSp (compiled cc) (m.final u)) (prSp_wf _ _ (final_wf m u)) (θ ++ [1])
    (List.replicate (m.final u).rows 0) (by show (m.final u).cols ≤ _; rw [final_cols, hcols]; simp) (by simp [prSp])
  have hr : (prSp (compiled cc) (m.final u)).rows = (m.final u).rows := rfl
  have hcl : (prSp (compiled cc) (m.final u)).cols = m.mapping.cols := final_cols m u
  rw [hr] at h1 h3
  rw [hcl] at h3
  rw [h1]
  congr 1
  rw [(srcRows_spec m u).2, List.map_map]
  apply List.ext_getElem?
  intro i
  by_cases hi : i < (m.final u).rows
  · rw [h3 i hi]
    simp only [List.getElem?_map, List.getElem?_range hi, Option.map_some, Function.comp]
    congr 1
    unfold mulVec
    rw [hcols]
    refine sum_congr rfl fun j hj => ?_
    rw [prSp_final_at _ (compiled_safe hc safe_zero) m u i j hi (by rw [hcols]; simpa using hj)]
  · rw [List.getElem?_eq_none (by rw [h2]; simp; omega), List.getElem?_eq_none (by simp; omega)]

end Verif.Lemmas.Printed
