import Verif.Model.Rounded
import Verif.Spec.Rounded
import Verif.Lemmas.Printed
import Mathlib.Algebra.Order.Archimedean.Basic
import Mathlib.Algebra.Order.Round
/-!
Rounding to nearest and rounded sums.
-/
namespace Verif.Lemmas.Rounded
open Verif.Model Verif.Model.Text Verif.Model.Printed Verif.Model.Rounded Verif.Spec Verif.Spec.Printed Verif.Spec.Rounded Verif.Lemmas
  Verif.Lemmas.Printed Finset

theorem rep_double (x : ℚ) : Rep 53 (-1074) x ↔ Double x := Iff.rfl

theorem unit_pos (p : Nat) : 0 < unit p := by unfold unit; positivity
theorem tiny_pos (e : Int) : 0 < tiny e := by unfold tiny; exact zpow_pos (by norm_num) _

variable {p : Nat} {emin : Int} {fl : ℚ → ℚ}

theorem rep_zero (p : Nat) (emin : Int) : Rep p emin 0 := ⟨0, emin, by positivity, le_refl _, by simp⟩

theorem nearest_rep (h : NearestIn p emin fl) {y : ℚ} (hy : Rep p emin y) : fl y = y := by
  have := (h y).2 y hy
  rw [sub_self, abs_zero] at this
  exact sub_eq_zero.1 (abs_eq_zero.1 (le_antisymm this (abs_nonneg _)))

theorem nearest_zero (h : NearestIn p emin fl) : fl 0 = 0 := nearest_rep h (rep_zero p emin)

/-- Rounding to nearest is monotone, whatever happens with ties. -/
theorem nearest_mono (h : NearestIn p emin fl) {x y : ℚ} (hxy : x ≤ y) : fl x ≤ fl y := by
  rcases hxy.eq_or_lt with rfl | hlt
  · exact le_refl _
  by_contra hn
  push Not at hn
  have h1 := (h x).2 _ (h y).1
  have h2 := (h y).2 _ (h x).1
  rcases abs_cases (fl x - x) with ⟨a, _⟩ | ⟨a, _⟩ <;> rcases abs_cases (fl y - x) with ⟨b, _⟩ | ⟨b, _⟩ <;>
    rcases abs_cases (fl y - y) with ⟨c, _⟩ | ⟨c, _⟩ <;> rcases abs_cases (fl x - y) with ⟨d, _⟩ | ⟨d, _⟩ <;>
    rw [a, b] at h1 <;> rw [c, d] at h2 <;> linarith

/-- A multiple of `2^e` next to `y` is representable, if it is not too large. -/
theorem rep_round (hp : 0 < p) (y : ℚ) (e : Int) (he : emin ≤ e) (hy : |y| < 2 ^ p * (2 : ℚ) ^ e) :
    Rep p emin (round (y / (2 : ℚ) ^ e) * (2 : ℚ) ^ e) := by
  have h2 : (0 : ℚ) < (2 : ℚ) ^ e := zpow_pos (by norm_num) _
  have hr := abs_sub_round (y / (2 : ℚ) ^ e)
  have hq : |y / (2 : ℚ) ^ e| < 2 ^ p := by
    rw [abs_div, abs_of_pos h2, div_lt_iff₀ h2]; exact hy
  generalize round (y / (2 : ℚ) ^ e) = m at hr
  have hm : |(m : ℚ)| < 2 ^ p + 1 := by
    have h3 : |(m : ℚ)| ≤ |y / (2 : ℚ) ^ e| + |y / (2 : ℚ) ^ e - m| := by
      have := abs_sub_abs_le_abs_sub (m : ℚ) (y / (2 : ℚ) ^ e)
      rw [abs_sub_comm (m : ℚ)] at this
      linarith
    linarith
  have hm' : m.natAbs < 2 ^ p + 1 := by
    rw [← Int.cast_abs] at hm
    have h4 : |m| < 2 ^ p + 1 := by exact_mod_cast hm
    rw [Int.abs_eq_natAbs] at h4
    exact_mod_cast h4
  by_cases hlt : m.natAbs < 2 ^ p
  · exact ⟨m, e, hlt, he, rfl⟩
  · have heq : m.natAbs = 2 ^ p := by omega
    obtain ⟨k, rfl⟩ : ∃ k, p = k + 1 := ⟨p - 1, by omega⟩
    have h5 : (2 : ℚ) ^ (e + 1) = 2 * (2 : ℚ) ^ e := by
      rw [zpow_add₀ (by norm_num)]; ring
    rcases Int.natAbs_eq m with hs | hs
    · refine ⟨2 ^ k, e + 1, ?_, by omega, ?_⟩
      · rw [Int.natAbs_pow]
        exact Nat.pow_lt_pow_right (by norm_num) (by omega)
      · rw [hs, heq, h5]; push_cast; ring
    · refine ⟨-2 ^ k, e + 1, ?_, by omega, ?_⟩
      · rw [Int.natAbs_neg, Int.natAbs_pow]
        exact Nat.pow_lt_pow_right (by norm_num) (by omega)
      · rw [hs, heq, h5]; push_cast; ring

/-- The error of one rounding. -/
theorem nearest_err (hp : 0 < p) (h : NearestIn p emin fl) (y : ℚ) :
    |fl y - y| ≤ unit p * |y| ∨ |y| < (2 : ℚ) ^ (emin + p - 1) ∧ |fl y - y| ≤ tiny emin := by
  by_cases hy : y = 0
  · left; rw [hy, nearest_zero h]; simp
  have hpos : 0 < |y| := abs_pos.2 hy
  obtain ⟨k, hk1, hk2⟩ := exists_mem_Ico_zpow hpos (by norm_num : (1 : ℚ) < 2)
  have hhalf : ∀ e : Int, emin ≤ e → |y| < 2 ^ p * (2 : ℚ) ^ e → |fl y - y| ≤ (2 : ℚ) ^ e / 2 := by
    intro e he hlt
    have h2 : (0 : ℚ) < (2 : ℚ) ^ e := zpow_pos (by norm_num) _
    refine le_trans ((h y).2 _ (rep_round hp y e he hlt)) ?_
    have hr := abs_sub_round (y / (2 : ℚ) ^ e)
    generalize round (y / (2 : ℚ) ^ e) = m at hr
    have : (m : ℚ) * 2 ^ e - y = -((y / (2 : ℚ) ^ e - m) * (2 : ℚ) ^ e) := by
      rw [sub_mul, div_mul_cancel₀ _ h2.ne']; ring
    rw [this, abs_neg, abs_mul, abs_of_pos h2]
    calc |y / (2 : ℚ) ^ e - m| * (2 : ℚ) ^ e ≤ 1 / 2 * (2 : ℚ) ^ e := mul_le_mul_of_nonneg_right hr h2.le
      _ = _ := by ring
  have hpe : ∀ e : Int, (2 : ℚ) ^ p * (2 : ℚ) ^ e = (2 : ℚ) ^ (e + p) := by
    intro e
    rw [zpow_add₀ (by norm_num), zpow_natCast, mul_comm]
  by_cases hle : emin + p - 1 ≤ k
  · left
    have h1 := hhalf (k + 1 - p) (by omega) (by
      rw [hpe, show k + 1 - (p : Int) + p = k + 1 by ring]; exact hk2)
    refine le_trans h1 ?_
    have h3 : (2 : ℚ) ^ (k + 1 - (p : Int)) / 2 = unit p * (2 : ℚ) ^ k := by
      rw [show k + 1 - (p : Int) = k + (1 - p) by ring, zpow_add₀ (by norm_num), zpow_sub₀ (by norm_num), zpow_natCast, zpow_one]
      unfold unit
      ring
    rw [h3]
    exact mul_le_mul_of_nonneg_left hk1 (unit_pos p).le
  · right
    push Not at hle
    have hlt : |y| < (2 : ℚ) ^ (emin + p - 1) :=
      lt_of_lt_of_le hk2 (zpow_le_zpow_right₀ (by norm_num) (by omega))
    refine ⟨hlt, ?_⟩
    have h1 := hhalf emin (le_refl _) (by
      rw [hpe]
      exact lt_of_lt_of_le hlt (zpow_le_zpow_right₀ (by norm_num) (by omega)))
    refine le_trans h1 (le_of_eq ?_)
    unfold tiny
    rw [zpow_sub₀ (by norm_num), zpow_one]

theorem nearest_bound (hp : 0 < p) (h : NearestIn p emin fl) (y : ℚ) : |fl y - y| ≤ unit p * |y| + tiny emin := by
  have h1 := mul_nonneg (unit_pos p).le (abs_nonneg y)
  have h2 := (tiny_pos emin).le
  rcases nearest_err hp h y with h3 | ⟨_, h3⟩ <;> linarith

theorem nearest_normal (hp : 0 < p) (h : NearestIn p emin fl) {y : ℚ} (hy : Normal p emin y) : |fl y - y| ≤ unit p * |y| := by
  rcases nearest_err hp h y with h3 | ⟨h3, _⟩
  · exact h3
  · rcases hy with rfl | hy
    · rw [nearest_zero h]; simp
    · linarith

/-! ### sums -/

/-- The error of `s += a * b`. -/
theorem mac_err {mac : ℚ → ℚ → ℚ → ℚ} (hp : 0 < p) (h : NearestIn p emin fl) (hm : Mac fl mac) (s a b : ℚ) :
    |mac s a b - (s + a * b)| ≤ unit p * |s| + ((1 + unit p) ^ 2 - 1) * |a * b| + (2 + unit p) * tiny emin := by
  have hu := (unit_pos p).le
  have ht := (tiny_pos emin).le
  have hab := abs_nonneg (a * b)
  rcases hm s a b with e | e
  · have h1 := nearest_bound hp h (a * b)
    have h2 := nearest_bound hp h (s + fl (a * b))
    generalize fl (a * b) = t at *
    rw [e]
    have h3 : |fl (s + t) - (s + a * b)| ≤ |fl (s + t) - (s + t)| + |t - a * b| := by
      have := abs_add_le (fl (s + t) - (s + t)) (t - a * b)
      rwa [show fl (s + t) - (s + t) + (t - a * b) = fl (s + t) - (s + a * b) by ring] at this
    have h4 : |s + t| ≤ |s| + |a * b| + |t - a * b| := by
      have h5 := abs_add_le s (a * b + (t - a * b))
      have h6 := abs_add_le (a * b) (t - a * b)
      rw [show s + (a * b + (t - a * b)) = s + t by ring] at h5
      linarith
    have h5 := mul_le_mul_of_nonneg_left h4 hu
    have h6 := mul_le_mul_of_nonneg_left h1 hu
    nlinarith
  · have h1 := nearest_bound hp h (s + a * b)
    rw [e]
    have h2 := mul_le_mul_of_nonneg_left (abs_add_le s (a * b)) hu
    nlinarith [mul_nonneg hu ht, mul_nonneg hu (mul_nonneg hu hab), mul_nonneg hu hab]

/-- A row of a map with a vector: the sum in the order of the loop. -/
def rowMac (mac : ℚ → ℚ → ℚ → ℚ) (seg : List (Nat × Nat × ℚ)) (v : Nat → ℚ) (s : ℚ) : ℚ :=
  seg.foldl (fun s e => mac s e.2.2 (v e.2.1)) s

/-- The sum of absolute values. -/
def rowAbs (seg : List (Nat × Nat × ℚ)) (v : Nat → ℚ) : ℚ := (seg.map fun e => |e.2.2 * v e.2.1|).sum

theorem small_nonneg (p : Nat) (emin : Int) (k : Nat) : 0 ≤ small p emin k := by
  have hu := (unit_pos p).le
  have ht := (tiny_pos emin).le
  induction k with
  | zero => exact le_refl _
  | succ k ih => simp only [small]; positivity

theorem rowAbs_nonneg (seg : List (Nat × Nat × ℚ)) (v : Nat → ℚ) : 0 ≤ rowAbs seg v := by
  unfold rowAbs
  apply List.sum_nonneg
  intro x hx
  obtain ⟨e, _, rfl⟩ := List.mem_map.1 hx
  exact abs_nonneg _

theorem rowDot_le (seg : List (Nat × Nat × ℚ)) (v : Nat → ℚ) : |rowDot seg v| ≤ rowAbs seg v := by
  induction seg with
  | nil => simp [rowDot, rowAbs]
  | cons e seg ih =>
    have := abs_add_le (e.2.2 * v e.2.1) (rowDot seg v)
    simp only [rowDot, rowAbs, List.map_cons, List.sum_cons] at *
    linarith

/-- The error of a sum. -/
theorem rowMac_err {mac : ℚ → ℚ → ℚ → ℚ} (hp : 0 < p) (h : NearestIn p emin fl) (hm : Mac fl mac) (v : Nat → ℚ)
    (seg : List (Nat × Nat × ℚ)) :
    |rowMac mac seg v 0 - rowDot seg v| ≤ ((1 + unit p) ^ (seg.length + 1) - 1) * rowAbs seg v + small p emin seg.length := by
  have hu := (unit_pos p).le
  have ht := (tiny_pos emin).le
  induction seg using List.reverseRecOn with
  | nil => simp [rowMac, rowDot, rowAbs, small]
  | append_singleton seg e ih =>
    have e1 : rowMac mac (seg ++ [e]) v 0 = mac (rowMac mac seg v 0) e.2.2 (v e.2.1) := by simp [rowMac]
    have e2 : rowDot (seg ++ [e]) v = rowDot seg v + e.2.2 * v e.2.1 := by simp [rowDot]
    have e3 : rowAbs (seg ++ [e]) v = rowAbs seg v + |e.2.2 * v e.2.1| := by simp [rowAbs]
    have e4 : (seg ++ [e]).length = seg.length + 1 := by simp
    rw [e1, e2, e3, e4]
    have h1 := mac_err hp h hm (rowMac mac seg v 0) e.2.2 (v e.2.1)
    have hS := rowAbs_nonneg seg v
    have hd := rowDot_le seg v
    have hH := small_nonneg p emin seg.length
    generalize rowMac mac seg v 0 = s at *
    generalize rowDot seg v = d at *
    generalize rowAbs seg v = S at *
    generalize e.2.2 * v e.2.1 = ab at *
    have h2 : |mac s e.2.2 (v e.2.1) - (d + ab)| ≤ |mac s e.2.2 (v e.2.1) - (s + ab)| + |s - d| := by
      have := abs_add_le (mac s e.2.2 (v e.2.1) - (s + ab)) (s - d)
      rwa [show mac s e.2.2 (v e.2.1) - (s + ab) + (s - d) = mac s e.2.2 (v e.2.1) - (d + ab) by ring] at this
    have h3 : |s| ≤ S + |s - d| := by
      have := abs_sub_abs_le_abs_sub s d
      linarith
    have h4 := mul_le_mul_of_nonneg_left h3 hu
    have h5 := mul_le_mul_of_nonneg_left ih (add_nonneg zero_le_one hu)
    have h6 : (1 + unit p) ^ 2 ≤ (1 + unit p) ^ (seg.length + 1 + 1) :=
      pow_le_pow_right₀ (by linarith) (by omega)
    have h7 := mul_le_mul_of_nonneg_right h6 (abs_nonneg ab)
    have h8 : small p emin (seg.length + 1) = (1 + unit p) * small p emin seg.length + (2 + unit p) * tiny emin := rfl
    have h9 : (1 + unit p) ^ (seg.length + 1 + 1) = (1 + unit p) * (1 + unit p) ^ (seg.length + 1) := by rw [pow_succ]; ring
    rw [h8]
    rw [h9] at h7 ⊢
    generalize (1 + unit p) ^ (seg.length + 1) = g at *
    nlinarith

/-- Sums of multiples of `2^e` that are not too large are exact. -/
theorem rowMac_exact {mac : ℚ → ℚ → ℚ → ℚ} (h : NearestIn p emin fl) (hm : Mac fl mac) (v : Nat → ℚ) (e : Int) (he : emin ≤ e)
    (seg : List (Nat × Nat × ℚ)) (hg : ∀ c ∈ seg, ∃ n : Int, c.2.2 * v c.2.1 = n * (2 : ℚ) ^ e)
    (hb : rowAbs seg v < 2 ^ p * (2 : ℚ) ^ e) : rowMac mac seg v 0 = rowDot seg v := by
  have h2 : (0 : ℚ) < (2 : ℚ) ^ e := zpow_pos (by norm_num) _
  have key : ∀ n : Int, |(n : ℚ) * (2 : ℚ) ^ e| < 2 ^ p * (2 : ℚ) ^ e → fl (n * (2 : ℚ) ^ e) = n * (2 : ℚ) ^ e := by
    intro n hn
    refine nearest_rep h ⟨n, e, ?_, he, rfl⟩
    rw [abs_mul, abs_of_pos h2] at hn
    have := lt_of_mul_lt_mul_right hn h2.le
    rw [← Int.cast_abs] at this
    have h4 : |n| < 2 ^ p := by exact_mod_cast this
    rw [Int.abs_eq_natAbs] at h4
    exact_mod_cast h4
  have grid : ∀ seg : List (Nat × Nat × ℚ), (∀ c ∈ seg, ∃ n : Int, c.2.2 * v c.2.1 = n * (2 : ℚ) ^ e) →
      ∃ n : Int, rowDot seg v = n * (2 : ℚ) ^ e := by
    intro seg
    induction seg with
    | nil => intro _; exact ⟨0, by simp [rowDot]⟩
    | cons c seg ih =>
      intro hg
      obtain ⟨n, hn⟩ := ih fun c hc => hg c (List.mem_cons_of_mem _ hc)
      obtain ⟨m, hm⟩ := hg c (List.mem_cons_self ..)
      refine ⟨m + n, ?_⟩
      simp only [rowDot, List.map_cons, List.sum_cons] at *
      rw [hn, hm]; push_cast; ring
  induction seg using List.reverseRecOn with
  | nil => simp [rowMac, rowDot]
  | append_singleton seg c ih =>
    have e1 : rowMac mac (seg ++ [c]) v 0 = mac (rowMac mac seg v 0) c.2.2 (v c.2.1) := by simp [rowMac]
    have e2 : rowDot (seg ++ [c]) v = rowDot seg v + c.2.2 * v c.2.1 := by simp [rowDot]
    have e3 : rowAbs (seg ++ [c]) v = rowAbs seg v + |c.2.2 * v c.2.1| := by simp [rowAbs]
    have hS := rowAbs_nonneg seg v
    have hsum := lt_of_le_of_lt (rowDot_le (seg ++ [c]) v) hb
    rw [e3] at hb
    obtain ⟨m, hm'⟩ := hg c (by simp)
    obtain ⟨n, hn⟩ := grid (seg ++ [c]) hg
    have hab := abs_nonneg (c.2.2 * v c.2.1)
    rw [e1, ih (fun c hc => hg c (by simp [hc])) (by linarith)]
    have hprod : fl (c.2.2 * v c.2.1) = c.2.2 * v c.2.1 := by
      rw [hm']
      apply key
      rw [← hm']
      linarith
    rw [hn] at hsum
    have htot : fl (rowDot seg v + c.2.2 * v c.2.1) = rowDot (seg ++ [c]) v := by
      rw [← e2, hn]
      exact key n hsum
    rcases hm (rowDot seg v) c.2.2 (v c.2.1) with q | q
    · rw [q, hprod, htot]
    · rw [q, htot]

/-! ### the loop -/

theorem prSp_toCsr (pr : ℚ → ℚ) (A : Sp ℚ) : { A.toCsr with data := A.toCsr.data.map pr } = (prSp pr A).toCsr := by
  have h : (prSp pr A).row = fun i => (A.row i).map fun e => (e.1, e.2.1, pr e.2.2) := by
    funext i; exact prSp_row _ A i
  simp only [Sp.toCsr]
  congr 1
  · show _ = (List.range (A.rows + 1)).map fun i => ((List.range i).map fun k => ((prSp pr A).row k).length).sum
    simp only [prSp_row, List.length_map]
  · show _ = (((List.range A.rows).flatMap (prSp pr A).row).map fun e => e.2.1)
    rw [h]
    simp [List.map_flatMap, Function.comp_def]
  · show _ = (((List.range A.rows).flatMap (prSp pr A).row).map fun e => e.2.2)
    rw [h]
    simp [List.map_flatMap, Function.comp_def]

theorem inner_loopF (mac : ℚ → ℚ → ℚ → ℚ) (i : Nat) (params : List ℚ) :
    ∀ (seg : List (Nat × Nat × ℚ)) (out : List ℚ) (o : ℚ), out[i]? = some o →
      (∀ e ∈ seg, e.2.1 < params.length) →
      seg.foldlM (fun (out : List ℚ) e => (params[e.2.1]?).bind fun v => (out[i]?).bind fun o =>
          store out i (mac o e.2.2 v)) out
        = some (out.set i (rowMac mac seg (fn params) o)) := by
  intro seg
  induction seg with
  | nil =>
    intro out o ho _
    have hi : i < out.length := by
      by_contra hc
      rw [List.getElem?_eq_none (by omega)] at ho; cases ho
    have : out.set i (rowMac mac [] (fn params) o) = out := by
      simp only [rowMac, List.foldl_nil]
      apply List.ext_getElem?
      intro k
      by_cases hk : k = i
      · subst hk; rw [List.getElem?_set_self hi, ho]
      · rw [List.getElem?_set_ne (Ne.symm hk)]
    rw [List.foldlM_nil, this]; rfl
  | cons e seg ih =>
    intro out o ho hb
    have hi : i < out.length := by
      by_contra hc
      rw [List.getElem?_eq_none (by omega)] at ho; cases ho
    have hv : params[e.2.1]? = some (fn params e.2.1) := by
      have := hb e (by simp)
      simp [fn, List.getD, List.getElem?_eq_getElem this]
    rw [List.foldlM_cons, hv, ho]
    have hst : ∀ w, store out i w = some (out.set i w) := fun w => by simp [store, hi]
    simp only [Option.bind_some, hst, bind]
    rw [ih (out.set i (mac o e.2.2 (fn params e.2.1))) (mac o e.2.2 (fn params e.2.1))
      (by rw [List.getElem?_set_self hi]) (fun e' he' => hb e' (by simp [he']))]
    rw [List.set_set]
    rfl

/-- The generated loop adds up the entries of each row in their order. -/
theorem canonicalizeF_ok (Ar : Arith) (A : Sp ℚ) (hA : A.WF) (params out : List ℚ)
    (hp : A.cols ≤ params.length) (ho : out.length = A.rows) :
    canonicalizeF Ar A.rows A.toCsr params out = some ((List.range A.rows).map fun i => rowMac Ar.mac (A.row i) (fn params) 0) := by
  unfold canonicalizeF
  suffices h : ∀ k, k ≤ A.rows → ∃ out', (List.range k).foldlM (init := out) (fun out i => do
      let out ← store out i 0
      let lo ← A.toCsr.indptr[i]?
      let hi ← A.toCsr.indptr[i + 1]?
      (List.range' lo (hi - lo)).foldlM (init := out) fun out j => do
        let x ← A.toCsr.data[j]?
        let c ← A.toCsr.indices[j]?
        let v ← params[c]?
        let o ← out[i]?
        store out i (Ar.mac o x v)) = some out' ∧ out'.length = out.length ∧
      (∀ i < k, out'[i]? = some (rowMac Ar.mac (A.row i) (fn params) 0)) by
    obtain ⟨out', h1, h2, h3⟩ := h A.rows (Nat.le_refl _)
    rw [h1]
    congr 1
    apply List.ext_getElem?
    intro i
    by_cases hi : i < A.rows
    · rw [h3 i hi, List.getElem?_map, List.getElem?_range hi]; rfl
    · rw [List.getElem?_eq_none (by omega), List.getElem?_eq_none (by simp; omega)]
  intro k
  induction k with
  | zero => intro _; exact ⟨out, rfl, rfl, by intro i hi; omega⟩
  | succ k ih =>
    intro hk
    obtain ⟨out1, h1, h2, h3⟩ := ih (by omega)
    rw [List.range_succ, List.foldlM_append, h1]
    have hklt : k < out1.length := by omega
    have hlo := csr_indptr A k (by omega)
    have hhi := csr_indptr A (k + 1) hk
    have hdiff : ((List.range (k + 1)).map fun k => (A.row k).length).sum
        - ((List.range k).map fun k => (A.row k).length).sum = (A.row k).length := by
      rw [List.range_succ, List.map_append, List.sum_append]; simp
    have hbody : ∀ (o : List ℚ) (j : Nat), (do
        let x ← A.toCsr.data[j]?
        let c ← A.toCsr.indices[j]?
        let v ← params[c]?
        let ov ← o[k]?
        store o k (Ar.mac ov x v)) = (((List.range A.rows).flatMap A.row)[j]?).bind fun e =>
          (params[e.2.1]?).bind fun v => (o[k]?).bind fun ov => store o k (Ar.mac ov e.2.2 v) := by
      intro o j
      simp only [Sp.toCsr, List.getElem?_map, bind]
      cases ((List.range A.rows).flatMap A.row)[j]? with
      | none => rfl
      | some e => rfl
    have hrow : ∀ e ∈ A.row k, e.2.1 < params.length := by
      intro e he
      have := (hA e (List.mem_of_mem_filter he)).2
      omega
    have hin := inner_loopF Ar.mac k params (A.row k) (out1.set k 0) 0 (by rw [List.getElem?_set_self hklt]) hrow
    have hfold := foldlM_range'_get ((List.range A.rows).flatMap A.row)
      (fun (o : List ℚ) e => (params[e.2.1]?).bind fun v => (o[k]?).bind fun ov =>
          store o k (Ar.mac ov e.2.2 v)) (A.row k)
      (((List.range k).map fun k => (A.row k).length).sum) (out1.set k 0) (csr_segment A k (by omega))
    refine ⟨out1.set k (rowMac Ar.mac (A.row k) (fn params) 0), ?_, by simp [h2], ?_⟩
    · simp only [bind, Option.bind_some, List.foldlM_cons, List.foldlM_nil, store, hklt, if_true,
        hlo, hhi, hdiff]
      simp only [bind, store] at hbody
      simp only [hbody]
      simp only [store] at hfold hin
      rw [hfold, hin, List.set_set]
      rfl
    · intro i hi
      by_cases hik : i = k
      · subst hik
        rw [List.getElem?_set_self hklt]
      · rw [List.getElem?_set_ne (Ne.symm hik)]
        exact h3 i (by omega)

/-- The entries of row `i` of the compiled map. -/
def rowF (A : Arith) (m : RawMap ℚ) (u : Bool) (i : Nat) : List (Nat × Nat × ℚ) := (prSp A.num (m.final u)).row i

theorem canonValF_eq (A : Arith) (h1 : A.num 1 = 1) (m : RawMap ℚ) (u : Bool) (θ : List ℚ) (hcols : m.mapping.cols = θ.length + 1) :
    canonValF A (some m) u θ =
      some ((List.range (m.final u).rows).map fun i => rowMac A.mac (rowF A m u i) (fn (θ ++ [1])) 0) := by
  unfold canonValF
  simp only [Option.bind_some]
  rw [h1]
  have := canonicalizeF_ok A (prSp A.num (m.final u)) (prSp_wf _ _ (final_wf m u)) (θ ++ [1])
    (List.replicate (m.final u).rows 0) (by show (m.final u).cols ≤ _; rw [final_cols, hcols]; simp) (by simp [prSp])
  rw [← prSp_toCsr] at this
  exact this

theorem rowF_wf (A : Arith) (m : RawMap ℚ) (u : Bool) : (prSp A.num (m.final u)).WF := prSp_wf _ _ (final_wf m u)

/-- Row sums over the stored entries are sums over the parameters. -/
theorem rowF_dot (A : Arith) (h0 : A.num 0 = 0) (m : RawMap ℚ) (u : Bool) (i : Nat) (hi : i < (m.final u).rows) (v : Nat → ℚ) :
    rowDot (rowF A m u i) v = ∑ j ∈ range m.mapping.cols, A.num (m.mapping.at (srcRow m u i) j * m.sign (srcRow m u i)) * v j := by
  unfold rowF
  rw [← mulVec_at _ (rowF_wf A m u)]
  unfold mulVec
  rw [show (prSp A.num (m.final u)).cols = m.mapping.cols from final_cols m u]
  exact sum_congr rfl fun j hj => by rw [prSp_final_at _ h0 m u i j hi (by simpa using hj)]

theorem rowF_abs (A : Arith) (h0 : A.num 0 = 0) (m : RawMap ℚ) (u : Bool) (i : Nat) (hi : i < (m.final u).rows) (v : Nat → ℚ) :
    rowAbs (rowF A m u i) v = ∑ j ∈ range m.mapping.cols, |A.num (m.mapping.at (srcRow m u i) j * m.sign (srcRow m u i)) * v j| := by
  have e : rowAbs (rowF A m u i) v = rowDot ((prSp (fun x => |A.num x|) (m.final u)).row i) (fun j => |v j|) := by
    unfold rowF rowAbs rowDot
    rw [prSp_row, prSp_row, List.map_map, List.map_map]
    congr 1
    exact List.map_congr_left fun e _ => abs_mul _ _
  rw [e, ← mulVec_at _ (prSp_wf _ _ (final_wf m u))]
  unfold mulVec
  rw [show (prSp (fun x => |A.num x|) (m.final u)).cols = m.mapping.cols from final_cols m u]
  refine sum_congr rfl fun j hj => ?_
  rw [prSp_final_at _ (by rw [h0, abs_zero]) m u i j hi (by simpa using hj), abs_mul]

/-- Entries of `csc_matrix(dense)` are not zero. -/
theorem final_ne_zero (m : RawMap ℚ) (u : Bool) : ∀ e ∈ (m.final u).ents, e.2.2 ≠ 0 := by
  have hd : ∀ (r c : Nat) (f : Nat → Nat → ℚ), ∀ e ∈ (Sp.ofDense r c f).ents, e.2.2 ≠ 0 := by
    intro r c f e he
    simp only [Sp.ofDense, List.mem_flatMap, List.mem_filterMap] at he
    obtain ⟨j, _, i, _, h⟩ := he
    split at h
    · cases h
    · cases h; assumption
  unfold RawMap.final
  intro e he
  split at he
  · simp only [Sp.selectRows, List.mem_flatMap, List.mem_map] at he
    obtain ⟨k, _, e', he', rfl⟩ := he
    exact hd _ _ _ e' (List.mem_of_mem_filter he')
  · exact hd _ _ _ e he

/-- Number of entries of a row: parameters with a coefficient, and the constant. -/
theorem rowF_length (A : Arith) (m : RawMap ℚ) (u : Bool) (i : Nat) (hi : i < (m.final u).rows) :
    (rowF A m u i).length = ((range m.mapping.cols).filter fun j => m.mapping.at (srcRow m u i) j * m.sign (srcRow m u i) ≠ 0).card := by
  have h0 : (fun x : ℚ => if x = 0 then (0 : ℚ) else 1) 0 = 0 := by simp
  have e : (((rowF A m u i).length : ℕ) : ℚ) = rowDot ((prSp (fun x => if x = 0 then (0 : ℚ) else 1) (m.final u)).row i) (fun _ => 1) := by
    unfold rowF rowDot
    rw [prSp_row, prSp_row, List.length_map, List.map_map]
    have : ∀ l : List (Nat × Nat × ℚ), (∀ e ∈ l, e.2.2 ≠ 0) → ((l.length : ℕ) : ℚ)
        = (l.map ((fun e : Nat × Nat × ℚ => e.2.2 * 1) ∘ fun e => (e.1, e.2.1, if e.2.2 = 0 then (0 : ℚ) else 1))).sum := by
      intro l
      induction l with
      | nil => intro _; simp
      | cons e l ih =>
        intro h
        rw [List.map_cons, List.sum_cons, ← ih fun e he => h e (List.mem_cons_of_mem _ he)]
        simp [h e (List.mem_cons_self ..)]
        ring
    exact this _ fun e he => final_ne_zero m u e (List.mem_of_mem_filter he)
  rw [← mulVec_at _ (prSp_wf _ _ (final_wf m u))] at e
  unfold mulVec at e
  rw [show (prSp (fun x => if x = 0 then (0 : ℚ) else 1) (m.final u)).cols = m.mapping.cols from final_cols m u] at e
  have : (((rowF A m u i).length : ℕ) : ℚ)
      = (((range m.mapping.cols).filter fun j => m.mapping.at (srcRow m u i) j * m.sign (srcRow m u i) ≠ 0).card : ℕ) := by
    rw [e, card_filter, Nat.cast_sum]
    refine sum_congr rfl fun j hj => ?_
    rw [prSp_final_at (fun x : ℚ => if x = 0 then (0 : ℚ) else 1) h0 m u i j hi (by simpa using hj)]
    split <;> simp_all
  exact_mod_cast this

end Verif.Lemmas.Rounded
