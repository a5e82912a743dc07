import Verif.Lemmas.RoundedGrad
import Verif.Props.Rounded
import Verif.Props.Uncanon
/-!
C97: accuracy of the gradients of the user parameters in floating point.
-/
namespace Verif.Props
open Verif.Model Verif.Model.Text Verif.Model.Printed Verif.Model.Rounded Verif.Model.GradPipe Verif.Spec Verif.Spec.Printed
  Verif.Spec.Rounded Verif.Lemmas Verif.Lemmas.Printed Verif.Lemmas.Rounded Finset

variable {p : Nat} {emin : Int} {A : Arith}

/-- The five canonical parameters of a quadratic program with their numbers of entries and their gradients. -/
def fiveParts (s : QpDims) (g : Grad.DCanon ℚ) : List (CId × Nat × (Nat → ℚ)) :=
  [(.q, s.n, g.dq), (.l, s.nl, g.dl), (.u, s.nu, g.du), (.P, s.nnzP, g.dP), (.A, s.nnzA, g.dA)]

/-- Derivative of entry `i` of a canonical parameter with respect to entry `c` of the user parameters. -/
def slope (maps : CId → Option (RawMap ℚ)) (id : CId) (i c : Nat) : ℚ :=
  match maps id with
  | some m => coef m ((if id.isUpper then nonzeroRows m.signed else List.range m.mapping.rows).getD i 0) c
  | none => 0

/-- The gradient by the chain rule, the sum of absolute values, and the number of products that are not zero. -/
def chain (maps : CId → Option (RawMap ℚ)) (s : QpDims) (g : Grad.DCanon ℚ) (c : Nat) : ℚ :=
  ((fiveParts s g).map fun t => ∑ i ∈ range t.2.1, slope maps t.1 i c * t.2.2 i).sum
def chainAbs (maps : CId → Option (RawMap ℚ)) (s : QpDims) (g : Grad.DCanon ℚ) (c : Nat) : ℚ :=
  ((fiveParts s g).map fun t => ∑ i ∈ range t.2.1, |slope maps t.1 i c * t.2.2 i|).sum
def chainTerms (maps : CId → Option (RawMap ℚ)) (s : QpDims) (g : Grad.DCanon ℚ) (c : Nat) : Nat :=
  ((fiveParts s g).map fun t => ((range t.2.1).filter fun i => slope maps t.1 i c ≠ 0).card).sum

/-- The maps belong to a program with these dimensions and `n` entries of user parameters. -/
def Dims (n : Nat) (s : QpDims) (maps : CId → Option (RawMap ℚ)) : Prop :=
  ∀ t ∈ [(CId.q, s.n), (.l, s.nl), (.u, s.nu), (.P, s.nnzP), (.A, s.nnzA)], ∀ m, maps t.1 = some m →
    m.mapping.cols = n + 1 ∧ t.2 = (m.final t.1.isUpper).rows

theorem slope_eq {maps : CId → Option (RawMap ℚ)} {id : CId} {m : RawMap ℚ} (hm : maps id = some m) (i c : Nat)
    (hi : i < (m.final id.isUpper).rows) : slope maps id i c = coef m (srcRow m id.isUpper i) c := by
  have h := (srcRows_spec m id.isUpper).2
  have : (srcRows m id.isUpper).getD i 0 = srcRow m id.isUpper i := by rw [h]; simp [hi]
  unfold slope
  rw [hm]
  exact congrArg (fun r => coef m r c) this

theorem dims_parts {n : Nat} {s : QpDims} {maps : CId → Option (RawMap ℚ)} (h : Dims n s maps) (g : Grad.DCanon ℚ) :
    ∀ t ∈ fiveParts s g, ∀ m, maps t.1 = some m → m.mapping.cols = n + 1 ∧ t.2.1 = (m.final t.1.isUpper).rows := by
  intro t ht m hm
  have : (t.1, t.2.1) ∈ [(CId.q, s.n), (.l, s.nl), (.u, s.nu), (.P, s.nnzP), (.A, s.nnzA)] := by
    simp only [fiveParts, List.mem_cons, List.not_mem_nil, or_false] at ht
    rcases ht with rfl | rfl | rfl | rfl | rfl <;> simp
  exact h _ this m hm

/-- What does not change with the user parameters has derivative zero. -/
theorem slope_zero {n : Nat} {m : RawMap ℚ} {u : Bool} (hc : m.mapping.cols = n + 1) (hch : mapChanges (some m) u = false)
    (i : Nat) (hi : i < (m.final u).rows) (c : Nat) (hcn : c < n) : coef m (srcRow m u i) c = 0 := by
  unfold coef
  rw [← final_at m u i c hi (by omega)]
  have hch : ¬ 0 < (m.final u).nnzCols 0 ((m.final u).cols - 1) := by simpa [mapChanges] using hch
  apply at_of_not_mem
  intro e he hcc
  apply nnzCols_zero _ _ _ hch e he
  rw [final_cols, hc]
  omega

/-- Sums over the products of entry `c` of `cpg_dp`, for any weight. -/
theorem allTerms_sum (f : ℚ → ℚ) (maps : CId → Option (RawMap ℚ)) (n : Nat) (c : Nat) (hc : c < n) (w : ℚ → ℚ → ℚ)
    (h0 : ∀ y, w (f 0) y = 0) (l : List (CId × Nat × (Nat → ℚ)))
    (hl : ∀ t ∈ l, ∀ m, maps t.1 = some m → m.mapping.cols = n + 1 ∧ t.2.1 = (m.final t.1.isUpper).rows) :
    ((allTerms f maps l c).map fun t => w t.1 t.2).sum
      = (l.map fun t => ∑ i ∈ range t.2.1, w (f (slope maps t.1 i c)) (t.2.2 i)).sum := by
  induction l with
  | nil => rfl
  | cons t l ih =>
    rw [List.map_cons, List.sum_cons, ← ih fun t ht => hl t (List.mem_cons_of_mem _ ht)]
    have e : allTerms f maps (t :: l) c = allTerms f maps [t] c ++ allTerms f maps l c := by
      unfold allTerms; rw [← List.flatMap_append]; rfl
    rw [e, List.map_append, List.sum_append]
    congr 1
    cases hm : maps t.1 with
    | none =>
      have hz : ∀ i, slope maps t.1 i c = 0 := fun i => by unfold slope; rw [hm]
      simp [allTerms, hm, hz, h0]
    | some m =>
      obtain ⟨h1, h2⟩ := hl t (by simp) m hm
      have hs : ∀ i ∈ range t.2.1, w (f (slope maps t.1 i c)) (t.2.2 i)
          = w (f (coef m (srcRow m t.1.isUpper i) c)) (t.2.2 i) := fun i hi => by
        rw [slope_eq hm i c (by rw [← h2]; simpa using hi)]
      rw [sum_congr rfl hs]
      by_cases hch : mapChanges (some m) t.1.isUpper = true
      · have := colTerms_sum f m t.1.isUpper t.2.1 h2.le t.2.2 c (by omega) w h0
        simp only [allTerms, hm, hch, if_true, List.flatMap_cons, List.flatMap_nil, List.append_nil]
        exact this
      · have hz : ∀ i ∈ range t.2.1, w (f (coef m (srcRow m t.1.isUpper i) c)) (t.2.2 i) = 0 := fun i hi => by
          rw [slope_zero h1 (by simpa using hch) i (by rw [← h2]; simpa using hi) c hc, h0]
        rw [sum_eq_zero hz]
        simp [allTerms, hm, hch]

theorem allTerms_length (f : ℚ → ℚ) (maps : CId → Option (RawMap ℚ)) (n : Nat) (c : Nat) (hc : c < n) (l : List (CId × Nat × (Nat → ℚ)))
    (hl : ∀ t ∈ l, ∀ m, maps t.1 = some m → m.mapping.cols = n + 1 ∧ t.2.1 = (m.final t.1.isUpper).rows) :
    (allTerms f maps l c).length = (l.map fun t => ((range t.2.1).filter fun i => slope maps t.1 i c ≠ 0).card).sum := by
  induction l with
  | nil => rfl
  | cons t l ih =>
    rw [List.map_cons, List.sum_cons, ← ih fun t ht => hl t (List.mem_cons_of_mem _ ht)]
    have e : allTerms f maps (t :: l) c = allTerms f maps [t] c ++ allTerms f maps l c := by
      unfold allTerms; rw [← List.flatMap_append]; rfl
    rw [e, List.length_append]
    congr 1
    cases hm : maps t.1 with
    | none =>
      have hz : ∀ i, slope maps t.1 i c = 0 := fun i => by unfold slope; rw [hm]
      simp [allTerms, hm, hz]
    | some m =>
      obtain ⟨h1, h2⟩ := hl t (by simp) m hm
      have hs : ((range t.2.1).filter fun i => slope maps t.1 i c ≠ 0)
          = (range t.2.1).filter fun i => coef m (srcRow m t.1.isUpper i) c ≠ 0 :=
        filter_congr fun i hi => by rw [slope_eq hm i c (by rw [← h2]; simpa using hi)]
      rw [hs]
      by_cases hch : mapChanges (some m) t.1.isUpper = true
      · have := colTerms_length f m t.1.isUpper t.2.1 h2.le t.2.2 c (by omega)
        simp only [allTerms, hm, hch, if_true, List.flatMap_cons, List.flatMap_nil, List.append_nil]
        exact this
      · have hz : ((range t.2.1).filter fun i => coef m (srcRow m t.1.isUpper i) c ≠ 0) = ∅ :=
          filter_eq_empty_iff.2 fun i hi => by
            rw [slope_zero h1 (by simpa using hch) i (by rw [← h2]; simpa using hi) c hc]; simp
        rw [hz]
        simp [allTerms, hm, hch]

/-- Every entry of `cpg_dp` is the sum of its products, in the order of the loops. -/
theorem uncanonF_entries (A : Arith) {n : Nat} {s : QpDims} {maps : CId → Option (RawMap ℚ)} (hd : Dims n s maps) (g : Grad.DCanon ℚ)
    (dp : List ℚ) (hdp : dp.length = n + 1) :
    ∃ dp', uncanonicalizeF A (n + 1) s maps g dp = some dp' ∧ dp'.length = n + 1 ∧
      ∀ c, fn dp' c = macs A.mac (allTerms A.num maps (fiveParts s g) c) 0 :=
  uncanonF_spec A A.num maps (n + 1) (fiveParts s g) (fun t ht m hm => by
    obtain ⟨h1, h2⟩ := dims_parts hd g t ht m hm
    exact ⟨h1, h2.le⟩) dp hdp

theorem list_sum_le {α : Type} (l : List α) (f h : α → ℚ) (hle : ∀ x ∈ l, f x ≤ h x) : (l.map f).sum ≤ (l.map h).sum := by
  induction l with
  | nil => simp
  | cons x l ih =>
    simp only [List.map_cons, List.sum_cons]
    have := hle x (by simp)
    have := ih fun x hx => hle x (by simp [hx])
    linarith

theorem list_sum_sub {α : Type} (l : List α) (f h : α → ℚ) : (l.map f).sum - (l.map h).sum = (l.map fun x => f x - h x).sum := by
  induction l with
  | nil => simp
  | cons x l ih => simp only [List.map_cons, List.sum_cons]; linarith

theorem list_sum_abs {α : Type} (l : List α) (f : α → ℚ) : |(l.map f).sum| ≤ (l.map fun x => |f x|).sum := by
  induction l with
  | nil => simp
  | cons x l ih =>
    simp only [List.map_cons, List.sum_cons]
    have := abs_add_le (f x) (l.map f).sum
    linarith

theorem list_sum_mul {α : Type} (l : List α) (k : ℚ) (f : α → ℚ) : k * (l.map f).sum = (l.map fun x => k * f x).sum := by
  induction l with
  | nil => simp
  | cons x l ih => simp only [List.map_cons, List.sum_cons, mul_add, ih]

/-- Coefficients as compiled. -/
theorem num_err (h : Floating p emin A) {x : ℚ} (hs : Safe x) (hn : Normal p emin x) : |A.num x - x| ≤ unit p * |x| := by
  rw [num_safe h hs]
  exact nearest_normal h.pos h.conv hn

/-- The derivatives survive compilation. -/
def SafeSlopes (n : Nat) (s : QpDims) (g : Grad.DCanon ℚ) (maps : CId → Option (RawMap ℚ)) : Prop :=
  ∀ t ∈ fiveParts s g, ∀ i < t.2.1, ∀ c < n, Safe (slope maps t.1 i c)

theorem chainAbs_nonneg (maps : CId → Option (RawMap ℚ)) (s : QpDims) (g : Grad.DCanon ℚ) (c : Nat) : 0 ≤ chainAbs maps s g c := by
  unfold chainAbs
  apply List.sum_nonneg
  intro x hx
  obtain ⟨t, _, rfl⟩ := List.mem_map.1 hx
  exact sum_nonneg fun _ _ => abs_nonneg _

/-- **C97** (partial: relative accuracy is false, see `C97_fails`) For all programs, floating-point types, ways to round to
nearest and canonical gradients, whatever `cpg_dp` held before: the gradient of every entry of the user parameters differs from
the one of the chain rule, computed exactly, by at most `(1 + u)^(k+2) - 1` times the sum of the absolute values of the
products, plus what is lost on numbers near zero; `u` is the relative error of one rounding, `k` is the number of products. No
access is outside of an array. -/
theorem C97_partial (h : Floating p emin A) {n : Nat} {s : QpDims} {maps : CId → Option (RawMap ℚ)} (hd : Dims n s maps)
    (g : Grad.DCanon ℚ) (hs : SafeSlopes n s g maps)
    (hn : ∀ t ∈ fiveParts s g, ∀ i < t.2.1, ∀ c < n, Normal p emin (slope maps t.1 i c))
    (dp : List ℚ) (hdp : dp.length = n + 1) :
    ∃ dp', uncanonicalizeF A (n + 1) s maps g dp = some dp' ∧ dp'.length = n + 1 ∧
      ∀ c < n, |fn dp' c - chain maps s g c| ≤
        ((1 + unit p) ^ (chainTerms maps s g c + 2) - 1) * chainAbs maps s g c + small p emin (chainTerms maps s g c) := by
  obtain ⟨dp', h1, h2, h3⟩ := uncanonF_entries A hd g dp hdp
  refine ⟨dp', h1, h2, fun c hc => ?_⟩
  rw [h3 c]
  obtain ⟨fl, hf, hmac⟩ := h.mac
  have hu := (unit_pos p).le
  have herr := macs_err h.pos hf hmac (allTerms A.num maps (fiveParts s g) c)
  have hl := dims_parts hd g
  rw [allTerms_length A.num maps n c hc _ hl] at herr
  have e1 : dots (allTerms A.num maps (fiveParts s g) c) = _ :=
    allTerms_sum A.num maps n c hc (fun x y => x * y) (by intro y; rw [num_zero h, zero_mul]) _ hl
  have e2 : abss (allTerms A.num maps (fiveParts s g) c) = _ :=
    allTerms_sum A.num maps n c hc (fun x y => |x * y|) (by intro y; rw [num_zero h, zero_mul, abs_zero]) _ hl
  rw [e1, e2] at herr
  have key : ∀ t ∈ fiveParts s g, ∀ i ∈ range t.2.1, |A.num (slope maps t.1 i c) * t.2.2 i - slope maps t.1 i c * t.2.2 i|
      ≤ unit p * |slope maps t.1 i c * t.2.2 i| := by
    intro t ht i hi
    have := num_err h (hs t ht i (by simpa using hi) c hc) (hn t ht i (by simpa using hi) c hc)
    rw [← sub_mul, abs_mul, abs_mul]
    have := mul_le_mul_of_nonneg_right this (abs_nonneg (t.2.2 i))
    linarith
  have h4 : |((fiveParts s g).map fun t => ∑ i ∈ range t.2.1, A.num (slope maps t.1 i c) * t.2.2 i).sum - chain maps s g c|
      ≤ unit p * chainAbs maps s g c := by
    unfold chain chainAbs
    rw [list_sum_sub, list_sum_mul]
    refine le_trans (list_sum_abs _ _) (list_sum_le _ _ _ fun t ht => ?_)
    rw [← sum_sub_distrib, mul_sum]
    exact le_trans (abs_sum_le_sum_abs _ _) (sum_le_sum (key t ht))
  have h5 : ((fiveParts s g).map fun t => ∑ i ∈ range t.2.1, |A.num (slope maps t.1 i c) * t.2.2 i|).sum
      ≤ (1 + unit p) * chainAbs maps s g c := by
    unfold chainAbs
    rw [list_sum_mul]
    refine list_sum_le _ _ _ fun t ht => ?_
    rw [mul_sum]
    refine sum_le_sum fun i hi => ?_
    have := key t ht i hi
    have := abs_sub_abs_le_abs_sub (A.num (slope maps t.1 i c) * t.2.2 i) (slope maps t.1 i c * t.2.2 i)
    linarith
  have hk : ((fiveParts s g).map fun t => ((range t.2.1).filter fun i => slope maps t.1 i c ≠ 0).card).sum = chainTerms maps s g c := rfl
  rw [hk] at herr
  have hS := chainAbs_nonneg maps s g c
  generalize macs A.mac (allTerms A.num maps (fiveParts s g) c) 0 = r at *
  generalize ((fiveParts s g).map fun t => ∑ i ∈ range t.2.1, A.num (slope maps t.1 i c) * t.2.2 i).sum = D at *
  generalize ((fiveParts s g).map fun t => ∑ i ∈ range t.2.1, |A.num (slope maps t.1 i c) * t.2.2 i|).sum = B at *
  generalize chainTerms maps s g c = k at *
  generalize chainAbs maps s g c = S at *
  have h6 : |r - chain maps s g c| ≤ |r - D| + |D - chain maps s g c| := abs_sub_le _ _ _
  have h7 : 0 ≤ (1 + unit p) ^ (k + 1) - 1 := by
    have := one_le_pow₀ (n := k + 1) (show 1 ≤ 1 + unit p by linarith)
    linarith
  have h8 := mul_le_mul_of_nonneg_left h5 h7
  have h9 : (1 + unit p) ^ (k + 2) = (1 + unit p) ^ (k + 1) * (1 + unit p) := by rw [← pow_succ]
  rw [h9]
  generalize (1 + unit p) ^ (k + 1) = G at *
  nlinarith

/-- The type `double`: derivatives are not rounded, so numbers near zero are allowed; and sums of multiples of a power of two
that are not too large are exact. -/
theorem C97_double (h : Floating 53 (-1074) A) {n : Nat} {s : QpDims} {maps : CId → Option (RawMap ℚ)} (hd : Dims n s maps)
    (g : Grad.DCanon ℚ) (hs : SafeSlopes n s g maps) (dp : List ℚ) (hdp : dp.length = n + 1) :
    ∃ dp', uncanonicalizeF A (n + 1) s maps g dp = some dp' ∧ dp'.length = n + 1 ∧
      ∀ c < n, |fn dp' c - chain maps s g c| ≤
          ((1 + unit 53) ^ (chainTerms maps s g c + 1) - 1) * chainAbs maps s g c + small 53 (-1074) (chainTerms maps s g c) ∧
        ∀ e : Int, -1074 ≤ e → (∀ t ∈ fiveParts s g, ∀ i < t.2.1, ∃ k : Int, slope maps t.1 i c * t.2.2 i = k * (2 : ℚ) ^ e) →
          chainAbs maps s g c < 2 ^ 53 * (2 : ℚ) ^ e → fn dp' c = chain maps s g c := by
  obtain ⟨dp', h1, h2, h3⟩ := uncanonF_entries A hd g dp hdp
  refine ⟨dp', h1, h2, fun c hc => ?_⟩
  rw [h3 c]
  obtain ⟨fl, hf, hmac⟩ := h.mac
  have hl := dims_parts hd g
  have hnum : ∀ t ∈ fiveParts s g, ∀ i < t.2.1, A.num (slope maps t.1 i c) = slope maps t.1 i c := fun t ht i hi => by
    have := hs t ht i hi c hc
    rw [num_safe h this]
    exact nearest_rep h.conv ((rep_double _).2 this.1)
  have e1 : dots (allTerms A.num maps (fiveParts s g) c) = chain maps s g c := by
    refine (allTerms_sum A.num maps n c hc (fun x y => x * y) (by intro y; rw [num_zero h, zero_mul]) _ hl).trans ?_
    unfold chain
    congr 1
    exact List.map_congr_left fun t ht => sum_congr rfl fun i hi => by rw [hnum t ht i (by simpa using hi)]
  have e2 : abss (allTerms A.num maps (fiveParts s g) c) = chainAbs maps s g c := by
    refine (allTerms_sum A.num maps n c hc (fun x y => |x * y|) (by intro y; rw [num_zero h, zero_mul, abs_zero]) _ hl).trans ?_
    unfold chainAbs
    congr 1
    exact List.map_congr_left fun t ht => sum_congr rfl fun i hi => by rw [hnum t ht i (by simpa using hi)]
  constructor
  · have herr := macs_err h.pos hf hmac (allTerms A.num maps (fiveParts s g) c)
    rw [allTerms_length A.num maps n c hc _ hl, e1, e2] at herr
    exact herr
  · intro e he hgrid hb
    rw [← e1]
    refine macs_exact hf hmac e he _ ?_ (by rw [e2]; exact hb)
    -- a product that is not on the grid would count in a sum of products
    classical
    intro x hx
    by_contra hne
    have hz : (fun x y : ℚ => if ∃ k : Int, x * y = k * (2 : ℚ) ^ e then (0 : ℚ) else 1) (A.num 0) = fun _ => 0 := by
      funext y
      exact if_pos ⟨0, by rw [num_zero h]; simp⟩
    have hsum := allTerms_sum A.num maps n c hc (fun x y => if ∃ k : Int, x * y = k * (2 : ℚ) ^ e then (0 : ℚ) else 1)
      (fun y => congrFun hz y) _ hl
    have hr : ((fiveParts s g).map fun t => ∑ i ∈ range t.2.1,
        if ∃ k : Int, A.num (slope maps t.1 i c) * t.2.2 i = k * (2 : ℚ) ^ e then (0 : ℚ) else 1).sum = 0 := by
      apply List.sum_eq_zero
      intro y hy
      obtain ⟨t, ht, rfl⟩ := List.mem_map.1 hy
      refine sum_eq_zero fun i hi => if_pos ?_
      rw [hnum t ht i (by simpa using hi)]
      exact hgrid t ht i (by simpa using hi)
    rw [hr] at hsum
    have hpos : ∀ y ∈ (allTerms A.num maps (fiveParts s g) c).map
        (fun t => if ∃ k : Int, t.1 * t.2 = k * (2 : ℚ) ^ e then (0 : ℚ) else 1), 0 ≤ y := by
      intro y hy
      obtain ⟨t, _, rfl⟩ := List.mem_map.1 hy
      split <;> norm_num
    have hle := List.single_le_sum hpos _ (List.mem_map.2 ⟨x, hx, rfl⟩)
    rw [hsum, if_neg hne] at hle
    norm_num at hle

/-- The same loops in exact arithmetic, with the maps as computed by the generator (C27), give the gradient of the chain rule. -/
theorem C97_exact_chain (G : GProb ℚ) {n : Nat} (hd : Dims n G.dims G.prob.maps) (g : Grad.DCanon ℚ) (dp : List ℚ)
    (hdp : dp.length = n + 1) :
    ∃ dp', uncanonicalize (n + 1) G.dims G.qmaps g dp = some dp' ∧ dp'.length = n + 1 ∧
      ∀ c < n, fn dp' c = chain G.prob.maps G.dims g c := by
  have hl := dims_parts hd g
  obtain ⟨dp', h1, h2, h3⟩ := uncanonF_spec ⟨id, id, fun s a b => s + a * b⟩ id G.prob.maps (n + 1) (fiveParts G.dims g)
    (fun t ht m hm => ⟨(hl t ht m hm).1, (hl t ht m hm).2.le⟩) dp hdp
  refine ⟨dp', ?_, h2, fun c hc => ?_⟩
  · rw [← h1]
    have hb : ∀ id' u, ({ csrOf (G.prob.maps id') u with data := (csrOf (G.prob.maps id') u).data.map id } : Csr ℚ)
        = csrOf (G.prob.maps id') u := fun id' u => by rw [List.map_id]
    show uncanon (n + 1) (gradBlocks G.dims G.qmaps g) dp = uncanonF _ (n + 1) _ dp
    have : (fiveParts G.dims g).map (blockOf id G.prob.maps) = gradBlocks G.dims G.qmaps g := by
      simp only [fiveParts, blockOf, List.map_cons, List.map_nil, hb]
      rfl
    rw [this]
    rfl
  · rw [h3 c]
    have : ∀ (l : List (ℚ × ℚ)) (s : ℚ), macs (fun s a b => s + a * b) l s = s + dots l := by
      intro l
      induction l with
      | nil => intro s; simp [macs, dots]
      | cons t l ih =>
        intro s
        show macs (fun s a b => s + a * b) l (s + t.1 * t.2) = _
        rw [ih]
        simp only [dots, List.map_cons, List.sum_cons]
        ring
    rw [this, zero_add]
    exact allTerms_sum id G.prob.maps n c hc (fun x y => x * y) (by simp) _ hl

/-! ### explicit mode -/
section explicit
open Verif.Model.Explicit Verif.Spec.Explicit Verif.Lemmas.Explicit

/-- Derivative of entry `k` of `theta` (the selected entries of `q` and `u`) with respect to entry `c` of the user parameters. -/
def thSlope (maps : CId → Option (RawMap ℚ)) (n m : Nat) (mask : List Bool) (k c : Nat) : ℚ :=
  let i := (sel mask (List.range (n + m))).getD k 0
  if i < n then slope maps .q i c else slope maps .u (i - n) c

/-- The maps belong to a program with `n` variables and `m` rows. -/
def ExDims (NP n m : Nat) (maps : CId → Option (RawMap ℚ)) : Prop :=
  (∀ mp, maps .q = some mp → mp.mapping.cols = NP ∧ n = (mp.final false).rows) ∧
    ∀ mp, maps .u = some mp → mp.mapping.cols = NP ∧ m = (mp.final false).rows

theorem rowT_slope (f : ℚ → ℚ) (maps : CId → Option (RawMap ℚ)) (N : Nat) (id : CId) (j : Nat)
    (hl : ∀ mp, maps id = some mp → mp.mapping.cols = N + 1 ∧ j < (mp.final id.isUpper).rows) (t : ℚ) (c : Nat) (hc : c < N)
    (w : ℚ → ℚ → ℚ) (h0 : w (f 0) t = 0) :
    ((rowT f maps id j t c).map fun e => w e.1 e.2).sum = w (f (slope maps id j c)) t ∧
      (rowT f maps id j t c).length = if slope maps id j c = 0 then 0 else 1 := by
  cases hm : maps id with
  | none =>
    have hz : slope maps id j c = 0 := by unfold slope; rw [hm]
    rw [hz, h0]
    simp [rowT, hm]
  | some mp =>
    obtain ⟨h1, h2⟩ := hl mp hm
    rw [slope_eq hm j c h2]
    by_cases hch : mapChanges (some mp) id.isUpper = true
    · obtain ⟨a, b⟩ := rowT_sum f maps id mp hm hch j h2 t c (by omega) (fun x => w x t) h0
      refine ⟨?_, rowT_length f maps id mp hm hch j h2 t c (by omega)⟩
      refine Eq.trans ?_ a
      congr 1
      exact List.map_congr_left fun e he => by rw [b e he]
    · rw [slope_zero h1 (by simpa using hch) j h2 c hc, h0]
      simp [rowT, hm, hch]

theorem exTerms_sum (f : ℚ → ℚ) (maps : CId → Option (RawMap ℚ)) (N n m : Nat) (mask : List Bool) (hd : ExDims (N + 1) n m maps)
    (dth : Nat → ℚ) (c : Nat) (hc : c < N) (w : ℚ → ℚ → ℚ) (h0 : ∀ t, w (f 0) t = 0) :
    ((exTerms f maps n (sel mask (List.range (n + m))).zipIdx dth c).map fun e => w e.1 e.2).sum
        = ∑ k ∈ range (sel mask (List.range (n + m))).length, w (f (thSlope maps n m mask k c)) (dth k) ∧
      (exTerms f maps n (sel mask (List.range (n + m))).zipIdx dth c).length
        = ((range (sel mask (List.range (n + m))).length).filter fun k => thSlope maps n m mask k c ≠ 0).card := by
  have hpos : ∀ e ∈ (sel mask (List.range (n + m))).zipIdx, ∀ mp, maps (posOf n e.1).1 = some mp →
      mp.mapping.cols = N + 1 ∧ (posOf n e.1).2 < (mp.final (posOf n e.1).1.isUpper).rows := by
    intro e he mp hmp
    rw [List.mem_zipIdx_iff_getElem?] at he
    have hlt := (sel_range_get he).1
    unfold posOf at hmp ⊢
    by_cases h1 : e.1 < n
    · rw [if_pos h1] at hmp ⊢
      exact ⟨(hd.1 mp hmp).1, (hd.1 mp hmp).2 ▸ h1⟩
    · rw [if_neg h1] at hmp ⊢
      refine ⟨(hd.2 mp hmp).1, ?_⟩
      have := (hd.2 mp hmp).2
      show e.1 - n < (mp.final false).rows
      omega
  have hsl : ∀ i, (if i < n then slope maps .q i c else slope maps .u (i - n) c) = slope maps (posOf n i).1 (posOf n i).2 c := by
    intro i
    unfold posOf
    by_cases h1 : i < n
    · rw [if_pos h1, if_pos h1]
    · rw [if_neg h1, if_neg h1]
  have h1 := zipIdx_sum (R := ℚ) (sel mask (List.range (n + m))) (fun i k => w (f (slope maps (posOf n i).1 (posOf n i).2 c)) (dth k))
  have h2 := zipIdx_sum (R := ℚ) (sel mask (List.range (n + m))) (fun i _ => if slope maps (posOf n i).1 (posOf n i).2 c = 0 then 0 else 1)
  have e1 : ∑ k ∈ range (sel mask (List.range (n + m))).length, w (f (thSlope maps n m mask k c)) (dth k)
      = ∑ k ∈ range (sel mask (List.range (n + m))).length,
        w (f (slope maps (posOf n ((sel mask (List.range (n + m))).getD k 0)).1 (posOf n ((sel mask (List.range (n + m))).getD k 0)).2 c)) (dth k) :=
    sum_congr rfl fun k _ => by unfold thSlope; simp only [hsl]
  have e2 : (((range (sel mask (List.range (n + m))).length).filter fun k => thSlope maps n m mask k c ≠ 0).card : ℚ)
      = ∑ k ∈ range (sel mask (List.range (n + m))).length,
        if slope maps (posOf n ((sel mask (List.range (n + m))).getD k 0)).1 (posOf n ((sel mask (List.range (n + m))).getD k 0)).2 c = 0
          then (0 : ℚ) else 1 := by
    rw [Finset.card_filter, Nat.cast_sum]
    refine sum_congr rfl fun k _ => ?_
    unfold thSlope
    simp only [hsl]
    by_cases hz : slope maps (posOf n ((sel mask (List.range (n + m))).getD k 0)).1 (posOf n ((sel mask (List.range (n + m))).getD k 0)).2 c = 0
    · simp only [hz, if_true, ne_eq, not_true_eq_false, if_false, Nat.cast_zero]
    · simp only [hz, if_false, ne_eq, not_false_eq_true, if_true, Nat.cast_one]
  rw [e1, ← h1]
  have hlen : ((exTerms f maps n (sel mask (List.range (n + m))).zipIdx dth c).length : ℚ)
      = (((range (sel mask (List.range (n + m))).length).filter fun k => thSlope maps n m mask k c ≠ 0).card : ℚ) := by
    rw [e2, ← h2]
    generalize (sel mask (List.range (n + m))).zipIdx = L at hpos
    induction L with
    | nil => simp [exTerms]
    | cons e L ih =>
      rw [List.map_cons, List.sum_cons, ← ih fun e he => hpos e (List.mem_cons_of_mem _ he)]
      have := (rowT_slope f maps N (posOf n e.1).1 (posOf n e.1).2 (hpos e (List.mem_cons_self ..)) (dth e.2) c hc w (h0 _)).2
      unfold exTerms
      rw [List.flatMap_cons, List.length_append, this]
      push_cast
      rfl
  refine ⟨?_, by exact_mod_cast hlen⟩
  generalize (sel mask (List.range (n + m))).zipIdx = L at hpos
  clear h1 h2 e1 e2 hlen
  induction L with
  | nil => simp [exTerms]
  | cons e L ih =>
    rw [List.map_cons, List.sum_cons, ← ih fun e he => hpos e (List.mem_cons_of_mem _ he)]
    have := (rowT_slope f maps N (posOf n e.1).1 (posOf n e.1).2 (hpos e (List.mem_cons_self ..)) (dth e.2) c hc w (h0 _)).1
    unfold exTerms
    rw [List.flatMap_cons, List.map_append, List.sum_append, this]

/-- Sum of the absolute values of the products for one entry of `cpg_dtheta`. -/
def lawAbs (T : ExTab ℚ) (r : Nat) (dx : Nat → ℚ) (k : Nat) : ℚ :=
  ∑ i ∈ range T.nLoop, |feedback T.K T.nSol T.fb (T.hp r) i k * dx i|

theorem list_range_sum (n : Nat) (g : Nat → ℚ) : ((List.range n).map g).sum = ∑ i ∈ range n, g i := by
  induction n with
  | zero => simp
  | succ n ih => rw [List.range_succ, List.map_append, List.sum_append, ih, sum_range_succ]; simp

/-- One entry of `cpg_dtheta`. -/
theorem dthetaF_err (h : Floating p emin A) (T : ExTab ℚ) (r : Nat) (dx : Nat → ℚ) (k : Nat)
    (hf : ∀ i < T.nLoop, Normal p emin (feedback T.K T.nSol T.fb (T.hp r) i k)) (hx : ∀ i < T.nLoop, Normal p emin (dx i))
    (dx' : Nat → ℚ) (hdx : ∀ i < T.nLoop, dx' i = A.conv (dx i)) :
    |dthetaF A T.K T.nSol T.nLoop T.fb (T.hp r) dx' k - dtheta T.K T.nSol T.nLoop T.fb (T.hp r) dx k| ≤
      ((1 + unit p) ^ (T.nLoop + 3) - 1) * lawAbs T r dx k + small p emin T.nLoop := by
  obtain ⟨fl, hfl, hmac⟩ := h.mac
  have hu := (unit_pos p).le
  rw [dthetaF_eq]
  have herr := macs_err h.pos hfl hmac ((List.range T.nLoop).map fun i => (A.conv (feedback T.K T.nSol T.fb (T.hp r) i k), dx' i))
  have s1 : ∀ g : ℚ → ℚ → ℚ, (((List.range T.nLoop).map fun i => (A.conv (feedback T.K T.nSol T.fb (T.hp r) i k), dx' i)).map
      fun t => g t.1 t.2).sum = ∑ i ∈ range T.nLoop, g (A.conv (feedback T.K T.nSol T.fb (T.hp r) i k)) (dx' i) := by
    intro g
    rw [List.map_map]
    exact list_range_sum T.nLoop _
  have e1 : dots ((List.range T.nLoop).map fun i => (A.conv (feedback T.K T.nSol T.fb (T.hp r) i k), dx' i)) = _ := s1 fun x y => x * y
  have e2 : abss ((List.range T.nLoop).map fun i => (A.conv (feedback T.K T.nSol T.fb (T.hp r) i k), dx' i)) = _ := s1 fun x y => |x * y|
  rw [e1, e2, List.length_map, List.length_range] at herr
  have key : ∀ i ∈ range T.nLoop, |A.conv (feedback T.K T.nSol T.fb (T.hp r) i k) * dx' i - feedback T.K T.nSol T.fb (T.hp r) i k * dx i|
      ≤ ((1 + unit p) ^ 2 - 1) * |feedback T.K T.nSol T.fb (T.hp r) i k * dx i| := by
    intro i hi
    have a := nearest_normal h.pos h.conv (hf i (by simpa using hi))
    have b := nearest_normal h.pos h.conv (hx i (by simpa using hi))
    rw [hdx i (by simpa using hi)]
    generalize A.conv (feedback T.K T.nSol T.fb (T.hp r) i k) = c' at *
    generalize feedback T.K T.nSol T.fb (T.hp r) i k = c at *
    generalize A.conv (dx i) = v' at *
    generalize dx i = v at *
    have e : c' * v' - c * v = (c' - c) * (v' - v) + (c' - c) * v + c * (v' - v) := by ring
    rw [e]
    have t1 := abs_add_le ((c' - c) * (v' - v) + (c' - c) * v) (c * (v' - v))
    have t2 := abs_add_le ((c' - c) * (v' - v)) ((c' - c) * v)
    rw [abs_mul, abs_mul] at t2
    rw [abs_mul c] at t1
    have s1 : |c' - c| * |v' - v| ≤ unit p * |c| * (unit p * |v|) := mul_le_mul a b (abs_nonneg _) (by positivity)
    have s2 := mul_le_mul_of_nonneg_right a (abs_nonneg v)
    have s3 := mul_le_mul_of_nonneg_left b (abs_nonneg c)
    rw [abs_mul]
    nlinarith
  have h4 : |∑ i ∈ range T.nLoop, A.conv (feedback T.K T.nSol T.fb (T.hp r) i k) * dx' i - dtheta T.K T.nSol T.nLoop T.fb (T.hp r) dx k|
      ≤ ((1 + unit p) ^ 2 - 1) * lawAbs T r dx k := by
    unfold dtheta lawAbs
    rw [← sum_sub_distrib, mul_sum]
    exact le_trans (abs_sum_le_sum_abs _ _) (sum_le_sum key)
  have h5 : ∑ i ∈ range T.nLoop, |A.conv (feedback T.K T.nSol T.fb (T.hp r) i k) * dx' i| ≤ (1 + unit p) ^ 2 * lawAbs T r dx k := by
    unfold lawAbs
    rw [mul_sum]
    refine sum_le_sum fun i hi => ?_
    have := key i hi
    have := abs_sub_abs_le_abs_sub (A.conv (feedback T.K T.nSol T.fb (T.hp r) i k) * dx' i) (feedback T.K T.nSol T.fb (T.hp r) i k * dx i)
    linarith
  have h7 : 0 ≤ (1 + unit p) ^ (T.nLoop + 1) - 1 := by
    have := one_le_pow₀ (n := T.nLoop + 1) (show 1 ≤ 1 + unit p by linarith)
    linarith
  have h8 := mul_le_mul_of_nonneg_left h5 h7
  have h9 : (1 + unit p) ^ (T.nLoop + 3) = (1 + unit p) ^ (T.nLoop + 1) * (1 + unit p) ^ 2 := by rw [← pow_add]
  rw [h9]
  generalize macs A.mac _ 0 = z at *
  generalize ∑ i ∈ range T.nLoop, A.conv (feedback T.K T.nSol T.fb (T.hp r) i k) * dx' i = D at *
  generalize ∑ i ∈ range T.nLoop, |A.conv (feedback T.K T.nSol T.fb (T.hp r) i k) * dx' i| = B at *
  generalize dtheta T.K T.nSol T.nLoop T.fb (T.hp r) dx k = X at *
  have h6 : |z - X| ≤ |z - D| + |D - X| := abs_sub_le _ _ _
  generalize (1 + unit p) ^ (T.nLoop + 1) = G at *
  generalize (1 + unit p) ^ 2 = Q at *
  nlinarith

/-- **C97** in explicit mode, in single precision with `p = 24`, `emin = -149`: after any history of solves, sensitivities and
gradients, the gradient of the next call differs from the exact one by at most `(1 + u)^(k+s+5) - 1` times the sum of the
absolute values of the products, plus what is lost on numbers near zero; `k` is the number of entries of `theta` that depend on
the entry of the parameters, `s` the number of entries of the solution. -/
theorem C97_explicit (h : Floating p emin A) (T : ExTab ℚ) (maps : CId → Option (RawMap ℚ)) (N n m : Nat) (mask : List Bool)
    (hNP : T.NP = N + 1) (hd : ExDims (N + 1) n m maps)
    (hs : ∀ k < (sel mask (List.range (n + m))).length, ∀ c < N,
      Safe (thSlope maps n m mask k c) ∧ Normal p emin (thSlope maps n m mask k c))
    (ops : List (ExOp ℚ)) (s0 : ExSt ℚ) (hrun : exRunF A T (usedMaps maps n m mask) ops = some s0)
    (useSol : Option Nat) (r : Nat) (hr : useSol.or (regionOf ops) = some r)
    (hf : ∀ k < (sel mask (List.range (n + m))).length, ∀ i < T.nLoop, Normal p emin (feedback T.K T.nSol T.fb (T.hp r) i k))
    (hx : ∀ i < T.nLoop, Normal p emin (givenDx ops i)) :
    let L := (sel mask (List.range (n + m))).length
    ∃ s, exRunF A T (usedMaps maps n m mask) (ops ++ [.gradient useSol]) = some s ∧ s.dp.length = N + 1 ∧ ∀ c < N,
      let k := ((range L).filter fun k => thSlope maps n m mask k c ≠ 0).card
      |fn s.dp c - ∑ k ∈ range L, thSlope maps n m mask k c *
          ∑ i ∈ range T.nLoop, feedback T.K T.nSol T.fb (T.hp r) i k * givenDx ops i| ≤
        ((1 + unit p) ^ (k + T.nLoop + 5) - 1) *
            ∑ k ∈ range L, |thSlope maps n m mask k c| * ∑ i ∈ range T.nLoop, |feedback T.K T.nSol T.fb (T.hp r) i k * givenDx ops i|
          + ((1 + unit p) ^ (k + 2) * small p emin T.nLoop * ∑ k ∈ range L, |thSlope maps n m mask k c| + small p emin k) := by
  intro L
  have hq : ∀ mp, maps .q = some mp → mp.mapping.cols = T.NP ∧ n = (mp.final false).rows := by rw [hNP]; exact hd.1
  have hu' : ∀ mp, maps .u = some mp → mp.mapping.cols = T.NP ∧ m = (mp.final false).rows := by rw [hNP]; exact hd.2
  obtain ⟨i1, i2, i3⟩ := exRunF_inv A (nearest_zero h.conv) T maps n m mask hq hu' ops s0 hrun
  obtain ⟨dp', e, l, hdp⟩ := uncanonExplicitF_spec A maps T.NP n m mask hq hu'
    (dthetaF A T.K T.nSol T.nLoop T.fb (T.hp r) s0.dx) s0.dp i2
  refine ⟨{ region := some r, dx := fun i => if i < T.nLoop then 0 else s0.dx i, dp := dp' }, ?_, by rw [← hNP]; exact l, ?_⟩
  · rw [exRunF_snoc, hrun, Option.bind_some]
    unfold exStepF
    rw [← i1] at hr
    simp only [hr, e]
    rfl
  intro c hc k
  show |fn dp' c - _| ≤ _
  rw [hdp c]
  obtain ⟨fl, hfl, hmac⟩ := h.mac
  have hu := (unit_pos p).le
  have herr := macs_err h.pos hfl hmac (exTerms A.num maps n (sel mask (List.range (n + m))).zipIdx
    (dthetaF A T.K T.nSol T.nLoop T.fb (T.hp r) s0.dx) c)
  obtain ⟨e1, elen⟩ := exTerms_sum A.num maps N n m mask hd (dthetaF A T.K T.nSol T.nLoop T.fb (T.hp r) s0.dx) c hc
    (fun x y => x * y) (by intro t; rw [num_zero h, zero_mul])
  have e2 := (exTerms_sum A.num maps N n m mask hd (dthetaF A T.K T.nSol T.nLoop T.fb (T.hp r) s0.dx) c hc
    (fun x y => |x * y|) (by intro t; rw [num_zero h, zero_mul, abs_zero])).1
  have e1 : dots (exTerms A.num maps n (sel mask (List.range (n + m))).zipIdx (dthetaF A T.K T.nSol T.nLoop T.fb (T.hp r) s0.dx) c) = _ := e1
  have e2 : abss (exTerms A.num maps n (sel mask (List.range (n + m))).zipIdx (dthetaF A T.K T.nSol T.nLoop T.fb (T.hp r) s0.dx) c) = _ := e2
  rw [e1, e2, elen] at herr
  have hsm := small_nonneg p emin T.nLoop
  have h1p : 1 ≤ (1 + unit p) ^ (T.nLoop + 3) := one_le_pow₀ (by linarith)
  have hD : ∀ k, 0 ≤ lawAbs T r (givenDx ops) k := fun k => sum_nonneg fun _ _ => abs_nonneg _
  have hX : ∀ k, |dtheta T.K T.nSol T.nLoop T.fb (T.hp r) (givenDx ops) k| ≤ lawAbs T r (givenDx ops) k := fun k =>
    abs_sum_le_sum_abs _ _
  -- one product of the second sum
  have key : ∀ k ∈ range L, |A.num (thSlope maps n m mask k c) * dthetaF A T.K T.nSol T.nLoop T.fb (T.hp r) s0.dx k -
      thSlope maps n m mask k c * dtheta T.K T.nSol T.nLoop T.fb (T.hp r) (givenDx ops) k| ≤
      ((1 + unit p) ^ (T.nLoop + 4) - 1) * (|thSlope maps n m mask k c| * lawAbs T r (givenDx ops) k)
        + (1 + unit p) * small p emin T.nLoop * |thSlope maps n m mask k c| := by
    intro k hk
    have hk : k < L := by simpa using hk
    have a := num_err h (hs k hk c hc).1 (hs k hk c hc).2
    have b := dthetaF_err h T r (givenDx ops) k (hf k hk) hx s0.dx i3
    have hX := hX k
    have hD := hD k
    generalize A.num (thSlope maps n m mask k c) = a' at *
    generalize thSlope maps n m mask k c = a0 at *
    generalize dthetaF A T.K T.nSol T.nLoop T.fb (T.hp r) s0.dx k = d' at *
    generalize dtheta T.K T.nSol T.nLoop T.fb (T.hp r) (givenDx ops) k = d0 at *
    generalize lawAbs T r (givenDx ops) k = D at *
    have e : a' * d' - a0 * d0 = a' * (d' - d0) + (a' - a0) * d0 := by ring
    have t1 := abs_add_le (a' * (d' - d0)) ((a' - a0) * d0)
    rw [abs_mul, abs_mul] at t1
    have ha' : |a'| ≤ (1 + unit p) * |a0| := by
      have := abs_sub_abs_le_abs_sub a' a0
      linarith
    have t2 : |a'| * |d' - d0| ≤ (1 + unit p) * |a0| * (((1 + unit p) ^ (T.nLoop + 3) - 1) * D + small p emin T.nLoop) :=
      mul_le_mul ha' b (abs_nonneg _) (by positivity)
    have t3 : |a' - a0| * |d0| ≤ unit p * |a0| * D := mul_le_mul a hX (abs_nonneg _) (by positivity)
    have h9 : (1 + unit p) ^ (T.nLoop + 4) = (1 + unit p) ^ (T.nLoop + 3) * (1 + unit p) := by rw [← pow_succ]
    rw [e, h9]
    generalize (1 + unit p) ^ (T.nLoop + 3) = G at *
    nlinarith [abs_nonneg a0]
  have hS1 : |∑ k ∈ range L, A.num (thSlope maps n m mask k c) * dthetaF A T.K T.nSol T.nLoop T.fb (T.hp r) s0.dx k -
      ∑ k ∈ range L, thSlope maps n m mask k c * dtheta T.K T.nSol T.nLoop T.fb (T.hp r) (givenDx ops) k| ≤
      ((1 + unit p) ^ (T.nLoop + 4) - 1) * ∑ k ∈ range L, |thSlope maps n m mask k c| * lawAbs T r (givenDx ops) k
        + (1 + unit p) * small p emin T.nLoop * ∑ k ∈ range L, |thSlope maps n m mask k c| := by
    rw [← sum_sub_distrib, mul_sum, mul_sum, ← sum_add_distrib]
    exact le_trans (abs_sum_le_sum_abs _ _) (sum_le_sum key)
  have hS2 : ∑ k ∈ range L, |A.num (thSlope maps n m mask k c) * dthetaF A T.K T.nSol T.nLoop T.fb (T.hp r) s0.dx k| ≤
      (1 + unit p) ^ (T.nLoop + 4) * ∑ k ∈ range L, |thSlope maps n m mask k c| * lawAbs T r (givenDx ops) k
        + (1 + unit p) * small p emin T.nLoop * ∑ k ∈ range L, |thSlope maps n m mask k c| := by
    rw [mul_sum, mul_sum, ← sum_add_distrib]
    refine sum_le_sum fun k hk => ?_
    have a := key k hk
    have b := abs_sub_abs_le_abs_sub (A.num (thSlope maps n m mask k c) * dthetaF A T.K T.nSol T.nLoop T.fb (T.hp r) s0.dx k)
      (thSlope maps n m mask k c * dtheta T.K T.nSol T.nLoop T.fb (T.hp r) (givenDx ops) k)
    have d : |thSlope maps n m mask k c * dtheta T.K T.nSol T.nLoop T.fb (T.hp r) (givenDx ops) k|
        ≤ |thSlope maps n m mask k c| * lawAbs T r (givenDx ops) k := by
      rw [abs_mul]
      exact mul_le_mul_of_nonneg_left (hX k) (abs_nonneg _)
    linarith
  have hSa : 0 ≤ ∑ k ∈ range L, |thSlope maps n m mask k c| := sum_nonneg fun _ _ => abs_nonneg _
  have hk1 : 1 ≤ (1 + unit p) ^ (k + 1) := one_le_pow₀ (by linarith)
  have p1 : (1 + unit p) ^ (k + T.nLoop + 5) = (1 + unit p) ^ (k + 1) * (1 + unit p) ^ (T.nLoop + 4) := by
    rw [← pow_add]; congr 1; omega
  have p2 : (1 + unit p) ^ (k + 2) = (1 + unit p) ^ (k + 1) * (1 + unit p) := by rw [← pow_succ]
  have p3 := mul_le_mul_of_nonneg_left hS2 (sub_nonneg.2 hk1)
  rw [p1, p2]
  have hex : ∑ k ∈ range L, thSlope maps n m mask k c *
      ∑ i ∈ range T.nLoop, feedback T.K T.nSol T.fb (T.hp r) i k * givenDx ops i
      = ∑ k ∈ range L, thSlope maps n m mask k c * dtheta T.K T.nSol T.nLoop T.fb (T.hp r) (givenDx ops) k := rfl
  have hab : ∑ k ∈ range L, |thSlope maps n m mask k c| * ∑ i ∈ range T.nLoop, |feedback T.K T.nSol T.fb (T.hp r) i k * givenDx ops i|
      = ∑ k ∈ range L, |thSlope maps n m mask k c| * lawAbs T r (givenDx ops) k := rfl
  rw [hex, hab]
  have hkk : ((range (sel mask (List.range (n + m))).length).filter fun k => thSlope maps n m mask k c ≠ 0).card = k := rfl
  rw [hkk] at herr
  have hLL : (sel mask (List.range (n + m))).length = L := rfl
  rw [hLL] at herr
  generalize macs A.mac _ 0 = z at *
  generalize ∑ k ∈ range L, A.num (thSlope maps n m mask k c) * dthetaF A T.K T.nSol T.nLoop T.fb (T.hp r) s0.dx k = D1 at *
  generalize ∑ k ∈ range L, |A.num (thSlope maps n m mask k c) * dthetaF A T.K T.nSol T.nLoop T.fb (T.hp r) s0.dx k| = B at *
  generalize ∑ k ∈ range L, thSlope maps n m mask k c * dtheta T.K T.nSol T.nLoop T.fb (T.hp r) (givenDx ops) k = X at *
  generalize ∑ k ∈ range L, |thSlope maps n m mask k c| * lawAbs T r (givenDx ops) k = S at *
  generalize ∑ k ∈ range L, |thSlope maps n m mask k c| = Sa at *
  have h6 : |z - X| ≤ |z - D1| + |D1 - X| := abs_sub_le _ _ _
  generalize (1 + unit p) ^ (k + 1) = G at *
  generalize (1 + unit p) ^ (T.nLoop + 4) = Q at *
  nlinarith

end explicit

/-! ### what is false, and examples -/

/-- One parameter `a`; the objective is `a * (x + y + z)`. -/
def wideMaps : CId → Option (RawMap ℚ)
  | .q => some ⟨⟨3, 2, [(0, 0, 1), (1, 0, 1), (2, 0, 1)]⟩, fun _ => 1⟩
  | _ => none
def wideDims : QpDims := ⟨3, 0, 0, 0, 0⟩
def wideGrad (x y z : ℚ) : Grad.DCanon ℚ := ⟨fun i => if i = 0 then x else if i = 1 then y else z, 0, 0, 0, 0⟩

theorem wideOK : Dims 1 wideDims wideMaps := by
  intro t ht m hm
  simp only [List.mem_cons, List.not_mem_nil, or_false] at ht
  rcases ht with rfl | rfl | rfl | rfl | rfl <;> simp [wideMaps] at hm
  subst hm
  exact ⟨rfl, rfl⟩

theorem wide_slope (id : CId) (i c : Nat) : slope wideMaps id i c = 0 ∨ slope wideMaps id i c = 1 := by
  have hq : ∀ r, coef (⟨⟨3, 2, [(0, 0, 1), (1, 0, 1), (2, 0, 1)]⟩, fun _ => 1⟩ : RawMap ℚ) r c = 0 ∨
      coef (⟨⟨3, 2, [(0, 0, 1), (1, 0, 1), (2, 0, 1)]⟩, fun _ => 1⟩ : RawMap ℚ) r c = 1 := by
    intro r
    rcases r with _ | _ | _ | r <;> rcases c with _ | c <;> simp [coef, Sp.at]
  cases id <;> first | exact Or.inl rfl | exact hq _

theorem wide_chain (x y z : ℚ) : chain wideMaps wideDims (wideGrad x y z) 0 = x + y + z := by
  simp [chain, fiveParts, wideDims, wideGrad, sum_range_succ, slope, wideMaps, coef, Sp.at, CId.isUpper, List.range_succ]

/-- C97 does not hold relative to the gradient: for the objective `a * (x + y + z)` and the canonical gradients `2^p`, `1/2`,
`-2^p`, which all are numbers of the type, the gradient of `a` is 0 instead of 1/2 with every way to round to nearest. -/
theorem C97_fails (h : Floating p emin A) (he : emin ≤ -1) (dp : List ℚ) (hdp : dp.length = 2) :
    ∃ dp', uncanonicalizeF A 2 wideDims wideMaps (wideGrad (2 ^ p) (1 / 2) (-2 ^ p)) dp = some dp' ∧ fn dp' 0 = 0 ∧
      chain wideMaps wideDims (wideGrad (2 ^ p) (1 / 2) (-2 ^ p)) 0 = 1 / 2 := by
  obtain ⟨dp', h1, h2, h3⟩ := uncanonF_entries A wideOK (wideGrad (2 ^ p) (1 / 2) (-2 ^ p)) dp hdp
  refine ⟨dp', h1, ?_, by rw [wide_chain]; ring⟩
  rw [h3 0]
  have hterms : allTerms A.num wideMaps (fiveParts wideDims (wideGrad (2 ^ p) (1 / 2) (-2 ^ p))) 0
      = [(A.num 1, 2 ^ p), (A.num 1, 1 / 2), (A.num 1, -2 ^ p)] := by
    have hch : mapChanges (some (⟨⟨3, 2, [(0, 0, 1), (1, 0, 1), (2, 0, 1)]⟩, fun _ => 1⟩ : RawMap ℚ)) false = true := by decide +kernel
    have hr : ∀ j < 3, (RawMap.final (⟨⟨3, 2, [(0, 0, 1), (1, 0, 1), (2, 0, 1)]⟩, fun _ => 1⟩ : RawMap ℚ) false).row j = [(j, 0, 1)] := by
      decide +kernel
    have e : allTerms A.num wideMaps (fiveParts wideDims (wideGrad (2 ^ p) (1 / 2) (-2 ^ p))) 0
        = colTerms (prSp A.num (RawMap.final (⟨⟨3, 2, [(0, 0, 1), (1, 0, 1), (2, 0, 1)]⟩, fun _ => 1⟩ : RawMap ℚ) false)) 3
          (wideGrad (2 ^ p) (1 / 2) (-2 ^ p)).dq 0 := by
      simp [allTerms, fiveParts, wideDims, wideMaps, CId.isUpper, hch]
    rw [e]
    unfold colTerms
    rw [show List.range 3 = [0, 1, 2] from rfl]
    simp only [List.flatMap_cons, List.flatMap_nil, prSp_row, hr 0 (by omega), hr 1 (by omega), hr 2 (by omega)]
    simp [col, wideGrad]
  rw [hterms, num_one h]
  have hrep : ∀ n : Nat, Rep p emin (2 ^ n) := fun n => ⟨1, n, Nat.one_lt_two_pow (by have := h.pos; omega), by omega, by
    rw [zpow_natCast]; simp⟩
  have hhalf : Rep p emin (1 / 2) := ⟨1, -1, Nat.one_lt_two_pow (by have := h.pos; omega), he, by norm_num⟩
  have hneg : Rep p emin (-2 ^ p) := by
    obtain ⟨m, e, a, b, c⟩ := hrep p
    exact ⟨-m, e, by simpa using a, b, by rw [c]; push_cast; ring⟩
  obtain ⟨fl, hf, hmac⟩ := h.mac
  show A.mac (A.mac (A.mac 0 1 (2 ^ p)) 1 (1 / 2)) 1 (-2 ^ p) = 0
  have m1 : A.mac 0 1 (2 ^ p) = 2 ^ p := by
    rcases hmac 0 1 (2 ^ p) with e | e <;> rw [e] <;> simp only [one_mul, zero_add, nearest_rep hf (hrep p)]
  have m2 : A.mac (2 ^ p) 1 (1 / 2) = 2 ^ p := by
    rcases hmac (2 ^ p) 1 (1 / 2) with e | e <;> rw [e]
    · rw [one_mul, nearest_rep hf hhalf, absorb hf h.pos h.one]
    · rw [one_mul, absorb hf h.pos h.one]
  have m3 : A.mac (2 ^ p) 1 (-2 ^ p) = 0 := by
    rcases hmac (2 ^ p) 1 (-2 ^ p) with e | e <;> rw [e]
    · rw [one_mul, nearest_rep hf hneg, add_neg_cancel, nearest_zero hf]
    · rw [one_mul, add_neg_cancel, nearest_zero hf]
  rw [m1, m2, m3]

theorem normal_zero_one (x : ℚ) (h : x = 0 ∨ x = 1) : Safe x ∧ Normal 24 (-149) x := by
  rcases h with rfl | rfl
  · exact ⟨safe_zero, Or.inl rfl⟩
  · exact ⟨safe_one, Or.inr (by norm_num)⟩

/-- The hypotheses of `C97_partial` hold for this problem in single precision; the bound for the gradients 3, 4, 5 is about `12 * 5 * 2^-24`. -/
example : Dims 1 wideDims wideMaps ∧ SafeSlopes 1 wideDims (wideGrad 3 4 5) wideMaps ∧
    (∀ t ∈ fiveParts wideDims (wideGrad 3 4 5), ∀ i < t.2.1, ∀ c < 1, Normal 24 (-149) (slope wideMaps t.1 i c)) ∧
    chain wideMaps wideDims (wideGrad 3 4 5) 0 = 12 ∧ chainAbs wideMaps wideDims (wideGrad 3 4 5) 0 = 12 ∧
    chainTerms wideMaps wideDims (wideGrad 3 4 5) 0 = 3 := by
  refine ⟨wideOK, fun t _ i _ c _ => (normal_zero_one _ (wide_slope t.1 i c)).1,
    fun t _ i _ c _ => (normal_zero_one _ (wide_slope t.1 i c)).2, by rw [wide_chain]; norm_num, ?_, ?_⟩
  · simp [chainAbs, fiveParts, wideDims, wideGrad, sum_range_succ, slope, wideMaps, coef, Sp.at, CId.isUpper, List.range_succ]
    norm_num
  · simp only [chainTerms, fiveParts, wideDims, List.map_cons, List.map_nil]
    decide +kernel

/-- These gradients are integers, so in double precision the gradient of `a` is exactly 12. -/
example (h : Floating 53 (-1074) A) : ∃ dp', uncanonicalizeF A 2 wideDims wideMaps (wideGrad 3 4 5) [7, 8] = some dp' ∧ fn dp' 0 = 12 := by
  obtain ⟨dp', h1, _, h3⟩ := C97_double h wideOK (wideGrad 3 4 5)
    (fun t _ i _ c _ => (normal_zero_one _ (wide_slope t.1 i c)).1) [7, 8] rfl
  refine ⟨dp', h1, ?_⟩
  have := (h3 0 (by omega)).2 0 (by norm_num) (fun t ht i hi => ?_) (by
    have : chainAbs wideMaps wideDims (wideGrad 3 4 5) 0 = 12 := by
      simp [chainAbs, fiveParts, wideDims, wideGrad, sum_range_succ, slope, wideMaps, coef, Sp.at, CId.isUpper, List.range_succ]
      norm_num
    rw [this]; norm_num)
  · rw [this, wide_chain]; norm_num
  · have hg : ∃ k : Int, t.2.2 i = k := by
      simp only [fiveParts, wideDims, wideGrad, List.mem_cons, List.not_mem_nil, or_false] at ht
      rcases ht with rfl | rfl | rfl | rfl | rfl
      · rcases i with _ | _ | i
        · exact ⟨3, rfl⟩
        · exact ⟨4, rfl⟩
        · exact ⟨5, rfl⟩
      all_goals exact ⟨0, rfl⟩
    obtain ⟨k, hk⟩ := hg
    rcases wide_slope t.1 i 0 with e | e <;> rw [e, hk]
    · exact ⟨0, by simp⟩
    · exact ⟨k, by simp⟩

section
open Verif.Model.Explicit Verif.Spec.Explicit

/-- Explicit mode: one variable, `theta` is the one entry of `q`, which is the parameter; the feedback gains of the regions 0, 1 are 2, 3. -/
def gainTab : ExTab ℚ := ⟨1, 1, 1, 2, fun i => if i = 0 then 2 else if i = 2 then 3 else 0, id⟩
def gainMaps : CId → Option (RawMap ℚ)
  | .q => some ⟨⟨1, 2, [(0, 0, 1)]⟩, fun _ => 1⟩
  | _ => none

theorem gain_slope (id : CId) (i c : Nat) : slope gainMaps id i c = 0 ∨ slope gainMaps id i c = 1 := by
  have hq : ∀ r, coef (⟨⟨1, 2, [(0, 0, 1)]⟩, fun _ => 1⟩ : RawMap ℚ) r c = 0 ∨
      coef (⟨⟨1, 2, [(0, 0, 1)]⟩, fun _ => 1⟩ : RawMap ℚ) r c = 1 := by
    intro r
    rcases r with _ | r <;> rcases c with _ | c <;> simp [coef, Sp.at]
  cases id <;> first | exact Or.inl rfl | exact hq _

/-- The hypotheses of `C97_explicit` hold after a solve, a gradient and another solve. -/
example (h : Floating 24 (-149) A) :
    let ops : List (ExOp ℚ) := [.solve 0, .setD 0 5, .gradient none, .solve 1, .setD 0 7]
    (∃ s0, exRunF A gainTab (usedMaps gainMaps 1 0 [true]) ops = some s0) ∧ ExDims 2 1 0 gainMaps ∧
      (∀ k < 1, ∀ c < 1, Safe (thSlope gainMaps 1 0 [true] k c) ∧ Normal 24 (-149) (thSlope gainMaps 1 0 [true] k c)) ∧
      (none : Option Nat).or (regionOf ops) = some 1 ∧
      (∀ k < 1, ∀ i < 1, Normal 24 (-149) (feedback 1 1 gainTab.fb 1 i k)) ∧ (∀ i < 1, Normal 24 (-149) (givenDx ops i)) ∧
      thSlope gainMaps 1 0 [true] 0 0 * (feedback 1 1 gainTab.fb 1 0 0 * givenDx ops 0) = 21 := by
  intro ops
  have hdims : ExDims 2 1 0 gainMaps := by
    constructor <;> intro mp hmp <;> simp [gainMaps] at hmp
    subst hmp
    exact ⟨rfl, rfl⟩
  have hts : ∀ k c, thSlope gainMaps 1 0 [true] k c = 0 ∨ thSlope gainMaps 1 0 [true] k c = 1 := by
    intro k c
    unfold thSlope
    dsimp only
    split <;> exact gain_slope _ _ _
  have hn : ∀ x : ℚ, 1 ≤ |x| → Normal 24 (-149) x := fun x hx => Or.inr (le_trans (by norm_num) hx)
  refine ⟨?_, hdims, fun k _ c _ => normal_zero_one _ (hts k c), by decide, ?_, ?_, ?_⟩
  · have key := C97_explicit h gainTab gainMaps 1 1 0 [true] rfl hdims (fun k _ c _ => normal_zero_one _ (hts k c))
      [.solve 0, .setD 0 5] _ rfl none 0 (by decide)
      (fun k hk i hi => by
        have hk : k < 1 := hk
        have hi : i < 1 := hi
        obtain rfl : k = 0 := by omega
        obtain rfl : i = 0 := by omega
        exact hn _ (by norm_num [feedback, gainTab]))
      (fun i hi => by
        have hi : i < 1 := hi
        obtain rfl : i = 0 := by omega
        exact hn _ (by norm_num [givenDx]))
    obtain ⟨s, hs, _⟩ := key
    refine ⟨{ s with region := some 1, dx := fun i => if i = 0 then A.conv 7 else s.dx i }, ?_⟩
    show exRunF A gainTab _ (([.solve 0, .setD 0 5] ++ [.gradient none]) ++ [.solve 1, .setD 0 7]) = _
    unfold exRunF at hs ⊢
    rw [List.foldlM_append, hs]
    rfl
  · intro k hk i hi
    obtain rfl : k = 0 := by omega
    obtain rfl : i = 0 := by omega
    exact hn _ (by norm_num [feedback, gainTab])
  · intro i hi
    obtain rfl : i = 0 := by omega
    exact hn _ (by norm_num [ops, givenDx])
  · simp [ops, thSlope, slope, gainMaps, coef, Sp.at, feedback, gainTab, givenDx, CId.isUpper, sel, List.range_succ]
    norm_num

end

end Verif.Props
