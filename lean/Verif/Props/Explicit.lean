import Verif.Lemmas.ExplicitD
import Mathlib.Algebra.Order.Ring.Int
/-!
Properties of explicit mode: C37–C43.
-/
namespace Verif.Props
open Verif.Model Verif.Model.Explicit Verif.Spec Verif.Spec.Explicit Verif.Lemmas Verif.Lemmas.Explicit Finset

/-! ### C37 -/

/-- The full claim: after any history of updates in which entry `k` was updated, the user's own
constraints on parameters hold at entry `k`. -/
def C37Claim : Prop :=
  ∀ (NP : Nat) (big : Int) (cons : List (PCon Int)) (b : Bounds Int), paramBounds NP big cons = .ok b →
    ∀ (p : Nat → Int) (us : List (Nat × Int)) (k : Nat) (x : Int), lastGiven us k = some x →
      (∃ y, ∀ c ∈ cons, OnParams c → HoldsAt c k y) →
      ∀ c ∈ cons, OnParams c → HoldsAt c k (clampRun b p us k)

section
variable {R : Type} [CommRing R] [LinearOrder R]

/-- A value within the declared bounds is stored as given, whatever the order and number of bounds and
the history; no other entry changes. -/
theorem C37_kept (NP : Nat) (big : R) (cons : List (PCon R)) (b : Bounds R) (h : paramBounds NP big cons = .ok b)
    (p : Nat → R) (us : List (Nat × R)) (k : Nat) (hk : k + 1 < NP) :
    (∀ x, lastGiven us k = some x → -big ≤ x → x ≤ big → (∀ c ∈ cons, OnParams c → HoldsAt c k x) →
      clampRun b p us k = x) ∧
    (lastGiven us k = none → clampRun b p us k = p k) := by
  constructor
  · intro x hx h1 h2 hh
    rw [clampRun_get, hx]
    obtain ⟨l, u⟩ := fold_in cons _ b k x h (by
      show (if k + 1 = NP then (1 : R) else -big) ≤ x
      rw [if_neg (by omega)]; exact h1) (by
      show x ≤ (if k + 1 = NP then (1 : R) else big)
      rw [if_neg (by omega)]; exact h2) hh
    exact clamp_id b k x l u
  · intro hx
    rw [clampRun_get, hx]

/-- The stored value satisfies all declared bounds. Missing for the full claim: bounds given by
equalities, and entries with several upper (lower) bounds of which a later one is looser. -/
theorem C37_partial (NP : Nat) (big : R) (cons : List (PCon R)) (b : Bounds R) (h : paramBounds NP big cons = .ok b)
    (p : Nat → R) (us : List (Nat × R)) (k : Nat) (x : R) (hx : lastGiven us k = some x)
    (hle : b.lower k ≤ b.upper k)
    (hup : cons.Pairwise fun c d => OnParams c → OnParams d →
      ∀ v w, upperAt c k = some v → upperAt d k = some w → w ≤ v)
    (hlo : cons.Pairwise fun c d => OnParams c → OnParams d →
      ∀ v w, lowerAt c k = some v → lowerAt d k = some w → v ≤ w)
    (heq : ∀ c ∈ cons, OnParams c → c.isEq = false) :
    ∀ c ∈ cons, OnParams c → HoldsAt c k (clampRun b p us k) := by
  rw [clampRun_get, hx]
  obtain ⟨c1, c2⟩ := clamp_mem b k x hle
  have a1 := (fold_upper_le cons _ b k _ h hup c2).1
  have a2 := (fold_lower_le cons _ b k _ h hlo c1).1
  intro c hc ho
  have := heq c hc ho
  exact ⟨fun v hv => ⟨a1 c hc ho v hv, fun e => by simp [this] at e⟩,
    fun v hv => ⟨a2 c hc ho v hv, fun e => by simp [this] at e⟩⟩

end

/-- `p ≤ 1` then `p ≤ 2`: the code uses the last one. -/
def exCons : List (PCon Int) :=
  [⟨false, true, false, .param 0 1, .const fun _ => 1⟩, ⟨false, true, false, .param 0 1, .const fun _ => 2⟩]

/-- `p == 1`: the code uses it as an upper bound only. -/
def exEqCons : List (PCon Int) := [⟨false, true, true, .param 0 1, .const fun _ => 1⟩]

theorem C37_fails : ¬ C37Claim := by
  intro h
  have := h 2 100 exCons _ rfl (fun _ => 0) [(0, 2)] 0 2 rfl
    ⟨0, by
      intro c hc _
      simp only [exCons, List.mem_cons, List.not_mem_nil, or_false] at hc
      rcases hc with rfl | rfl <;> constructor <;> simp [upperAt, lowerAt]⟩
    _ (List.mem_cons_self ..) ⟨rfl, rfl⟩
  have := (this.1 1 rfl).1
  exact absurd this (by decide)

theorem C37_fails_equality : ∃ (b : Bounds Int), paramBounds 2 100 exEqCons = .ok b ∧
    clampRun b (fun _ => 0) [(0, -5)] 0 = -5 ∧ ¬ (∀ c ∈ exEqCons, HoldsAt c 0 (-5)) :=
  ⟨_, rfl, by decide, fun h => absurd (((h _ (List.mem_cons_self ..)).1 1 rfl).2 rfl) (by decide)⟩

/-- Non-vacuity: `p ≤ 2`, `-1 ≤ p` for a parameter with two entries. -/
def exGoodCons : List (PCon Int) :=
  [⟨true, false, false, .other, .other⟩, ⟨false, true, false, .param 0 2, .const fun _ => 2⟩,
   ⟨false, true, false, .const fun _ => -1, .param 0 2⟩]

example : ∃ b, paramBounds 3 100 exGoodCons = .ok b ∧ b.lower 1 ≤ b.upper 1 ∧
    clampRun b (fun _ => 7) [(1, 9), (0, -4), (1, 1)] 0 = -1 ∧
    clampRun b (fun _ => 7) [(1, 1), (0, -4), (1, 9)] 1 = 2 :=
  ⟨_, rfl, by decide, by decide, by decide⟩

example : exGoodCons.Pairwise (fun c d => OnParams c → OnParams d →
      ∀ v w, upperAt c 1 = some v → upperAt d 1 = some w → w ≤ v) ∧
    (∀ c ∈ exGoodCons, OnParams c → c.isEq = false) := by
  constructor
  · simp [exGoodCons, upperAt, OnParams]
  · intro c hc _
    simp only [exGoodCons, List.mem_cons, List.not_mem_nil, or_false] at hc
    rcases hc with rfl | rfl | rfl <;> rfl

/-- A side that is neither a parameter nor a constant is rejected. -/
example : paramBounds (R := Int) 3 100 [⟨false, true, false, .other, .const fun _ => 1⟩] = .error () := rfl

/-! ### C38 -/
section
variable {R : Type} [CommRing R] [LinearOrder R] [IsStrictOrderedRing R]

/-- The row covers the whole image of the declared box. -/
def Covers (NP : Nat) (C : Nat → Nat → R) (b : Bounds R) (i : Nat) : Prop :=
  ∀ p, InBox NP b p → (thetaBound NP C b i).1 ≤ ∑ c ∈ range NP, C i c * p c ∧
    ∑ c ∈ range NP, C i c * p c ≤ (thetaBound NP C b i).2

/-- Exact condition: the region covers the image of the box in component `i` iff the coefficients of the
parameters that can vary have one sign. The property asks for all maps, so it holds only in part. -/
theorem C38_partial (NP : Nat) (C : Nat → Nat → R) (b : Bounds R) (hb : ∀ c < NP, b.lower c ≤ b.upper c) (i : Nat) :
    Covers NP C b i ↔
      (∀ c < NP, b.lower c < b.upper c → 0 ≤ C i c) ∨ (∀ c < NP, b.lower c < b.upper c → C i c ≤ 0) := by
  constructor
  · intro h
    by_contra hn
    rw [not_or] at hn
    obtain ⟨h1, h2⟩ := hn
    simp only [not_forall, not_le] at h1 h2
    obtain ⟨c2, l2, m2, n2⟩ := h1
    obtain ⟨c1, l1, m1, n1⟩ := h2
    exact theta_bad NP C b i hb (fun p hp => (h p hp).2) c1 c2 l1 l2 m1 m2 n1 n2
  · rintro (h | h) p hp
    · obtain ⟨a, b'⟩ := theta_mono NP C b i h p hp
      exact ⟨le_trans (min_le_left _ _) a, le_trans b' (le_max_right _ _)⟩
    · obtain ⟨a, b'⟩ := theta_anti NP C b i h p hp
      exact ⟨le_trans (min_le_right _ _) a, le_trans b' (le_max_left _ _)⟩

end

/-- `theta = p1 - p2` with both parameters in `[0, 1]`. -/
def exDiff : Nat → Nat → Int := fun _ c => if c = 0 then 1 else if c = 1 then -1 else 0
def exBox : Bounds Int := ⟨fun c => if c = 2 then 1 else 0, fun _ => 1⟩

theorem C38_fails : ¬ (∀ (NP : Nat) (C : Nat → Nat → Int) (b : Bounds Int),
    (∀ c < NP, b.lower c ≤ b.upper c) → ∀ i, Covers NP C b i) := by
  intro h
  have hc := h 3 exDiff exBox (by decide) 0
  rw [C38_partial _ _ _ (by decide)] at hc
  rcases hc with hc | hc
  · exact absurd (hc 1 (by decide) (by decide)) (by decide)
  · exact absurd (hc 0 (by decide) (by decide)) (by decide)

/-- The component is even treated as fixed: both bounds are 0, whereas its values range over [-1, 1]. -/
theorem C38_fails_fixed : thetaBound 3 exDiff exBox 0 = (0, 0) ∧
    ∃ p, InBox 3 exBox p ∧ ∑ c ∈ range 3, exDiff 0 c * p c = -1 :=
  ⟨by decide, fun c => if c = 0 then 0 else 1, by unfold InBox; decide, by decide⟩

example : Covers 3 (fun _ c => if c = 0 then 1 else 2) exBox 0 :=
  (C38_partial 3 _ exBox (by decide) 0).2 (Or.inl (by decide))

/-! ### C39 -/
section
variable {R : Type}

/-- A request the property holds for: indices in range without repetition; not one entry of a larger
variable. -/
structure GoodReq (size : String → Nat) (r : String × List Nat) : Prop where
  range : ∀ i ∈ r.2, i < size r.1
  nodup : r.2.Nodup
  single : r.2.length = 1 → size r.1 = 1

/-- What the user should get for entry `i` of the variable of a request: the entry of the full solution
`x`, in which the variable begins at `o`, if the entry was requested. -/
def wanted (size : String → Nat) (o : String → Nat) (x : Nat → R) (r : String × List Nat) (i : Nat) : Option R :=
  if r.2 = [] ∨ i ∈ r.2 then some (x (o r.1 + i)) else none

/-- The full claim of C39: for any requests (each naming an existing variable and valid indices) the
stored entries returned are those of the full solution. -/
def C39Claim : Prop :=
  ∀ (size o : String → Nat) (offs : List (String × Nat)) (reqs : List (String × List Nat)) (x : Nat → Int),
    (∀ r ∈ reqs, offs.lookup r.1 = some (o r.1)) → (∀ r ∈ reqs, ∀ i ∈ r.2, i < size r.1) →
    ∀ r ∈ reqs, ∀ i ∈ r.2, ∃ v, (storeVars size offs reqs).2.info.lookup r.1 = some v ∧
      userPrim (size r.1) v (fun k => x ((storeVars size offs reqs).2.outInds.getD k 0)) i = some (x (o r.1 + i))

/-- One good request among requests for distinct variables, for any solution `z` that holds the requested entries of `x`. -/
theorem c39_request (size o : String → Nat) (offs : List (String × Nat)) (reqs : List (String × List Nat))
    (hn : (reqs.map (·.1)).Nodup) (ho : ∀ r ∈ reqs, offs.lookup r.1 = some (o r.1)) (x z : Nat → R)
    (hz : ∀ k p, (storeVars size offs reqs).2.outInds[k]? = some p → z k = x p) (r : String × List Nat) (hr : r ∈ reqs)
    (g : GoodReq size r) :
    ∃ v, (storeVars size offs reqs).2.info.lookup r.1 = some v ∧ ∀ i < size r.1, userPrim (size r.1) v z i = wanted size o x r i := by
  obtain ⟨offs', s', e1, _, _, e4⟩ := storeVars_spec size o reqs offs ⟨0, [], []⟩ hn ho rfl
  obtain ⟨base, f1, f2⟩ := e4 r hr
  have es : (storeVars size offs reqs).2 = s' := by unfold storeVars; rw [e1]
  rw [es] at hz ⊢
  refine ⟨_, f1, ?_⟩
  intro i hi
  obtain ⟨J, hJ⟩ : ∃ J, J = reqInds size r := ⟨_, rfl⟩
  rw [← hJ] at f2 ⊢
  have hmem : (r.2 = [] ∨ i ∈ r.2) ↔ i ∈ J := by
    rw [hJ]; unfold reqInds
    by_cases h : r.2 = []
    · simp [h, hi]
    · rw [if_neg h]; simp [h]
  have hJn : J.Nodup := by
    rw [hJ]; unfold reqInds
    by_cases h : r.2 = []
    · rw [if_pos h]; exact List.nodup_range
    · rw [if_neg h]; exact g.nodup
  have hJ1 : J.length = 1 ↔ size r.1 = 1 := by
    rw [hJ]; unfold reqInds
    by_cases h : r.2 = []
    · rw [if_pos h]; simp
    · rw [if_neg h]
      constructor
      · exact g.single
      · intro hs
        have hall : ∀ a ∈ r.2, a = 0 := fun a ha => by have := g.range a ha; omega
        have : r.2.length ≤ 1 := by
          by_contra hh
          rcases hl : r.2 with _ | ⟨a, _ | ⟨b, t⟩⟩
          · simp [hl] at hh
          · simp [hl] at hh
          · have h1 := hall a (by simp [hl])
            have h2 := hall b (by simp [hl])
            have := g.nodup
            rw [hl] at this
            simp [h1, h2] at this
        have : r.2.length ≠ 0 := by simpa using h
        omega
  unfold wanted
  by_cases hs : size r.1 = 1
  · have hi0 : i = 0 := by omega
    subst hi0
    have hl := hJ1.2 hs
    unfold userPrim
    simp only [if_pos hs, if_pos hl]
    have hj0 : J[0]? = some 0 := by
      rcases hJl : J with _ | ⟨a, _ | ⟨b, t⟩⟩
      · simp [hJl] at hl
      · have : a ∈ J := by simp [hJl]
        have ha : a < size r.1 := by
          rw [hJ] at this; unfold reqInds at this
          by_cases h : r.2 = []
          · rw [if_pos h] at this; simpa using this
          · rw [if_neg h] at this; exact g.range a this
        have : a = 0 := by omega
        simp [this]
      · simp [hJl] at hl
    have hm : (0 : Nat) ∈ J := List.mem_of_getElem? hj0
    rw [if_pos (hmem.2 hm)]
    have := f2 0 0 hj0
    simp only [Nat.add_zero] at this
    simp [hz _ _ this]
  · have hl : ¬ J.length = 1 := fun h => hs (hJ1.1 h)
    unfold userPrim
    simp only [if_neg hs, if_neg hl]
    by_cases hm : i ∈ J
    · rw [if_pos (hmem.2 hm)]
      obtain ⟨j, hj⟩ := List.getElem?_of_mem hm
      rw [placeInds_mem _ J hJn i j hi hj]
      simp only [Int.natCast_nonneg, if_true, Int.toNat_natCast]
      have := f2 j i hj
      rw [hz _ _ this]
    · rw [if_neg (fun h => hm (hmem.1 h)), placeInds_not_mem _ J i hi hm]
      rfl

/-- Requests for distinct variables, none for a single entry of a larger variable (non-symmetric
variables): what is stored is returned at the right place, nothing else is written. -/
theorem C39_partial (size o : String → Nat) (offs : List (String × Nat)) (reqs : List (String × List Nat))
    (hn : (reqs.map (·.1)).Nodup) (ho : ∀ r ∈ reqs, offs.lookup r.1 = some (o r.1))
    (hg : ∀ r ∈ reqs, GoodReq size r) (x : Nat → R) :
    ∀ r ∈ reqs, ∃ v, (storeVars size offs reqs).2.info.lookup r.1 = some v ∧ ∀ i < size r.1,
      userPrim (size r.1) v (fun k => x ((storeVars size offs reqs).2.outInds.getD k 0)) i = wanted size o x r i :=
  fun r hr => c39_request size o offs reqs hn ho x _ (fun k p h => by simp [List.getD, h]) r hr (hg r hr)

end

/-- One entry of a larger variable: the returned entry is another one (here entry 1 of a variable with
three entries is not written at all). -/
theorem C39_fails_single : ¬ C39Claim := by
  intro h
  obtain ⟨v, h1, h2⟩ := h (fun _ => 3) (fun _ => 0) [("x", 0)] [("x", [1])] (fun k => k) (by decide) (by decide)
    ("x", [1]) (by decide) 1 (by decide)
  have : v = ⟨0, [0]⟩ := by
    have e : (storeVars (fun _ => 3) [("x", 0)] [("x", [1])]).2.info.lookup "x" = some ⟨0, [0]⟩ := by decide
    rw [e] at h1
    exact (Option.some.inj h1).symm
  subst this
  revert h2
  decide

/-- The same variable requested twice: the first request is lost. -/
theorem C39_fails_repeated : ∃ v, (storeVars (fun _ => 4) [("x", 0)] [("x", [0, 1]), ("x", [2, 3])]).2.info.lookup "x" = some v ∧
    userPrim 4 v (fun k => (((storeVars (fun _ => 4) [("x", 0)] [("x", [0, 1]), ("x", [2, 3])]).2.outInds.getD k 0 : Nat) : Int)) 0 = none :=
  ⟨⟨2, [-1, -1, 0, 1]⟩, by decide, by decide⟩

example : GoodReq (fun n => if n = "x" then 3 else 1) ("x", [2, 0]) ∧ GoodReq (fun n => if n = "x" then 3 else 1) ("y", []) :=
  ⟨⟨by decide, by decide, by decide⟩, ⟨by decide, by decide, by decide⟩⟩

/-! ### C40 -/
section
variable {R : Type}

/-- The multiplier of entry `j` of constraint `c`: the explicit solver's `y`, at the position of the row
in the reduced problem. -/
def multiplier (mask : List Bool) (soly : Nat → R) (c : DCon) (j : Nat) : R := soly (rank mask (c.offset + j))

/-- Missing for the full claim: user constraints after a constraint on parameters, and rows after a
removed row. -/
theorem C40_partial (mask : List Bool) (soly : Nat → R) (pre post : List DCon) (c : DCon)
    (hpre : ∀ d ∈ pre, d.isParam = false) (hc : c.isParam = false) (j : Nat) (hj : j < c.size)
    (hrows : ∀ r < c.offset + j, mask[r]? = some true) :
    savedDual (pre ++ c :: post) soly pre.length j = some (multiplier mask soly c j) := by
  unfold savedDual dualInfo multiplier
  have e : pre.filter (fun c => !c.isParam) = pre := by
    rw [List.filter_eq_self]
    intro d hd
    simp [hpre d hd]
  rw [List.filter_append, e, List.filter_cons, if_pos (by simp [hc]), List.getElem?_append_right (le_refl _)]
  simp only [Nat.sub_self, List.getElem?_cons_zero, hj, if_true]
  rw [rank_full mask _ hrows]

end

/-- The full claim of C40. -/
def C40Claim : Prop :=
  ∀ (mask : List Bool) (soly : Nat → Int) (cons : List DCon) (i : Nat) (c : DCon), cons[i]? = some c →
    c.isParam = false → (∀ r, c.offset ≤ r → r < c.offset + c.size → mask[r]? = some true) → ∀ j < c.size,
    savedDual cons soly i j = some (multiplier mask soly c j)

/-- `[p ≤ 1, x ≤ 2, x ≥ -5]`: row 0 is zero; the constraint `x ≤ 2` gets the multiplier of `x ≥ -5`,
which itself reads beyond the solution. -/
theorem C40_fails : ¬ C40Claim := by
  intro h
  have := h [false, true, true] (fun k => k) [⟨true, 0, 1⟩, ⟨false, 1, 1⟩, ⟨false, 2, 1⟩] 1 ⟨false, 1, 1⟩ rfl rfl
    (by
      intro r h1 h2
      have : r = 1 := by simp at h1 h2; omega
      subst this; rfl) 0 (by decide)
  revert this
  decide

example : savedDual [⟨false, 0, 1⟩, ⟨false, 1, 2⟩, ⟨true, 3, 1⟩] (fun k => (k : Int)) 1 1 =
    some (multiplier [true, true, true, false] (fun k => (k : Int)) ⟨false, 1, 2⟩ 1) :=
  C40_partial [true, true, true, false] _ [⟨false, 0, 1⟩] [⟨true, 3, 1⟩] ⟨false, 1, 2⟩ (by decide) rfl 1 (by decide) (by
    intro r hr
    simp only at hr
    rcases (by omega : r = 0 ∨ r = 1) with rfl | rfl <;> rfl)

/-! ### C41 -/

/-- Exact condition: the rows declared as equalities are the kept equality rows iff no kept equality row
comes after a removed one. The property asks for all patterns, so it holds only in part. -/
theorem C41_partial (mask : List Bool) (eqM m : Nat) (hl : mask.length = m) (he : eqM ≤ m) :
    (∀ p, p ∈ eqInds eqM mask ↔ ∃ i, (sel mask (List.range m))[p]? = some i ∧ i < eqM) ↔
      ∀ i j, i < j → j < eqM → mask[i]? = some false → mask[j]? = some true → False := by
  constructor
  · intro h i j h1 h2 h3 h4
    exact eqInds_bad mask eqM m (fun p => (h p).1) i j h1 h2 h3 h4
  · intro h p
    exact eqInds_ok mask eqM m he h hl p

/-- Three equality rows of which the first is zero, and one inequality row: the inequality (position 2
of the reduced problem) is declared as an equality, the equality at position 0 is not. -/
theorem C41_fails : (eqInds 3 [false, true, true, true] = [1, 2] ∧
    sel [false, true, true, true] (List.range 4) = [1, 2, 3]) ∧
    ¬ (∀ (mask : List Bool) (eqM m : Nat), mask.length = m → eqM ≤ m →
      ∀ p, p ∈ eqInds eqM mask ↔ ∃ i, (sel mask (List.range m))[p]? = some i ∧ i < eqM) := by
  refine ⟨by decide, fun h => ?_⟩
  exact (C41_partial [false, true, true, true] 3 4 rfl (by decide)).1 (h _ 3 4 rfl (by decide)) 0 1 (by decide)
    (by decide) rfl rfl

example : ∀ i j, i < j → j < 2 → [true, true, false, true][i]? = some false → [true, true, false, true][j]? = some true → False := by
  intro i j h1 h2 h3 h4
  have : i = 0 := by omega
  subst this
  simp at h3

/-! ### C42 -/
section
variable {R : Type} [CommRing R] [LinearOrder R]

/-- For every `(q, u)` within the bounds, the reduced problem evaluated at the `theta` that `cpg_solve`
computes has the linear cost `q` and, row by row, the right-hand sides `u` of the non-zero rows of `A`. -/
theorem C42_elimination (n m : Nat) (A : Nat → Nat → R) (thmin thmax : List R) (hmin : thmin.length = n + m)
    (hmax : thmax.length = n + m) (q u : Nat → R)
    (hq : ∀ i < n, fn thmin i ≤ q i ∧ q i ≤ fn thmax i)
    (hu : ∀ j < m, fn thmin (n + j) ≤ u j ∧ u j ≤ fn thmax (n + j)) :
    let M := reduceMpqp n m A thmin thmax
    let th := thetaUpdate n m M.thMask q u
    th.length = M.F.length ∧ th.length = M.B.length ∧
    (∀ r < n, M.f r + colDot M.F th r = q r) ∧
    (∀ r row, M.rows[r]? = some row → M.b r + colDot M.B th r = u row) ∧
    (∀ row, row ∈ M.rows ↔ row < m ∧ ∃ c < n, A row c ≠ 0) := by
  intro M th
  obtain ⟨h0, h1, h2, h3, h4⟩ := reduceMpqp_spec n m A thmin thmax hmin hmax q u (by
    intro i hi
    by_cases h : i < n
    · rw [if_pos h]; exact hq i h
    · rw [if_neg h]
      have := hu (i - n) (by omega)
      rwa [Nat.add_sub_cancel' (by omega)] at this)
  refine ⟨h1, h2, h3, h4, ?_⟩
  intro row
  show row ∈ M.rows ↔ _
  rw [h0, mem_sel_range]
  constructor
  · rintro ⟨a, b⟩
    refine ⟨a, ?_⟩
    unfold rowMask at b
    rw [List.getElem?_map, List.getElem?_eq_getElem (by simpa using a)] at b
    simpa using b
  · rintro ⟨a, c, hc, hA⟩
    refine ⟨a, ?_⟩
    unfold rowMask
    rw [List.getElem?_map, List.getElem?_eq_getElem (by simpa using a)]
    simpa using ⟨c, hc, hA⟩

end

/-- Non-vacuity: one variable, two rows of which the second is zero, `q` fixed. -/
example : (reduceMpqp (R := Int) 1 2 (fun r _ => if r = 0 then 1 else 0) [4, 0, 0] [4, 5, 5]).rows = [0] ∧
    (reduceMpqp (R := Int) 1 2 (fun r _ => if r = 0 then 1 else 0) [4, 0, 0] [4, 5, 5]).thMask = [false, true, false] ∧
    thetaUpdate 1 2 [false, true, false] (fun _ => (4 : Int)) (fun j => if j = 0 then 3 else 2) = [3] := by
  decide

/-! ### C43 -/
section
variable {R : Type} [CommRing R]

/-- For every history of calls ending with a gradient call that names a region (by `use_sol` or by the
most recent call that did), the parameter gradient `cpg_dp` is the adjoint of parameter vector ↦ `theta`
↦ affine law of this region, applied to the sensitivities given since the previous gradient call. -/
theorem C43_adjoint (T : ExTab R) (E : ExCanon R) (hq : E.qc = true → Csr.Valid E.q E.n T.NP)
    (hu : E.uc = true → Csr.Valid E.u E.m T.NP) (hL : T.nSol ≤ T.nLoop)
    (ops : List (ExOp R)) (hops : ∀ j w, .setD j w ∈ ops → j < T.nSol) (s0 : ExSt R) (h : exRun T E ops = some s0)
    (useSol : Option Nat) (r : Nat) (hr : useSol.or (regionOf ops) = some r)
    (p p' qOld uOld q q' u u' : List R) (hp : p.length = T.NP) (hp' : p'.length = T.NP)
    (hqo : E.n ≤ qOld.length) (huo : E.m ≤ uOld.length)
    (h1 : canonStep E.qc E.n E.q p qOld = some q) (h2 : canonStep E.qc E.n E.q p' qOld = some q')
    (h3 : canonStep E.uc E.m E.u p uOld = some u) (h4 : canonStep E.uc E.m E.u p' uOld = some u')
    (hK : (thetaUpdate E.n E.m E.mask (fn q) (fn u)).length = T.K) :
    ∃ s, exRun T E (ops ++ [.gradient useSol]) = some s ∧ s.dp.length = T.NP ∧
      ∑ c ∈ range T.NP, fn s.dp c * (fn p' c - fn p c) = ∑ i ∈ range T.nSol, givenDx ops i *
        (affLaw T.K (feedback T.K T.nSol T.fb (T.hp r)) (fn (thetaUpdate E.n E.m E.mask (fn q') (fn u'))) i -
         affLaw T.K (feedback T.K T.nSol T.fb (T.hp r)) (fn (thetaUpdate E.n E.m E.mask (fn q) (fn u))) i) := by
  obtain ⟨s, e, l, hs⟩ := exRun_gradient T E hq hu ops s0 h useSol r hr
  refine ⟨s, e, l, ?_⟩
  have hKp : (picked E).length = T.K := by rw [← hK]; simp [thetaUpdate, picked]
  have hth : ∀ (a b : List R) k, k < T.K → fn (thetaUpdate E.n E.m E.mask (fn a) (fn b)) k =
      if (picked E).getD k 0 < E.n then fn a ((picked E).getD k 0) else fn b ((picked E).getD k 0 - E.n) := by
    intro a b k hk
    have hk' : k < (picked E).length := by omega
    have : (sel E.mask (List.range (E.n + E.m)))[k]? = some ((picked E).getD k 0) := by
      simp [List.getD, picked, List.getElem?_eq_getElem (show k < (sel E.mask (List.range (E.n + E.m))).length from hk')]
    unfold thetaUpdate
    unfold fn
    rw [List.getD, List.getElem?_map, this]
    rfl
  have hpick : ∀ k < T.K, (picked E).getD k 0 < E.n + E.m := by
    intro k hk
    have hk' : k < (picked E).length := by omega
    have : (sel E.mask (List.range (E.n + E.m)))[k]? = some ((picked E).getD k 0) := by
      simp [List.getD, picked, List.getElem?_eq_getElem (show k < (sel E.mask (List.range (E.n + E.m))).length from hk')]
    exact (sel_range_get this).1
  have hdth : ∀ k < T.K, fn (thetaUpdate E.n E.m E.mask (fn q') (fn u')) k -
      fn (thetaUpdate E.n E.m E.mask (fn q) (fn u)) k =
      ∑ c ∈ range T.NP, exAt E ((picked E).getD k 0) c * (fn p' c - fn p c) := by
    intro k hk
    rw [hth q' u' k hk, hth q u k hk]
    have hlt := hpick k hk
    unfold exAt
    by_cases hn : (picked E).getD k 0 < E.n
    · simp only [if_pos hn]
      exact canon_row hq p p' qOld q q' hp hp' hqo h1 h2 _ hn
    · simp only [if_neg hn]
      exact canon_row hu p p' uOld u u' hp hp' huo h3 h4 _ (by omega)
  have hloop : ∀ k, ∑ i ∈ range T.nLoop, feedback T.K T.nSol T.fb (T.hp r) i k * givenDx ops i =
      ∑ i ∈ range T.nSol, feedback T.K T.nSol T.fb (T.hp r) i k * givenDx ops i := by
    intro k
    symm
    apply sum_subset (range_mono hL)
    intro i _ hi
    rw [givenDx_zero ops T.nSol i hops (by simpa using hi), mul_zero]
  obtain ⟨Z, hZ⟩ : ∃ Z, Z = feedback T.K T.nSol T.fb (T.hp r) := ⟨_, rfl⟩
  rw [← hZ] at hs hloop ⊢
  calc _ = ∑ c ∈ range T.NP, ∑ k ∈ range T.K, ∑ i ∈ range T.nSol,
        givenDx ops i * (Z i k * (exAt E ((picked E).getD k 0) c * (fn p' c - fn p c))) := by
        apply sum_congr rfl
        intro c _
        rw [hs c, hKp, sum_mul]
        apply sum_congr rfl
        intro k _
        rw [hloop, mul_sum, sum_mul]
        apply sum_congr rfl
        intro i _
        ring
    _ = ∑ k ∈ range T.K, ∑ i ∈ range T.nSol, ∑ c ∈ range T.NP,
        givenDx ops i * (Z i k * (exAt E ((picked E).getD k 0) c * (fn p' c - fn p c))) := by
        rw [sum_comm]
        apply sum_congr rfl
        intro k _
        exact sum_comm
    _ = ∑ k ∈ range T.K, ∑ i ∈ range T.nSol, givenDx ops i * (Z i k *
          (fn (thetaUpdate E.n E.m E.mask (fn q') (fn u')) k - fn (thetaUpdate E.n E.m E.mask (fn q) (fn u)) k)) := by
        apply sum_congr rfl
        intro k hk
        apply sum_congr rfl
        intro i _
        rw [hdth k (mem_range.1 hk), mul_sum, mul_sum]
    _ = _ := by
        rw [sum_comm]
        apply sum_congr rfl
        intro i _
        unfold affLaw
        rw [add_sub_add_right_eq_sub, ← sum_sub_distrib, mul_sum]
        apply sum_congr rfl
        intro k _
        ring

/-- The table of affine laws as PDAQP stores it: all laws one after the other, in each law one row per entry of the
solution, in each row the gains for all entries of `theta` and then the constant. -/
structure LawTable (K nSol : Nat) (laws : List (List (List R))) (fb : Nat → R) : Prop where
  rows : ∀ law ∈ laws, law.length = nSol
  entries : ∀ law ∈ laws, ∀ row ∈ law, row.length = K + 1
  stored : ∀ k, fb k = fn laws.flatten.flatten k

theorem flatten_get {α : Type} (m : Nat) (ls : List (List α)) (h : ∀ l ∈ ls, l.length = m) (i j : Nat) (hj : j < m) :
    ls.flatten[i * m + j]? = ls[i]?.bind (·[j]?) := by
  induction ls generalizing i with
  | nil => simp
  | cons l ls ih =>
    have hl := h l (List.mem_cons_self ..)
    rw [List.flatten_cons]
    cases i with
    | zero => rw [Nat.zero_mul, Nat.zero_add, List.getElem?_append_left (by omega)]; rfl
    | succ i =>
      rw [List.getElem?_append_right (by rw [hl, Nat.succ_mul]; omega), hl,
        show (i + 1) * m + j - m = i * m + j by rw [Nat.succ_mul]; omega, ih fun l hl => h l (List.mem_cons_of_mem _ hl)]
      rfl

/-- The entry of row `i` and column `j` of a law. -/
def lawEntry (law : List (List R)) (i j : Nat) : R := fn (law.getD i []) j

/-- The generated code reads the table at the right places. -/
theorem C43_table (K nSol : Nat) (laws : List (List (List R))) (fb : Nat → R) (ht : LawTable K nSol laws fb)
    (h : Nat) (law : List (List R)) (hl : laws[h]? = some law) (i j : Nat) (hi : i < nSol) (hj : j ≤ K) :
    feedback K nSol fb h i j = lawEntry law i j := by
  have hlen := ht.rows law (List.mem_of_getElem? hl)
  have h1 : laws.flatten[h * nSol + i]? = law[i]? := by
    rw [flatten_get nSol laws ht.rows h i hi, hl]; rfl
  have hrow : law[i]? = some law[i] := List.getElem?_eq_getElem (by omega)
  have h2 : laws.flatten.flatten[(h * nSol + i) * (K + 1) + j]? = (law[i])[j]? := by
    rw [flatten_get (K + 1) laws.flatten (by
      intro row hr
      obtain ⟨law', h1, h2⟩ := List.mem_flatten.1 hr
      exact ht.entries law' h1 row h2) _ j (by omega), h1, hrow]
    rfl
  unfold feedback
  rw [ht.stored, show h * (K + 1) * nSol + i * (K + 1) + j = (h * nSol + i) * (K + 1) + j by ring]
  unfold fn lawEntry
  rw [List.getD_eq_getElem?_getD, h2, List.getD_eq_getElem?_getD, hrow]
  unfold fn
  rw [List.getD_eq_getElem?_getD]
  rfl

/-- C43 in terms of the laws themselves. -/
theorem C43_adjoint_law (T : ExTab R) (E : ExCanon R) (laws : List (List (List R))) (ht : LawTable T.K T.nSol laws T.fb)
    (hq : E.qc = true → Csr.Valid E.q E.n T.NP)
    (hu : E.uc = true → Csr.Valid E.u E.m T.NP) (hL : T.nSol ≤ T.nLoop)
    (ops : List (ExOp R)) (hops : ∀ j w, .setD j w ∈ ops → j < T.nSol) (s0 : ExSt R) (h : exRun T E ops = some s0)
    (useSol : Option Nat) (r : Nat) (hr : useSol.or (regionOf ops) = some r) (law : List (List R))
    (hlaw : laws[T.hp r]? = some law)
    (p p' qOld uOld q q' u u' : List R) (hp : p.length = T.NP) (hp' : p'.length = T.NP)
    (hqo : E.n ≤ qOld.length) (huo : E.m ≤ uOld.length)
    (h1 : canonStep E.qc E.n E.q p qOld = some q) (h2 : canonStep E.qc E.n E.q p' qOld = some q')
    (h3 : canonStep E.uc E.m E.u p uOld = some u) (h4 : canonStep E.uc E.m E.u p' uOld = some u')
    (hK : (thetaUpdate E.n E.m E.mask (fn q) (fn u)).length = T.K) :
    ∃ s, exRun T E (ops ++ [.gradient useSol]) = some s ∧ s.dp.length = T.NP ∧
      ∑ c ∈ range T.NP, fn s.dp c * (fn p' c - fn p c) = ∑ i ∈ range T.nSol, givenDx ops i *
        (affLaw T.K (lawEntry law) (fn (thetaUpdate E.n E.m E.mask (fn q') (fn u'))) i -
         affLaw T.K (lawEntry law) (fn (thetaUpdate E.n E.m E.mask (fn q) (fn u))) i) := by
  obtain ⟨s, e1, e2, e3⟩ := C43_adjoint T E hq hu hL ops hops s0 h useSol r hr p p' qOld uOld q q' u u' hp hp' hqo huo
    h1 h2 h3 h4 hK
  refine ⟨s, e1, e2, e3.trans ?_⟩
  have hz : ∀ i < T.nSol, ∀ th : Nat → R, affLaw T.K (feedback T.K T.nSol T.fb (T.hp r)) th i = affLaw T.K (lawEntry law) th i := by
    intro i hi th
    unfold affLaw
    rw [C43_table T.K T.nSol laws T.fb ht (T.hp r) law hlaw i T.K hi (Nat.le_refl _)]
    congr 1
    apply sum_congr rfl
    intro k hk
    rw [C43_table T.K T.nSol laws T.fb ht (T.hp r) law hlaw i k hi (Nat.le_of_lt (mem_range.1 hk))]
  apply sum_congr rfl
  intro i hi
  rw [hz i (mem_range.1 hi), hz i (mem_range.1 hi)]

/-- With `use_sol` the result does not depend on solves made in between. -/
theorem C43_later_solves (T : ExTab R) (E : ExCanon R) (hq : E.qc = true → Csr.Valid E.q E.n T.NP)
    (hu : E.uc = true → Csr.Valid E.u E.m T.NP) (ops : List (ExOp R)) (s0 : ExSt R) (h : exRun T E ops = some s0)
    (r : Nat) (regions : List Nat) :
    ∃ s s', exRun T E (ops ++ [.gradient (some r)]) = some s ∧
      exRun T E ((ops ++ regions.map .solve) ++ [.gradient (some r)]) = some s' ∧ ∀ c, fn s'.dp c = fn s.dp c := by
  have run : ∀ regions : List Nat, ∃ s1, exRun T E (ops ++ regions.map .solve) = some s1 ∧
      ∀ k, givenDx (ops ++ regions.map .solve) k = givenDx ops k := by
    intro regions
    induction regions using List.reverseRecOn with
    | nil => exact ⟨s0, by simpa using h, fun k => by simp⟩
    | append_singleton rs a ih =>
      obtain ⟨s1, e1, g1⟩ := ih
      refine ⟨{ s1 with region := some a }, ?_, ?_⟩
      · rw [List.map_append, ← List.append_assoc, List.map_singleton, exRun_snoc, e1]; rfl
      · intro k
        rw [List.map_append, ← List.append_assoc, List.map_singleton, givenDx_snoc]
        exact g1 k
  obtain ⟨s1, e1, g1⟩ := run regions
  obtain ⟨s, a1, _, a3⟩ := exRun_gradient T E hq hu ops s0 h (some r) r rfl
  obtain ⟨s', b1, _, b3⟩ := exRun_gradient T E hq hu _ s1 e1 (some r) r rfl
  refine ⟨s, s', a1, b1, ?_⟩
  intro c
  rw [a3 c, b3 c]
  simp only [g1]

end

/-- Non-vacuity: one variable, one row; `theta = (q)`, two parameters and the constant. -/
def exExCanon : ExCanon Int :=
  { n := 1, m := 1, qc := true, uc := false, q := ⟨[0, 2], [0, 1], [3, -1]⟩, u := ⟨[0, 0], [], []⟩, mask := [true, false] }
def exExTab : ExTab Int := { K := 1, nSol := 1, nLoop := 1, NP := 3, fb := fun k => [5, 7, 11, 13].getD k 0, hp := id }

example : ((exRun exExTab exExCanon [.solve 1, .setD 0 2, .gradient none]).map (·.dp)) = some [66, -22, 0] ∧
    ((exRun exExTab exExCanon [.solve 1, .setD 0 2, .gradient none, .setD 0 1, .gradient (some 0)]).map (·.dp)) =
      some [15, -5, 0] := by
  decide

example : LawTable 1 1 [[[5, 7]], [[11, 13]]] exExTab.fb := ⟨by decide, by decide, fun k => rfl⟩

example : LawTable 1 2 [[[5, 7], [1, 2]], [[11, 13], [3, 4]]] (fun k => ([5, 7, 1, 2, 11, 13, 3, 4] : List Int).getD k 0) :=
  ⟨by decide, by decide, fun k => rfl⟩

example : Csr.Valid exExCanon.q exExCanon.n exExTab.NP := by
  constructor <;> decide

end Verif.Props
