import Verif.Spec.Outcome
import Verif.Lemmas.Printed
import Verif.Props.Saved
import Verif.Props.Printed
/-!
C88: instances without solution are reported as CVXPY reports them.
-/
namespace Verif.Props
open Verif.Model Verif.Model.Saved Verif.Model.Structs Verif.Model.Outcome Verif.Model.Text Verif.Model.Dispatch
open Verif.Spec.Outcome Verif.Spec.Printed Verif.Lemmas.Printed

/-! ### doubles around 1e30 -/

theorem big30_eq : (big30 : ℚ) = (7105427357601002 : Int) * (2 : ℚ) ^ (47 : Int) := by
  unfold big30; norm_num

theorem big30_double : Double big30 := ⟨7105427357601002, 47, by norm_num, by norm_num, big30_eq⟩

/-- Doubles that are at least `2 ^ 99` are multiples of `2 ^ 47`. -/
theorem double_grid47 {x : ℚ} (hx : Double x) (h : (2 : ℚ) ^ 99 ≤ |x|) : ∃ k : Int, x = k * 2 ^ 47 := by
  obtain ⟨m, e, hm, _, rfl⟩ := hx
  have he : 47 ≤ e := by
    by_contra hlt
    have hlt : e ≤ 46 := by omega
    have h2 : (2 : ℚ) ^ e ≤ 2 ^ (46 : Int) := zpow_le_zpow_right₀ (by norm_num) hlt
    have hm' : |(m : ℚ)| < 2 ^ 53 := by
      rw [← Int.cast_abs, ← Nat.cast_natAbs]
      exact_mod_cast hm
    rw [abs_mul, abs_of_pos (zpow_pos (by norm_num : (0 : ℚ) < 2) e)] at h
    have h3 : |(m : ℚ)| * 2 ^ e < 2 ^ 53 * 2 ^ (46 : Int) :=
      mul_lt_mul hm' h2 (zpow_pos (by norm_num) _) (by positivity)
    have h4 : (2 : ℚ) ^ 53 * 2 ^ (46 : Int) = 2 ^ 99 := by norm_num
    rw [h4] at h3
    exact absurd h (not_le.2 h3)
  obtain ⟨k, hk⟩ := Int.eq_ofNat_of_zero_le (show 0 ≤ e - 47 by omega)
  refine ⟨m * 2 ^ k, ?_⟩
  have : (2 : ℚ) ^ e = 2 ^ (k : Int) * 2 ^ 47 := by
    rw [show e = (k : Int) + 47 by omega, zpow_add₀ (by norm_num)]
    norm_num
  rw [this]
  push_cast
  rw [zpow_natCast]
  ring

theorem double_neg {x : ℚ} (h : Double x) : Double (-x) := by
  obtain ⟨m, e, hm, he, rfl⟩ := h
  exact ⟨-m, e, by simpa using hm, he, by push_cast; ring⟩

theorem big30_next (s : Bool) : Double (big30 + (if s then 2 ^ 47 else -2 ^ 47)) := by
  cases s
  · exact ⟨7105427357601001, 47, by norm_num, by norm_num, by unfold big30; norm_num⟩
  · exact ⟨7105427357601003, 47, by norm_num, by norm_num, by unfold big30; norm_num⟩

/-- No other double is within `2 ^ 47` of 1e30. -/
theorem big30_alone {y : ℚ} (hy : Double y) (h : |y - big30| < 2 ^ 47) : y = big30 := by
  have h1 : (2 : ℚ) ^ 99 ≤ y := by
    have := (abs_lt.1 h).1
    unfold big30 at this
    norm_num at this ⊢
    linarith
  obtain ⟨k, hk⟩ := double_grid47 hy (le_trans h1 (le_abs_self y))
  have hb : (big30 : ℚ) = (7105427357601002 : Int) * 2 ^ 47 := by unfold big30; norm_num
  rw [hk, hb, ← sub_mul, abs_mul, abs_of_pos (by positivity : (0 : ℚ) < 2 ^ 47)] at h
  have h2 : |((k - 7105427357601002 : Int) : ℚ)| < 1 := by
    push_cast
    have : |(k : ℚ) - (7105427357601002 : Int)| * 2 ^ 47 < 1 * 2 ^ 47 := by rwa [one_mul]
    have := lt_of_mul_lt_mul_right this (by positivity)
    push_cast at this
    exact this
  have h3 : |k - 7105427357601002| < 1 := by exact_mod_cast h2
  have h4 : k = 7105427357601002 := by
    have := Int.abs_lt_one_iff.1 h3
    omega
  rw [hk, hb, h4]

/-- Adding a number to 1e30 changes it exactly if the number is more than `2 ^ 46` (half the distance to the next double). -/
theorem add_big30 {rd : ℚ → ℚ} (hr : Nearest rd) (d : ℚ) (hd : |d| ≠ 2 ^ 46) : rd (big30 + d) = big30 ↔ |d| < 2 ^ 46 := by
  constructor
  · intro h
    by_contra hge
    have hgt : (2 : ℚ) ^ 46 < |d| := lt_of_le_of_ne (not_lt.1 hge) (Ne.symm hd)
    have key := (hr (big30 + d)).2 _ (big30_next (decide (0 < d)))
    rw [h, show big30 - (big30 + d) = -d by ring, abs_neg] at key
    by_cases hp : 0 < d
    · rw [abs_of_pos hp] at key hgt
      simp only [hp, decide_true, if_true] at key
      rw [show big30 + 2 ^ 47 - (big30 + d) = 2 ^ 47 - d by ring] at key
      rcases abs_cases ((2 : ℚ) ^ 47 - d) with ⟨h1, _⟩ | ⟨h1, _⟩
      · rw [h1] at key; linarith
      · rw [h1] at key; linarith
    · have hn : d < 0 := by
        rcases lt_trichotomy d 0 with h | h | h
        · exact h
        · rw [h, abs_zero] at hgt; norm_num at hgt
        · exact absurd h hp
      rw [abs_of_neg hn] at key hgt
      simp only [hp, decide_false] at key
      rw [if_neg (by simp), show big30 + -2 ^ 47 - (big30 + d) = -2 ^ 47 - d by ring] at key
      rcases abs_cases (-(2 : ℚ) ^ 47 - d) with ⟨h1, _⟩ | ⟨h1, _⟩
      · rw [h1] at key; linarith
      · rw [h1] at key; linarith
  · intro h
    refine big30_alone (hr _).1 ?_
    have key := (hr (big30 + d)).2 _ big30_double
    rw [show big30 - (big30 + d) = -d by ring, abs_neg] at key
    have := abs_sub_le (rd (big30 + d)) (big30 + d) big30
    rw [show big30 + d - big30 = d by ring] at this
    norm_num at h ⊢
    linarith

theorem add_neg_big30 {rd : ℚ → ℚ} (hr : Nearest rd) (d : ℚ) (hd : |d| ≠ 2 ^ 46) : rd (-big30 + d) = -big30 ↔ |d| < 2 ^ 46 := by
  have hr' : Nearest fun y => -rd (-y) := by
    intro y
    refine ⟨double_neg (hr _).1, fun c hc => ?_⟩
    have := (hr (-y)).2 _ (double_neg hc)
    rw [show -rd (-y) - y = -(rd (-y) - -y) by ring, abs_neg]
    rw [show -c - -y = -(c - y) by ring, abs_neg] at this
    exact this
  have := add_big30 hr' (-d) (by rwa [abs_neg])
  rw [abs_neg] at this
  rw [← this]
  show _ ↔ -rd (-(big30 + -d)) = big30
  rw [show -(big30 + -d) = -big30 + d by ring]
  constructor
  · intro h; rw [h, neg_neg]
  · intro h; exact neg_eq_iff_eq_neg.1 h

/-! ### the value -/

theorem neg_num (x : ℚ) : -(Flt.num x) = .num (-x) := rfl
theorem neg_inf (b : Bool) : -(Flt.inf b) = .inf !b := rfl
theorem neg_nan : -Flt.nan = .nan := rfl

theorem big30_pos : (0 : ℚ) < big30 := by unfold big30; norm_num

/-- **C88, when the value is infinite.** The stored value is plus (minus) infinity exactly if the objective that C computes is that or is
the double next to 1e30 (its negative). -/
theorem C88_infinite (x : Flt) (b : Bool) :
    shown (toVal big x) = .inf b ↔ x = .inf b ∨ x = .num (if b then -big30 else big30) := by
  have hb : -big30 ≠ big30 := by have := big30_pos; intro h; linarith
  unfold toVal
  by_cases h1 : x = big
  · subst h1
    rw [if_pos rfl]
    cases b <;> simp [shown, big, hb.symm]
  · rw [if_neg h1]
    by_cases h2 : x = -big
    · subst h2
      rw [if_pos rfl]
      cases b <;> simp [shown, big, neg_num, hb]
    · rw [if_neg h2]
      show x = .inf b ↔ _
      constructor
      · exact Or.inl
      · rintro (h | h)
        · exact h
        · cases b
          · exact absurd h h1
          · exact absurd h h2

/-- The object after a call, without the outcome for dual values. -/
theorem solve_stored (rd : ℚ → ℚ) (c : Conf) (f : PyFile) (vars : List String) (cons : List Nat) (r : Run) (before : PObj Flt)
    (hn : f.nDual ≤ cons.length) : ∃ o ret, solve rd c f vars cons r before = .ok (o, ret) ∧
      (∀ n ∈ vars, o.prim n = if n ∈ f.vars then some (r.prim n) else none) ∧
      (f.explicit = 0 → o.value = some (toVal big (infoObj rd c r)) ∧ o.status = some (statusText c.iface r.status)) ∧
      (f.explicit ≠ 0 → o.value = none ∧ o.status = none) := by
  obtain ⟨o, ret, h1, h2, h3, h4, _⟩ := C63_stored big f vars cons (result rd c r) before hn
  exact ⟨o, ret, h1, h2, fun h => ⟨(h3 h).1, (h3 h).2.1⟩, fun h => ⟨(h4 h).1, (h4 h).2.1⟩⟩

/-- The rule for the sign: an infeasible problem has the largest value if it is a minimization. -/
theorem low_neg (k : Lack) : low true k = !low false k := by cases k <;> rfl

theorem infoObj_inf (rd : ℚ → ℚ) (c : Conf) (r : Run) (k : Lack) (d : ℚ) (hd : r.d = .num d) (ho : r.obj = .inf (low false k)) :
    infoObj rd c r = .inf (low c.isMax k) := by
  have : (if c.nonzeroD then plus rd r.obj r.d else r.obj) = .inf (low false k) := by
    rw [ho, hd]; split <;> rfl
  unfold infoObj
  rw [this]
  cases hm : c.isMax
  · rfl
  · show -(Flt.inf (low false k)) = _
    rw [neg_inf, low_neg]

/-- **C88, value with SCS.** A solver that reports infinities, as SCS does: the value says that there is no solution, and which way, whatever
the constant of the objective is. -/
theorem C88_value_scs (rd : ℚ → ℚ) (c : Conf) (f : PyFile) (vars : List String) (cons : List Nat) (r : Run) (before : PObj Flt)
    (hn : f.nDual ≤ cons.length) (he : f.explicit = 0) (k : Lack) (d : ℚ) (hd : r.d = .num d) (ho : r.obj = (scsSays k).1) :
    ∃ o ret, solve rd c f vars cons r before = .ok (o, ret) ∧ ValueTold k c.isMax o := by
  obtain ⟨o, ret, h1, _, h3, _⟩ := solve_stored rd c f vars cons r before hn
  refine ⟨o, ret, h1, ?_⟩
  unfold ValueTold
  rw [(h3 he).1, Option.map_some, infoObj_inf rd c r k d hd (by rw [ho]; cases k <;> rfl)]
  exact congrArg some ((C88_infinite _ _).2 (Or.inl rfl))

/-- **C88, value with OSQP.** OSQP reports `±1e30`, to which the constant of the objective is added before the comparison with `1e30`. The value
says that there is no solution exactly if there is no constant or the constant is less than `2^46`, about 7e13. -/
theorem C88_value_osqp {rd : ℚ → ℚ} (hr : Nearest rd) (c : Conf) (f : PyFile) (vars : List String) (cons : List Nat) (r : Run)
    (before : PObj Flt) (hn : f.nDual ≤ cons.length) (he : f.explicit = 0) (k : Lack) (d : ℚ) (hd : r.d = .num d) (ht : |d| ≠ 2 ^ 46)
    (ho : r.obj = (osqpSays big30 k).1) :
    ∃ o ret, solve rd c f vars cons r before = .ok (o, ret) ∧ (ValueTold k c.isMax o ↔ c.nonzeroD = false ∨ |d| < 2 ^ 46) := by
  obtain ⟨o, ret, h1, _, h3, _⟩ := solve_stored rd c f vars cons r before hn
  refine ⟨o, ret, h1, ?_⟩
  unfold ValueTold
  rw [(h3 he).1, Option.map_some, Option.some_inj, C88_infinite]
  have key : infoObj rd c r = .num (if low c.isMax k then -big30 else big30) ↔ c.nonzeroD = false ∨ |d| < 2 ^ 46 := by
    unfold infoObj
    rw [ho, hd]
    cases hz : c.nonzeroD
    · cases c.isMax <;> cases k <;> simp [osqpSays, low, neg_num]
    · have e1 := add_big30 hr d ht
      have e2 := add_neg_big30 hr d ht
      cases c.isMax <;> cases k <;> simp [osqpSays, low, neg_num, plus, e1, e2, neg_eq_iff_eq_neg]
  rw [key]
  constructor
  · rintro (h | h)
    · exfalso
      unfold infoObj at h
      rw [ho, hd] at h
      revert h
      cases c.nonzeroD <;> cases c.isMax <;> cases k <;> simp [osqpSays, plus, neg_num]
    · exact h
  · exact Or.inr

/-- **C88, solved instances.** If the objective with its constant is a number other than `±1e30`, it is the value: the value is infinite for
unsolvable instances only. -/
theorem C88_value_solved (rd : ℚ → ℚ) (c : Conf) (f : PyFile) (vars : List String) (cons : List Nat) (r : Run) (before : PObj Flt)
    (hn : f.nDual ≤ cons.length) (he : f.explicit = 0) (x d : ℚ) (hd : r.d = .num d) (ho : r.obj = .num x)
    (hx : |if c.nonzeroD then rd (x + d) else x| ≠ big30) :
    ∃ o ret, solve rd c f vars cons r before = .ok (o, ret) ∧
      o.value.map shown = some (.num ((if c.isMax then -1 else 1) * if c.nonzeroD then rd (x + d) else x)) := by
  obtain ⟨o, ret, h1, _, h3, _⟩ := solve_stored rd c f vars cons r before hn
  refine ⟨o, ret, h1, ?_⟩
  have hi : infoObj rd c r = .num ((if c.isMax then -1 else 1) * if c.nonzeroD then rd (x + d) else x) := by
    unfold infoObj
    rw [ho, hd]
    cases c.nonzeroD <;> cases c.isMax <;> simp [plus, neg_num]
  rw [(h3 he).1, Option.map_some, hi]
  congr 1
  generalize (if c.nonzeroD then rd (x + d) else x) = y at hx
  have hy : y ≠ big30 ∧ y ≠ -big30 := by
    constructor
    · rintro rfl; exact hx (abs_of_pos big30_pos)
    · rintro rfl; exact hx (by rw [abs_neg, abs_of_pos big30_pos])
  unfold toVal
  cases c.isMax
  · simp only [Bool.false_eq_true, if_false, one_mul]
    rw [if_neg (by simp [big, hy.1]), if_neg (by simp [big, neg_num, hy.2])]
    rfl
  · simp only [if_true, neg_one_mul]
    rw [if_neg (by simp only [big, Flt.num.injEq]; intro h; exact hy.2 (by rw [← h, neg_neg])),
      if_neg (by simp only [big, neg_num, Flt.num.injEq, neg_inj]; exact hy.1)]
    rfl

/-- **C88 fails for other solvers.** A solver that reports a number (such as its last objective) or NaN for an instance without solution: the value does
not say so. -/
theorem C88_fails_value (rd : ℚ → ℚ) (c : Conf) (f : PyFile) (vars : List String) (cons : List Nat) (r : Run) (before : PObj Flt)
    (hn : f.nDual ≤ cons.length) (he : f.explicit = 0) (k : Lack) (d : ℚ) (hd : r.d = .num d)
    (ho : r.obj = .nan ∨ ∃ x, r.obj = .num x ∧ |if c.nonzeroD then rd (x + d) else x| ≠ big30) :
    ∃ o ret, solve rd c f vars cons r before = .ok (o, ret) ∧ ¬ ValueTold k c.isMax o := by
  rcases ho with ho | ⟨x, ho, hx⟩
  · obtain ⟨o, ret, h1, _, h3, _⟩ := solve_stored rd c f vars cons r before hn
    refine ⟨o, ret, h1, ?_⟩
    unfold ValueTold
    have hi : infoObj rd c r = .nan := by
      unfold infoObj
      rw [ho]
      cases c.nonzeroD <;> cases c.isMax <;> simp [plus, neg_nan]
    rw [(h3 he).1, Option.map_some, Option.some_inj, hi, C88_infinite]
    simp
  · obtain ⟨o, ret, h1, h2⟩ := C88_value_solved rd c f vars cons r before hn he x d hd ho hx
    refine ⟨o, ret, h1, ?_⟩
    unfold ValueTold
    rw [h2]
    simp

/-! ### the status -/

theorem statuses_no_space : ∀ s ∈ statuses, ' ' ∉ s.toList := by decide

/-- **C88 fails for statuses that are numbers.** With Clarabel, ECOS, QOCO, QOCOGEN the status is a sentence with the number of the solver in it, which is none of
CVXPY's statuses, solved or not. -/
theorem C88_fails_status_int (i : Iface) (s : Status) (hf : Fits i s) (hi : statusInt i = true) : statusText i s ∉ statuses := by
  cases s with
  | text t => exact absurd hf (by rw [show Fits i (.text t) = (statusInt i = false) from rfl, hi]; simp)
  | code n =>
    intro h
    refine statuses_no_space _ h ?_
    simp only [statusText, String.toList_append]
    have : ' ' ∈ " (for description visit ".toList := by decide
    simp [this]

/-- **C88, statuses that are texts.** The status is the solver's word: right with SCS, and none of CVXPY's with OSQP. -/
theorem C88_status_text (k : Lack) (x : ℚ) : statusText .scs (.text (scsSays k).2) = k.status ∧
    statusText .osqp (.text (osqpSays x k).2) ∉ statuses := by
  cases k
  · exact ⟨rfl, by show "primal infeasible" ∉ statuses; decide⟩
  · exact ⟨rfl, by show "dual infeasible" ∉ statuses; decide⟩

/-! ### values of variables -/

/-- **C88 fails.** Whatever solver and whatever it reports: variables that are stored have a value after the call, so that no instance without solution
is reported as CVXPY reports it. -/
theorem C88_fails (rd : ℚ → ℚ) (c : Conf) (f : PyFile) (vars : List String) (cons : List Nat) (r : Run) (before : PObj Flt)
    (hn : f.nDual ≤ cons.length) (v : String) (hv : v ∈ vars) (hf : v ∈ f.vars) (k : Lack) :
    ∃ o ret, solve rd c f vars cons r before = .ok (o, ret) ∧ o.prim v = some (r.prim v) ∧ ¬ Told k c.isMax vars o := by
  obtain ⟨o, ret, h1, h2, _⟩ := solve_stored rd c f vars cons r before hn
  have hp : o.prim v = some (r.prim v) := by rw [h2 v hv, if_pos hf]
  refine ⟨o, ret, h1, hp, fun h => ?_⟩
  have := h.2.2 v hv
  rw [hp] at this
  exact absurd this (by simp)

/-- In explicit mode neither value nor status say anything. -/
theorem C88_fails_explicit (rd : ℚ → ℚ) (c : Conf) (f : PyFile) (vars : List String) (cons : List Nat) (r : Run) (before : PObj Flt)
    (hn : f.nDual ≤ cons.length) (he : f.explicit ≠ 0) (k : Lack) :
    ∃ o ret, solve rd c f vars cons r before = .ok (o, ret) ∧ ¬ ValueTold k c.isMax o ∧ o.status = none := by
  obtain ⟨o, ret, h1, _, _, h4⟩ := solve_stored rd c f vars cons r before hn
  refine ⟨o, ret, h1, ?_, (h4 he).2⟩
  unfold ValueTold
  rw [(h4 he).1]
  simp

/-- **C88, what holds.** With SCS, for instances of both kinds and both senses, value and status are CVXPY's. -/
theorem C88_partial (rd : ℚ → ℚ) (c : Conf) (hc : c.iface = .scs) (f : PyFile) (vars : List String) (cons : List Nat) (r : Run) (before : PObj Flt)
    (hn : f.nDual ≤ cons.length) (he : f.explicit = 0) (k : Lack) (d : ℚ) (hd : r.d = .num d) (ho : r.obj = (scsSays k).1)
    (hs : r.status = .text (scsSays k).2) :
    ∃ o ret, solve rd c f vars cons r before = .ok (o, ret) ∧ ValueTold k c.isMax o ∧ o.status = some k.status := by
  obtain ⟨o, ret, h1, h2⟩ := C88_value_scs rd c f vars cons r before hn he k d hd ho
  refine ⟨o, ret, h1, h2, ?_⟩
  obtain ⟨o', ret', h1', _, h3, _⟩ := solve_stored rd c f vars cons r before hn
  rw [h1] at h1'
  cases h1'
  rw [(h3 he).2, hc, hs, (C88_status_text k 0).1]

/-! ### examples -/

/-- An infeasible minimization with OSQP. -/
def exOsqpRun (d : ℚ) : Run := ⟨.num big30, .num d, .text "primal infeasible", fun _ => [.nan], fun _ => [], .num 1⟩

/-- The hypotheses of `C88_value_osqp` for a constant of 1: the value is told. -/
example : ∃ rd, Nearest rd ∧ ∃ o ret, solve rd ⟨.osqp, true, true⟩ ⟨0, ["x"], 1⟩ ["x"] [7] (exOsqpRun 1) ⟨fun _ => none, fun _ => none, none, none⟩ = .ok (o, ret) ∧
    ValueTold .infeasible true o ∧ o.prim "x" = some [.nan] := by
  obtain ⟨rd, hr⟩ := nearest_exists
  obtain ⟨o, ret, h1, h2⟩ := C88_value_osqp hr ⟨.osqp, true, true⟩ ⟨0, ["x"], 1⟩ ["x"] [7] (exOsqpRun 1) ⟨fun _ => none, fun _ => none, none, none⟩
    (by decide) rfl .infeasible 1 rfl (by norm_num) rfl
  obtain ⟨o', ret', h1', h3, _⟩ := C88_fails rd ⟨.osqp, true, true⟩ ⟨0, ["x"], 1⟩ ["x"] [7] (exOsqpRun 1) ⟨fun _ => none, fun _ => none, none, none⟩
    (by decide) "x" (by simp) (by simp) .infeasible
  rw [h1] at h1'
  cases h1'
  exact ⟨rd, hr, o, ret, h1, h2.2 (Or.inr (by norm_num)), h3⟩

/-- For a constant of 1e14 it is not. -/
theorem C88_fails_osqp {rd : ℚ → ℚ} (hr : Nearest rd) : ∃ o ret,
    solve rd ⟨.osqp, false, true⟩ ⟨0, ["x"], 1⟩ ["x"] [7] (exOsqpRun (10 ^ 14)) ⟨fun _ => none, fun _ => none, none, none⟩ = .ok (o, ret) ∧
    ¬ ValueTold .infeasible false o := by
  obtain ⟨o, ret, h1, h2⟩ := C88_value_osqp hr ⟨.osqp, false, true⟩ ⟨0, ["x"], 1⟩ ["x"] [7] (exOsqpRun (10 ^ 14)) ⟨fun _ => none, fun _ => none, none, none⟩
    (by decide) rfl .infeasible (10 ^ 14) rfl (by norm_num) rfl
  exact ⟨o, ret, h1, fun h => by have := h2.1 h; norm_num at this⟩

/-- Status of ECOS for an infeasible instance (its code 1). -/
example : statusText .ecos (.code 1) = "1 (for description visit https://github.com/embotech/ecos/wiki/Usage-from-C)" ∧ Fits .ecos (.code 1) :=
  ⟨by decide +kernel, rfl⟩

/-- The hypotheses of `C88_partial` for an unbounded maximization. -/
example : ∃ r : Run, r.d = .num 3 ∧ r.obj = (scsSays .unbounded).1 ∧ r.status = .text (scsSays .unbounded).2 ∧
    infoObj id ⟨.scs, true, true⟩ r = .inf false :=
  ⟨⟨.inf true, .num 3, .text "unbounded", fun _ => [], fun _ => [], .num 0⟩, rfl, rfl, rfl, rfl⟩

end Verif.Props
