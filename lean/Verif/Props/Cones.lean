import Verif.Spec.Cones
import Mathlib.Tactic.Ring
/-!
C48: cones declared to the conic solvers.
-/
namespace Verif.Props
open Verif.Model.Cones Verif.Spec.Cones Verif.Model.Dispatch

theorem coneList_rows (d : Dims) : ((coneList d).map rows).sum = rowsOf d := by
  have h1 : ∀ l : List Nat, ((l.map Cone.soc).map rows).sum = l.sum := by
    intro l; induction l with
    | nil => rfl
    | cons a l ih => simp [rows, ih] at ih ⊢; omega
  have h2 : ∀ l : List Nat, ((l.map Cone.psd).map rows).sum = (l.map fun n => n * (n + 1) / 2).sum := by
    intro l; induction l with
    | nil => rfl
    | cons a l ih => simp only [List.map_cons, List.sum_cons, ih, rows]
  have h3 : ∀ l : List String, ((l.map Cone.pow).map rows).sum = 3 * l.length := by
    intro l; induction l with
    | nil => rfl
    | cons a l ih =>
      simp only [List.map_cons, List.sum_cons, List.length_cons, ih, rows]; ring
  have h4 : ∀ n : Nat, ((List.replicate n Cone.exp).map rows).sum = 3 * n := by
    intro n; induction n with
    | zero => rfl
    | succ n ih =>
      simp only [List.replicate_succ, List.map_cons, List.sum_cons, ih, rows]; ring
  unfold coneList rowsOf
  simp only [List.map_append, List.sum_append, h1, h2, h3, h4]
  by_cases hz : 0 < d.zero
  · by_cases hn : 0 < d.nonneg
    · rw [if_pos hz, if_pos hn]; simp [rows]
    · rw [if_pos hz, if_neg hn]; simp [rows]; omega
  · by_cases hn : 0 < d.nonneg
    · rw [if_neg hz, if_pos hn]; simp [rows]; omega
    · rw [if_neg hz, if_neg hn]; simp; omega

/-- C48: the listed cones cover exactly the rows of the problem; with at most one exponential cone their
number is the declared number, so the solver reads all of them; without exponential cones they are in
the order of the rows. What is missing: several exponential cones (`C48_fails`), and exponential together
with second-order or semidefinite cones (`C48_fails_order`). -/
theorem C48_partial (d : Dims) :
    ((coneList d).map rows).sum = rowsOf d ∧
    (d.exp ≤ 1 → (coneList d).length = nConeTypes d ∧ conesRead d = coneList d) ∧
    (d.exp = 0 ∨ (d.soc = [] ∧ d.psd = []) → coneList d = stacked d) := by
  have hlen : d.exp ≤ 1 → (coneList d).length = nConeTypes d := by
    intro h
    unfold coneList nConeTypes
    have hz : (if 0 < d.zero then [Cone.zero d.zero] else []).length = if 0 < d.zero then 1 else 0 := by
      split <;> rfl
    have hn : (if 0 < d.nonneg then [Cone.nonneg d.nonneg] else []).length = if 0 < d.nonneg then 1 else 0 := by
      split <;> rfl
    have he : d.exp = if 0 < d.exp then 1 else 0 := by split <;> omega
    simp only [List.length_append, hz, hn, List.length_replicate, List.length_map]
    omega
  refine ⟨coneList_rows d, fun h => ⟨hlen h, ?_⟩, ?_⟩
  · unfold conesRead
    rw [← hlen h, List.take_length]
  · intro h
    unfold coneList stacked
    have hz : (if 0 < d.zero then [Cone.zero d.zero] else []) = if d.zero = 0 then [] else [Cone.zero d.zero] := by
      by_cases h : d.zero = 0
      · rw [if_pos h, if_neg (by omega)]
      · rw [if_neg h, if_pos (by omega)]
    have hn : (if 0 < d.nonneg then [Cone.nonneg d.nonneg] else []) =
        if d.nonneg = 0 then [] else [Cone.nonneg d.nonneg] := by
      by_cases h : d.nonneg = 0
      · rw [if_pos h, if_neg (by omega)]
      · rw [if_neg h, if_pos (by omega)]
    rw [hz, hn]
    rcases h with h | ⟨h, h'⟩
    · rw [h]; simp
    · rw [h, h']; simp

example : (coneList ⟨2, 3, 1, [3, 4], [2], ["0.5"]⟩).length = 7 ∧ nConeTypes ⟨2, 3, 1, [3, 4], [2], ["0.5"]⟩ = 7 ∧
    rowsOf ⟨2, 3, 1, [3, 4], [2], ["0.5"]⟩ = 21 := by decide

/-- C48 for the other conic interfaces: whenever they accept the cone dimensions (and CVXPY passes no
semidefinite or power cones to ECOS and QOCO), the cone data covers exactly the rows, in their order. -/
theorem C48_others (i : Iface) (d : Dims) (hi : i = .scs ∨ i = .ecos ∨ i = .qoco ∨ i = .qocogen)
    (hok : conesOk i (toCones d) = true) (hc : i ≠ .scs → d.psd = [] ∧ d.p3d = []) :
    socData d = stacked d ∧ ((socData d).map rows).sum = rowsOf d := by
  have he : d.exp = 0 ∧ d.psd = [] ∧ d.p3d = [] := by
    rcases hi with rfl | rfl | rfl | rfl
    · simp [conesOk, toCones] at hok
      have h1 := of_decide_eq_false hok.1.1
      have h2 := of_decide_eq_false hok.1.2
      have h3 := of_decide_eq_false hok.2
      exact ⟨by omega, List.length_eq_zero_iff.1 (by omega), List.length_eq_zero_iff.1 (by omega)⟩
    · simp [conesOk, toCones] at hok
      have h1 := of_decide_eq_false hok
      exact ⟨by omega, hc (by decide)⟩
    · simp [conesOk, toCones] at hok
      have h1 := of_decide_eq_false hok
      exact ⟨by omega, hc (by decide)⟩
    · simp [conesOk, toCones] at hok
      have h1 := of_decide_eq_false hok
      exact ⟨by omega, hc (by decide)⟩
  obtain ⟨h1, h2, h3⟩ := he
  have hs : socData d = coneList d := by
    unfold socData coneList
    rw [h1, h2, h3]
    simp
  rw [hs]
  exact ⟨(C48_partial d).2.2 (Or.inl h1), coneList_rows d⟩

example : conesOk .scs (toCones ⟨2, 3, 0, [3], [], []⟩) = true := by decide

/-- C48 fails with two exponential cones: the solver is told of fewer cones than are listed, and those it
reads do not cover the rows. -/
theorem C48_fails : ∃ d : Dims, nConeTypes d < (coneList d).length ∧ ((conesRead d).map rows).sum < rowsOf d :=
  ⟨⟨1, 0, 2, [], [], []⟩, by decide⟩

/-- C48 fails with two or more exponential cones, whatever the other dimensions. -/
theorem C48_fails_general (d : Dims) (h : 2 ≤ d.exp) : nConeTypes d < (coneList d).length := by
  unfold coneList nConeTypes
  have hz : (if 0 < d.zero then [Cone.zero d.zero] else []).length = if 0 < d.zero then 1 else 0 := by
    split <;> rfl
  have hn : (if 0 < d.nonneg then [Cone.nonneg d.nonneg] else []).length = if 0 < d.nonneg then 1 else 0 := by
    split <;> rfl
  simp only [List.length_append, hz, hn, List.length_replicate, List.length_map, if_pos (show 0 < d.exp by omega)]
  omega

/-- C48 fails with an exponential and a second-order cone: the number is right but the rows belong to
other cones. -/
theorem C48_fails_order : ∃ d : Dims, nConeTypes d = (coneList d).length ∧ coneList d ≠ stacked d ∧
    (coneList d).map rows ≠ (stacked d).map rows :=
  ⟨⟨0, 0, 1, [4], [], []⟩, by decide⟩

end Verif.Props
