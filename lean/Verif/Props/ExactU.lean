import Verif.Props.Outcome
/-! C88: exactly when an instance without solution is reported as CVXPY reports it. -/
namespace Verif.Props
open Verif.Model Verif.Model.Saved Verif.Model.Structs Verif.Model.Outcome Verif.Model.Text Verif.Model.Dispatch
open Verif.Spec.Outcome Verif.Spec.Printed Verif.Lemmas.Printed

/-- The objective of the minimization, with its constant, as C computes it. -/
def minimized (rd : ℚ → ℚ) (c : Conf) (r : Run) : Flt := if c.nonzeroD then plus rd r.obj r.d else r.obj

/-- It is infinite, or the double next to 1e30, with the sign that belongs to what the instance lacks. -/
def SaysLack (k : Lack) (x : Flt) : Prop :=
  match k with
  | .infeasible => x = .inf false ∨ x = .num big30
  | .unbounded => x = .inf true ∨ x = .num (-big30)

/-- **C88 (value, iff)** Outside of explicit mode, for minimizations and maximizations alike, the value says what the instance lacks exactly if
the objective of the minimization does. -/
theorem C88_value_iff (rd : ℚ → ℚ) (c : Conf) (f : PyFile) (vars : List String) (cons : List Nat) (r : Run) (before o : PObj Flt)
    (ret : Ret Flt) (hn : f.nDual ≤ cons.length) (h : solve rd c f vars cons r before = .ok (o, ret)) (k : Lack) :
    ValueTold k c.isMax o ↔ f.explicit = 0 ∧ SaysLack k (minimized rd c r) := by
  obtain ⟨o', ret', h1, _, h3, h4⟩ := solve_stored rd c f vars cons r before hn
  rw [h] at h1
  cases h1
  unfold ValueTold
  by_cases he : f.explicit = 0
  · rw [(h3 he).1, Option.map_some, Option.some_inj, C88_infinite]
    have hi : infoObj rd c r = if c.isMax then -minimized rd c r else minimized rd c r := rfl
    rw [hi]
    generalize minimized rd c r = x
    have neg1 : ∀ b, -x = .inf b ↔ x = .inf !b := by
      intro b
      cases x with
      | num y => simp [neg_num]
      | inf b' => rw [neg_inf]; cases b <;> cases b' <;> simp
      | nan => simp [neg_nan]
    have neg2 : ∀ y, -x = .num y ↔ x = .num (-y) := by
      intro y
      cases x with
      | num z => rw [neg_num, Flt.num.injEq, Flt.num.injEq]; exact neg_eq_iff_eq_neg
      | inf b' => simp [neg_inf]
      | nan => simp [neg_nan]
    cases c.isMax <;> cases k <;> simp [SaysLack, low, he, neg1, neg2]
  · rw [(h4 he).1]
    simp [he]

/-- **C88 (iff)** An instance without solution is reported as CVXPY reports it exactly if the code is not explicit, none of the variables is
stored, the solver is OSQP or SCS and its status is CVXPY's word, and the objective says what the instance lacks. -/
theorem C88_iff (rd : ℚ → ℚ) (c : Conf) (f : PyFile) (vars : List String) (cons : List Nat) (r : Run) (before o : PObj Flt)
    (ret : Ret Flt) (hn : f.nDual ≤ cons.length) (hf : Fits c.iface r.status) (h : solve rd c f vars cons r before = .ok (o, ret))
    (k : Lack) :
    Told k c.isMax vars o ↔ (f.explicit = 0 ∧ SaysLack k (minimized rd c r)) ∧
      ((c.iface = .osqp ∨ c.iface = .scs) ∧ r.status = .text k.status) ∧ ∀ n ∈ vars, n ∉ f.vars := by
  obtain ⟨o', ret', h1, h2, h3, h4⟩ := solve_stored rd c f vars cons r before hn
  have h1' := h
  rw [h1] at h1'
  cases h1'
  unfold Told
  rw [C88_value_iff rd c f vars cons r before o ret hn h k]
  refine and_congr_right fun ⟨he, _⟩ => and_congr ?_ ?_
  · rw [(h3 he).2, Option.some_inj]
    constructor
    · intro hs
      have hk : k.status ∈ statuses := by cases k <;> decide
      have hi : statusInt c.iface = false := by
        by_contra hi
        exact C88_fails_status_int c.iface r.status hf (by simpa using hi) (hs ▸ hk)
      refine ⟨by revert hi; cases c.iface <;> simp [statusInt], ?_⟩
      cases hr : r.status with
      | code n => rw [hr] at hf; exact absurd (hf.symm.trans hi) (by simp)
      | text t => rw [hr] at hs; rw [show t = k.status from hs]
    · rintro ⟨_, hs⟩
      rw [hs]; rfl
  · refine forall_congr' fun n => forall_congr' fun hv => ?_
    rw [h2 n hv]
    split <;> simp_all

/-- The conditions can be met: SCS, an infeasible maximization with constant, no variable stored. -/
example : SaysLack .infeasible (minimized id ⟨.scs, true, true⟩ ⟨.inf false, .num 3, .text "infeasible", fun _ => [], fun _ => [], .num 0⟩) ∧
    Fits .scs (.text "infeasible") ∧ ¬ SaysLack .infeasible (.num 7) := by
  refine ⟨Or.inl rfl, rfl, ?_⟩
  rintro (h | h)
  · cases h
  · rw [Flt.num.injEq] at h
    unfold big30 at h; norm_num at h

end Verif.Props
