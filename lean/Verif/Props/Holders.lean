import Verif.Model.Holders
import Verif.Props.Flatten
/-!
C101: values can be assigned in any form that CVXPY takes.
-/
namespace Verif.Props
open Verif.Model Verif.Model.Flatten Verif.Model.Holders Verif.Spec.Flatten

/-- C101: for every shape, every attribute and every value with that attribute, if the value is held by an array, it arrives with each
entry at the slot that belongs to it, and the files are generated from the same entries. What is missing: sparse matrices (`C101_iff`),
and parameters with one entry that may be nonzero among several (C50). -/
theorem C101_partial {R : Type} [Zero R] (shape : List Nat) (attr : PAttr) (t : List Nat → R)
    (ha : HasAttr shape t attr) (hc : ∀ c, attr = .sparse c → c.Nodup ∧ ∀ idx ∈ c, InBounds shape idx)
    (h0 : 0 < sizeUsp shape attr) (h1 : sizeUsp shape attr = 1 → size shape = 1) :
    (∃ l, deliver shape attr ⟨.array, t⟩ = .ok l ∧ l.length = sizeUsp shape attr ∧
      ∀ idx, InBounds shape idx →
        (∀ k, slot shape idx attr = some k → l[k]? = some (t idx)) ∧ (slot shape idx attr = none → t idx = 0)) ∧
    ∃ l, writable shape ⟨.array, t⟩ = .ok l ∧ l.length = size shape ∧
      ∀ idx, InBounds shape idx → l[pos shape idx]? = some (t idx) := by
  constructor
  · obtain ⟨l, e, h⟩ := C50_partial shape attr t ha hc h0 h1
    refine ⟨l, ?_, h⟩
    have e' : deliver shape attr ⟨.array, t⟩ = match delivered shape attr t with
        | some l => .ok l
        | none => .error .typeError := by
      unfold deliver getValue delivered getParamValue
      by_cases hs : size shape = 1
      · rw [if_pos hs, if_pos hs]; rfl
      · rw [if_neg hs, if_neg hs]
        cases attr <;> rfl
    rw [e', e]
  · obtain ⟨e1, e2, -⟩ := C50_order shape t
    refine ⟨flattenF shape t, ?_, e1, fun idx hi => (e2 idx hi).2⟩
    unfold writable
    split <;> rfl

/-- C101 (when): a value held by a sparse matrix gives what the same value gives as an array exactly for parameters declared sparse with
more than one entry; files are never generated from it. -/
theorem C101_iff {R : Type} [Zero R] (shape : List Nat) (attr : PAttr) (t : List Nat → R)
    (ha : HasAttr shape t attr) (hc : ∀ c, attr = .sparse c → c.Nodup ∧ ∀ idx ∈ c, InBounds shape idx)
    (h0 : 0 < sizeUsp shape attr) (h1 : sizeUsp shape attr = 1 → size shape = 1) (h2 : shape.length = 2) :
    (deliver shape attr ⟨.sparse, t⟩ = deliver shape attr ⟨.array, t⟩ ↔ size shape ≠ 1 ∧ ∃ c, attr = .sparse c) ∧
    writable shape ⟨.sparse, t⟩ = .error .attributeError := by
  obtain ⟨⟨l, e, -⟩, -⟩ := C101_partial shape attr t ha hc h0 h1
  constructor
  · rw [e]
    by_cases hs : size shape = 1
    · have : deliver shape attr ⟨.sparse, t⟩ = .error .typeError := by
        unfold deliver getValue
        rw [if_pos hs]
        rfl
      rw [this]
      simp [hs]
    · cases attr with
      | plain =>
        have : deliver shape .plain ⟨.sparse, t⟩ = .error .attributeError := by
          unfold deliver getValue
          rw [if_neg hs]
          rfl
        rw [this]
        simp
      | diag =>
        have : deliver shape .diag ⟨.sparse, t⟩ = .error .valueError := by
          unfold deliver getValue
          rw [if_neg hs]
          rfl
        rw [this]
        simp
      | sparse c =>
        have : deliver shape (.sparse c) ⟨.sparse, t⟩ = deliver shape (.sparse c) ⟨.array, t⟩ := by
          unfold deliver getValue
          rw [if_neg hs, if_neg hs]
        rw [this, e]
        simp [hs]
  · unfold writable
    rw [if_neg (by omega)]
    rfl

/-- C101 fails for a diagonal parameter and for one without attribute: the same matrix arrives if it is assigned as an array and raises if
it is assigned as a sparse matrix. -/
theorem C101_fails : ∃ t : List Nat → Int, HasAttr [2, 2] t .diag ∧
    deliver [2, 2] .diag ⟨.array, t⟩ = .ok [3, 5] ∧ deliver [2, 2] .diag ⟨.sparse, t⟩ = .error .valueError ∧
    deliver [2, 2] .plain ⟨.array, t⟩ = .ok [3, 0, 0, 5] ∧ deliver [2, 2] .plain ⟨.sparse, t⟩ = .error .attributeError := by
  refine ⟨fun idx => if idx = [0, 0] then 3 else if idx = [1, 1] then 5 else 0, ⟨2, rfl, ?_⟩, rfl, rfl, rfl, rfl⟩
  intro i j hi hj h
  have e1 : ¬[i, j] = [0, 0] := by simp; omega
  have e2 : ¬[i, j] = [1, 1] := by simp; omega
  simp only [if_neg e1, if_neg e2]

/-- The hypotheses are met, also by a parameter declared sparse whose value is a sparse matrix. -/
example : deliver [2, 3] (.sparse [[0, 0], [1, 2]]) ⟨.sparse, fun idx => if idx = [1, 2] then (7 : Int) else 0⟩ = .ok [0, 7] ∧
    0 < sizeUsp [2, 3] (.sparse [[0, 0], [1, 2]]) ∧ size [2, 3] ≠ 1 := by
  refine ⟨rfl, ?_, ?_⟩ <;> decide

end Verif.Props
