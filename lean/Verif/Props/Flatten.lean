import Verif.Lemmas.Flatten
import Mathlib.Algebra.Group.Defs
import Mathlib.Data.Int.Basic
/-!
C50: the order of flattening and reshaping in the Python wrapper.
-/
namespace Verif.Props
open Verif.Model.Flatten Verif.Spec.Flatten Verif.Lemmas.Flatten

/-- C50 (order): for every shape, the entry at an index is at its column-major position; there are as many
values as entries, and each position belongs to exactly one index. -/
theorem C50_order {R : Type} (shape : List Nat) (t : List Nat → R) :
    (flattenF shape t).length = size shape ∧
    (∀ idx, InBounds shape idx → pos shape idx < size shape ∧ (flattenF shape t)[pos shape idx]? = some (t idx)) ∧
    ∀ k, k < size shape → ∃! idx, InBounds shape idx ∧ pos shape idx = k := by
  obtain ⟨h1, h2⟩ := flattenF_spec shape t
  refine ⟨h1, fun idx h => ⟨pos_lt shape idx h, h2 idx h⟩, fun k hk => ?_⟩
  obtain ⟨a, b⟩ := idxOf_spec shape k hk
  exact ⟨_, ⟨a, b⟩, fun r hr => pos_inj shape r _ hr.1 a (hr.2.trans b.symm)⟩

/-- C50 (reshaping): the values of a variable, read in the order of the generated code, end at the entries
to which they belong; a wrong number of values is an error. -/
theorem C50_reshape {R : Type} (shape : List Nat) (l : List R) :
    (l.length ≠ size shape → reshapeF shape l = none) ∧
    (l.length = size shape → ∃ f, reshapeF shape l = some f ∧ ∀ idx, InBounds shape idx → f idx = l[pos shape idx]?) :=
  ⟨fun h => if_neg h, fun h => reshapeF_spec shape l h⟩

/-- C50 (round trips): flattening and then reshaping gives every entry back, and reshaping and then
flattening gives the list back. -/
theorem C50_roundtrip {R : Type} (shape : List Nat) :
    (∀ t : List Nat → R, ∃ f, reshapeF shape (flattenF shape t) = some f ∧
      ∀ idx, InBounds shape idx → f idx = some (t idx)) ∧
    (∀ (l : List R) (f : List Nat → Option R), reshapeF shape l = some f → flattenF shape f = l.map some) := by
  constructor
  · intro t
    obtain ⟨h1, h2⟩ := flattenF_spec shape t
    obtain ⟨f, hf, h⟩ := reshapeF_spec shape (flattenF shape t) h1
    exact ⟨f, hf, fun idx hi => by rw [h idx hi, h2 idx hi]⟩
  · intro l f hf
    by_cases hl : l.length = size shape
    · obtain ⟨f', hf', h⟩ := reshapeF_spec shape l hl
      rw [hf] at hf'
      cases hf'
      obtain ⟨h1, h2⟩ := flattenF_spec shape f
      apply List.ext_getElem?
      intro k
      by_cases hk : k < size shape
      · obtain ⟨a, b⟩ := idxOf_spec shape k hk
        rw [← b, h2 _ a, h _ a, List.getElem?_map, b, List.getElem?_eq_getElem (by omega)]
        rfl
      · rw [List.getElem?_eq_none (by omega), List.getElem?_eq_none (by simp; omega)]
    · rw [reshapeF, if_neg hl] at hf
      cases hf

/-- C50 (dense matrices): the loops of `write_dense_mat_def` write in the order of the wrapper. -/
theorem C50_dense {R : Type} (rows cols : Nat) (m : Nat → Nat → R) :
    denseOrder rows cols m = flattenF [rows, cols] (fun idx => m (idx.getD 0 0) (idx.getD 1 0)) := by
  unfold denseOrder flattenF
  simp [ravelC, List.map_eq_flatMap]

/-- C50 (parameters): every parameter value arrives in the generated code with each entry at the slot that
belongs to it, unless the parameter has more than one entry but only one that may be nonzero. What is
missing: that case, in which the wrapper fails (`C50_fails`). -/
theorem C50_partial {R : Type} [Zero R] (shape : List Nat) (attr : PAttr) (t : List Nat → R)
    (ha : HasAttr shape t attr) (hc : ∀ c, attr = .sparse c → c.Nodup ∧ ∀ idx ∈ c, InBounds shape idx)
    (h0 : 0 < sizeUsp shape attr) (h1 : sizeUsp shape attr = 1 → size shape = 1) :
    ∃ l, delivered shape attr t = some l ∧ l.length = sizeUsp shape attr ∧
      ∀ idx, InBounds shape idx →
        (∀ k, slot shape idx attr = some k → l[k]? = some (t idx)) ∧ (slot shape idx attr = none → t idx = 0) := by
  by_cases hs : size shape = 1
  · -- one entry
    have hz := zeros_inBounds shape hs
    have hle : sizeUsp shape attr = 1 := by
      cases attr with
      | plain => exact hs
      | diag =>
        obtain ⟨n, rfl, -⟩ := ha
        simp only [size, Nat.mul_one] at hs
        exact (mul_one_iff hs).1
      | sparse c =>
        obtain ⟨hn, hb⟩ := hc c rfl
        cases c with
        | nil => simp [sizeUsp] at h0
        | cons a c =>
          cases c with
          | nil => rfl
          | cons b c =>
            exfalso
            have e1 := zeros_of_size_one shape a hs (hb a (by simp))
            have e2 := zeros_of_size_one shape b hs (hb b (by simp))
            rw [e1, e2] at hn
            simp at hn
    refine ⟨[t (shape.map fun _ => 0)], ?_, by simp [hle], fun idx hi => ?_⟩
    · unfold delivered getParamValue
      rw [if_pos hs]
      unfold toField
      rw [hle]
      rfl
    · have e := zeros_of_size_one shape idx hs hi
      constructor
      · intro k hk
        have hk0 : k = 0 := by
          cases attr with
          | plain =>
            simp only [slot, Option.some.injEq] at hk
            have := pos_lt shape idx hi
            omega
          | diag =>
            obtain ⟨n, rfl, -⟩ := ha
            rw [e] at hk
            simpa [slot] using hk.symm
          | sparse c =>
            simp only [slot] at hk
            by_cases hm : idx ∈ c
            · rw [if_pos hm] at hk
              cases hk
              have := List.idxOf_lt_length_of_mem hm
              have hcl : c.length = 1 := hle
              omega
            · rw [if_neg hm] at hk; cases hk
        rw [hk0, e]
        rfl
      · intro hn
        cases attr with
        | plain => simp [slot] at hn
        | diag =>
          obtain ⟨n, rfl, -⟩ := ha
          rw [e] at hn
          simp [slot] at hn
        | sparse c =>
          simp only [slot] at hn
          by_cases hm : idx ∈ c
          · rw [if_pos hm] at hn; cases hn
          · exact ha idx hi hm
  · have hgt : 1 < sizeUsp shape attr := by
      rcases Nat.lt_or_ge 1 (sizeUsp shape attr) with h | h
      · exact h
      · exact absurd (h1 (by omega)) hs
    unfold delivered getParamValue
    rw [if_neg hs]
    cases attr with
    | plain =>
      obtain ⟨e1, e2⟩ := flattenF_spec shape t
      refine ⟨_, if_pos ⟨hgt, e1⟩, e1, fun idx hi => ⟨fun k hk => ?_, fun h => by simp [slot] at h⟩⟩
      simp only [slot, Option.some.injEq] at hk
      rw [← hk]
      exact e2 idx hi
    | diag =>
      obtain ⟨n, rfl, hd⟩ := ha
      refine ⟨_, if_pos ⟨hgt, by simp [sizeUsp]⟩, by simp [sizeUsp], fun idx hi => ?_⟩
      obtain ⟨i, j, rfl⟩ : ∃ i j, idx = [i, j] := by
        have := inBounds_length _ _ hi
        match idx, this with
        | [i, j], _ => exact ⟨i, j, rfl⟩
      obtain ⟨hi1, hi2, -⟩ := hi
      constructor
      · intro k hk
        simp only [slot] at hk
        by_cases h : i = j
        · rw [if_pos h] at hk
          cases hk
          subst h
          simp [hi1]
        · rw [if_neg h] at hk; cases hk
      · intro hk
        simp only [slot] at hk
        by_cases h : i = j
        · rw [if_pos h] at hk; cases hk
        · exact hd i j hi1 hi2 h
    | sparse c =>
      refine ⟨_, if_pos ⟨hgt, by simp [sizeUsp]⟩, by simp [sizeUsp], fun idx hi => ?_⟩
      constructor
      · intro k hk
        simp only [slot] at hk
        by_cases hm : idx ∈ c
        · rw [if_pos hm] at hk
          cases hk
          rw [List.getElem?_map, List.getElem?_eq_getElem (List.idxOf_lt_length_of_mem hm), Option.map_some,
            List.getElem_idxOf]
        · rw [if_neg hm] at hk; cases hk
      · intro hk
        simp only [slot] at hk
        by_cases hm : idx ∈ c
        · rw [if_pos hm] at hk; cases hk
        · exact ha idx hi hm

example : ∃ l, delivered [2, 3] (.sparse [[0, 0], [1, 0], [1, 2]])
    (fun idx => if idx = [0, 0] then (4 : Int) else if idx = [1, 2] then 5 else 0) = some l ∧ l = [4, 0, 5] :=
  ⟨_, rfl, by decide⟩

example : flattenF [2, 3] (fun idx => idx) = [[0, 0], [1, 0], [0, 1], [1, 1], [0, 2], [1, 2]] := by decide

/-- C50 fails for a sparse parameter with a single entry that may be nonzero: Python hands over a list,
the generated field is a number. -/
theorem C50_fails : ∃ (shape : List Nat) (attr : PAttr) (t : List Nat → Int),
    HasAttr shape t attr ∧ (∀ c, attr = .sparse c → c.Nodup ∧ ∀ idx ∈ c, InBounds shape idx) ∧
    0 < sizeUsp shape attr ∧ delivered shape attr t = none := by
  refine ⟨[2, 2], .sparse [[0, 1]], fun idx => if idx = [0, 1] then 7 else 0, ?_, ?_, by decide, rfl⟩
  · intro idx _ h
    exact if_neg (fun e => h (by simp [e]))
  · intro c hc
    cases hc
    refine ⟨by decide, ?_⟩
    intro idx h
    rw [List.mem_singleton] at h
    subst h
    exact ⟨by decide, by decide, trivial⟩

end Verif.Props
