import Verif.Props.Canon
import Verif.Lemmas.Defaults
/-!
# C08: which canonical parameters are stored as matrices

The canonicalization of a generated program stores one value for every row of the affine map of a vector, and for
matrices one value for every row that is not zero, which are the entries of the sparsity pattern (`C09`).
-/
namespace Verif.Props
open Verif.Model Verif.Spec Verif.Lemmas Finset

variable {R : Type} [CommRing R] [DecidableEq R]

/-- The canonical parameters that are matrices in the forms the solvers accept. -/
def matrices : List CId := [.P, .A, .G]

/-- **C08** The generated code holds one value of a vector for every row of its map, and one value of a matrix for every
row of its map with a nonzero coefficient, in increasing order, whatever the parameters are. -/
theorem C08_values_held {ps : List UParam} (ids : List CId) (quad : Bool) (maps : CId → Option (RawMap R))
    (θ0 θ : { θ : List R // θ.length = totalSize ps }) (c : CId) (m : RawMap R) (hm : maps c = some m)
    (hc : m.mapping.cols = totalSize ps + 1) :
    ∃ rows : List Nat, rows.Pairwise (· < ·) ∧
      (c ∈ matrices → ∀ r, r ∈ rows ↔ r < m.mapping.rows ∧ ∃ j < m.mapping.cols, m.mapping.at r j * m.sign r ≠ 0) ∧
      (c ∉ matrices → rows = List.range m.mapping.rows) ∧
      (canonGen ps ids quad maps θ0).canonOf c θ = some (rows.map fun r =>
        ∑ j ∈ range (θ.1.length + 1), (m.mapping.at r j * m.sign r) * fn (θ.1 ++ [1]) j) := by
  obtain ⟨v, h1, h2⟩ := C08_canonicalization_is_affine_map m c.isUpper θ.1 (by rw [hc, θ.2])
  have hm' : (canonGen ps ids quad maps θ0).canonOf c θ = some v := by
    show canonVal (maps c) c.isUpper θ.1 = some v
    rw [hm, h1]
  rw [h2] at hm'
  have hu : c.isUpper = true ↔ c ∈ matrices := by cases c <;> simp [CId.isUpper, matrices]
  refine ⟨_, ?_, ?_, ?_, hm'⟩
  · split
    · exact List.Pairwise.filter _ List.pairwise_lt_range
    · exact List.pairwise_lt_range
  · intro h r
    rw [if_pos (hu.mpr h), RawMap.signed, mem_nonzeroRows_ofDense]
  · intro h
    rw [if_neg fun x => h (hu.mp x)]

/-- Three data of `G`, the second of which is zero for all parameters: two are stored, in the order of the pattern. -/
def exSizeMaps : CId → Option (RawMap Int)
  | .G => some ⟨⟨3, 2, [(0, 0, 2), (2, 1, 5)]⟩, fun _ => -1⟩
  | _ => none

example : (canonGen [⟨"p", 1⟩] [.G] false exSizeMaps ⟨[7], rfl⟩).canonOf .G ⟨[4], rfl⟩ = some [-8, -5] := by decide

example : ∃ m, exSizeMaps .G = some m ∧ m.mapping.cols = totalSize [⟨"p", 1⟩] + 1 := ⟨_, rfl, rfl⟩

end Verif.Props
