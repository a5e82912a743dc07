import Verif.Props.Requests
/-! C64: exactly which indices of a variable with one axis are handled as in numpy. -/
namespace Verif.Props
open Verif.Model Verif.Model.Requests Verif.Spec.Requests Verif.Spec.Flatten Verif.Lemmas.Flatten

/-- The indices that work for a variable with one axis of length `d`. -/
def OneAxisOK (d : Nat) : Req → Prop
  | .whole => True
  | .oneList l => l ≠ [] ∧ l.Nodup ∧ ∀ z ∈ l, 0 ≤ z ∧ z < d
  | .oneArray l => ∃ i : Int, l = [i] ∧ 0 ≤ i ∧ i < d ∧ (i = 0 → d = 1)
  | _ => False

theorem inBounds_one (d : Nat) (idx : List Nat) : InBounds [d] idx ↔ ∃ i, idx = [i] ∧ i < d := by
  match idx with
  | [] => simp [InBounds]
  | [i] => simp [InBounds]
  | _ :: _ :: _ => simp [InBounds]

theorem pos_one (d i : Nat) : pos [d] [i] = i := by simp [pos]

theorem size_one_axis (d : Nat) : Flatten.size [d] = d := by simp [Flatten.size]

/-- What is selected by a list of integers. -/
theorem selected_list (d : Nat) (l : List Int) (k : Nat) :
    (∃ idx, InBounds [d] idx ∧ Selected [d] idx (.oneList l) ∧ pos [d] idx = k) ↔ k < d ∧ ∃ z ∈ l, Wraps d z k := by
  constructor
  · rintro ⟨idx, h, ⟨-, d', i, z, h1, rfl, h3, h4⟩, rfl⟩
    cases h1
    rw [pos_one]
    obtain ⟨j, h5, h6⟩ := (inBounds_one d _).1 h
    cases h5
    exact ⟨h6, z, h3, h4⟩
  · rintro ⟨h, z, h3, h4⟩
    exact ⟨[k], ⟨h, trivial⟩, ⟨⟨h, trivial⟩, d, k, z, rfl, rfl, h3, h4⟩, pos_one d k⟩

theorem chosen_list (d : Nat) (l : List Int) (m : List Nat) :
    Chosen [d] (.oneList l) m ↔ orAll d l = m.map Int.ofNat ∧ m.Nodup ∧ ∀ k, k ∈ m ↔ k < d ∧ ∃ z ∈ l, Wraps d z k := by
  unfold Chosen
  simp only [selected_list]
  rw [resolve, size_one_axis, Except.ok.injEq]

theorem C64_list_iff (d : Nat) (hd : 0 < d) (l : List Int) :
    (∃ m, Chosen [d] (.oneList l) m) ↔ l ≠ [] ∧ l.Nodup ∧ ∀ z ∈ l, 0 ≤ z ∧ z < d := by
  constructor
  · rintro ⟨m, h⟩
    obtain ⟨h1, h2, h3⟩ := (chosen_list d l m).1 h
    by_cases hl : l = []
    · subst hl
      have h0 : m = List.range d := by
        apply map_ofNat_inj; rw [← h1]; rfl
      have := (h3 0).1 (by rw [h0]; simpa using hd)
      simp at this
    · rw [orAll, if_neg hl] at h1
      refine ⟨hl, ?_, fun z hz => ?_⟩
      · rw [h1]; exact h2.map fun _ _ e => Int.ofNat.inj e
      · rw [h1] at hz
        obtain ⟨k, hk, rfl⟩ := List.mem_map.1 hz
        have := ((h3 k).1 hk).1
        exact ⟨Int.natCast_nonneg k, by simpa using this⟩
  · rintro ⟨h1, h2, h3⟩
    exact C64_partial [d] (.oneList l) ⟨⟨d, rfl, h3⟩, h1, h2⟩

theorem C64_array_iff (d : Nat) (hd : 0 < d) (l : List Int) :
    (∃ m, Chosen [d] (.oneArray l) m) ↔ ∃ i : Int, l = [i] ∧ 0 ≤ i ∧ i < d ∧ (i = 0 → d = 1) := by
  have sel : ∀ k, (∃ idx, InBounds [d] idx ∧ Selected [d] idx (.oneArray l) ∧ pos [d] idx = k) ↔ k < d ∧ ∃ z ∈ l, Wraps d z k :=
    fun k => selected_list d l k
  constructor
  · rintro ⟨m, h1, h2, h3⟩
    match l, h1 with
    | [], h1 =>
      have h0 : m = List.range d := by
        apply map_ofNat_inj; rw [← Except.ok.inj h1, size_one_axis]; rfl
      have := (sel 0).1 ((h3 0).1 (by rw [h0]; simpa using hd))
      simp at this
    | [i], h1 =>
      have h1 : (if i = 0 then orAll (Flatten.size [d]) [] else [i]) = m.map Int.ofNat := Except.ok.inj h1
      refine ⟨i, rfl, ?_⟩
      by_cases h0 : i = 0
      · subst h0
        rw [if_pos rfl, size_one_axis] at h1
        have hm : m = List.range d := by
          apply map_ofNat_inj; rw [← h1]; rfl
        refine ⟨Int.le_refl _, by omega, fun _ => ?_⟩
        by_contra hne
        have := (sel 1).1 ((h3 1).1 (by rw [hm, List.mem_range]; omega))
        simp [Wraps] at this
      · rw [if_neg h0] at h1
        obtain ⟨k, hk, he⟩ := List.mem_map.1 (h1 ▸ List.mem_singleton_self i : i ∈ m.map Int.ofNat)
        have := ((sel k).1 ((h3 k).1 hk)).1
        have he : (k : Int) = i := he
        exact ⟨by omega, by omega, fun h => absurd h h0⟩
  · rintro ⟨i, rfl, h1, h2, h3⟩
    by_cases h0 : i = 0
    · subst h0
      have hd1 := h3 rfl
      subst hd1
      refine ⟨[0], rfl, by simp, fun k => ?_⟩
      rw [sel]
      simp [Wraps]
    · refine ⟨[i.toNat], ?_, by simp, fun k => ?_⟩
      · show Except.ok (if i = 0 then _ else [i]) = _
        rw [if_neg h0]
        simp [Int.toNat_of_nonneg h1]
      · rw [sel]
        simp only [List.mem_singleton, exists_eq_left]
        unfold Wraps
        rw [if_neg (by omega)]
        omega

/-- A mask for a variable with one axis is never handled right. -/
theorem C64_mask_never (d : Nat) (hd : 0 < d) (l : List Bool) (hl : l.length = d) (m : List Nat) : ¬ Chosen [d] (.oneMask l) m := by
  rintro ⟨h1, h2, h3⟩
  have sel : ∀ k, k ∈ m → l[k]? = some true := by
    intro k hk
    obtain ⟨idx, h4, ⟨-, i, rfl, h6⟩, h7⟩ := (h3 k).1 hk
    rw [pos_one] at h7
    exact h7 ▸ h6
  match l, hl with
  | [], hl => simp at hl; omega
  | false :: r, hl =>
    have h1 : (0 : Int) :: r.map (fun b => if b then (1 : Int) else 0) = m.map Int.ofNat := Except.ok.inj h1
    have h0 : (0 : Int) ∈ m.map Int.ofNat := by rw [← h1]; exact List.mem_cons_self
    obtain ⟨k, hk, he⟩ := List.mem_map.1 h0
    have : k = 0 := Int.ofNat.inj he
    subst this
    have := sel 0 hk
    simp at this
  | true :: r, hl =>
    have h1 : (1 : Int) :: r.map (fun b => if b then (1 : Int) else 0) = m.map Int.ofNat := Except.ok.inj h1
    have h0 : (1 : Int) ∈ m.map Int.ofNat := by rw [← h1]; exact List.mem_cons_self
    obtain ⟨k, hk, he⟩ := List.mem_map.1 h0
    have : k = 1 := Int.ofNat.inj he
    subst this
    have h4 := sel 1 hk
    have h5 : r[0]? = some true := by simpa using h4
    have hn : (m.map Int.ofNat).Nodup := h2.map fun _ _ e => Int.ofNat.inj e
    rw [← h1, List.nodup_cons] at hn
    exact hn.1 (List.mem_map.2 ⟨true, List.mem_of_getElem? h5, rfl⟩)

/-- **C64 (iff, one axis).** For a variable with one axis, of positive length, the entries selected are the ones stored exactly if the whole variable
is given, a list of different indices counted from the beginning, or an array of one such index (zero only if there is no other). Slices,
single integers and masks never work. -/
theorem C64_one_axis_iff (d : Nat) (hd : 0 < d) (q : Req) (hm : ∀ l, q = .oneMask l → l.length = d)
    (h1 : ∀ keys, q ≠ .many keys) (h2 : ∀ l, q ≠ .rows l) : (∃ m, Chosen [d] q m) ↔ OneAxisOK d q := by
  cases q with
  | whole => exact ⟨fun _ => trivial, fun _ => C64_partial [d] .whole trivial⟩
  | oneSlice l => exact ⟨fun ⟨m, h⟩ => C64_fails_slice [d] l m h, fun h => h.elim⟩
  | oneList l => exact C64_list_iff d hd l
  | oneMask l => exact ⟨fun ⟨m, h⟩ => C64_mask_never d hd l (hm l rfl) m h, fun h => h.elim⟩
  | oneArray l => exact C64_array_iff d hd l
  | many keys => exact absurd rfl (h1 keys)
  | rows l => exact absurd rfl (h2 l)

example : OneAxisOK 3 (.oneList [2, 0]) ∧ ¬ OneAxisOK 3 (.oneList [-1]) ∧ OneAxisOK 3 (.oneArray [2]) ∧ ¬ OneAxisOK 3 (.oneArray [0]) ∧
    ¬ OneAxisOK 3 (.oneMask [true, false, true]) := by
  refine ⟨⟨by decide, by decide, by decide⟩, fun h => absurd (h.2.2 (-1) (by decide)) (by decide), ⟨2, rfl, by decide, by decide, by decide⟩,
    fun ⟨i, h, _, _, h3⟩ => ?_, id⟩
  simp only [List.cons.injEq, and_true] at h
  exact absurd (h3 h.symm) (by decide)

end Verif.Props
