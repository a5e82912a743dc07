import Verif.Lemmas.Explicit
import Mathlib.Data.List.Induction
namespace Verif.Lemmas.Explicit
open Verif.Model Verif.Model.Explicit Verif.Spec Verif.Spec.Explicit Finset

section ranks
variable {α : Type}

theorem rank_cons (b : Bool) (m : List Bool) (i : Nat) :
    rank (b :: m) (i + 1) = (if b then 1 else 0) + rank m i := by
  unfold rank
  rw [List.take_succ_cons, List.count_cons]
  cases b <;> simp [Nat.add_comm]

theorem sel_get : ∀ (m : List Bool) (xs : List α) (i : Nat) (x : α), m[i]? = some true → xs[i]? = some x →
    (sel m xs)[rank m i]? = some x
  | [], _, i, x, h, _ => by simp at h
  | b :: ms, [], i, x, _, h => by simp at h
  | true :: ms, y :: xs, 0, x, h, h2 => by simpa [sel, rank] using h2
  | false :: ms, y :: xs, 0, x, h, h2 => by simp at h
  | true :: ms, y :: xs, i + 1, x, h, h2 => by
    have := sel_get ms xs i x (by simpa using h) (by simpa using h2)
    rw [rank_cons]
    simp only [if_true, sel, Nat.add_comm 1, List.getElem?_cons_succ]
    exact this
  | false :: ms, y :: xs, i + 1, x, h, h2 => by
    have := sel_get ms xs i x (by simpa using h) (by simpa using h2)
    rw [rank_cons]
    simpa [sel] using this

theorem sel_get_inv : ∀ (m : List Bool) (xs : List α) (p : Nat) (x : α), (sel m xs)[p]? = some x →
    ∃ i : Nat, m[i]? = some true ∧ xs[i]? = some x ∧ rank m i = p
  | [], _, p, x, h => by simp [sel] at h
  | b :: ms, [], p, x, h => by cases b <;> simp [sel] at h
  | true :: ms, y :: xs, 0, x, h => ⟨0, rfl, by simpa [sel] using h, by simp [rank]⟩
  | true :: ms, y :: xs, p + 1, x, h => by
    obtain ⟨i, h1, h2, h3⟩ := sel_get_inv ms xs p x (by simpa [sel] using h)
    exact ⟨i + 1, by simpa using h1, by simpa using h2, by rw [rank_cons, h3]; simp [Nat.add_comm]⟩
  | false :: ms, y :: xs, p, x, h => by
    obtain ⟨i, h1, h2, h3⟩ := sel_get_inv ms xs p x (by simpa [sel] using h)
    exact ⟨i + 1, by simpa using h1, by simpa using h2, by rw [rank_cons, h3]; simp⟩

theorem rank_le (m : List Bool) (i : Nat) : rank m i ≤ i := by
  unfold rank
  exact le_trans (List.count_le_length) (by rw [List.length_take]; exact Nat.min_le_left _ _)

theorem rank_full : ∀ (m : List Bool) (i : Nat), (∀ j < i, m[j]? = some true) → rank m i = i
  | m, 0, _ => by simp [rank]
  | [], i + 1, h => by have := h 0 (by omega); simp at this
  | b :: m, i + 1, h => by
    have h0 := h 0 (by omega)
    simp at h0
    rw [rank_cons, rank_full m i (fun j hj => by simpa using h (j + 1) (by omega)), h0]
    simp [Nat.add_comm]

theorem rank_lt : ∀ (m : List Bool) (i j : Nat), j < i → m[j]? = some false → rank m i < i
  | [], i, j, _, h => by simp at h
  | b :: m, 0, j, hj, _ => by omega
  | b :: m, i + 1, 0, _, h => by
    simp at h; subst h
    rw [rank_cons]
    have := rank_le m i
    simp; omega
  | b :: m, i + 1, j + 1, hj, h => by
    have := rank_lt m i j (by omega) (by simpa using h)
    rw [rank_cons]
    cases b <;> simp <;> omega

theorem mem_sel_range (m : List Bool) (N i : Nat) :
    i ∈ sel m (List.range N) ↔ i < N ∧ m[i]? = some true := by
  constructor
  · intro h
    obtain ⟨p, hp⟩ := List.getElem?_of_mem h
    obtain ⟨j, h1, h2, _⟩ := sel_get_inv m _ p i hp
    have hj : j < N := by
      by_contra hn
      rw [List.getElem?_eq_none (by simp; omega)] at h2
      cases h2
    rw [List.getElem?_eq_getElem (by simpa using hj)] at h2
    simp at h2
    subst h2
    exact ⟨hj, h1⟩
  · rintro ⟨h1, h2⟩
    have := sel_get m (List.range N) i i h2 (by
      rw [List.getElem?_eq_getElem (by simpa using h1)]; simp)
    exact List.mem_of_getElem? this

theorem sel_range_get {m : List Bool} {N p i : Nat} (h : (sel m (List.range N))[p]? = some i) :
    i < N ∧ m[i]? = some true ∧ rank m i = p := by
  obtain ⟨j, h1, h2, h3⟩ := sel_get_inv m _ p i h
  have hj : j < N := by
    by_contra hn
    rw [List.getElem?_eq_none (by simp; omega)] at h2
    cases h2
  rw [List.getElem?_eq_getElem (by simpa using hj)] at h2
  simp at h2
  subst h2
  exact ⟨hj, h1, h3⟩

end ranks

/-! ### equality rows -/

theorem eqInds_ok (mask : List Bool) (eqM m : Nat) (he : eqM ≤ m)
    (hc : ∀ i j, i < j → j < eqM → mask[i]? = some false → mask[j]? = some true → False)
    (hl : mask.length = m) (p : Nat) :
    p ∈ eqInds eqM mask ↔ ∃ i, (sel mask (List.range m))[p]? = some i ∧ i < eqM := by
  unfold eqInds
  have full : ∀ i < eqM, mask[i]? = some true → rank mask i = i := by
    intro i hi ht
    apply rank_full
    intro j hj
    have hjl : j < mask.length := by omega
    cases hv : mask[j] with
    | true => simp [List.getElem?_eq_getElem hjl, hv]
    | false => exact absurd ht (fun ht => hc j i hj hi (by simp [List.getElem?_eq_getElem hjl, hv]) ht)
  rw [mem_sel_range]
  constructor
  · rintro ⟨h1, h2⟩
    rw [List.getElem?_take, if_pos h1] at h2
    refine ⟨p, ?_, h1⟩
    have := sel_get mask (List.range m) p p h2 (by
      rw [List.getElem?_eq_getElem (by simp; omega)]; simp)
    rwa [full p h1 h2] at this
  · rintro ⟨i, h1, h2⟩
    obtain ⟨h3, h4, h5⟩ := sel_range_get h1
    rw [full i h2 h4] at h5
    subst h5
    exact ⟨h2, by rw [List.getElem?_take, if_pos h2]; exact h4⟩

theorem eqInds_bad (mask : List Bool) (eqM m : Nat)
    (h : ∀ p, p ∈ eqInds eqM mask → ∃ i, (sel mask (List.range m))[p]? = some i ∧ i < eqM)
    (i j : Nat) (hij : i < j) (hj : j < eqM) (hi : mask[i]? = some false) (ht : mask[j]? = some true) : False := by
  have key : ∀ k, ∃ j, k ≤ j ∧ i < j ∧ j < eqM ∧ mask[j]? = some true := by
    intro k
    induction k with
    | zero => exact ⟨j, by omega, hij, hj, ht⟩
    | succ k ih =>
      obtain ⟨j', h1, h2, h3, h4⟩ := ih
      obtain ⟨j2, e1, e2⟩ := h j' (by
        unfold eqInds
        rw [mem_sel_range]
        exact ⟨h3, by rw [List.getElem?_take, if_pos h3]; exact h4⟩)
      obtain ⟨e3, e4, e5⟩ := sel_range_get e1
      have := rank_le mask j2
      have hlt := rank_lt mask j2 i (by omega) hi
      exact ⟨j2, by omega, by omega, e2, e4⟩
  obtain ⟨j', h1, _, h3, _⟩ := key eqM
  omega

/-! ### stored variables -/

theorem lookup_dictPut {α : Type} (d : List (String × α)) (k k' : String) (v : α) :
    (dictPut d k v).lookup k' = if k' = k then some v else d.lookup k' := by
  unfold dictPut
  rw [List.lookup_cons]
  by_cases h : k' = k
  · simp [h]
  · simp only [beq_eq_false_iff_ne.2 h, if_neg h]
    induction d with
    | nil => rfl
    | cons e d ih =>
      rw [List.filter_cons]
      by_cases h2 : e.1 = k
      · rw [if_neg (by simp [h2])]
        rw [ih, List.lookup_cons]
        have : (k' == e.1) = false := by simp [h2, h]
        rw [this]
      · rw [if_pos (by simp [h2]), List.lookup_cons, List.lookup_cons, ih]

theorem placeInds_mem (size : Nat) (inds : List Nat) (hn : inds.Nodup) (i j : Nat) (hi : i < size)
    (hj : inds[j]? = some i) : (placeInds size inds)[i]? = some (j : Int) := by
  unfold placeInds
  rw [List.getElem?_map, List.getElem?_eq_getElem (by simpa using hi)]
  simp only [List.getElem_range, Option.map_some]
  have hm : ∀ e ∈ inds.zipIdx.filter (fun e => e.1 = i), e = (i, j) := by
    rintro ⟨a, b⟩ he
    rw [List.mem_filter] at he
    obtain ⟨h1, h2⟩ := he
    have h2 : a = i := by simpa using h2
    subst h2
    rw [List.mem_zipIdx_iff_getElem?] at h1
    simp at h1
    have := (List.nodup_iff_getElem?_ne_getElem?.1 hn)
    rcases Nat.lt_trichotomy b j with hlt | heq | hgt
    · have hjl : j < inds.length := by
        by_contra hh; rw [List.getElem?_eq_none (by omega)] at hj; cases hj
      exact absurd (h1.trans hj.symm) (this b j hlt hjl)
    · rw [heq]
    · have hbl : b < inds.length := by
        by_contra hh; rw [List.getElem?_eq_none (by omega)] at h1; cases h1
      exact absurd (hj.trans h1.symm) (this j b hgt hbl)
  cases hg : (inds.zipIdx.filter (fun e => e.1 = i)).getLast? with
  | none =>
    rw [List.getLast?_eq_none_iff] at hg
    have : (i, j) ∈ inds.zipIdx.filter (fun e => e.1 = i) := by
      rw [List.mem_filter, List.mem_zipIdx_iff_getElem?]
      exact ⟨hj, by simp⟩
    rw [hg] at this
    cases this
  | some e =>
    have := hm e (List.mem_of_getLast? hg)
    rw [this]

theorem placeInds_not_mem (size : Nat) (inds : List Nat) (i : Nat) (hi : i < size) (hn : i ∉ inds) :
    (placeInds size inds)[i]? = some (-1) := by
  unfold placeInds
  rw [List.getElem?_map, List.getElem?_eq_getElem (by simpa using hi)]
  simp only [List.getElem_range, Option.map_some]
  have : inds.zipIdx.filter (fun e => e.1 = i) = [] := by
    rw [List.filter_eq_nil_iff]
    rintro ⟨a, b⟩ he
    rw [List.mem_zipIdx_iff_getElem?] at he
    simp at he ⊢
    rintro rfl
    exact hn (List.mem_of_getElem? he)
  rw [this]
  rfl

/-- The indices a request stands for. -/
def reqInds (size : String → Nat) (req : String × List Nat) : List Nat :=
  if req.2 = [] then List.range (size req.1) else req.2

theorem storeVars_spec (size : String → Nat) (o : String → Nat) (reqs : List (String × List Nat)) :
    ∀ (offs : List (String × Nat)) (s : StoreSt), (reqs.map (·.1)).Nodup →
    (∀ r ∈ reqs, offs.lookup r.1 = some (o r.1)) → s.shift = s.outInds.length →
    ∃ offs' s', reqs.foldl (fun s r => storeStep size s.1 s.2 r) (offs, s) = (offs', s') ∧
      (∃ t, s'.outInds = s.outInds ++ t) ∧
      (∀ k, k ∉ reqs.map (·.1) → s'.info.lookup k = s.info.lookup k) ∧
      ∀ r ∈ reqs, ∃ base, s'.info.lookup r.1 = some
        { offset := base
          indices := if (reqInds size r).length = 1 then [(base : Int)] else placeInds (size r.1) (reqInds size r) } ∧
        ∀ j i, (reqInds size r)[j]? = some i → s'.outInds[base + j]? = some (o r.1 + i) := by
  induction reqs with
  | nil => intro offs s _ _ _; exact ⟨offs, s, rfl, ⟨[], by simp⟩, fun k _ => rfl, by simp⟩
  | cons r reqs ih =>
    intro offs s hn ho hs
    rw [List.map_cons, List.nodup_cons] at hn
    have h0 := ho r (List.mem_cons_self ..)
    obtain ⟨offs', s', e1, ⟨t, e2⟩, e3, e4⟩ := ih (dictPut offs r.1 s.shift)
      { shift := s.shift + (reqInds size r).length
        outInds := s.outInds ++ (reqInds size r).map (o r.1 + ·)
        info := dictPut s.info r.1
          { offset := s.shift
            indices := if (reqInds size r).length = 1 then [(s.shift : Int)] else placeInds (size r.1) (reqInds size r) } }
      hn.2 (by
        intro r' hr'
        rw [lookup_dictPut, if_neg]
        · exact ho r' (List.mem_cons_of_mem _ hr')
        · intro h
          exact hn.1 (h ▸ List.mem_map_of_mem hr')) (by simp [hs])
    refine ⟨offs', s', ?_, ⟨(reqInds size r).map (o r.1 + ·) ++ t, by rw [e2, List.append_assoc]⟩, ?_, ?_⟩
    · rw [List.foldl_cons, ← e1]
      congr 1
      unfold storeStep
      simp only [h0]
      rfl
    · intro k hk
      rw [List.map_cons, List.mem_cons, not_or] at hk
      rw [e3 k hk.2, lookup_dictPut, if_neg hk.1]
    · intro r' hr'
      rcases List.mem_cons.1 hr' with rfl | hr'
      · refine ⟨s.shift, ?_, ?_⟩
        · rw [e3 r'.1 hn.1, lookup_dictPut, if_pos rfl]
        · intro j i hj
          have hjl : j < (reqInds size r').length := by
            by_contra hh; rw [List.getElem?_eq_none (by omega)] at hj; cases hj
          rw [e2, List.append_assoc, hs, List.getElem?_append_right (by omega),
            List.getElem?_append_left (by simp; omega), Nat.add_sub_cancel_left, List.getElem?_map, hj]
          rfl
      · exact e4 r' hr'
end Verif.Lemmas.Explicit
