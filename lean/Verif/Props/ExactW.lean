import Verif.Props.Requests
/-! C64: exactly which indices of a variable with several axes are handled as in numpy. -/
namespace Verif.Props
open Verif.Model Verif.Model.Requests Verif.Spec.Requests Verif.Spec.Flatten Verif.Lemmas.Flatten

/-- The index belongs to the product of the axes' indices. -/
abbrev InProduct (keys : List AxKey) (idx : List Nat) : Prop :=
  List.Forall₂ (fun (k : AxKey) (i : Nat) => (i : Int) ∈ k.vals) keys idx

theorem axis_nat {k : AxKey} {d : Nat} (h : ∀ z ∈ k.vals, 0 ≤ z ∧ z < d) {z : Int} (hz : z ∈ k.vals) : ((z.toNat : Nat) : Int) = z :=
  Int.toNat_of_nonneg (h z hz).1

/-- Some index of the product. -/
theorem product_some : ∀ (keys : List AxKey) (shape : List Nat), KeysOk keys shape → ∃ idx, InProduct keys idx
  | [], [], _ => ⟨[], .nil⟩
  | k :: ks, d :: ds, h => by
    obtain ⟨idx, hi⟩ := product_some ks ds h.2.2.2
    obtain ⟨z, hz⟩ := List.exists_mem_of_ne_nil _ h.2.1
    exact ⟨z.toNat :: idx, .cons (by rw [axis_nat h.2.2.1 hz]; exact hz) hi⟩

/-- A list of at least two elements has the element number 0 and 1. -/
theorem long_get {l : List Int} (hl : longKey (.ints l) = true) (hne : l ≠ []) (s : Nat) (hs : s < 2) : ∃ z, l[s]? = some z ∧ l.length ≠ 1 := by
  have h1 : l.length ≠ 1 := by simpa [longKey] using hl
  have h2 : 0 < l.length := List.length_pos_iff.2 hne
  exact ⟨l[s]'(by omega), List.getElem?_eq_getElem _, h1⟩

/-- With a list of several elements, some index of the product can only be reached at the step `s` of running through the lists. -/
theorem product_step (s : Nat) (hs : s < 2) : ∀ (keys : List AxKey) (shape : List Nat), KeysOk keys shape →
    0 < (keys.filter longKey).length → ∃ idx, InProduct keys idx ∧ ∀ t, Together t keys shape idx → t = s
  | [], _, _, h => by simp at h
  | _ :: _, [], h, _ => h.elim
  | k :: ks, d :: ds, h, hl => by
    cases hk : longKey k with
    | false =>
      rw [List.filter_cons_of_neg (by simp [hk])] at hl
      obtain ⟨idx, h1, h2⟩ := product_step s hs ks ds h.2.2.2 hl
      obtain ⟨z, hz⟩ := List.exists_mem_of_ne_nil _ h.2.1
      refine ⟨z.toNat :: idx, .cons (by rw [axis_nat h.2.2.1 hz]; exact hz) h1, fun t ht => h2 t ?_⟩
      cases k <;> exact ht.2
    | true =>
      cases k with
      | sl l => cases hk
      | ints l =>
        obtain ⟨idx, h1⟩ := product_some ks ds h.2.2.2
        obtain ⟨z, hz, hlen⟩ := long_get hk h.2.1 s hs
        have hzm : z ∈ (AxKey.ints l).vals := List.mem_of_getElem? hz
        refine ⟨z.toNat :: idx, .cons (by rw [axis_nat h.2.2.1 hzm]; exact hzm) h1, fun t ht => ?_⟩
        obtain ⟨⟨_, w, hw, hww⟩, _⟩ := ht
        rw [if_neg hlen] at hw
        have hwm : w ∈ (AxKey.ints l).vals := List.mem_of_getElem? hw
        unfold Wraps at hww
        rw [if_neg (by have := (h.2.2.1 w hwm).1; omega), axis_nat h.2.2.1 hzm] at hww
        subst hww
        obtain ⟨ht, h3⟩ := List.getElem?_eq_some_iff.1 hw
        obtain ⟨hs', h4⟩ := List.getElem?_eq_some_iff.1 hz
        have hn : l.Nodup := h.1
        exact (List.Nodup.getElem_inj_iff hn).1 (h3.trans h4.symm)

/-- With two such lists, some index of the product is not selected. -/
theorem product_more : ∀ (keys : List AxKey) (shape : List Nat), KeysOk keys shape →
    1 < (keys.filter longKey).length → ∃ idx, InProduct keys idx ∧ ∀ t, ¬ Together t keys shape idx
  | [], _, _, h => by simp at h
  | _ :: _, [], h, _ => h.elim
  | k :: ks, d :: ds, h, hl => by
    cases hk : longKey k with
    | false =>
      rw [List.filter_cons_of_neg (by simp [hk])] at hl
      obtain ⟨idx, h1, h2⟩ := product_more ks ds h.2.2.2 hl
      obtain ⟨z, hz⟩ := List.exists_mem_of_ne_nil _ h.2.1
      refine ⟨z.toNat :: idx, .cons (by rw [axis_nat h.2.2.1 hz]; exact hz) h1, fun t ht => h2 t ?_⟩
      cases k <;> exact ht.2
    | true =>
      rw [List.filter_cons_of_pos hk, List.length_cons] at hl
      cases k with
      | sl l => cases hk
      | ints l =>
        obtain ⟨idx, h1, h2⟩ := product_step 1 (by omega) ks ds h.2.2.2 (by omega)
        obtain ⟨z, hz, hlen⟩ := long_get hk h.2.1 0 (by omega)
        have hzm : z ∈ (AxKey.ints l).vals := List.mem_of_getElem? hz
        refine ⟨z.toNat :: idx, .cons (by rw [axis_nat h.2.2.1 hzm]; exact hzm) h1, fun t ht => ?_⟩
        obtain ⟨⟨_, w, hw, hww⟩, h5⟩ := ht
        have ht1 := h2 t h5
        subst ht1
        rw [if_neg hlen] at hw
        have hwm : w ∈ (AxKey.ints l).vals := List.mem_of_getElem? hw
        unfold Wraps at hww
        rw [if_neg (by have := (h.2.2.1 w hwm).1; omega), axis_nat h.2.2.1 hzm] at hww
        subst hww
        obtain ⟨ht, h3⟩ := List.getElem?_eq_some_iff.1 hw
        obtain ⟨hs', h4⟩ := List.getElem?_eq_some_iff.1 hz
        have hn : l.Nodup := h.1
        have := (List.Nodup.getElem_inj_iff hn).1 (h3.trans h4.symm)
        omega

/-- **C64 (iff, several axes).** With an index for every axis, in range, not empty and without repetition: the entries selected are the ones stored
exactly if at most one of the indices is a list of several elements. -/
theorem C64_axes_iff (shape : List Nat) (keys : List AxKey) (hk : KeysOk keys shape) :
    (∃ l, Chosen shape (.many keys) l) ↔ (keys.filter longKey).length ≤ 1 := by
  constructor
  · rintro ⟨l, h1, _, h3⟩
    by_contra hn
    obtain ⟨idx, hi, hno⟩ := product_more keys shape hk (by omega)
    obtain ⟨m, k1, k2, k3, k4⟩ := indsOf_spec shape keys hk
    have hl : resolve shape (.many keys) = .ok (m.map Int.ofNat) := by
      simp only [resolve, k1, orAll]
      rw [if_neg (by simpa using k2)]
    have hlm : l = m := map_ofNat_inj (Except.ok.inj (h1.symm.trans hl))
    subst hlm
    have hin : ∀ (keys : List AxKey) (shape idx : List Nat), KeysOk keys shape → InProduct keys idx → InBounds shape idx := by
      intro keys
      induction keys with
      | nil =>
        intro shape idx h hp
        cases hp
        cases shape with
        | nil => trivial
        | cons => exact h.elim
      | cons k ks ih =>
        intro shape idx h hp
        cases shape with
        | nil => exact h.elim
        | cons d ds =>
          cases hp with
          | cons a b => exact ⟨by have := (h.2.2.1 _ a).2; omega, ih _ _ h.2.2.2 b⟩
    have hb := hin keys shape idx hk hi
    obtain ⟨idx', b1, ⟨t, b2⟩, b3⟩ := (h3 (pos shape idx)).1 ((k4 _).2 ⟨idx, hb, hi, rfl⟩)
    rw [pos_inj shape idx' idx b1 hb b3] at b2
    exact hno t b2
  · intro h
    exact C64_partial shape (.many keys) ⟨hk, h⟩

example : KeysOk [.ints [0, 1], .ints [1, 2]] [2, 3] ∧ ¬ ([AxKey.ints [0, 1], .ints [1, 2]].filter longKey).length ≤ 1 ∧
    ([AxKey.ints [0, 1], .sl [1, 2]].filter longKey).length ≤ 1 := by
  refine ⟨⟨?_, ?_, ?_, ?_, ?_, ?_, trivial⟩, by decide, by decide⟩ <;> decide

/-- Products of single indices have one element. -/
theorem prod_single : ∀ (L : List (List Int)), (∀ l ∈ L, ∃ i, l = [i]) → ∃ r, prod L = [r]
  | [], _ => ⟨[], rfl⟩
  | l :: L, h => by
    obtain ⟨i, rfl⟩ := h l (by simp)
    obtain ⟨r, hr⟩ := prod_single L fun l hl => h l (by simp [hl])
    exact ⟨i :: r, by simp [prod, hr]⟩

theorem format_single : ∀ (L : List (Int × Nat)) (keys : List AxKey), L.mapM (fun e => formatInt e.2 e.1) = .ok keys →
    ∀ k ∈ keys, ∃ i, k.vals = [i]
  | [], keys, h => by cases h; simp
  | e :: L, keys, h => by
    rw [List.mapM_cons] at h
    cases h1 : formatInt e.2 e.1 with
    | error x => rw [h1] at h; cases h
    | ok k =>
      cases h2 : L.mapM (fun e => formatInt e.2 e.1) with
      | error x => rw [h1, h2] at h; cases h
      | ok ks =>
        rw [h1, h2] at h
        cases h
        have hk : ∃ i, k.vals = [i] := by
          unfold formatInt at h1
          split at h1
          · cases h1; exact ⟨_, rfl⟩
          · split at h1
            · cases h1; exact ⟨_, rfl⟩
            · cases h1
        intro k' hk'
        rcases List.mem_cons.1 hk' with rfl | hk'
        · exact hk
        · exact format_single L ks h2 k' hk'

/-- A list for a variable with several axes: if there is no error, one entry is stored. -/
theorem rows_single (shape : List Nat) (l m : List Int) (h : resolve shape (.rows l) = .ok m) : ∃ k : Nat, m = [(k : Int)] := by
  unfold resolve at h
  cases h1 : axesOf shape l with
  | error e => simp [h1] at h
  | ok keys =>
    simp only [h1] at h
    obtain ⟨r, hr⟩ := prod_single (((keys.zip shape).map Prod.fst).map AxKey.vals) (by
      intro l hl
      obtain ⟨k, hk, rfl⟩ := List.mem_map.1 hl
      obtain ⟨e, he, rfl⟩ := List.mem_map.1 hk
      exact format_single _ keys h1 e.1 (List.of_mem_zip he).1)
    unfold indsOf at h
    rw [hr, List.mapM_cons] at h
    cases h2 : ravel shape r with
    | error e => rw [h2] at h; cases h
    | ok k => rw [h2] at h; cases h; exact ⟨k, rfl⟩

/-- **C64, rows.** A list of rows of a variable with several axes, more than one entry in a row: never handled right. -/
theorem C64_rows_never (d : Nat) (ds : List Nat) (hs : 2 ≤ Flatten.size ds) (l : List Int) (m : List Nat) :
    ¬ Chosen (d :: ds) (.rows l) m := by
  rintro ⟨h1, _, h3⟩
  obtain ⟨k, hk⟩ := rows_single _ _ _ h1
  have hm : m = [k] := map_ofNat_inj (hk.trans rfl)
  subst hm
  obtain ⟨idx, b1, ⟨_, d', ds', i, r, z, e1, rfl, hz, hw⟩, b3⟩ := (h3 k).1 (by simp)
  cases e1
  obtain ⟨a1, a2⟩ := idxOf_spec ds 0 (by omega)
  obtain ⟨c1, c2⟩ := idxOf_spec ds 1 (by omega)
  have same : ∀ r', InBounds ds r' → r' = r := by
    intro r' hr'
    have hb : InBounds (d :: ds) (i :: r') := ⟨b1.1, hr'⟩
    have := (h3 (pos (d :: ds) (i :: r'))).2 ⟨_, hb, ⟨hb, d, ds, i, r', z, rfl, rfl, hz, hw⟩, rfl⟩
    rw [List.mem_singleton, ← b3] at this
    exact (List.cons.inj (pos_inj _ _ _ hb b1 this)).2
  have := (same _ a1).trans (same _ c1).symm
  rw [this, c2] at a2
  cases a2

example : 2 ≤ Flatten.size [3] := by decide

end Verif.Props
