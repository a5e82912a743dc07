import Verif.Lemmas.Canon
import Verif.Model.Index
import Verif.Spec.Index
/-!
Lemmas on update functions with arbitrary indices.
-/
namespace Verif.Lemmas.Index
open Verif.Model Verif.Model.Index Verif.Spec Verif.Spec.Index Verif.Lemmas Finset

variable {R : Type}

theorem store_left (a b : List R) (k : Nat) (v : R) (h : k < a.length) :
    store (a ++ b) k v = some (a.set k v ++ b) := by
  have h1 : k < (a ++ b).length := by rw [List.length_append]; omega
  unfold store
  rw [if_pos h1, List.set_append_left _ _ h]

theorem store_right (a b : List R) (k : Nat) (v : R) :
    store (a ++ b) (a.length + k) v = (store b k v).map (a ++ ·) := by
  unfold store
  by_cases h : k < b.length
  · rw [if_pos (by rw [List.length_append]; omega), if_pos h, List.set_append_right _ _ (by omega)]
    simp
  · rw [if_neg (by rw [List.length_append]; omega), if_neg h]; rfl

theorem modify_left {α : Type} (a b : List α) (f : α → α) : ∀ j < a.length, (a ++ b).modify j f = a.modify j f ++ b := by
  induction a with
  | nil => intro j h; cases h
  | cons x a ih =>
    intro j h
    cases j with
    | zero => simp
    | succ j => simp [ih j (by simpa using h)]

theorem modify_right {α : Type} (a b : List α) (f : α → α) (k : Nat) :
    (a ++ b).modify (a.length + k) f = a ++ b.modify k f := by
  induction a with
  | nil => simp
  | cons x a ih =>
    have : (x :: a).length + k = (a.length + k) + 1 := by simp; omega
    rw [this]
    simp [ih]

/-- `right` starting at parameter `j` names parameters from `j` on. -/
theorem right_ge (l : List Nat) : ∀ (j n j' i : Nat), right l j n = .entry j' i →
    j ≤ j' ∧ ∃ h : j' - j < l.length, i < l[j' - j] := by
  induction l with
  | nil => intro j n j' i h; cases n <;> cases h
  | cons s l ih =>
    intro j n j' i h
    unfold right at h
    by_cases hs : n < s
    · rw [if_pos hs] at h
      cases h
      exact ⟨Nat.le_refl _, by simp, by simpa using hs⟩
    · rw [if_neg hs] at h
      obtain ⟨h1, h2, h3⟩ := ih _ _ _ _ h
      refine ⟨by omega, by simp; omega, ?_⟩
      have : j' - j = (j' - (j + 1)) + 1 := by omega
      simp only [this, List.getElem_cons_succ]
      exact h3

/-- Writing `n` entries to the right of the beginning of the lists `rest`. -/
theorem right_store (rest : List (List R)) (one v : R) : ∀ (j n : Nat),
    store (rest.flatten ++ [one]) n v =
      match right (rest.map List.length) j n with
      | .entry j' i => some ((rest.modify (j' - j) fun p => p.set i v).flatten ++ [one])
      | .one => some (rest.flatten ++ [v])
      | .outside => none := by
  induction rest with
  | nil =>
    intro j n
    cases n with
    | zero => simp [right, store]
    | succ n => simp [right, store]
  | cons p rest ih =>
    intro j n
    simp only [List.map_cons, right, List.flatten_cons, List.append_assoc]
    by_cases hs : n < p.length
    · rw [if_pos hs, store_left _ _ _ _ hs]
      simp
    · rw [if_neg hs]
      have hn : n = p.length + (n - p.length) := by omega
      conv_lhs => rw [hn]
      rw [store_right, ih (j + 1)]
      cases hr : right (rest.map List.length) (j + 1) (n - p.length) with
      | entry j' i =>
        have hge := (right_ge _ _ _ _ _ hr).1
        have : j' - j = (j' - (j + 1)) + 1 := by omega
        simp [this]
      | one => simp
      | outside => simp

/-- Writing `n` further entries to the left of the end of the lists `pre` (in reverse order). -/
theorem left_store (pre : List (List R)) (b : List R) (v : R) : ∀ (n : Nat),
    (left (pre.map List.length) n = .outside ∧ pre.reverse.flatten.length ≤ n) ∨
    (∃ j i, left (pre.map List.length) n = .entry j i ∧ n < pre.reverse.flatten.length ∧ j < pre.length ∧
      (∃ h : j < pre.reverse.length, i < (pre.reverse[j]).length) ∧
      store (pre.reverse.flatten ++ b) (pre.reverse.flatten.length - 1 - n) v =
        some ((pre.reverse.modify j fun p => p.set i v).flatten ++ b)) := by
  induction pre with
  | nil => intro n; left; exact ⟨rfl, by simp⟩
  | cons p pre ih =>
    intro n
    simp only [List.map_cons, left, List.reverse_cons, List.flatten_append, List.length_append, List.flatten_singleton]
    by_cases hs : n < p.length
    · right
      rw [if_pos hs]
      refine ⟨_, _, rfl, by omega, by simp, ?_, ?_⟩
      · refine ⟨by simp, ?_⟩
        simp only [List.length_map]
        rw [List.getElem_append_right (by simp)]
        simp
        omega
      · rw [List.append_assoc]
        have h1 : pre.reverse.flatten.length + p.length - 1 - n = pre.reverse.flatten.length + (p.length - 1 - n) := by
          omega
        rw [h1, store_right, store_left _ _ _ _ (by omega)]
        simp only [Option.map_some, List.length_map]
        congr 1
        have h2 : (pre.reverse ++ [p]).modify pre.length (fun q => q.set (p.length - 1 - n) v)
            = pre.reverse ++ [p.set (p.length - 1 - n) v] := by
          have h3 := modify_right pre.reverse [p] (fun q => q.set (p.length - 1 - n) v) 0
          simpa using h3
        rw [h2]
        simp
    · rw [if_neg hs]
      rcases ih (n - p.length) with ⟨h1, h2⟩ | ⟨j, i, h1, h2, h3, ⟨h4, h4'⟩, h5⟩
      · left; exact ⟨h1, by omega⟩
      · right
        refine ⟨j, i, h1, by omega, by simp; omega, ?_, ?_⟩
        · refine ⟨by simp; omega, ?_⟩
          rw [List.getElem_append_left h4]
          exact h4'
        · have h6 : pre.reverse.flatten.length + p.length - 1 - n = pre.reverse.flatten.length - 1 - (n - p.length) := by
            omega
          rw [h6]
          have hlt : pre.reverse.flatten.length - 1 - (n - p.length) < pre.reverse.flatten.length := by omega
          have h7 : (pre.reverse ++ [p]).modify j (fun q => q.set i v)
              = pre.reverse.modify j (fun q => q.set i v) ++ [p] := by
            exact modify_left _ _ _ _ (by simpa using h3)
          rw [h7, List.append_assoc, store_left _ _ _ _ hlt]
          rw [store_left _ _ _ _ hlt] at h5
          have h8 := List.append_cancel_right (Option.some.inj h5)
          rw [h8]
          simp

/-- Data with the shapes of the parameters. -/
def Shaped (ps : List UParam) (d : Data R) : Prop := d.params.map List.length = ps.map UParam.size

theorem Shaped.length {ps : List UParam} {d : Data R} (h : Shaped ps d) : d.params.length = ps.length := by
  have := congrArg List.length h
  simpa using this

theorem Shaped.col {ps : List UParam} {d : Data R} (h : Shaped ps d) (j : Nat) :
    (d.params.take j).flatten.length = colOf ps j := by
  unfold colOf
  rw [List.length_flatten, List.map_take, List.map_take, h]

theorem Shaped.total {ps : List UParam} {d : Data R} (h : Shaped ps d) :
    d.params.flatten.length = totalSize ps := by
  unfold totalSize
  rw [List.length_flatten, h]

theorem Shaped.setEntry {ps : List UParam} {d : Data R} (h : Shaped ps d) (j i : Nat) (v : R) :
    Shaped ps (d.setEntry j i v) := by
  unfold Shaped Data.setEntry
  rw [← h]
  apply List.ext_getElem
  · simp
  · intro k h1 h2
    simp only [List.getElem_map, List.getElem_modify]
    split <;> simp

theorem Shaped.write {ps : List UParam} {d d' : Data R} (h : Shaped ps d) (t : Target) (v : R)
    (hw : t.write v d = some d') : Shaped ps d' := by
  cases t with
  | entry j i => cases hw; exact h.setEntry j i v
  | one => cases hw; exact h
  | outside => cases hw

theorem updateZ_eq {ps : List UParam} (hn : (ps.map UParam.name).Nodup) (hpos : ∀ p ∈ ps, 0 < p.size) (j : Nat)
    (hj : j < ps.length) (idx : Int) (val : R) (vec : List R) :
    updateZ ps ⟨(ps[j]).name, idx, val⟩ vec = storeZ vec (colOf ps j + idx) val := by
  unfold updateZ
  simp only [baseCol_eq ps hn hpos j hj]
  rfl

/-- The assignment of a call, in terms of the data. -/
theorem storeZ_target {ps : List UParam} {d : Data R} (h : Shaped ps d) (j : Nat) (hj : j < ps.length) (idx : Int)
    (val : R) :
    storeZ d.flat (colOf ps j + idx) val =
      ((target (ps.map UParam.size) j idx).write val d).map Data.flat := by
  have hlen := h.length
  have hsplit : d.params = d.params.take j ++ d.params.drop j := (List.take_append_drop j d.params).symm
  have hflat : d.flat = (d.params.take j).flatten ++ ((d.params.drop j).flatten ++ [d.one]) := by
    unfold Data.flat
    conv_lhs => rw [hsplit]
    rw [List.flatten_append, List.append_assoc]
  have htl : (d.params.take j).length = j := by rw [List.length_take]; omega
  unfold target
  by_cases hi : 0 ≤ idx
  · rw [if_pos hi]
    unfold storeZ
    rw [if_pos (by omega)]
    have hk : (((colOf ps j : Nat) : Int) + idx).toNat = (d.params.take j).flatten.length + idx.toNat := by
      rw [h.col]; omega
    rw [hk, hflat, store_right, right_store _ _ _ j]
    have hmap : (d.params.drop j).map List.length = (ps.map UParam.size).drop j := by
      rw [List.map_drop, h]
    rw [hmap]
    cases hr : right ((ps.map UParam.size).drop j) j idx.toNat with
    | entry j' i =>
      have hge := (right_ge _ _ _ _ _ hr).1
      simp only [Option.map_some, Target.write, Data.flat, Data.setEntry]
      congr 1
      have hm := modify_right (d.params.take j) (d.params.drop j) (fun p => p.set i val) (j' - j)
      rw [htl, show j + (j' - j) = j' by omega, ← hsplit] at hm
      rw [hm, List.flatten_append, List.append_assoc]
    | one =>
      simp only [Option.map_some, Target.write, Data.flat]
      congr 1
      conv_rhs => rw [hsplit]
      rw [List.flatten_append, List.append_assoc]
    | outside => rfl
  · rw [if_neg hi]
    have hrev : ((d.params.take j).reverse).map List.length = ((ps.map UParam.size).take j).reverse := by
      rw [List.map_reverse, List.map_take, h]
    have hL := left_store (d.params.take j).reverse ((d.params.drop j).flatten ++ [d.one]) val (-idx - 1).toNat
    rw [hrev, List.reverse_reverse, h.col] at hL
    rcases hL with ⟨h1, h2⟩ | ⟨j', i, h1, h2, h3, -, h5⟩
    · rw [h1]
      unfold storeZ
      rw [if_neg (by omega)]
      rfl
    · rw [h1]
      unfold storeZ
      rw [if_pos (by omega)]
      have hk : (((colOf ps j : Nat) : Int) + idx).toNat = colOf ps j - 1 - (-idx - 1).toNat := by omega
      rw [hk, hflat, h5]
      simp only [Target.write, Option.map_some, Data.flat, Data.setEntry]
      congr 1
      rw [List.length_reverse] at h3
      have hm := modify_left (d.params.take j) (d.params.drop j) (fun p => p.set i val) j' h3
      rw [← hsplit] at hm
      rw [hm, List.flatten_append, List.append_assoc]

theorem right_pos (l : List Nat) : ∀ (j n j' i : Nat), right l j n = .entry j' i →
    n = (l.take (j' - j)).sum + i := by
  induction l with
  | nil => intro j n j' i h; cases n <;> cases h
  | cons s l ih =>
    intro j n j' i h
    unfold right at h
    by_cases hs : n < s
    · rw [if_pos hs] at h
      cases h
      simp
    · rw [if_neg hs] at h
      have h1 := (right_ge _ _ _ _ _ h).1
      have h2 := ih _ _ _ _ h
      have : j' - j = (j' - (j + 1)) + 1 := by omega
      rw [this, List.take_succ_cons, List.sum_cons]
      omega

theorem right_one (l : List Nat) : ∀ (j n : Nat), right l j n = .one → n = l.sum := by
  induction l with
  | nil => intro j n h; cases n with
    | zero => rfl
    | succ n => cases h
  | cons s l ih =>
    intro j n h
    unfold right at h
    by_cases hs : n < s
    · rw [if_pos hs] at h; cases h
    · rw [if_neg hs] at h
      have := ih _ _ h
      rw [List.sum_cons]; omega

theorem left_pos (l : List Nat) : ∀ (n j' i : Nat), left l n = .entry j' i →
    ∃ h : j' < l.length, i < l.reverse[j']'(by simpa using h) ∧ (l.reverse.take j').sum + i + n + 1 = l.sum := by
  induction l with
  | nil => intro n j' i h; cases h
  | cons s l ih =>
    intro n j' i h
    unfold left at h
    by_cases hs : n < s
    · rw [if_pos hs] at h
      cases h
      refine ⟨by simp, ?_, ?_⟩
      · simp only [List.reverse_cons]
        rw [List.getElem_append_right (by simp)]
        simp; omega
      · rw [List.reverse_cons, List.take_append_of_le_length (by simp), List.take_of_length_le (by simp)]
        simp; omega
    · rw [if_neg hs] at h
      obtain ⟨h1, h2, h3⟩ := ih _ _ _ h
      refine ⟨by simp; omega, ?_, ?_⟩
      · simp only [List.reverse_cons]
        rw [List.getElem_append_left (by simpa using h1)]
        exact h2
      · rw [List.reverse_cons, List.take_append_of_le_length (by simp; omega), List.sum_cons]
        omega

theorem left_not_one (l : List Nat) : ∀ n, left l n ≠ .one := by
  induction l with
  | nil => intro n h; cases h
  | cons s l ih =>
    intro n h
    unfold left at h
    by_cases hs : n < s
    · rw [if_pos hs] at h; cases h
    · rw [if_neg hs] at h; exact ih _ h

theorem colOf_eq_sum (ps : List UParam) (j : Nat) : colOf ps j = ((ps.map UParam.size).take j).sum := by
  unfold colOf; rw [List.map_take]

/-- Where a call goes, in terms of positions. -/
theorem target_entry {ps : List UParam} (j : Nat) (hj : j < ps.length) (idx : Int) (j' i : Nat)
    (ht : target (ps.map UParam.size) j idx = .entry j' i) :
    ∃ h : j' < ps.length, i < (ps[j']).size ∧ ((colOf ps j : Nat) : Int) + idx = colOf ps j' + i := by
  unfold target at ht
  by_cases hi : 0 ≤ idx
  · rw [if_pos hi] at ht
    obtain ⟨h1, h2, h3⟩ := right_ge _ _ _ _ _ ht
    have h4 := right_pos _ _ _ _ _ ht
    rw [List.length_drop, List.length_map] at h2
    have h5 : j' < ps.length := by omega
    refine ⟨h5, ?_, ?_⟩
    · simp only [List.getElem_drop, List.getElem_map] at h3
      have : j + (j' - j) = j' := by omega
      simpa [this] using h3
    · have h6 : colOf ps j' = colOf ps j + (((ps.map UParam.size).drop j).take (j' - j)).sum := by
        rw [colOf_eq_sum, colOf_eq_sum, ← List.sum_append, ← List.take_add, show j + (j' - j) = j' by omega]
      omega
  · rw [if_neg hi] at ht
    obtain ⟨h1, h2, h3⟩ := left_pos _ _ _ _ ht
    rw [List.length_reverse, List.length_take, List.length_map] at h1
    have h5 : j' < ps.length := by omega
    refine ⟨h5, ?_, ?_⟩
    · simpa [List.reverse_reverse] using h2
    · rw [List.reverse_reverse, List.take_take, Nat.min_eq_left (by omega), ← colOf_eq_sum, List.sum_reverse, ← colOf_eq_sum] at h3
      omega

theorem target_one {ps : List UParam} (j : Nat) (hj : j < ps.length) (idx : Int)
    (ht : target (ps.map UParam.size) j idx = .one) : ((colOf ps j : Nat) : Int) + idx = totalSize ps := by
  unfold target at ht
  by_cases hi : 0 ≤ idx
  · rw [if_pos hi] at ht
    have h4 := right_one _ _ _ ht
    have h6 : totalSize ps = colOf ps j + ((ps.map UParam.size).drop j).sum := by
      unfold totalSize
      rw [colOf_eq_sum, ← List.sum_append, List.take_append_drop]
    omega
  · rw [if_neg hi] at ht
    exact absurd ht (left_not_one _ _)

/-- In-range indices go to the parameter itself. -/
theorem target_own {ps : List UParam} (j : Nat) (hj : j < ps.length) (i : Nat) (hi : i < (ps[j]).size) :
    target (ps.map UParam.size) j i = .entry j i := by
  unfold target
  rw [if_pos (by omega)]
  have : (ps.map UParam.size).drop j = (ps[j]).size :: (ps.map UParam.size).drop (j + 1) := by
    rw [List.drop_eq_getElem_cons (by simpa using hj)]
    simp
  rw [this]
  unfold right
  rw [if_pos (by simpa using hi)]
  rfl

theorem setEntry_flatten {ps : List UParam} {d : Data R} (h : Shaped ps d) (j i : Nat) (hj : j < ps.length)
    (hi : i < (ps[j]).size) (v : R) :
    colOf ps j + i < totalSize ps ∧
    (d.setEntry j i v).params.flatten = d.params.flatten.set (colOf ps j + i) v := by
  have hlt : colOf ps j + i < totalSize ps := by
    have h1 := colOf_succ ps j hj
    have h2 := colOf_mono ps (i := j + 1) (j := ps.length) (by omega) (Nat.le_refl _)
    rw [colOf_length] at h2
    omega
  refine ⟨hlt, ?_⟩
  have h1 := storeZ_target h j hj i v
  rw [target_own j hj i hi] at h1
  unfold storeZ at h1
  rw [if_pos (by omega), show (((colOf ps j : Nat) : Int) + (i : Int)).toNat = colOf ps j + i by omega] at h1
  have h2 : store d.flat (colOf ps j + i) v = some (d.params.flatten.set (colOf ps j + i) v ++ [d.one]) :=
    store_left _ _ _ _ (by rw [h.total]; exact hlt)
  rw [h2] at h1
  exact (List.append_cancel_right (Option.some.inj h1)).symm

/-- The canonicalization loop when the last entry of the array is `v`. -/
theorem canonVec_eq [CommRing R] [DecidableEq R] (m : RawMap R) (u : Bool) (θ : List R) (v : R)
    (hc : m.mapping.cols = θ.length + 1) :
    canonVec (m.final u) (θ ++ [v]) = some ((List.range (m.final u).rows).map fun i =>
      mulVec m.mapping.cols (m.final u).at (fn (θ ++ [v])) i) := by
  unfold canonVec
  obtain ⟨out, h1, h2, h3, h4⟩ := canonicalizeC_ok (m.final u) (final_wf m u) (θ ++ [v])
    (List.replicate (m.final u).rows 0) (by rw [final_cols, hc]; simp) (by simp)
  rw [h1]
  congr 1
  apply List.ext_getElem?
  intro i
  by_cases hi : i < (m.final u).rows
  · rw [h3 i hi, final_cols]; simp [hi]
  · rw [List.getElem?_eq_none (by rw [h2]; simp; omega), List.getElem?_eq_none (by simp; omega)]

theorem canonVec_rows [CommRing R] [DecidableEq R] (m : RawMap R) (upper : Bool) (θ : List R) (v : R)
    (hc : m.mapping.cols = θ.length + 1) :
    canonVec (m.final upper) (θ ++ [v]) =
      some ((if upper then nonzeroRows m.signed else List.range m.mapping.rows).map fun r =>
        ∑ j ∈ range θ.length, (m.mapping.at r j * m.sign r) * fn θ j + (m.mapping.at r θ.length * m.sign r) * v) := by
  rw [canonVec_eq m upper θ v hc]
  congr 1
  have hrow : ∀ i < (m.final upper).rows,
      mulVec m.mapping.cols (m.final upper).at (fn (θ ++ [v])) i
        = ∑ j ∈ range θ.length, (m.mapping.at (srcRow m upper i) j * m.sign (srcRow m upper i)) * fn θ j
          + (m.mapping.at (srcRow m upper i) θ.length * m.sign (srcRow m upper i)) * v := by
    intro i hi
    unfold mulVec
    rw [hc, sum_range_succ]
    congr 1
    · apply sum_congr rfl
      intro j hj
      have hj' : j < θ.length := by simpa using hj
      rw [final_at m upper i j hi (by rw [hc]; omega)]
      congr 1
      simp [fn, List.getD, List.getElem?_append, hj']
    · rw [final_at m upper i _ hi (by rw [hc]; omega)]
      congr 1
      simp [fn, List.getD]
  cases upper with
  | false =>
    simp only [Bool.false_eq_true, if_false]
    exact List.map_congr_left fun i hi => by
      rw [hrow i (by simpa using hi)]; simp [srcRow]
  | true =>
    simp only [if_true]
    apply List.ext_getElem
    · simp [RawMap.final, Sp.selectRows]
    · intro i h1 h2
      have hi : i < (m.final true).rows := by simpa using h1
      have hi' : i < (nonzeroRows m.signed).length := by simpa using h2
      have hsrc : srcRow m true i = (nonzeroRows m.signed)[i] := by
        simp [srcRow, List.getElem?_eq_getElem hi']
      simp only [List.getElem_map, List.getElem_range]
      rw [hrow i hi, hsrc]

/-- The call made by a use. -/
def opOf (ps : List UParam) : Use R → Op R
  | .set j idx v => .update ⟨((ps[j]?).map UParam.name).getD "", idx, v⟩
  | .solve => .solve

/-- A use of an existing update function. -/
def Known (ps : List UParam) : Use R → Prop
  | .set j _ _ => j < ps.length
  | .solve => True

theorem step_set [CommRing R] [DecidableEq R] {ps : List UParam} {ids : List CId} {maps : CId → Option (RawMap R)}
    (hw : WFInput ps ids maps) (s : St R) (d : Data R) (hd : Shaped ps d) (hs : s.vec = d.flat) (j : Nat)
    (hj : j < ps.length) (idx : Int) (v : R) :
    step ps ids maps s (opOf ps (.set j idx v)) =
      ((target (ps.map UParam.size) j idx).write v d).map fun d' =>
        { s with vec := d'.flat
                 flags := fun c => (ids.filter fun c => adjacent ps (maps c) j).contains c || s.flags c } := by
  have hname : ((ps[j]?).map UParam.name).getD "" = (ps[j]).name := by
    rw [List.getElem?_eq_getElem hj]; rfl
  unfold opOf step
  simp only [hname]
  rw [updateZ_eq hw.names hw.sizes j hj, hs, storeZ_target hd j hj, Option.map_map,
    outdated_lookup ps hw.names ids maps j hj]
  rfl

theorem run_track [CommRing R] [DecidableEq R] {ps : List UParam} {ids : List CId} {maps : CId → Option (RawMap R)}
    (hw : WFInput ps ids maps) : ∀ (us : List (Use R)) (s : St R) (d : Data R), (∀ u ∈ us, Known ps u) → Shaped ps d →
      s.vec = d.flat →
      (run ps ids maps s (us.map (opOf ps))).map St.vec = (track (ps.map UParam.size) d us).map Data.flat := by
  intro us
  induction us with
  | nil => intro s d _ _ hs; simp [run, track, hs]
  | cons u us ih =>
    intro s d hu hd hs
    have hu' := fun w hw' => hu w (List.mem_cons_of_mem _ hw')
    cases u with
    | solve =>
      rw [List.map_cons]
      simp only [run, track]
      show ((step ps ids maps s .solve).bind fun s => run ps ids maps s (us.map (opOf ps))).map St.vec = _
      simp only [step, Option.bind_some]
      exact ih _ d hu' hd hs
    | set j idx v =>
      have hj : j < ps.length := hu _ List.mem_cons_self
      rw [List.map_cons]
      simp only [run, track]
      rw [step_set hw s d hd hs j hj]
      cases ht : (target (ps.map UParam.size) j idx).write v d with
      | none => rfl
      | some d' =>
        simp only [Option.map_some, Option.bind_some]
        exact ih _ d' hu' (hd.write _ _ ht) rfl

end Verif.Lemmas.Index
