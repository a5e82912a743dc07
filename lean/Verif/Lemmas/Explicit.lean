import Verif.Spec.Explicit
import Verif.Lemmas.Uncanon
import Mathlib.Algebra.Order.Ring.Defs
import Mathlib.Algebra.Order.BigOperators.Group.Finset
import Mathlib.Tactic.Linarith
namespace Verif.Lemmas.Explicit
open Verif.Model Verif.Model.Explicit Verif.Spec Verif.Spec.Explicit Finset

/-! ### bounds -/
section bounds
variable {R : Type} [LinearOrder R]

theorem clamp_mem (b : Bounds R) (k : Nat) (v : R) (h : b.lower k ≤ b.upper k) :
    b.lower k ≤ clamp b k v ∧ clamp b k v ≤ b.upper k := by
  unfold clamp
  by_cases h1 : v < b.lower k
  · simp only [if_pos h1, if_neg (not_lt.2 h)]; exact ⟨le_refl _, h⟩
  · simp only [if_neg h1]
    by_cases h2 : b.upper k < v
    · simp only [if_pos h2]; exact ⟨h, le_refl _⟩
    · simp only [if_neg h2]; exact ⟨not_lt.1 h1, not_lt.1 h2⟩

theorem clamp_id (b : Bounds R) (k : Nat) (v : R) (h1 : b.lower k ≤ v) (h2 : v ≤ b.upper k) :
    clamp b k v = v := by
  unfold clamp
  simp only [if_neg (not_lt.2 h1), if_neg (not_lt.2 h2)]

theorem clampRun_get (b : Bounds R) (us : List (Nat × R)) : ∀ (p : Nat → R) (k : Nat),
    clampRun b p us k = match lastGiven us k with
      | some v => clamp b k v
      | none => p k := by
  induction us with
  | nil => intro p k; rfl
  | cons u us ih =>
    intro p k
    show clampRun b (clampUpdate b p u.1 u.2) us k = _
    rw [ih]
    have e : lastGiven (u :: us) k = match lastGiven us k with
      | some v => some v
      | none => if u.1 = k then some u.2 else none := rfl
    rw [e]
    cases h : lastGiven us k with
    | some v => rfl
    | none =>
      by_cases hk : u.1 = k
      · subst hk; simp [clampUpdate]
      · simp [clampUpdate, hk, Ne.symm hk]

theorem boundStep_upper {b b' : Bounds R} {c : PCon R} (h : boundStep b c = .ok b') (k : Nat) :
    b'.upper k = if c.hasVars = false ∧ c.hasParams = true then (upperAt c k).getD (b.upper k) else b.upper k := by
  unfold boundStep at h
  by_cases hc : c.hasVars = false ∧ c.hasParams = true
  · rw [if_pos hc] at h ⊢
    unfold upperAt
    split at h
    · next col size v e1 e2 =>
      cases h
      rw [e1, e2]
      simp only [setSlice]
      by_cases hk : col ≤ k ∧ k < col + size
      · simp [hk]
      · simp [hk]
    · next v col size e1 e2 => cases h; rw [e1, e2]; rfl
    · cases h
  · rw [if_neg hc] at h ⊢
    cases h; rfl

theorem boundStep_lower {b b' : Bounds R} {c : PCon R} (h : boundStep b c = .ok b') (k : Nat) :
    b'.lower k = if c.hasVars = false ∧ c.hasParams = true then (lowerAt c k).getD (b.lower k) else b.lower k := by
  unfold boundStep at h
  by_cases hc : c.hasVars = false ∧ c.hasParams = true
  · rw [if_pos hc] at h ⊢
    unfold lowerAt
    split at h
    · next col size v e1 e2 => cases h; rw [e1, e2]; rfl
    · next v col size e1 e2 =>
      cases h
      rw [e1, e2]
      simp only [setSlice]
      by_cases hk : col ≤ k ∧ k < col + size
      · simp [hk]
      · simp [hk]
    · cases h
  · rw [if_neg hc] at h ⊢
    cases h; rfl

theorem foldB_cons {b b' : Bounds R} {c : PCon R} {cs : List (PCon R)}
    (h : (c :: cs).foldlM boundStep b = .ok b') :
    ∃ b1, boundStep b c = .ok b1 ∧ cs.foldlM boundStep b1 = .ok b' := by
  rw [List.foldlM_cons] at h
  cases h1 : boundStep b c with
  | error e => rw [h1] at h; exact absurd h (by simp [bind, Except.bind])
  | ok b1 => rw [h1] at h; exact ⟨b1, rfl, h⟩

/-- Declared upper bounds: the resulting bound is at most each of them when later bounds are tighter. -/
theorem fold_upper_le (cs : List (PCon R)) : ∀ (b b' : Bounds R) (k : Nat) (x : R),
    cs.foldlM boundStep b = .ok b' →
    cs.Pairwise (fun c d => OnParams c → OnParams d → ∀ v w, upperAt c k = some v → upperAt d k = some w → w ≤ v) →
    x ≤ b'.upper k →
    (∀ c ∈ cs, OnParams c → ∀ v, upperAt c k = some v → x ≤ v) ∧
      ((∀ c ∈ cs, OnParams c → upperAt c k = none) → x ≤ b.upper k) := by
  induction cs with
  | nil =>
    intro b b' k x h _ hx
    cases h
    exact ⟨by simp, fun _ => hx⟩
  | cons c cs ih =>
    intro b b' k x h hp hx
    obtain ⟨b1, h1, h2⟩ := foldB_cons h
    rw [List.pairwise_cons] at hp
    obtain ⟨i1, i2⟩ := ih b1 b' k x h2 hp.2 hx
    have hu := boundStep_upper h1 k
    refine ⟨?_, ?_⟩
    · intro d hd hod v hv
      rcases List.mem_cons.1 hd with rfl | hd
      · by_cases he : ∀ c ∈ cs, OnParams c → upperAt c k = none
        · have := i2 he
          rw [hu, if_pos (show _ ∧ _ from hod), hv] at this
          exact this
        · obtain ⟨e, he1, he2, w, hw⟩ : ∃ e ∈ cs, OnParams e ∧ ∃ w, upperAt e k = some w := by
            by_contra hn
            apply he
            intro e he1 he2
            cases hw : upperAt e k with
            | none => rfl
            | some w => exact absurd ⟨e, he1, he2, w, hw⟩ hn
          exact le_trans (i1 e he1 he2 w hw) (hp.1 e he1 hod he2 v w hv hw)
      · exact i1 d hd hod v hv
    · intro hn
      have := i2 (fun d hd => hn d (List.mem_cons_of_mem _ hd))
      rw [hu] at this
      by_cases hc : c.hasVars = false ∧ c.hasParams = true
      · rw [if_pos hc, hn c (List.mem_cons_self ..) hc] at this; exact this
      · rw [if_neg hc] at this; exact this

theorem fold_lower_le (cs : List (PCon R)) : ∀ (b b' : Bounds R) (k : Nat) (x : R),
    cs.foldlM boundStep b = .ok b' →
    cs.Pairwise (fun c d => OnParams c → OnParams d → ∀ v w, lowerAt c k = some v → lowerAt d k = some w → v ≤ w) →
    b'.lower k ≤ x →
    (∀ c ∈ cs, OnParams c → ∀ v, lowerAt c k = some v → v ≤ x) ∧
      ((∀ c ∈ cs, OnParams c → lowerAt c k = none) → b.lower k ≤ x) := by
  induction cs with
  | nil =>
    intro b b' k x h _ hx
    cases h
    exact ⟨by simp, fun _ => hx⟩
  | cons c cs ih =>
    intro b b' k x h hp hx
    obtain ⟨b1, h1, h2⟩ := foldB_cons h
    rw [List.pairwise_cons] at hp
    obtain ⟨i1, i2⟩ := ih b1 b' k x h2 hp.2 hx
    have hu := boundStep_lower h1 k
    refine ⟨?_, ?_⟩
    · intro d hd hod v hv
      rcases List.mem_cons.1 hd with rfl | hd
      · by_cases he : ∀ c ∈ cs, OnParams c → lowerAt c k = none
        · have := i2 he
          rw [hu, if_pos (show _ ∧ _ from hod), hv] at this
          exact this
        · obtain ⟨e, he1, he2, w, hw⟩ : ∃ e ∈ cs, OnParams e ∧ ∃ w, lowerAt e k = some w := by
            by_contra hn
            apply he
            intro e he1 he2
            cases hw : lowerAt e k with
            | none => rfl
            | some w => exact absurd ⟨e, he1, he2, w, hw⟩ hn
          exact le_trans (hp.1 e he1 hod he2 v w hv hw) (i1 e he1 he2 w hw)
      · exact i1 d hd hod v hv
    · intro hn
      have := i2 (fun d hd => hn d (List.mem_cons_of_mem _ hd))
      rw [hu] at this
      by_cases hc : c.hasVars = false ∧ c.hasParams = true
      · rw [if_pos hc, hn c (List.mem_cons_self ..) hc] at this; exact this
      · rw [if_neg hc] at this; exact this

/-- A value that meets all declared bounds and the initial ones meets the resulting bounds. -/
theorem fold_in (cs : List (PCon R)) : ∀ (b b' : Bounds R) (k : Nat) (x : R),
    cs.foldlM boundStep b = .ok b' → b.lower k ≤ x → x ≤ b.upper k →
    (∀ c ∈ cs, OnParams c → HoldsAt c k x) → b'.lower k ≤ x ∧ x ≤ b'.upper k := by
  induction cs with
  | nil => intro b b' k x h h1 h2 _; cases h; exact ⟨h1, h2⟩
  | cons c cs ih =>
    intro b b' k x h h1 h2 hh
    obtain ⟨b1, e1, e2⟩ := foldB_cons h
    apply ih b1 b' k x e2 _ _ (fun d hd => hh d (List.mem_cons_of_mem _ hd))
    · rw [boundStep_lower e1]
      by_cases hc : c.hasVars = false ∧ c.hasParams = true
      · rw [if_pos hc]
        have := hh c (List.mem_cons_self ..) hc
        cases hv : lowerAt c k with
        | none => exact h1
        | some v => exact (this.2 v hv).1
      · rw [if_neg hc]; exact h1
    · rw [boundStep_upper e1]
      by_cases hc : c.hasVars = false ∧ c.hasParams = true
      · rw [if_pos hc]
        have := hh c (List.mem_cons_self ..) hc
        cases hv : upperAt c k with
        | none => exact h2
        | some v => exact (this.1 v hv).1
      · rw [if_neg hc]; exact h2

end bounds

/-! ### selection -/
section select
variable {α β : Type}

theorem sel_length_le : ∀ (m : List Bool) (xs : List α), (sel m xs).length ≤ xs.length
  | [], xs => by simp [sel]
  | true :: ms, [] => by simp [sel]
  | false :: ms, [] => by simp [sel]
  | true :: ms, x :: xs => by simp [sel]; exact sel_length_le ms xs
  | false :: ms, x :: xs => by simp [sel]; exact Nat.le_succ_of_le (sel_length_le ms xs)

theorem sel_map (f : α → β) : ∀ (m : List Bool) (xs : List α), sel m (xs.map f) = (sel m xs).map f
  | [], xs => by simp [sel]
  | true :: ms, [] => by simp [sel]
  | false :: ms, [] => by simp [sel]
  | true :: ms, x :: xs => by simp [sel]; exact sel_map f ms xs
  | false :: ms, x :: xs => by simp [sel]; exact sel_map f ms xs

theorem sel_sel : ∀ (m : List Bool) (v : List Bool) (xs : List α), m.length = xs.length →
    v.length = (sel m xs).length → sel v (sel m xs) = sel (putMask m v) xs
  | [], v, [], _, hv => by cases v <;> simp [sel, putMask]
  | true :: ms, [], x :: xs, hm, hv => by simp [sel] at hv
  | true :: ms, true :: v, x :: xs, hm, hv => by
    simp [sel, putMask] at hm hv ⊢; exact sel_sel ms v xs hm hv
  | true :: ms, false :: v, x :: xs, hm, hv => by
    simp [sel, putMask] at hm hv ⊢; exact sel_sel ms v xs hm hv
  | false :: ms, v, x :: xs, hm, hv => by
    simp [sel, putMask] at hm hv ⊢; exact sel_sel ms v xs hm hv

theorem sel_length_eq : ∀ (m : List Bool) (xs : List α) (ys : List β), xs.length = ys.length →
    (sel m xs).length = (sel m ys).length
  | [], _, _, _ => by simp [sel]
  | b :: ms, [], [], _ => by cases b <;> simp [sel]
  | true :: ms, x :: xs, y :: ys, h => by simp [sel] at h ⊢; exact sel_length_eq ms xs ys h
  | false :: ms, x :: xs, y :: ys, h => by simp [sel] at h ⊢; exact sel_length_eq ms xs ys h

variable {R : Type} [CommRing R]

theorem colDot_split : ∀ (m : List Bool) (cols : List (Nat → R)) (th : List R) (r : Nat),
    m.length = cols.length → th.length = cols.length →
    colDot cols th r = colDot (sel (m.map (!·)) cols) (sel (m.map (!·)) th) r + colDot (sel m cols) (sel m th) r
  | [], [], [], r, _, _ => by simp [colDot, sel]
  | true :: ms, c :: cols, t :: th, r, h1, h2 => by
    have := colDot_split ms cols th r (by simpa using h1) (by simpa using h2)
    simp [colDot, sel] at this ⊢
    rw [this]; ring
  | false :: ms, c :: cols, t :: th, r, h1, h2 => by
    have := colDot_split ms cols th r (by simpa using h1) (by simpa using h2)
    simp [colDot, sel] at this ⊢
    rw [this]; ring

theorem colDot_drop : ∀ (m : List Bool) (cols : List (Nat → R)) (th : List R) (r : Nat),
    m.length = cols.length → th.length = cols.length →
    (∀ i : Nat, m[i]? = some false → ∀ c : Nat → R, cols[i]? = some c → c r = 0) →
    colDot cols th r = colDot (sel m cols) (sel m th) r
  | [], [], [], r, _, _, _ => by simp [colDot, sel]
  | true :: ms, c :: cols, t :: th, r, h1, h2, h3 => by
    have := colDot_drop ms cols th r (by simpa using h1) (by simpa using h2) (fun i => by simpa using h3 (i + 1))
    simp [colDot, sel] at this ⊢
    rw [this]
  | false :: ms, c :: cols, t :: th, r, h1, h2, h3 => by
    have := colDot_drop ms cols th r (by simpa using h1) (by simpa using h2) (fun i => by simpa using h3 (i + 1))
    have h0 := h3 0 rfl c rfl
    simp [colDot, sel] at this ⊢
    rw [this, h0]; ring

/-- Components with equal bounds are determined by them. -/
theorem sel_fixed [LinearOrder R] : ∀ (lo up th : List R), lo.length = up.length → th.length = lo.length →
    (∀ i (h : i < th.length) (h1 : i < lo.length) (h2 : i < up.length), lo[i] ≤ th[i] ∧ th[i] ≤ up[i]) →
    sel ((List.zipWith (fun a b => decide (a ≠ b)) lo up).map (!·)) th =
      sel ((List.zipWith (fun a b => decide (a ≠ b)) lo up).map (!·)) lo
  | [], [], [], _, _, _ => by simp [sel]
  | a :: lo, b :: up, t :: th, h1, h2, h3 => by
    have ih := sel_fixed lo up th (by simpa using h1) (by simpa using h2) (fun i h h1 h2 =>
      h3 (i + 1) (Nat.succ_lt_succ h) (Nat.succ_lt_succ h1) (Nat.succ_lt_succ h2))
    by_cases h : a = b
    · have := h3 0 (by simp) (by simp) (by simp)
      simp at this
      subst h
      have : t = a := le_antisymm this.2 this.1
      subst this
      simp [sel] at ih ⊢
      exact ih
    · simp [sel, h] at ih ⊢
      exact ih

theorem colDot_unit (N : Nat) (g : Nat → R) (φ : Nat → Option Nat) (r : Nat) (col : Nat → Nat → R)
    (hcol : ∀ i < N, col i r = if φ r = some i then 1 else 0) (j : Nat) (hj : j < N) (hφ : φ r = some j) :
    colDot ((List.range N).map col) ((List.range N).map g) r = g j := by
  have key : ∀ M ≤ N, colDot ((List.range M).map col) ((List.range M).map g) r = if j < M then g j else 0 := by
    intro M
    induction M with
    | zero => intro _; simp [colDot]
    | succ M ih =>
      intro hM
      have := ih (by omega)
      unfold colDot at this ⊢
      rw [List.range_succ, List.map_append, List.map_append, List.zipWith_append (by simp), List.sum_append, this]
      simp only [List.map_cons, List.map_nil, List.zipWith_cons_cons, List.zipWith_nil_left, List.sum_cons,
        List.sum_nil, add_zero]
      rw [hcol M (by omega), hφ]
      by_cases h : j = M
      · subst h; simp
      · by_cases h2 : j < M
        · simp [h, h2, Nat.lt_succ_of_lt h2]
        · have : ¬ j < M + 1 := by omega
          simp [h, h2, this]
  rw [key N (le_refl _), if_pos hj]

end select
end Verif.Lemmas.Explicit
