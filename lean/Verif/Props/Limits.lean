import Verif.Spec.Limits
import Verif.Props.Explicit
/-!
# C85: limits on parameters in explicit mode
-/
namespace Verif.Props
open Verif.Model Verif.Model.Limits Verif.Spec.Limits

theorem lead_row (m n : Nat) : lead (List.replicate m 1 ++ [n]) = [n] := by
  induction m with
  | zero => simp [lead]
  | succ m ih =>
    cases m with
    | zero => simp [lead]
    | succ m => rw [List.replicate_succ, List.replicate_succ, List.cons_append, List.cons_append]
                rw [List.replicate_succ, List.cons_append] at ih
                exact ih

theorem rowLike_form (sh : List Nat) (hne : sh ≠ []) (h : RowLike sh) :
    sh = List.replicate (sh.length - 1) 1 ++ [sh.getLast hne] := by
  conv_lhs => rw [← List.dropLast_append_getLast hne]
  congr 1
  rw [List.eq_replicate_iff]
  exact ⟨by simp, h⟩

theorem lead_notRow (sh : List Nat) (h : ¬ RowLike sh) : ∃ a b l, lead sh = a :: b :: l := by
  induction sh with
  | nil => exact absurd (by intro d hd; simp at hd) h
  | cons d ds ih =>
    cases ds with
    | nil => exact absurd (by intro d hd; simp at hd) h
    | cons e es =>
      by_cases hd : d = 1
      · subst hd
        have : lead (1 :: e :: es) = lead (e :: es) := by rw [lead]
        rw [this]
        apply ih
        intro hr
        apply h
        intro x hx
        rw [List.dropLast_cons_cons] at hx
        rcases List.mem_cons.mp hx with hx | hx
        · exact hx
        · exact hr x hx
      · refine ⟨d, e, es, ?_⟩
        rw [lead]
        intro d' ds' heq
        cases heq
        exact hd rfl

theorem spread_length {R : Type} (a : Arr R) (len : Nat) (v : List R) (h : spread a len = some v) : v.length = len := by
  unfold spread at h
  split at h
  · cases h; simp
  · split at h
    · cases h; simp
    · split at h
      · cases h; simp
      · cases h
  · cases h

theorem assign_get {R : Type} (vec : List R) (lo size : Nat) (a : Arr R) (r : List R) (hlo : lo ≤ vec.length)
    (h : assign vec lo (lo + size) a = .ok r) :
    ∃ v, spread a (min (lo + size) vec.length - lo) = some v ∧ r.length = vec.length ∧
      ∀ k, r[k]? = if lo ≤ k ∧ k < lo + size ∧ k < vec.length then v[k - lo]? else vec[k]? := by
  unfold assign at h
  rw [Nat.min_eq_left hlo] at h
  cases hs : spread a (min (lo + size) vec.length - lo) with
  | none => rw [hs] at h; cases h
  | some v =>
    rw [hs] at h
    cases h
    have hl := spread_length a _ v hs
    refine ⟨v, rfl, ?_, fun k => ?_⟩
    · simp only [List.length_append, List.length_take, List.length_drop, hl]; omega
    · by_cases h1 : k < lo
      · rw [List.append_assoc, List.getElem?_append_left (by simp; omega), List.getElem?_take, if_pos h1, if_neg (by omega)]
      · by_cases h2 : k < lo + v.length
        · rw [List.getElem?_append_left (by simp; omega), List.getElem?_append_right (by simp; omega), if_pos (by omega)]
          congr 1; simp; omega
        · rw [List.getElem?_append_right (by simp; omega), List.getElem?_drop]
          by_cases h3 : k < vec.length
          · rw [if_neg (by omega)]
            congr 1; simp; omega
          · rw [if_neg (by omega), List.getElem?_eq_none (by simp; omega), List.getElem?_eq_none (by omega)]

/-- Values assigned by NumPy, position by position, as in the module `Explicit`. -/
theorem spread_get {R : Type} (cols : List (Nat × Nat)) (a : Arr R) (len : Nat) (v : List R) (h : spread a len = some v)
    (i : Nat) (hi : i < len) (f : Nat → R) (hf : toSide cols (.const a) = .const f) : v[i]? = some (f i) := by
  unfold toSide at hf
  cases hf
  unfold spread at h
  split at h
  · next hl => cases h; simp [hl, hi]
  · next k hl =>
    split at h
    · next hk =>
      cases h
      simp only [List.getElem?_map, List.getElem?_range hi, Option.map_some, hl]
      congr 3
      split
      · omega
      · rfl
    · split at h
      · next h1 => cases h; simp [hl, hi, h1]
      · cases h
  · cases h

/-- The loop keeps the lengths. -/
theorem step_length {R : Type} (cols : List (Nat × Nat)) (NP : Nat) (b b' : Lim R) (c : Con R)
    (hcols : ∀ id col, cols.lookup id = some col → col ≤ NP) (hb : b.lower.length = NP ∧ b.upper.length = NP)
    (h : step cols b c = .ok b') : b'.lower.length = NP ∧ b'.upper.length = NP := by
  unfold step at h
  split at h
  · split at h
    · split at h
      · cases h
      · next col hc =>
        split at h
        · cases h
        · next u hu =>
          cases h
          obtain ⟨v, _, hl, _⟩ := assign_get _ _ _ _ _ (by rw [hb.2]; exact hcols _ _ hc) hu
          exact ⟨hb.1, by rw [hl, hb.2]⟩
    · split at h
      · cases h
      · next col hc =>
        split at h
        · cases h
        · next u hu =>
          cases h
          obtain ⟨v, _, hl, _⟩ := assign_get _ _ _ _ _ (by rw [hb.1]; exact hcols _ _ hc) hu
          exact ⟨by rw [hl, hb.1], hb.2⟩
    · cases h
  · cases h; exact hb

/-- The limits agree with bounds of the module `Explicit`. -/
def Agrees {R : Type} (NP : Nat) (b : Lim R) (e : Explicit.Bounds R) : Prop :=
  b.lower.length = NP ∧ b.upper.length = NP ∧ ∀ k < NP, b.lower[k]? = some (e.lower k) ∧ b.upper[k]? = some (e.upper k)

theorem slice_agrees {R : Type} (cols : List (Nat × Nat)) (NP : Nat) (vec r : List R) (g : Nat → R) (col size : Nat)
    (hcol : col ≤ NP) (hlen : vec.length = NP) (hg : ∀ k < NP, vec[k]? = some (g k)) (a : Arr R)
    (h : assign vec col (col + size) a = .ok r) (f : Nat → R) (hf : toSide cols (.const a) = .const f) :
    r.length = NP ∧ ∀ k < NP, r[k]? = some (Explicit.setSlice col size f g k) := by
  obtain ⟨v, hv, hl, hget⟩ := assign_get vec col size a r (by omega) h
  refine ⟨by omega, fun k hk => ?_⟩
  rw [hget k]
  unfold Explicit.setSlice
  by_cases hin : col ≤ k ∧ k < col + size
  · rw [if_pos (by omega), if_pos hin]
    exact spread_get cols a _ v hv (k - col) (by omega) f hf
  · rw [if_neg (by omega), if_neg hin, hg k hk]

theorem step_agrees {R : Type} (cols : List (Nat × Nat)) (NP : Nat) (b b' : Lim R) (c : Con R) (e : Explicit.Bounds R)
    (hcols : ∀ id col, cols.lookup id = some col → col ≤ NP) (ha : Agrees NP b e) (h : step cols b c = .ok b') :
    ∃ e', Explicit.boundStep e (toPCon cols c) = .ok e' ∧ Agrees NP b' e' := by
  obtain ⟨h1, h2, h3⟩ := ha
  unfold step at h
  unfold Explicit.boundStep toPCon
  split at h
  · next hon =>
    simp only [hon, and_self, if_true]
    split at h
    · next id size a hl hr =>
      split at h
      · cases h
      · next col hc =>
        split at h
        · cases h
        · next u hu =>
          cases h
          obtain ⟨f, hf⟩ : ∃ f, toSide cols (Arg.const a) = .const f := ⟨_, rfl⟩
          have := slice_agrees cols NP b.upper u e.upper col size (hcols _ _ hc) h2 (fun k hk => (h3 k hk).2) a hu f hf
          rw [hl, hr, hf]
          simp only [toSide, hc, Option.getD_some]
          exact ⟨_, rfl, h1, this.1, fun k hk => ⟨(h3 k hk).1, this.2 k hk⟩⟩
    · next a id size hl hr =>
      split at h
      · cases h
      · next col hc =>
        split at h
        · cases h
        · next u hu =>
          cases h
          obtain ⟨f, hf⟩ : ∃ f, toSide cols (Arg.const a) = .const f := ⟨_, rfl⟩
          have := slice_agrees cols NP b.lower u e.lower col size (hcols _ _ hc) h1 (fun k hk => (h3 k hk).1) a hu f hf
          rw [hl, hr, hf]
          simp only [toSide, hc, Option.getD_some]
          exact ⟨_, rfl, this.1, h2, fun k hk => ⟨this.2 k hk, (h3 k hk).2⟩⟩
    · cases h
  · next hon =>
    cases h
    exact ⟨e, by rw [if_neg hon], h1, h2, h3⟩

/-- **C85** (link to C37, C38, C69) Whenever limits are accepted, they are those of the model that C37, C38 and C69 are
about, entry by entry. -/
theorem C85_refines {R : Type} [Neg R] [One R] (cols : List (Nat × Nat)) (NP : Nat) (hNP : 0 < NP) (big : R)
    (hcols : ∀ id col, cols.lookup id = some col → col ≤ NP) (cons : List (Con R)) (b : Lim R)
    (h : limits cols NP big cons = .ok b) :
    ∃ e, Explicit.paramBounds NP big (cons.map (toPCon cols)) = .ok e ∧ Agrees NP b e := by
  have key : ∀ (cons : List (Con R)) (b0 b : Lim R) (e0 : Explicit.Bounds R), Agrees NP b0 e0 →
      cons.foldlM (step cols) b0 = .ok b →
      ∃ e, (cons.map (toPCon cols)).foldlM Explicit.boundStep e0 = .ok e ∧ Agrees NP b e := by
    intro cons
    induction cons with
    | nil => intro b0 b e0 ha h; cases h; exact ⟨e0, rfl, ha⟩
    | cons c cs ih =>
      intro b0 b e0 ha h
      rw [List.foldlM_cons] at h
      cases hs : step cols b0 c with
      | error e => rw [hs] at h; cases h
      | ok b1 =>
        rw [hs] at h
        obtain ⟨e1, he1, ha1⟩ := step_agrees cols NP b0 b1 c e0 hcols ha hs
        obtain ⟨e, he, hae⟩ := ih b1 b e1 ha1 h
        refine ⟨e, ?_, hae⟩
        rw [List.map_cons, List.foldlM_cons, he1]
        exact he
  refine key cons _ b _ ?_ h
  refine ⟨by simp [init]; omega, by simp [init]; omega, fun k hk => ?_⟩
  simp only [init]
  by_cases hl : k + 1 = NP
  · rw [if_pos hl, if_pos hl, List.getElem?_append_right (by simp; omega), List.getElem?_append_right (by simp; omega)]
    simp [show k - (NP - 1) = 0 by omega]
  · rw [if_neg hl, if_neg hl, List.getElem?_append_left (by simp; omega), List.getElem?_append_left (by simp; omega)]
    simp [show k < NP - 1 by omega]

theorem ravelC_ones {R : Type} (m : Nat) (g : List Nat → R) :
    Flatten.ravelC (List.replicate m 1) g = [g (List.replicate m 0)] := by
  induction m generalizing g with
  | zero => rfl
  | succ m ih =>
    rw [List.replicate_succ, Flatten.ravelC]
    simp [ih, List.replicate_succ]

theorem flattenF_row {R : Type} (m n : Nat) (t : List Nat → R) :
    Flatten.flattenF (List.replicate m 1 ++ [n]) t = (List.range n).map fun i => t (List.replicate m 0 ++ [i]) := by
  unfold Flatten.flattenF
  rw [List.reverse_append, List.reverse_replicate]
  simp only [List.reverse_cons, List.reverse_nil, List.nil_append, List.cons_append, Flatten.ravelC, ravelC_ones]
  generalize List.range n = l
  induction l with
  | nil => rfl
  | cons i l ih =>
    rw [List.flatMap_cons, ih, List.map_cons]
    simp

theorem size_row (m n : Nat) : Flatten.size (List.replicate m 1 ++ [n]) = n := by
  induction m with
  | zero => simp [Flatten.size]
  | succ m ih => rw [List.replicate_succ, List.cons_append, Flatten.size, ih]; simp

theorem spread_single {R : Type} (a : Arr R) (h : Single a) (len : Nat) :
    spread a len = some (List.replicate len (a.val (a.shape.map fun _ => 0))) := by
  cases hs : a.shape with
  | nil => simp [spread, hs, lead]
  | cons d ds =>
    have hne : a.shape ≠ [] := by rw [hs]; simp
    have hrow : RowLike a.shape := fun d hd => h d (List.mem_of_mem_dropLast hd)
    have hlast : a.shape.getLast hne = 1 := h _ (List.getLast_mem hne)
    have hform := rowLike_form a.shape hne hrow
    rw [hlast] at hform
    have hlead : lead a.shape = [1] := by rw [hform]; exact lead_row _ 1
    have hidx : lastIdx a.shape 0 = a.shape.map fun _ => 0 := by
      unfold lastIdx
      rw [List.map_const', ← List.replicate_succ']
      congr 1
      have := List.length_pos_of_ne_nil hne
      omega
    rw [← hs]
    unfold spread
    rw [hlead]
    simp only [if_true, hidx]
    split
    · next h1 => subst h1; simp [hidx]
    · rfl

theorem spread_row {R : Type} (a : Arr R) (hne : a.shape ≠ []) (h : RowLike a.shape) :
    spread a (Flatten.size a.shape) = some (Flatten.flattenF a.shape a.val) := by
  have hform := rowLike_form a.shape hne h
  generalize hn : a.shape.getLast hne = n at hform
  generalize hm : a.shape.length - 1 = m at hform
  have hlead : lead a.shape = [n] := by rw [hform]; exact lead_row _ n
  have hsize : Flatten.size a.shape = n := by rw [hform]; exact size_row _ n
  have hfl : Flatten.flattenF a.shape a.val = (List.range n).map fun i => a.val (List.replicate m 0 ++ [i]) := by
    rw [show Flatten.flattenF a.shape a.val = Flatten.flattenF (List.replicate m 1 ++ [n]) a.val by rw [← hform]]
    exact flattenF_row m n a.val
  unfold spread
  rw [hlead, hsize, hfl]
  simp [lastIdx, hm]

/-- What NumPy assigns for a supported limit. -/
theorem spread_supp {R : Type} (q : Par) (a : Arr R) (h : Single a ∨ a.shape = q.shape ∧ RowLike q.shape) :
    ∃ w, spread a q.size = some w ∧ ∀ i < q.size, w[i]? = valueFor q.shape a i ∧ (valueFor q.shape a i).isSome := by
  by_cases hs : Single a
  · refine ⟨_, spread_single a hs _, fun i hi => ?_⟩
    simp [valueFor, hs, hi]
  · obtain ⟨h1, h2⟩ : a.shape = q.shape ∧ RowLike q.shape := h.resolve_left hs
    have hne : a.shape ≠ [] := by
      intro h0
      apply hs
      intro d hd
      rw [h0] at hd
      cases hd
    refine ⟨_, by rw [Par.size, ← h1]; exact spread_row a hne (by rw [h1]; exact h2), fun i hi => ?_⟩
    have hform := rowLike_form a.shape hne (by rw [h1]; exact h2)
    have hlen : (Flatten.flattenF a.shape a.val).length = q.size := by
      rw [Par.size, ← h1]
      generalize a.shape.getLast hne = n at hform
      generalize a.shape.length - 1 = m at hform
      rw [hform, flattenF_row, size_row]; simp
    simp [valueFor, hs, h1]
    rw [← h1, hlen]; exact hi

theorem assign_supp {R : Type} (q : Par) (a : Arr R) (vec : List R) (NP : Nat) (hlen : vec.length = NP)
    (hfit : q.col + q.size + 1 ≤ NP) (h : Single a ∨ a.shape = q.shape ∧ RowLike q.shape) :
    ∃ r, assign vec q.col (q.col + q.size) a = .ok r ∧ r.length = NP ∧
      (∀ i < q.size, r[q.col + i]? = valueFor q.shape a i ∧ (valueFor q.shape a i).isSome) ∧
      ∀ k, (k < q.col ∨ q.col + q.size ≤ k) → r[k]? = vec[k]? := by
  obtain ⟨w, hw, hget⟩ := spread_supp q a h
  have hmin : min (q.col + q.size) vec.length - min q.col vec.length = q.size := by omega
  have hok : assign vec q.col (q.col + q.size) a = .ok (vec.take q.col ++ w ++ vec.drop (q.col + q.size)) := by
    unfold assign
    rw [hmin, hw]
  obtain ⟨v, hv, hl, hg⟩ := assign_get vec q.col q.size a _ (by omega) hok
  rw [show min (q.col + q.size) vec.length - q.col = q.size by omega, hw] at hv
  cases hv
  refine ⟨_, hok, by omega, fun i hi => ?_, fun k hk => ?_⟩
  · rw [hg, if_pos (by omega), show q.col + i - q.col = i by omega]
    exact hget i hi
  · rw [hg, if_neg (by omega)]

theorem step_supp {R : Type} (ps : List Par) (cols : List (Nat × Nat)) (NP : Nat) (hl : Laid ps cols NP) (b : Lim R)
    (hb : b.lower.length = NP ∧ b.upper.length = NP) (c : Con R)
    (hc : OnPars c → SuppPair ps c.lhs c.rhs ∨ SuppPair ps c.rhs c.lhs) :
    ∃ b', step cols b c = .ok b' ∧ (b'.lower.length = NP ∧ b'.upper.length = NP) ∧
      (b'.lower[NP - 1]? = b.lower[NP - 1]? ∧ b'.upper[NP - 1]? = b.upper[NP - 1]?) ∧
      ∀ p ∈ ps, ∀ i < p.size,
        b'.upper[p.col + i]? = (upperOn p i c).or (b.upper[p.col + i]?) ∧
        b'.lower[p.col + i]? = (lowerOn p i c).or (b.lower[p.col + i]?) := by
  by_cases hon : OnPars c
  · have hon' : c.vars = false ∧ c.params = true := hon
    rcases hc hon with ⟨q, hq, a, h1, h2, h3⟩ | ⟨q, hq, a, h2, h1, h3⟩
    · obtain ⟨r, hr, hrl, hin, hout⟩ := assign_supp q a b.upper NP hb.2 (hl.fit q hq) h3
      refine ⟨{ b with upper := r }, ?_, ⟨hb.1, hrl⟩, ⟨rfl, ?_⟩, fun p hp i hi => ⟨?_, ?_⟩⟩
      · unfold step
        simp only [hon', and_self, if_true, h1, h2, hl.col q hq, hr]
      · exact hout _ (by have := hl.fit q hq; omega)
      · simp only [upperOn, hon, if_true, h1, h2]
        by_cases hid : q.id = p.id
        · have := hl.uniq q hq p hp hid
          subst this
          simp only [if_true]
          rw [(hin i hi).1]
          obtain ⟨v, hv⟩ := Option.isSome_iff_exists.mp (hin i hi).2
          rw [hv]; rfl
        · rw [if_neg hid, hout _ (by rcases hl.apart q hq p hp hid with h | h <;> omega)]; rfl
      · simp only [lowerOn, hon, if_true, h1, h2]; rfl
    · obtain ⟨r, hr, hrl, hin, hout⟩ := assign_supp q a b.lower NP hb.1 (hl.fit q hq) h3
      refine ⟨{ b with lower := r }, ?_, ⟨hrl, hb.2⟩, ⟨?_, rfl⟩, fun p hp i hi => ⟨?_, ?_⟩⟩
      · unfold step
        simp only [hon', and_self, if_true, h1, h2, hl.col q hq, hr]
      · exact hout _ (by have := hl.fit q hq; omega)
      · simp only [upperOn, hon, if_true, h1, h2]; rfl
      · simp only [lowerOn, hon, if_true, h1, h2]
        by_cases hid : q.id = p.id
        · have := hl.uniq q hq p hp hid
          subst this
          simp only [if_true]
          rw [(hin i hi).1]
          obtain ⟨v, hv⟩ := Option.isSome_iff_exists.mp (hin i hi).2
          rw [hv]; rfl
        · rw [if_neg hid, hout _ (by rcases hl.apart q hq p hp hid with h | h <;> omega)]; rfl
  · refine ⟨b, ?_, hb, ⟨rfl, rfl⟩, fun p hp i hi => ?_⟩
    · have hon' : ¬ (c.vars = false ∧ c.params = true) := hon
      unfold step
      rw [if_neg hon']
    · simp [upperOn, lowerOn, hon]

/-- **C85** (part: supported limits on parameters all of whose entries are stored) Generation accepts the limits; every
entry of every parameter has exactly the limits that were stated last for it, in the order in which `cpg_update_<name>`
numbers the entries; without a limit it has the default, and limits of one parameter do not affect another one or
the constant. -/
theorem C85_partial {R : Type} [Neg R] [One R] (ps : List Par) (cols : List (Nat × Nat)) (NP : Nat) (hl : Laid ps cols NP)
    (big : R) (cons : List (Con R)) (hs : Supported ps cons) :
    ∃ b, limits cols NP big cons = .ok b ∧
      (b.lower[NP - 1]? = some 1 ∧ b.upper[NP - 1]? = some 1) ∧
      ∀ p ∈ ps, ∀ i < p.size,
        b.upper[p.col + i]? = some ((lastOf (upperOn p i) cons).getD big) ∧
        b.lower[p.col + i]? = some ((lastOf (lowerOn p i) cons).getD (-big)) := by
  have key : ∀ (cons : List (Con R)) (b0 : Lim R), Supported ps cons → (b0.lower.length = NP ∧ b0.upper.length = NP) →
      ∃ b, cons.foldlM (step cols) b0 = .ok b ∧
        (b.lower[NP - 1]? = b0.lower[NP - 1]? ∧ b.upper[NP - 1]? = b0.upper[NP - 1]?) ∧
        ∀ p ∈ ps, ∀ i < p.size,
          b.upper[p.col + i]? = (lastOf (upperOn p i) cons).or b0.upper[p.col + i]? ∧
          b.lower[p.col + i]? = (lastOf (lowerOn p i) cons).or b0.lower[p.col + i]? := by
    intro cons
    induction cons with
    | nil => intro b0 _ hb; exact ⟨b0, rfl, ⟨rfl, rfl⟩, fun p _ i _ => ⟨rfl, rfl⟩⟩
    | cons c cs ih =>
      intro b0 hs hb
      obtain ⟨b1, h1, hl1, hlast1, hg1⟩ := step_supp ps cols NP hl b0 hb c (hs c (by simp))
      obtain ⟨b, h2, hlast2, hg2⟩ := ih b1 (fun c hc => hs c (by simp [hc])) hl1
      refine ⟨b, ?_, ⟨by rw [hlast2.1, hlast1.1], by rw [hlast2.2, hlast1.2]⟩, fun p hp i hi => ?_⟩
      · rw [List.foldlM_cons, h1]; exact h2
      · obtain ⟨a1, a2⟩ := hg1 p hp i hi
        obtain ⟨a3, a4⟩ := hg2 p hp i hi
        rw [a3, a4, a1, a2]
        have e : ∀ (f : Con R → Option R) (o : Option R),
            (lastOf f cs).or ((f c).or o) = (lastOf f (c :: cs)).or o := by
          intro f o
          show _ = ((match lastOf f cs with | some v => some v | none => f c) : Option R).or o
          cases lastOf f cs <;> rfl
        exact ⟨e _ _, e _ _⟩
  have hpos := hl.pos
  obtain ⟨b, h1, h2, h3⟩ := key cons (init NP big) hs ⟨by simp [init]; omega, by simp [init]; omega⟩
  refine ⟨b, h1, ?_, fun p hp i hi => ?_⟩
  · rw [h2.1, h2.2]
    simp [init]
  · obtain ⟨a1, a2⟩ := h3 p hp i hi
    have hf := hl.fit p hp
    have e1 : (init NP big).upper[p.col + i]? = some big := by
      simp only [init]
      rw [List.getElem?_append_left (by simp; omega), List.getElem?_replicate, if_pos (by omega)]
    have e2 : (init NP big).lower[p.col + i]? = some (-big) := by
      simp only [init]
      rw [List.getElem?_append_left (by simp; omega), List.getElem?_replicate, if_pos (by omega)]
    rw [a1, a2, e1, e2]
    constructor
    · cases lastOf (upperOn p i) cons <;> rfl
    · cases lastOf (lowerOn p i) cons <;> rfl

theorem lastOf_once {R : Type} (f : Con R → Option R) (cons : List (Con R)) (h : Once f cons) (c : Con R) (hc : c ∈ cons)
    (v : R) (hv : f c = some v) : lastOf f cons = some v := by
  induction cons with
  | nil => cases hc
  | cons d ds ih =>
    have h' := List.pairwise_cons.mp h
    rcases List.mem_cons.mp hc with rfl | hc
    · have hn : ∀ l : List (Con R), (∀ e ∈ l, f e = none) → lastOf f l = none := by
        intro l
        induction l with
        | nil => intro _; rfl
        | cons e l ih2 =>
          intro hl
          rw [lastOf, ih2 fun e he => hl e (by simp [he])]
          exact hl e (by simp)
      rw [lastOf, hn ds]
      · exact hv
      · intro e he
        rcases h'.1 e he with h1 | h1
        · rw [hv] at h1; cases h1
        · exact h1
    · rw [lastOf, ih h'.2 hc]

theorem lastOf_mem {R : Type} (f : Con R → Option R) (cons : List (Con R)) (v : R) (h : lastOf f cons = some v) :
    ∃ c ∈ cons, f c = some v := by
  induction cons with
  | nil => cases h
  | cons d ds ih =>
    cases hl : lastOf f ds with
    | none => rw [lastOf, hl] at h; exact ⟨d, by simp, h⟩
    | some w =>
      rw [lastOf, hl] at h
      cases h
      obtain ⟨c, hc, hv⟩ := ih hl
      exact ⟨c, by simp [hc], hv⟩

/-- **C85** (part: supported limits, each stated once) If the limits of an entry can be met, whatever value is passed to
`cpg_update_<name>` the stored value meets all of them, and a value that meets them is stored as it is. -/
theorem C85_stored_partial {R : Type} [LinearOrder R] [Neg R] [One R] (ps : List Par) (cols : List (Nat × Nat)) (NP : Nat)
    (hl : Laid ps cols NP) (big : R) (cons : List (Con R)) (hs : Supported ps cons) (p : Par) (hp : p ∈ ps) (i : Nat)
    (hi : i < p.size) (hu : Once (upperOn p i) cons) (hlo : Once (lowerOn p i) cons) (x : R)
    (hx : Allowed p i cons x) (hx1 : -big ≤ x) (hx2 : x ≤ big) :
    ∃ b, limits cols NP big cons = .ok b ∧
      (∀ val, ∃ r, store b (p.col + i) val = some r ∧ Allowed p i cons r) ∧ store b (p.col + i) x = some x := by
  obtain ⟨b, hb, _, hg⟩ := C85_partial ps cols NP hl big cons hs
  obtain ⟨h1, h2⟩ := hg p hp i hi
  have hux : x ≤ (lastOf (upperOn p i) cons).getD big := by
    cases h : lastOf (upperOn p i) cons with
    | none => exact hx2
    | some v =>
      obtain ⟨c, hc, hv⟩ := lastOf_mem _ _ _ h
      exact (hx c hc).1 v hv
  have hlx : (lastOf (lowerOn p i) cons).getD (-big) ≤ x := by
    cases h : lastOf (lowerOn p i) cons with
    | none => exact hx1
    | some v =>
      obtain ⟨c, hc, hv⟩ := lastOf_mem _ _ _ h
      exact (hx c hc).2 v hv
  have eu : ∀ c ∈ cons, ∀ v, upperOn p i c = some v → (lastOf (upperOn p i) cons).getD big = v := fun c hc v hv => by
    rw [lastOf_once _ _ hu c hc v hv]; rfl
  have el : ∀ c ∈ cons, ∀ v, lowerOn p i c = some v → (lastOf (lowerOn p i) cons).getD (-big) = v := fun c hc v hv => by
    rw [lastOf_once _ _ hlo c hc v hv]; rfl
  generalize (lastOf (upperOn p i) cons).getD big = U at *
  generalize (lastOf (lowerOn p i) cons).getD (-big) = L at *
  have hst : ∀ val, store b (p.col + i) val =
      some (if U < (if val < L then L else val) then U else (if val < L then L else val)) := by
    intro val
    simp [Limits.store, h1, h2]
  refine ⟨b, hb, fun val => ⟨_, hst val, fun c hc => ⟨fun v hv => ?_, fun v hv => ?_⟩⟩, ?_⟩
  · rw [← eu c hc v hv]
    generalize (if val < L then L else val) = y
    split
    · exact le_refl _
    · exact not_lt.mp ‹_›
  · rw [← el c hc v hv]
    have hy : L ≤ (if val < L then L else val) := by
      split
      · exact le_refl _
      · exact not_lt.mp ‹_›
    generalize (if val < L then L else val) = y at hy
    split
    · exact le_trans hlx hux
    · exact hy
  · rw [hst, if_neg (not_lt.mpr hlx), if_neg (not_lt.mpr hux)]

/-- **C85 fails** for limits that are stated twice: the last one is used, not the tightest. With `p ≤ v`, `p ≤ w`, `v < w`, the
value `w` is stored as it is. -/
theorem C85_fails_twice {R : Type} [LinearOrder R] [Neg R] [One R] (big v w : R) (hvw : v < w) (hw : w ≤ big) (hb : -big ≤ w) :
    let cons : List (Con R) := [⟨false, true, .param 0 1, .const ⟨[], fun _ => v⟩⟩, ⟨false, true, .param 0 1, .const ⟨[], fun _ => w⟩⟩]
    ∃ b, limits [(0, 0)] 2 big cons = .ok b ∧ store b 0 w = some w ∧ ¬ Allowed ⟨0, 0, []⟩ 0 cons w := by
  intro cons
  have hl : Laid [⟨0, 0, []⟩] [(0, 0)] 2 :=
    ⟨by simp [List.lookup], by simp [Par.size, Flatten.size], by simp, by simp, by decide⟩
  have hs : Supported [⟨0, 0, []⟩] cons := by
    intro c hc _
    have : c ∈ [(⟨false, true, .param 0 1, .const ⟨[], fun _ => v⟩⟩ : Con R), ⟨false, true, .param 0 1, .const ⟨[], fun _ => w⟩⟩] := hc
    simp only [List.mem_cons, List.not_mem_nil, or_false] at this
    rcases this with rfl | rfl
    · exact .inl ⟨⟨0, 0, []⟩, by simp, _, rfl, rfl, .inl (by intro d hd; cases hd)⟩
    · exact .inl ⟨⟨0, 0, []⟩, by simp, _, rfl, rfl, .inl (by intro d hd; cases hd)⟩
  obtain ⟨b, h, _, hg⟩ := C85_partial _ _ 2 hl big cons hs
  obtain ⟨h1, h2⟩ := hg _ (List.mem_singleton.mpr rfl) 0 (by simp [Par.size, Flatten.size])
  have e1 : lastOf (upperOn ⟨0, 0, []⟩ 0) cons = some w := by
    simp [cons, lastOf, upperOn, OnPars, valueFor, Single]
  have e2 : lastOf (lowerOn ⟨0, 0, []⟩ 0) cons = none := by
    simp [cons, lastOf, lowerOn, OnPars]
  rw [e1] at h1
  rw [e2] at h2
  refine ⟨b, h, ?_, fun hall => ?_⟩
  · simp only [Option.getD_some, Option.getD_none, Nat.zero_add, Nat.add_zero] at h1 h2
    simp [Limits.store, h1, h2, not_lt.mpr hb]
  · have := (hall ⟨false, true, .param 0 1, .const ⟨[], fun _ => v⟩⟩ (by simp [cons])).1 v
      (by simp [upperOn, OnPars, valueFor, Single])
    exact absurd this (not_le.mpr hvw)

/-- **C85 fails** for limits that are matrices: a constant with an axis longer than one other than the last raises
`ValueError`, whatever the parameter, the other constraints and the sizes (also a column, shape `(n, 1)`). -/
theorem C85_fails_matrix {R : Type} [Neg R] [One R] (cols : List (Nat × Nat)) (NP : Nat) (big : R)
    (before after : List (Con R)) (c : Con R) (hon : OnPars c) (id size col : Nat) (a : Arr R)
    (hc : c.lhs = .param id size ∧ c.rhs = .const a ∨ c.lhs = .const a ∧ c.rhs = .param id size)
    (hcol : cols.lookup id = some col) (ha : ¬ RowLike a.shape)
    (hb : ∃ b, limits cols NP big before = .ok b) :
    limits cols NP big (before ++ c :: after) = .error .valueError := by
  obtain ⟨b, hb⟩ := hb
  obtain ⟨x, y, l, hlead⟩ := lead_notRow a.shape ha
  have hsp : ∀ len, spread a len = none := by
    intro len
    unfold spread
    rw [hlead]
  have hst : step cols b c = .error .valueError := by
    have hon' : c.vars = false ∧ c.params = true := hon
    unfold step
    rcases hc with ⟨h1, h2⟩ | ⟨h1, h2⟩ <;> simp only [hon', and_self, if_true, h1, h2, hcol, assign, hsp]
  unfold limits at *
  rw [List.foldlM_append, hb]
  show List.foldlM (step cols) b (c :: after) = _
  rw [List.foldlM_cons, hst]
  rfl

/-- **C85** A limit of the shape of the parameter is accepted if and only if at most its last axis is longer than one. -/
theorem C85_accept_iff {R : Type} (q : Par) (a : Arr R) (vec : List R) (hfit : q.col + q.size + 1 ≤ vec.length)
    (h : a.shape = q.shape) : (∃ r, assign vec q.col (q.col + q.size) a = .ok r) ↔ RowLike q.shape := by
  constructor
  · rintro ⟨r, hr⟩
    by_contra hn
    obtain ⟨x, y, l, hlead⟩ := lead_notRow a.shape (by rw [h]; exact hn)
    simp only [assign, spread, hlead] at hr
    cases hr
  · intro hrow
    obtain ⟨r, hr, _⟩ := assign_supp q a vec vec.length rfl hfit (.inr ⟨h, hrow⟩)
    exact ⟨r, hr⟩

/-- **C85 fails** for parameters of which not all entries are stored (`diag`, `sparsity`, `symmetric`): a limit with a single
value raises `KeyError` if CVXPY gives the stored entries another id; otherwise it is also a limit of the entry behind the
parameter: that of the next parameter, or the constant 1. -/
theorem C85_fails_reduced {R : Type} (cols : List (Nat × Nat)) (NP : Nat) (b : Lim R)
    (hb : b.lower.length = NP ∧ b.upper.length = NP) (id size stored : Nat) (hst : stored < size) (a : Arr R) (ha : Single a)
    (hfit : ∀ col, cols.lookup id = some col → col + stored < NP) (c : Con R) (hon : OnPars c)
    (hc : c.lhs = .param id size ∧ c.rhs = .const a) :
    step cols b c = .error .keyError ∨
      ∃ b' col, step cols b c = .ok b' ∧ cols.lookup id = some col ∧
        b'.upper[col + stored]? = some (a.val (a.shape.map fun _ => 0)) := by
  have hon' : c.vars = false ∧ c.params = true := hon
  cases hcol : cols.lookup id with
  | none =>
    left
    unfold step
    simp only [hon', and_self, if_true, hc.1, hc.2, hcol]
  | some col =>
    right
    have hf := hfit col hcol
    have hok : ∃ r, assign b.upper col (col + size) a = .ok r := by
      unfold assign
      rw [spread_single a ha]
      exact ⟨_, rfl⟩
    obtain ⟨r, hr⟩ := hok
    obtain ⟨v, hv, _, hg⟩ := assign_get b.upper col size a r (by omega) hr
    rw [spread_single a ha] at hv
    cases hv
    refine ⟨{ b with upper := r }, col, ?_, rfl, ?_⟩
    · unfold step
      simp only [hon', and_self, if_true, hc.1, hc.2, hcol, hr]
    · show r[col + stored]? = _
      rw [hg, if_pos (by omega), List.getElem?_replicate, if_pos (by omega)]

/-! ### examples -/

/-- A row of two entries at 0, a matrix with three rows at 2, a number at 8. -/
def exPars : List Par := [⟨7, 0, [1, 2]⟩, ⟨8, 2, [3, 2]⟩, ⟨9, 8, []⟩]
def exParCols : List (Nat × Nat) := [(7, 0), (8, 2), (9, 8)]

/-- `r ≤ [[3, 4]]`, `0 ≤ M`, `s ≤ 5`. -/
def exLimits : List (Con Int) :=
  [⟨false, true, .param 7 2, .const ⟨[1, 2], fun idx => 3 + (idx.getLastD 0 : Nat)⟩⟩,
   ⟨false, true, .const ⟨[], fun _ => 0⟩, .param 8 6⟩,
   ⟨false, true, .param 9 1, .const ⟨[1], fun _ => 5⟩⟩]

example : Laid exPars exParCols 10 := by
  refine ⟨?_, ?_, ?_, ?_, by decide⟩
  · intro p hp; simp [exPars] at hp; rcases hp with rfl | rfl | rfl <;> rfl
  · intro p hp; simp [exPars] at hp; rcases hp with rfl | rfl | rfl <;> decide
  · intro p hp q hq; simp [exPars] at hp hq
    rcases hp with rfl | rfl | rfl <;> rcases hq with rfl | rfl | rfl <;> decide
  · intro p hp q hq; simp [exPars] at hp hq
    rcases hp with rfl | rfl | rfl <;> rcases hq with rfl | rfl | rfl <;> simp

example : Supported exPars exLimits := by
  intro c hc _
  simp [exLimits] at hc
  rcases hc with rfl | rfl | rfl
  · exact .inl ⟨⟨7, 0, [1, 2]⟩, by simp [exPars], _, rfl, rfl, .inr ⟨rfl, by intro d hd; simp at hd; exact hd⟩⟩
  · exact .inr ⟨⟨8, 2, [3, 2]⟩, by simp [exPars], _, rfl, rfl, .inl (by intro d hd; cases hd)⟩
  · exact .inl ⟨⟨9, 8, []⟩, by simp [exPars], _, rfl, rfl, .inl (by intro d hd; simpa using hd)⟩

example : ((limits exParCols 10 100 exLimits).toOption.map Lim.upper) = some [3, 4, 100, 100, 100, 100, 100, 100, 5, 1] ∧
    ((limits exParCols 10 100 exLimits).toOption.map Lim.lower) = some [-100, -100, 0, 0, 0, 0, 0, 0, -100, 1] := by
  decide +kernel

/-- The upper limit of the second entry of the row is stated once and can be met. -/
example : Once (upperOn ⟨7, 0, [1, 2]⟩ 1) exLimits ∧ Allowed ⟨7, 0, [1, 2]⟩ 1 exLimits 2 := by
  constructor
  · simp [Once, exLimits, upperOn, OnPars]
  · intro c hc
    simp [exLimits] at hc
    rcases hc with rfl | rfl | rfl <;>
      simp [upperOn, lowerOn, OnPars, valueFor, Single, Flatten.flattenF, Flatten.ravelC, List.range_succ]

/-- A limit of a column is rejected. -/
example : (limits exParCols 10 (100 : Int) [⟨false, true, .param 8 2, .const ⟨[2, 1], fun _ => 1⟩⟩]).toOption.isNone := by
  decide +kernel

/-- **C85 fails** in a complete example: the diagonal matrix `D` (2 × 2, two entries stored, at 0) is limited by 1, the
parameter `s` (at 2) has no limit. Updating `s` to 7 stores 1. -/
theorem C85_fails : ∃ b : Lim Int, limits [(1, 0), (2, 2)] 5 100 [⟨false, true, .param 1 4, .const ⟨[], fun _ => 1⟩⟩] = .ok b ∧
    store b 2 7 = some 1 ∧ b.upper = [1, 1, 1, 1, 1] := by
  refine ⟨⟨[-100, -100, -100, -100, 1], [1, 1, 1, 1, 1]⟩, ?_, by decide, rfl⟩
  have : lead [] = [] := by simp [lead]
  simp [limits, step, init, assign, spread, this, List.lookup, List.replicate]

end Verif.Props
